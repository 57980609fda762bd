import Verif.Lemmas.Layout4

/-!
# The lexer with a pending jump to the start of the source

`NewSimpleLexer` (parser/parser.go:87-97) leaves `nextLineStart` at 0: the first line break continues at offset 0.  Until then the
lexer does what it would do without the pending jump.
-/
namespace PP
open PP.Spec

/-- The jump to the start is not pending. -/
def Jumped {α : Type} : Res α → Prop
  | .ok _ t => t.nls ≠ some 0
  | .fail _ t => t.nls ≠ some 0

/-- `r` was computed with the pending jump and `r'` without: they agree, or the jump was made.  Until
then the start of the line is the same. -/
def Same {α : Type} (env : Env) (bol : Nat) (r r' : Res α) : Prop :=
  (∃ a t, r = .ok a t ∧ r' = .ok a { t with nls := none } ∧ t.nls = some 0 ∧ t.bol = bol) ∨
  (∃ e t, r = .fail e t ∧ r' = .fail e { t with nls := none } ∧ t.nls = some 0) ∨ (10 ∈ env.text ∧ Jumped r)

structure Sim (env : Env) {α : Type} (m : P α) : Prop where
  same : ∀ s, s.nls = some 0 → Same env s.bol (m env s) (m env { s with nls := none })
  jumped : ∀ s, s.nls ≠ some 0 → Jumped (m env s)

section
variable {env : Env} {α β : Type}

theorem Sim.bind {m : P α} {f : α → P β} (h : Sim env m) (hf : ∀ a, (∃ s t, m env s = .ok a t) → Sim env (f a)) : Sim env (m >>= f) := by
  constructor
  · intro s hs
    rcases h.same s hs with ⟨a, t, h1, h2, h3, h4⟩ | ⟨e, t, h1, h2, h3⟩ | ⟨h1, h2⟩
    · rw [bind_ok h1, bind_ok h2, ← h4]
      exact (hf a ⟨_, _, h1⟩).same t h3
    · rw [bind_fail h1, bind_fail h2]
      exact .inr (.inl ⟨_, _, rfl, rfl, h3⟩)
    · refine .inr (.inr ⟨h1, ?_⟩)
      cases h' : m env s with
      | ok a t => rw [bind_ok h']; rw [h'] at h2; exact (hf a ⟨_, _, h'⟩).jumped t h2
      | fail e t => rw [bind_fail h']; rw [h'] at h2; exact h2
  · intro s hs
    have h2 := h.jumped s hs
    cases h' : m env s with
    | ok a t => rw [bind_ok h']; rw [h'] at h2; exact (hf a ⟨_, _, h'⟩).jumped t h2
    | fail e t => rw [bind_fail h']; rw [h'] at h2; exact h2

theorem Sim.ite {c : Prop} [Decidable c] {m n : P α} (h : c → Sim env m) (h' : ¬ c → Sim env n) : Sim env (if c then m else n) := by
  split
  · exact h ‹_›
  · exact h' ‹_›

theorem Sim.getEnv {f : Env → P β} (h : Sim env (f env)) : Sim env (getEnv >>= f) := ⟨h.same, h.jumped⟩

theorem Sim.getS {f : St → P β} (hf : ∀ s n, f { s with nls := n } = f s) (h : ∀ s, Sim env (f s)) : Sim env (getS >>= f) := by
  constructor
  · intro s hs
    have := (h s).same s hs
    have h2 : (PP.getS >>= f) env { s with nls := none } = f s env { s with nls := none } := by rw [← hf s none]; rfl
    rw [h2]
    exact this
  · intro s hs
    exact (h s).jumped s hs

/-- Operations that do not look at the next line. -/
theorem Sim.prim {m : P α} (h : ∀ s n, (∃ a t, m env s = .ok a t ∧ m env { s with nls := n } = .ok a { t with nls := n } ∧ t.nls = s.nls ∧ t.bol = s.bol) ∨
    (∃ e t, m env s = .fail e t ∧ m env { s with nls := n } = .fail e { t with nls := n } ∧ t.nls = s.nls)) : Sim env m := by
  constructor
  · intro s hs
    rcases h s none with ⟨a, t, h1, h2, h3, h4⟩ | ⟨a, t, h1, h2, h3⟩
    · exact .inl ⟨a, t, h1, h2, h3.trans hs, h4⟩
    · exact .inr (.inl ⟨a, t, h1, h2, h3.trans hs⟩)
  · intro s hs
    rcases h s none with ⟨a, t, h1, h2, h3, -⟩ | ⟨a, t, h1, h2, h3⟩
    · rw [h1]; show _ ≠ _; rwa [h3]
    · rw [h1]; show _ ≠ _; rwa [h3]

theorem Sim.pure {a : α} : Sim env (pure a : P α) := .prim fun s _ => .inl ⟨a, s, rfl, rfl, rfl, rfl⟩
theorem Sim.issue {k : Code} : Sim env (issue k : P α) := .prim fun s _ => .inr ⟨_, s, rfl, rfl, rfl⟩
theorem Sim.timeout : Sim env (timeout : P α) := .prim fun s _ => .inr ⟨_, s, rfl, rfl, rfl⟩
theorem Sim.crash {k : Crash} : Sim env (crash k : P α) := .prim fun s _ => .inr ⟨_, s, rfl, rfl, rfl⟩
theorem Sim.getPos : Sim env getPos := .prim fun s _ => .inl ⟨_, s, rfl, rfl, rfl, rfl⟩
theorem Sim.curTok : Sim env curTok := .prim fun s _ => .inl ⟨_, s, rfl, rfl, rfl, rfl⟩
theorem Sim.setPos {n : Nat} : Sim env (setPos n) := .prim fun _ _ => .inl ⟨_, _, rfl, rfl, rfl, rfl⟩
theorem Sim.advance {n : Nat} : Sim env (advance n) := .prim fun _ _ => .inl ⟨_, _, rfl, rfl, rfl, rfl⟩
theorem Sim.setToken {t : Tok} : Sim env (setToken t) := .prim fun _ _ => .inl ⟨_, _, rfl, rfl, rfl, rfl⟩
theorem Sim.setTokenValue {t : Tok} {v : TokVal} : Sim env (setTokenValue t v) := .prim fun _ _ => .inl ⟨_, _, rfl, rfl, rfl, rfl⟩
theorem Sim.modS {f : St → St} (h : ∀ s n, f { s with nls := n } = { f s with nls := n }) (h' : ∀ s, (f s).nls = s.nls ∧ (f s).bol = s.bol) : Sim env (modS f) :=
  .prim fun s n => .inl ⟨_, f s, rfl, by show Res.ok _ (f _) = _; rw [h], h' s⟩
theorem Sim.peekAt {p : Nat} : Sim env (peekAt p) := .prim fun s n => by
  unfold PP.peekAt
  by_cases h : env.text.length ≤ p
  · simp only [if_pos h]; exact .inl ⟨_, _, rfl, rfl, rfl, rfl⟩
  · simp only [if_neg h]
    by_cases h2 : (decodeRune (env.text.drop p)).1 = runeError
    · simp only [if_pos h2]; exact .inr ⟨_, _, rfl, rfl, rfl⟩
    · simp only [if_neg h2]; exact .inl ⟨_, _, rfl, rfl, rfl, rfl⟩
theorem Sim.peek : Sim env peek := .prim fun s n => by
  unfold PP.peek PP.peekAt
  by_cases h : env.text.length ≤ s.pos
  · simp only [if_pos h]; exact .inl ⟨_, _, rfl, rfl, rfl, rfl⟩
  · simp only [if_neg h]
    by_cases h2 : (decodeRune (env.text.drop s.pos)).1 = runeError
    · simp only [if_pos h2]; exact .inr ⟨_, _, rfl, rfl, rfl⟩
    · simp only [if_neg h2]; exact .inl ⟨_, _, rfl, rfl, rfl, rfl⟩
theorem Sim.next : Sim env next := .prim fun s n => by
  unfold PP.next PP.peekAt
  by_cases h : env.text.length ≤ s.pos
  · simp only [if_pos h]; exact .inl ⟨_, _, rfl, rfl, rfl, rfl⟩
  · simp only [if_neg h]
    by_cases h2 : (decodeRune (env.text.drop s.pos)).1 = runeError
    · simp only [if_pos h2]; exact .inr ⟨_, _, rfl, rfl, rfl⟩
    · simp only [if_neg h2]; exact .inl ⟨_, _, rfl, rfl, rfl, rfl⟩
theorem Sim.from_ {p : Nat} : Sim env (from_ p) := .prim fun s n => by
  unfold PP.from_
  by_cases h : p ≤ s.pos ∧ s.pos ≤ env.text.length
  · simp only [if_pos h]; exact .inl ⟨_, _, rfl, rfl, rfl, rfl⟩
  · simp only [if_neg h]; exact .inr ⟨_, _, rfl, rfl, rfl⟩

/-- A line break is in the source. -/
theorem peekAt_newline {p n : Nat} {s t : St} (h : peekAt p env s = .ok (10, n) t) : 10 ∈ env.text := by
  unfold peekAt at h
  split at h
  · injection h with h; injection h with h; omega
  · simp only at h
    split at h
    · cases h
    · injection h with h
      obtain ⟨-, -, r, h2⟩ := decode_valid h (by decide)
      have h3 : (10 : UInt8) ∈ env.text.drop p := by rw [h2, encodeRune_ascii (by omega)]; exact List.mem_cons_self ..
      exact List.mem_of_mem_drop h3

theorem peek_newline {n : Nat} {s t : St} (h : peek env s = .ok (10, n) t) : 10 ∈ env.text := peekAt_newline h

theorem next_newline {n : Nat} {s t : St} (h : next env s = .ok (10, n) t) : 10 ∈ env.text := by
  unfold next at h
  cases h' : peekAt s.pos env s with
  | fail e t => rw [h'] at h; cases h
  | ok cw t =>
    rw [h'] at h
    injection h with h
    injection h with h
    obtain ⟨c, w⟩ := cw
    have h : c = 10 := h
    subst h
    exact peekAt_newline h'
end

/-- A body that was treated before. -/
syntax "sim_known" : tactic
macro_rules | `(tactic| sim_known) => `(tactic| fail)

/-- One step through a body. -/
macro "sim" : tactic => `(tactic| repeat' first
  | intro _
  | with_reducible exact Sim.pure
  | with_reducible exact Sim.issue
  | with_reducible exact Sim.timeout
  | with_reducible exact Sim.crash
  | with_reducible exact Sim.getPos
  | with_reducible exact Sim.curTok
  | with_reducible exact Sim.setPos
  | with_reducible exact Sim.advance
  | with_reducible exact Sim.setToken
  | with_reducible exact Sim.setTokenValue
  | with_reducible exact Sim.peekAt
  | with_reducible exact Sim.peek
  | with_reducible exact Sim.next
  | with_reducible exact Sim.from_
  | assumption
  | sim_known
  | with_reducible exact Sim.modS (fun _ _ => rfl) (fun _ => ⟨rfl, rfl⟩)
  | with_reducible apply Sim.getEnv
  | with_reducible refine Sim.getS (fun _ _ => rfl) ?_
  | with_reducible apply Sim.bind
  | with_reducible apply Sim.ite
  | split
  | dsimp only)

section
variable {env : Env}

theorem sim_advWhile {p : Nat → Bool} {f : Nat} : Sim env (advWhile p f) := by
  induction f with
  | zero => exact .timeout
  | succ f ih => unfold advWhile; sim
macro_rules | `(tactic| sim_known) => `(tactic| with_reducible exact sim_advWhile)

theorem sim_newLine (h : 10 ∈ env.text) : Sim env newLine := by
  constructor
  · intro s hs
    exact .inr (.inr ⟨h, by show (none : Option Nat) ≠ some 0; simp⟩)
  · intro s hs
    show (none : Option Nat) ≠ some 0
    simp

theorem sim_skipWhiteLoop {b : Bool} {f : Nat} : ∀ {c csp}, Sim env (skipWhiteLoop b f c csp) := by
  induction f with
  | zero => intros; exact .timeout
  | succ f ih =>
    intro c csp
    unfold skipWhiteLoop
    refine Sim.bind .next fun a ha => ?_
    obtain ⟨ch, p⟩ := a
    dsimp only
    refine Sim.ite (fun _ => ?_) fun _ => Sim.ite (fun h => ?_) fun _ => ?_
    · sim
    · subst h
      obtain ⟨s, t, h⟩ := ha
      refine Sim.ite (fun _ => ih) fun _ => Sim.ite (fun _ => ?_) fun _ => ?_
      · sim
      · exact Sim.bind (sim_newLine (next_newline h)) fun _ _ => ih
    · sim <;> exact ih
macro_rules | `(tactic| sim_known) => `(tactic| with_reducible exact sim_skipWhiteLoop)

theorem skipWhiteLoop_newline {f : Nat} : ∀ {s t : St} {c csp p}, skipWhiteLoop true f c csp env s = .ok (10, p) t → 10 ∈ env.text := by
  induction f with
  | zero => intro s t c csp p h; cases h
  | succ f ih =>
    intro s t c csp p h
    have key : ∀ {s : St} {c csp}, skipWhiteLoop true f c csp env s = .ok (10, p) t → 10 ∈ env.text := ih
    unfold skipWhiteLoop at h
    cases hn : next env s with
    | fail e t => rw [bind_fail hn] at h; cases h
    | ok a u =>
      rw [bind_ok hn] at h
      obtain ⟨ch, q⟩ := a
      by_cases h10 : ch = 10
      · subst h10; exact next_newline hn
      simp only [h10, if_false] at h
      have hpk : ∀ {x : Nat} {m n : Nat → P (Nat × Nat)}, (∀ k s, m k env s = .ok (10, p) t → 10 ∈ env.text) → (∀ k s, n k env s = .ok (10, p) t → 10 ∈ env.text) →
          (peek >>= fun a => if a.1 = x then m a.2 else n a.2) env u = .ok (10, p) t → 10 ∈ env.text := by
        intro x m n hm hn h
        cases hp : peek env u with
        | fail e t => rw [bind_fail hp] at h; cases h
        | ok a u =>
          rw [bind_ok hp] at h
          split at h
          · exact hm _ _ h
          · exact hn _ _ h
      have hp : ∀ {s : St}, (pure (ch, q) : P (Nat × Nat)) env s = .ok (10, p) t → 10 ∈ env.text := by
        intro s h
        injection h with h
        injection h with h
        exact absurd h h10
      split at h
      · split at h
        · cases h
        · exact hp h
      split at h
      · split at h <;> exact key h
      split at h
      · split at h
        · exact hpk (m := fun k => advance k >>= fun _ => skipWhiteLoop true f .star q) (fun k s h => key (s := { s with pos := s.pos + k }) h) (fun _ s h => hp h) h
        · exact key h
      split at h
      · split at h
        · exact key h
        split at h
        · exact hpk (m := fun k => advance k >>= fun _ => skipWhiteLoop true f .none csp) (n := fun _ => skipWhiteLoop true f c csp)
            (fun k s h => key (s := { s with pos := s.pos + k }) h) (fun _ s h => key h) h
        · exact hp h
      split at h
      · exact key h
      split at h
      · exact hp h
      · exact key h

theorem skipWhite_newline {s t : St} {p : Nat} (h : skipWhite true env s = .ok (10, p) t) : 10 ∈ env.text := skipWhiteLoop_newline h

theorem sim_skipWhite {b : Bool} : Sim env (skipWhite b) := by unfold skipWhite; sim
macro_rules | `(tactic| sim_known) => `(tactic| with_reducible exact sim_skipWhite)

theorem sim_skipWhiteInLiteralLoop {f : Nat} : Sim env (skipWhiteInLiteralLoop f) := by
  induction f with
  | zero => exact .timeout
  | succ f ih => unfold skipWhiteInLiteralLoop; sim
macro_rules | `(tactic| sim_known) => `(tactic| with_reducible exact sim_skipWhiteInLiteralLoop)

theorem sim_skipWhiteInLiteral : Sim env skipWhiteInLiteral := by unfold skipWhiteInLiteral; sim
macro_rules | `(tactic| sim_known) => `(tactic| with_reducible exact sim_skipWhiteInLiteral)

theorem sim_dashLoop {f : Nat} : ∀ {i}, Sim env (dashLoop f i) := by
  induction f with
  | zero => intros; exact .timeout
  | succ f ih => intro i; unfold dashLoop; sim; exact ih
macro_rules | `(tactic| sim_known) => `(tactic| with_reducible exact sim_dashLoop)

theorem sim_nameLoop {start : Nat} {tok : Tok} {f : Nat} : ∀ {a b}, Sim env (nameLoop start tok f a b) := by
  induction f with
  | zero => intros; exact .timeout
  | succ f ih => intro a b; unfold nameLoop; sim <;> exact ih
macro_rules | `(tactic| sim_known) => `(tactic| with_reducible exact sim_nameLoop)

theorem sim_consumeQualifiedName {start : Nat} {tok : Tok} : Sim env (consumeQualifiedName start tok) := by unfold consumeQualifiedName; sim
macro_rules | `(tactic| sim_known) => `(tactic| with_reducible exact sim_consumeQualifiedName)

theorem sim_skipDecimalDigits : Sim env skipDecimalDigits := by unfold skipDecimalDigits; sim
macro_rules | `(tactic| sim_known) => `(tactic| with_reducible exact sim_skipDecimalDigits)

theorem sim_needDigits : Sim env needDigits := by unfold needDigits; sim
macro_rules | `(tactic| sim_known) => `(tactic| with_reducible exact sim_needDigits)

theorem sim_consumeFloat {start d : Nat} : Sim env (consumeFloat start d) := by unfold consumeFloat; sim
macro_rules | `(tactic| sim_known) => `(tactic| with_reducible exact sim_consumeFloat)

theorem sim_appendHexadec : Sim env appendHexadec := by unfold appendHexadec; sim
macro_rules | `(tactic| sim_known) => `(tactic| with_reducible exact sim_appendHexadec)

theorem sim_hexDigits {start k : Nat} : Sim env (hexDigits start k) := by
  induction k with
  | zero => exact .pure
  | succ f ih => unfold hexDigits; sim
macro_rules | `(tactic| sim_known) => `(tactic| with_reducible exact sim_hexDigits)

theorem sim_appendUnicode : Sim env appendUnicode := by unfold appendUnicode; sim
macro_rules | `(tactic| sim_known) => `(tactic| with_reducible exact sim_appendUnicode)

theorem sim_escapeHandler {h : Handler} {c : Nat} : Sim env (escapeHandler h c) := by unfold escapeHandler; sim
macro_rules | `(tactic| sim_known) => `(tactic| with_reducible exact sim_escapeHandler)

theorem sim_unterminatedQuote {α : Type} {start : Nat} : Sim env (unterminatedQuote start : P α) := by unfold unterminatedQuote; sim
macro_rules | `(tactic| sim_known) => `(tactic| with_reducible exact sim_unterminatedQuote)

theorem sim_issueAt {α : Type} {start : Nat} {k : Code} : Sim env (issueAt start k : P α) := by unfold issueAt; sim
macro_rules | `(tactic| sim_known) => `(tactic| with_reducible exact sim_issueAt)

theorem sim_eppComment {f : Nat} : ∀ {c}, Sim env (eppComment f c) := by
  induction f with
  | zero => intros; exact .timeout
  | succ f ih => intro c; unfold eppComment; sim <;> exact ih
macro_rules | `(tactic| sim_known) => `(tactic| with_reducible exact sim_eppComment)

theorem sim_eppText {f : Nat} : ∀ {b n}, Sim env (eppText f b n) := by
  induction f with
  | zero => intros; exact .timeout
  | succ f ih => intro b n; unfold eppText; sim <;> exact ih
macro_rules | `(tactic| sim_known) => `(tactic| with_reducible exact sim_eppText)

theorem sim_extractFlags {p : Nat} : Sim env (extractFlags p) := by unfold extractFlags; sim
macro_rules | `(tactic| sim_known) => `(tactic| with_reducible exact sim_extractFlags)

theorem sim_withTag {h : HDecl} {p : Nat} : Sim env (h.withTag p) := by unfold HDecl.withTag; sim
macro_rules | `(tactic| sim_known) => `(tactic| with_reducible exact sim_withTag)

theorem sim_findTagEnd {start f : Nat} : ∀ {h}, Sim env (findTagEnd start f h) := by
  induction f with
  | zero => intros; exact .timeout
  | succ f ih => intro h; unfold findTagEnd; sim <;> exact ih
macro_rules | `(tactic| sim_known) => `(tactic| with_reducible exact sim_findTagEnd)

theorem sim_findStartOfText {hs f : Nat} : ∀ {c sz}, (c = 10 → 10 ∈ env.text) → Sim env (findStartOfText hs f c sz) := by
  induction f with
  | zero => intros; exact .timeout
  | succ f ih =>
    intro c sz hc
    have hskip : Sim env (skipWhite true >>= fun x => findStartOfText hs f x.1 sz) := by
      refine Sim.bind sim_skipWhite fun a ha => ih fun h => ?_
      obtain ⟨s, t, ha⟩ := ha
      obtain ⟨c, p⟩ := a
      have h : c = 10 := h
      subst h
      exact skipWhite_newline ha
    unfold findStartOfText
    refine Sim.ite (fun _ => ?_) fun _ => Sim.ite (fun _ => hskip) fun _ => Sim.ite (fun _ => ?_) fun _ => Sim.ite (fun h => ?_) fun _ => ?_
    · sim
    · refine Sim.bind .getPos fun n _ => Sim.bind .advance fun _ _ => Sim.bind .next fun a ha => ?_
      obtain ⟨s, t, ha⟩ := ha
      obtain ⟨c', p⟩ := a
      dsimp only
      refine Sim.ite (fun _ => ?_) fun _ => ih fun h => ?_
      · exact Sim.bind .setPos fun _ _ => hskip
      · subst h
        exact next_newline ha
    · constructor
      · intro s hs
        refine .inr (.inr ⟨hc h, ?_⟩)
        show Jumped ((match s.nls with | some p => _ | none => _ : P Unit) env s)
        rw [hs]
        show (none : Option Nat) ≠ some 0
        simp
      · intro s hs
        show Jumped ((match s.nls with | some p => _ | none => _ : P Unit) env s)
        cases h : s.nls with
        | some p => show (none : Option Nat) ≠ some 0; simp
        | none => show s.nls ≠ some 0; exact hs
    · refine Sim.bind .advance fun _ _ => Sim.bind .peek fun a ha => ?_
      obtain ⟨s, t, ha⟩ := ha
      obtain ⟨c', p⟩ := a
      refine ih fun h => ?_
      have h : c' = 10 := h
      subst h
      exact peek_newline ha

theorem findStartOfText_newline {hs f : Nat} : ∀ {s t : St} {c sz}, (c = 10 → 10 ∈ env.text) → findStartOfText hs f c sz env s = .ok () t → 10 ∈ env.text := by
  induction f with
  | zero => intro s t c sz _ h; cases h
  | succ f ih =>
    intro s t c sz hc h
    have hskip : ∀ {s : St}, (skipWhite true >>= fun x => findStartOfText hs f x.1 sz) env s = .ok () t → 10 ∈ env.text := by
      intro s h
      cases hw : skipWhite true env s with
      | fail e u => rw [bind_fail hw] at h; cases h
      | ok a u =>
        rw [bind_ok hw] at h
        obtain ⟨c, p⟩ := a
        exact ih (fun hc => by subst hc; exact skipWhite_newline hw) h
    unfold findStartOfText at h
    split at h
    · cases h
    split at h
    · exact hskip h
    split at h
    · change (next >>= fun a => if a.1 = 42 then _ else _) env { s with pos := s.pos + sz } = .ok () t at h
      cases hn : next env { s with pos := s.pos + sz } with
      | fail e u => rw [bind_fail hn] at h; cases h
      | ok a u =>
        rw [bind_ok hn] at h
        obtain ⟨c', p⟩ := a
        dsimp only at h
        split at h
        · exact hskip (s := { u with pos := s.pos }) h
        · exact ih (fun hc => by subst hc; exact next_newline hn) h
    split at h
    · next h10 => exact hc h10
    · change (peek >>= fun a => findStartOfText hs f a.1 a.2) env { s with pos := s.pos + sz } = .ok () t at h
      cases hn : peek env { s with pos := s.pos + sz } with
      | fail e u => rw [bind_fail hn] at h; cases h
      | ok a u =>
        rw [bind_ok hn] at h
        obtain ⟨c', p⟩ := a
        exact ih (fun hc => by subst hc; exact peek_newline hn) h

theorem sim_marginOf {a b c : Nat} {d : Bool} {e : Nat} : Sim env (marginOf a b c d e) := by unfold marginOf; sim
macro_rules | `(tactic| sim_known) => `(tactic| with_reducible exact sim_marginOf)

theorem sim_findEndOfText {hs f : Nat} {tag : GoStr} : ∀ {c a b}, Sim env (findEndOfText hs tag f c a b) := by
  induction f with
  | zero => intros; exact .timeout
  | succ f ih => intro c a b; unfold findEndOfText; sim <;> exact ih
macro_rules | `(tactic| sim_known) => `(tactic| with_reducible exact sim_findEndOfText)

theorem sim_stripIndentLoop {start k : Nat} : Sim env (stripIndentLoop start k) := by
  induction k with
  | zero => exact .pure
  | succ f ih => unfold stripIndentLoop; sim
macro_rules | `(tactic| sim_known) => `(tactic| with_reducible exact sim_stripIndentLoop)

theorem sim_stripIndent {k : Nat} : Sim env (stripIndent k) := by unfold stripIndent; sim
macro_rules | `(tactic| sim_known) => `(tactic| with_reducible exact sim_stripIndent)

theorem sim_heredocDone {a b : Nat} (h : 10 ∈ env.text) : Sim env (heredocDone a b) := by
  constructor
  · intro s hs
    exact .inr (.inr ⟨h, by show some (b + 1) ≠ some 0; simp⟩)
  · intro s hs
    show some (b + 1) ≠ some 0
    simp

/-- The functions that the lexer calls when it has no factory. -/
structure SimSelf (env : Env) (r : Self) : Prop where
  next : Sim env (r .nextToken)
  delim : ∀ {d ds h buf ec st segs}, Sim env (r (.delim d ds false h buf ec st segs))
  escapes : ∀ {e i fl buf segs}, Sim env (r (.escapes e i fl false buf segs))

macro_rules | `(tactic| sim_known) => `(tactic| (with_reducible apply SimSelf.next; assumption))
macro_rules | `(tactic| sim_known) => `(tactic| (with_reducible apply SimSelf.delim; assumption))
macro_rules | `(tactic| sim_known) => `(tactic| (with_reducible apply SimSelf.escapes; assumption))

variable {self : Self}

theorem sim_delimBody (hs : SimSelf env self) {d ds h buf ec st segs} : Sim env (delimBody self d ds false h buf ec st segs) := by
  unfold delimBody
  simp only [Bool.false_eq_true, and_false, if_false]
  sim

theorem sim_consumeDelimitedString (hs : SimSelf env self) {d ds h} : Sim env (consumeDelimitedString self d ds false h) := by
  unfold consumeDelimitedString; sim
macro_rules | `(tactic| sim_known) => `(tactic| (with_reducible apply sim_consumeDelimitedString; assumption))

theorem sim_consumeEPP (hs : SimSelf env self) : Sim env (consumeEPP self) := by unfold consumeEPP; sim
macro_rules | `(tactic| sim_known) => `(tactic| (with_reducible apply sim_consumeEPP; assumption))

theorem sim_consumeBacktickedString : Sim env consumeBacktickedString := by unfold consumeBacktickedString; sim
macro_rules | `(tactic| sim_known) => `(tactic| with_reducible exact sim_consumeBacktickedString)

theorem sim_consumeDoubleQuotedString (hf : env.hasFactory = false) (hs : SimSelf env self) : Sim env (consumeDoubleQuotedString self) := by
  unfold consumeDoubleQuotedString
  apply Sim.getEnv
  simp only [hf, if_true]
  sim
macro_rules | `(tactic| sim_known) => `(tactic| (with_reducible apply sim_consumeDoubleQuotedString <;> assumption))

theorem sim_consumeSingleQuotedString (hs : SimSelf env self) : Sim env (consumeSingleQuotedString self) := by unfold consumeSingleQuotedString; sim
macro_rules | `(tactic| sim_known) => `(tactic| (with_reducible apply sim_consumeSingleQuotedString; assumption))

theorem sim_consumeRegexp (hs : SimSelf env self) : Sim env (consumeRegexp self) := by unfold consumeRegexp; sim
macro_rules | `(tactic| sim_known) => `(tactic| (with_reducible apply sim_consumeRegexp; assumption))

theorem sim_escapesBody (hs : SimSelf env self) {e i fl buf segs} : Sim env (escapesBody self e i fl false buf segs) := by
  unfold escapesBody
  simp only [Bool.false_eq_true, and_false, if_false]
  sim

theorem sim_consumeHeredocString (hf : env.hasFactory = false) (hs : SimSelf env self) : Sim env (consumeHeredocString self) := by
  unfold consumeHeredocString
  apply Sim.getEnv
  refine Sim.bind .getPos fun start _ => Sim.bind sim_findTagEnd fun h _ => Sim.bind .getPos fun tagEnd _ => Sim.ite (fun _ => sim_issueAt) fun _ => ?_
  refine Sim.bind .peek fun a ha => ?_
  obtain ⟨c, sz⟩ := a
  obtain ⟨s, t, ha⟩ := ha
  have hc : c = 10 → 10 ∈ env.text := fun h => by subst h; exact peek_newline ha
  refine Sim.bind (sim_findStartOfText hc) fun _ hx => ?_
  obtain ⟨s, t, hx⟩ := hx
  have h10 := findStartOfText_newline hc hx
  have hd : ∀ {a b}, Sim env (heredocDone a b) := sim_heredocDone h10
  have he : ∀ {e i fl b buf segs}, b = false → Sim env (self (.escapes e i fl b buf segs)) := by
    intro e i fl b buf segs hb
    subst hb
    exact hs.escapes
  sim
  all_goals first | exact hd | exact he (by rw [hf, Bool.and_false])
macro_rules | `(tactic| sim_known) => `(tactic| (with_reducible apply sim_consumeHeredocString <;> assumption))

theorem sim_lexChar (hf : env.hasFactory = false) (hs : SimSelf env self) {a b c} : Sim env (lexChar self a b c) := by
  unfold lexChar lexNumber lexAssign lexLc lexLp lexColon lexMinus lexPlus lexPercent lexNot lexGreater lexTilde lexAt lexLess lexPipe lexSlash lexDollar lexZero adv1
  sim
macro_rules | `(tactic| sim_known) => `(tactic| (with_reducible apply sim_lexChar <;> assumption))

theorem sim_nextTokenBody (hf : env.hasFactory = false) (hs : SimSelf env self) : Sim env (nextTokenBody self) := by unfold nextTokenBody; sim

/-- Until the first line break the simple lexer does what the lexer does otherwise. -/
theorem sim_run (hf : env.hasFactory = false) (n : Nat) : SimSelf env (run n) := by
  induction n with
  | zero => exact ⟨.timeout, .timeout, .timeout⟩
  | succ n ih => exact ⟨sim_nextTokenBody hf ih, sim_delimBody ih, sim_escapesBody ih⟩

/-! ## The number of characters that are skipped at most does not matter -/

theorem next_moves {s t : St} {c p : Nat} (h : next env s = .ok (c, p) t) (h0 : c ≠ 0) : s.pos < t.pos ∧ t.pos ≤ env.text.length ∧ t.nls = s.nls := by
  unfold next peekAt at h
  by_cases hl : env.text.length ≤ s.pos
  · simp only [if_pos hl] at h
    injection h with h
    injection h with h
    exact absurd h.symm h0
  · simp only [if_neg hl] at h
    by_cases h2 : (decodeRune (env.text.drop s.pos)).1 = runeError
    · simp only [if_pos h2] at h; cases h
    · simp only [if_neg h2] at h
      injection h with _ h
      rw [← h]
      have h3 : env.text.drop s.pos ≠ [] := by
        intro hd
        have := congrArg List.length hd
        rw [List.length_drop, List.length_nil] at this
        omega
      have h4 := decodeRune_width_pos h3
      have h5 := decodeRune_width_le (env.text.drop s.pos)
      rw [List.length_drop] at h5
      exact ⟨by show s.pos < s.pos + _; omega, by show s.pos + _ ≤ _; omega, rfl⟩

theorem peek_same {s t : St} {c n : Nat} (h : peek env s = .ok (c, n) t) : t = s := by
  unfold peek peekAt at h
  by_cases hl : env.text.length ≤ s.pos
  · simp only [if_pos hl] at h; injection h with _ h; exact h.symm
  · simp only [if_neg hl] at h
    by_cases h2 : (decodeRune (env.text.drop s.pos)).1 = runeError
    · simp only [if_pos h2] at h; cases h
    · simp only [if_neg h2] at h; injection h with _ h; exact h.symm

theorem skipWhiteLoop_fuel {b : Bool} {f : Nat} : ∀ {g : Nat} {s : St} {cs : Cmt} {csp csp' : Nat}, env.text.length + 1 ≤ f + s.pos → env.text.length + 1 ≤ g + s.pos →
    1 ≤ f → 1 ≤ g → s.nls = none → (cs = .star → csp = csp') → skipWhiteLoop b f cs csp env s = skipWhiteLoop b g cs csp' env s := by
  induction f with
  | zero => intro g s cs csp csp' hf hg h1; omega
  | succ f ih =>
    intro g s cs csp csp' hf hg _ h1 hn hc
    obtain ⟨g, rfl⟩ : ∃ k, g = k + 1 := ⟨g - 1, by omega⟩
    unfold skipWhiteLoop
    cases hx : next env s with
    | fail e t => rw [bind_fail hx, bind_fail hx]
    | ok a t =>
      rw [bind_ok hx, bind_ok hx]
      obtain ⟨c, p⟩ := a
      by_cases h0 : c = 0
      · simp only [h0, if_true]
        by_cases h : cs = .star
        · rw [if_pos h, if_pos h, hc h]
        · rw [if_neg h, if_neg h]
      obtain ⟨h2, h3, h4⟩ := next_moves hx h0
      rw [hn] at h4
      have key : ∀ {u : St} {cs : Cmt} {csp csp' : Nat}, t.pos ≤ u.pos → u.nls = none → (cs = .star → csp = csp') →
          skipWhiteLoop b f cs csp env u = skipWhiteLoop b g cs csp' env u := by
        intro u cs csp csp' hu hn hc
        exact ih (by omega) (by omega) (by omega) (by omega) hn hc
      have keyt := @key t
      have hpk : ∀ {x : Nat} {cs2 : Cmt} {csp2 csp2' : Nat} {m m' : P (Nat × Nat)}, (cs2 = .star → csp2 = csp2') → m env t = m' env t →
          (peek >>= fun a => if a.1 = x then advance a.2 >>= fun _ => skipWhiteLoop b f cs2 csp2 else m) env t =
          (peek >>= fun a => if a.1 = x then advance a.2 >>= fun _ => skipWhiteLoop b g cs2 csp2' else m') env t := by
        intro x cs2 csp2 csp2' m m' hc2 hm
        cases hp : peek env t with
        | fail e u => rw [bind_fail hp, bind_fail hp]
        | ok a u =>
          rw [bind_ok hp, bind_ok hp, peek_same hp]
          by_cases hx : a.1 = x
          · rw [if_pos hx, if_pos hx]
            exact key (u := { t with pos := t.pos + a.2 }) (by show t.pos ≤ t.pos + _; omega) h4 hc2
          · rw [if_neg hx, if_neg hx]; exact hm
      simp only [h0, if_false]
      split
      · split
        · exact keyt (Nat.le_refl _) h4 hc
        split
        · rfl
        · exact key (u := { t with pos := t.nls.getD t.pos, nls := none, bol := t.nls.getD t.pos }) (by show t.pos ≤ t.nls.getD t.pos; rw [h4]; exact Nat.le_refl _) rfl (by simp)
      split
      · split
        · exact keyt (Nat.le_refl _) h4 (by simp)
        · exact keyt (Nat.le_refl _) h4 hc
      split
      · split
        · exact hpk (fun _ => rfl) rfl
        · exact keyt (Nat.le_refl _) h4 hc
      split
      · split
        · exact keyt (Nat.le_refl _) h4 hc
        split
        · exact hpk (by simp) (keyt (Nat.le_refl _) h4 hc)
        · rfl
      split
      · exact keyt (Nat.le_refl _) h4 hc
      split
      · rfl
      · exact keyt (Nat.le_refl _) h4 hc

/-- At the end of the line the simple lexer goes back to the start. -/
theorem skipWhite_restart {s : St} {ws cm skipped : List Nat} (hw : White ws false) (hcm : IsComment cm) (hn : s.nls = some 0) (hb : s.bol ≤ s.pos)
    (h : Here env s.pos (ws ++ (cm ++ 10 :: skipped))) : skipWhite false env s = skipWhite false env { s with pos := 0, bol := 0, nls := none } := by
  obtain ⟨f, csp, hf, h1⟩ := (jump_resume hw hcm hn hb h).2 s.val s.names s.defs
  have h1 : skipWhite false env s = skipWhiteLoop false f .none csp env { s with pos := 0, bol := 0, nls := none } := h1
  rw [h1]
  exact skipWhiteLoop_fuel (by show _ ≤ f + 0; omega) (by show _ ≤ charFuel env + 0; unfold charFuel; omega) (by omega) (by unfold charFuel; omega) rfl (by simp)

theorem lexChar_scan {a a' c q : Nat} (h : c ≠ 91) : lexChar self a c q = lexChar self a' c q := by
  unfold lexChar
  simp only [h, if_false]

end
end PP
