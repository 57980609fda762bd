import Verif.Lemmas.LexTok

/-! # Byte ranges of nodes: the character level functions

What the functions of the lexer do to positions, for a source without heredocs (`nls = none`).  Panics are of no interest here
(`tt`). -/
namespace PP.Rg
open PP

/-- Any panic will do. -/
def tt : Err → Prop := fun _ => True

/-- `s'` is `s` after reading some characters. -/
structure Fr (env : Env) (s s' : St) : Prop where
  nls : s'.nls = none
  defs : s'.defs = s.defs
  tsp : s'.tsp = s.tsp
  ge : s.pos ≤ s'.pos
  le : s'.pos ≤ env.text.length

/-- Before reading. -/
structure Rd (env : Env) (s : St) : Prop where
  nls : s.nls = none
  le : s.pos ≤ env.text.length

section
variable {env : Env} {s s' s'' : St}

theorem Fr.refl (h : Rd env s) : Fr env s s := ⟨h.1, rfl, rfl, Nat.le_refl _, h.2⟩
theorem Fr.rd (h : Fr env s s') : Rd env s' := ⟨h.nls, h.le⟩
theorem Fr.trans (h : Fr env s s') (g : Fr env s' s'') : Fr env s s'' :=
  ⟨g.nls, g.defs.trans h.defs, g.tsp.trans h.tsp, Nat.le_trans h.ge g.ge, g.le⟩

theorem peek' {Q : Nat × Nat → St → Prop} (hr : Rd env s)
    (h : ∀ c n, Seen env s.pos c n → s.pos + n ≤ env.text.length → Q (c, n) s) : wp env peek Q tt s := by
  refine wp_peek (fun c n hc => h c n hc ?_) trivial
  have := hc.bound; have := hr.2
  omega

theorem next' {Q : Nat × Nat → St → Prop} (hr : Rd env s)
    (h : ∀ c n, Seen env s.pos c n → s.pos + n ≤ env.text.length → Fr env s { s with pos := s.pos + n } →
      Q (c, s.pos) { s with pos := s.pos + n }) : wp env next Q tt s := by
  refine wp_next (fun c n hc => ?_) trivial
  have h1 := hc.bound; have := hr.2
  have h2 : s.pos + n ≤ env.text.length := by omega
  exact h c n hc h2 ⟨hr.1, rfl, rfl, by simp only; omega, h2⟩

theorem from' {n : Nat} {Q : GoStr → St → Prop}
    (h : n ≤ s.pos → s.pos ≤ env.text.length → Q ((env.text.drop n).take (s.pos - n)) s) : wp env (from_ n) Q tt s := by
  unfold wp from_
  by_cases hc : n ≤ s.pos ∧ s.pos ≤ env.text.length
  · simp only [if_pos hc]; exact h hc.1 hc.2
  · simp only [if_neg hc]; trivial

/-- Close a goal about positions. -/
macro "frame" : tactic => `(tactic| (refine ⟨?_, ?_, ?_, ?_, ?_⟩ <;> first | assumption | rfl | (dsimp only; omega) | omega))

theorem advWhile' (p : Nat → Bool) (f : Nat) (hr : Rd env s) :
    wp env (advWhile p f) (fun cn s' => (∃ q, s' = { s with pos := q }) ∧ Fr env s s' ∧ Seen env s'.pos cn.1 cn.2) tt s := by
  induction f generalizing s with
  | zero => exact trivial
  | succ f ih =>
    unfold advWhile
    wpr
    refine peek' hr fun c n hc hn => ?_
    dsimp only
    split
    · wpr
      refine wp_imp (ih (s := { s with pos := s.pos + n }) ⟨hr.1, hn⟩) ?_
      rintro a s' ⟨⟨q, rfl⟩, h, h'⟩
      refine ⟨⟨q, rfl⟩, ?_, h'⟩
      have h1 := h.ge; have h2 := h.le
      refine ⟨hr.1, rfl, rfl, ?_, ?_⟩ <;> simp only at h1 h2 ⊢ <;> omega
    · wpr
      exact ⟨⟨s.pos, rfl⟩, Fr.refl hr, hc⟩

/-- Only the position (and the start of the line) changes. -/
structure Sk (env : Env) (s s' : St) : Prop extends Fr env s s' where
  val : s'.val = s.val
  tok : s'.tok = s.tok

theorem Sk.refl (h : Rd env s) : Sk env s s := ⟨Fr.refl h, rfl, rfl⟩
theorem Sk.trans (h : Sk env s s') (g : Sk env s' s'') : Sk env s s'' :=
  ⟨h.toFr.trans g.toFr, g.val.trans h.val, g.tok.trans h.tok⟩
theorem Sk.adv (h : Rd env s) {n : Nat} (hn : s.pos + n ≤ env.text.length) : Sk env s { s with pos := s.pos + n } :=
  ⟨⟨h.1, rfl, rfl, by simp only; omega, hn⟩, rfl, rfl⟩

theorem skipWhiteLoop' (f : Nat) (cs : Cmt) (csp : Nat) (hr : Rd env s) :
    wp env (skipWhiteLoop false f cs csp) (fun a s' => Sk env s s' ∧ s.pos ≤ a.2 ∧ a.2 ≤ s'.pos ∧
      ∃ n, Seen env a.2 a.1 n ∧ s'.pos = a.2 + n) tt s := by
  induction f generalizing s cs csp with
  | zero => exact trivial
  | succ f ih =>
    unfold skipWhiteLoop
    wpr
    refine next' hr fun c n hc hn hf => ?_
    dsimp only
    have h0 : Sk env s { s with pos := s.pos + n } := .adv hr hn
    have go : ∀ (t : St) (cs : Cmt) (csp : Nat), Sk env s t →
        wp env (skipWhiteLoop false f cs csp) (fun a s' => Sk env s s' ∧ s.pos ≤ a.2 ∧ a.2 ≤ s'.pos ∧
          ∃ n, Seen env a.2 a.1 n ∧ s'.pos = a.2 + n) tt t := by
      intro t cs csp ht
      refine wp_imp (ih cs csp ht.rd) ?_
      rintro a s' ⟨h1, h2, h3⟩
      exact ⟨ht.trans h1, Nat.le_trans ht.ge h2, h3⟩
    have fin : Sk env s { s with pos := s.pos + n } ∧ s.pos ≤ s.pos ∧ s.pos ≤ s.pos + n ∧
          ∃ m, Seen env s.pos c m ∧ s.pos + n = s.pos + m := ⟨h0, by omega, by omega, n, hc, rfl⟩
    have go2 : ∀ (cs : Cmt) (csp : Nat) (x : Nat), s.pos + n + x ≤ env.text.length →
        wp env (skipWhiteLoop false f cs csp) (fun a s' => Sk env s s' ∧ s.pos ≤ a.2 ∧ a.2 ≤ s'.pos ∧
          ∃ n, Seen env a.2 a.1 n ∧ s'.pos = a.2 + n) tt { s with pos := s.pos + n + x } := by
      intro cs csp x hx
      exact go _ _ _ (h0.trans (.adv h0.rd hx))
    split
    · split
      · exact trivial
      · exact fin
    split
    · split
      · exact go _ _ _ h0
      · split
        · rename_i h; cases h
        · wpr
          refine go _ _ _ ⟨⟨rfl, rfl, rfl, ?_, ?_⟩, rfl, rfl⟩ <;> simp only [hr.1, Option.getD_none] <;> omega
    split
    · split
      · exact go _ _ _ h0
      · exact go _ _ _ h0
    split
    · split
      · wpr
        refine peek' h0.rd fun c' n' hc' hn' => ?_
        dsimp only
        split
        · wpr; exact go2 _ _ _ hn'
        · wpr; exact fin
      · exact go _ _ _ h0
    split
    · split
      · exact go _ _ _ h0
      split
      · wpr
        refine peek' h0.rd fun c' n' hc' hn' => ?_
        dsimp only
        split
        · wpr; exact go2 _ _ _ hn'
        · exact go _ _ _ h0
      · wpr; exact fin
    split
    · exact go _ _ _ h0
    split
    · wpr; exact fin
    · exact go _ _ _ h0

theorem skipWhite' (hr : Rd env s) :
    wp env (skipWhite false) (fun a s' => Sk env s s' ∧ s.pos ≤ a.2 ∧ a.2 ≤ s'.pos ∧
      ∃ n, Seen env a.2 a.1 n ∧ s'.pos = a.2 + n) tt s := by
  unfold skipWhite
  wpr
  exact skipWhiteLoop' _ _ _ hr

/-- `skipWhite` from anywhere only moves the position and the start of the line. -/
theorem skipWhiteAny (f : Nat) (cs : Cmt) (csp : Nat) (hn : s.nls = none) :
    wp env (skipWhiteLoop false f cs csp) (fun _ s' => ∃ p b, s' = { s with pos := p, bol := b }) tt s := by
  induction f generalizing s cs csp with
  | zero => exact trivial
  | succ f ih =>
    have go : ∀ (p b : Nat) (cs : Cmt) (csp : Nat),
        wp env (skipWhiteLoop false f cs csp) (fun _ s' => ∃ p b, s' = { s with pos := p, bol := b }) tt
          { s with pos := p, bol := b } := by
      intro p b cs csp
      refine wp_imp (ih (s := { s with pos := p, bol := b }) cs csp hn) ?_
      rintro a s' ⟨p', b', rfl⟩
      exact ⟨p', b', rfl⟩
    unfold skipWhiteLoop
    wpr
    refine wp_next (fun c n hc => ?_) trivial
    dsimp only
    have fin : ∃ p b, ({ s with pos := s.pos + n } : St) = { s with pos := p, bol := b } := ⟨_, s.bol, rfl⟩
    split
    · split
      · exact trivial
      · exact fin
    split
    · split
      · exact go _ s.bol _ _
      · split
        · rename_i h; cases h
        · wpr
          have : ({ s with pos := s.nls.getD (s.pos + n), nls := none, bol := s.nls.getD (s.pos + n) } : St)
            = { s with pos := s.nls.getD (s.pos + n), bol := s.nls.getD (s.pos + n) } := by
            cases s; simp_all
          show wp env _ _ _ ({ s with pos := s.nls.getD (s.pos + n), nls := none, bol := s.nls.getD (s.pos + n) } : St)
          rw [this]
          exact go _ _ _ _
    split
    · split
      · exact go _ s.bol _ _
      · exact go _ s.bol _ _
    split
    · split
      · wpr
        refine wp_peek (fun c' n' hc' => ?_) trivial
        dsimp only
        split
        · wpr; exact go _ s.bol _ _
        · wpr; exact fin
      · exact go _ s.bol _ _
    split
    · split
      · exact go _ s.bol _ _
      split
      · wpr
        refine wp_peek (fun c' n' hc' => ?_) trivial
        dsimp only
        split
        · wpr; exact go _ s.bol _ _
        · exact go _ s.bol _ _
      · wpr; exact fin
    split
    · exact go _ s.bol _ _
    split
    · wpr; exact fin
    · exact go _ s.bol _ _

theorem dashLoop' (f i : Nat) (hr : Rd env s) (hi : s.pos ≤ i) :
    wp env (dashLoop f i) (fun _ s' => Fr env s s') tt s := by
  induction f generalizing i with
  | zero => exact trivial
  | succ f ih =>
    unfold dashLoop
    wpr
    refine wp_peekAt (fun c n hc => ?_) trivial
    dsimp only
    split
    · next hl =>
      wpr
      have h0 : c ≠ 0 := by
        intro h; subst h; exact absurd hl (by decide)
      have := hc.le h0
      exact ⟨hr.1, rfl, rfl, by simp only; omega, this⟩
    split
    · exact Fr.refl hr
    · exact ih (i + n) (by omega)

theorem nameLoop' (start : Nat) (tok : Tok) (f : Nat) (lu hd : Bool) (hr : Rd env s) :
    wp env (nameLoop start tok f lu hd) (fun _ s' => Fr env s s') tt s := by
  induction f generalizing s lu hd with
  | zero => exact trivial
  | succ f ih =>
    unfold nameLoop
    wpr
    refine wp_imp (advWhile' _ _ hr) ?_
    rintro ⟨c, n⟩ s1 ⟨_, h1, hc⟩
    dsimp only at hc ⊢
    have hn1 : s1.pos + n ≤ env.text.length := by have := hc.bound; have := h1.le; omega
    split
    · wpr
      refine wp_imp (dashLoop' _ _ h1.rd (by omega)) ?_
      intro found s2 h2
      split
      · exact wp_imp (ih _ _ h2.rd) fun _ s3 h3 => (h1.trans h2).trans h3
      · exact h1.trans h2
    split
    · exact h1
    wpr
    have h2 : Fr env s1 { s1 with pos := s1.pos + n } := (Sk.adv h1.rd hn1).toFr
    refine peek' h2.rd fun c' n' hc' hn' => ?_
    dsimp only
    split
    · wpr; exact h1
    wpr
    have h3 : Fr env s1 { s1 with pos := s1.pos + n + n' } := h2.trans (Sk.adv h2.rd hn').toFr
    refine peek' h3.rd fun c'' n'' hc'' hn'' => ?_
    dsimp only
    split
    · wpr
      refine wp_imp (ih _ _ (s := { s1 with pos := s1.pos + n + n' + n'' }) ⟨h1.nls, hn''⟩) ?_
      intro a s4 h4
      exact (h1.trans (h3.trans (Sk.adv h3.rd hn'').toFr)).trans h4
    · exact trivial

/-- What a token that carries no expression needs: `start` is where it begins. -/
structure TokOk (start : Nat) (s : St) : Prop where
  val : ∀ e, s.val ≠ .expr e
  var : s.tok = .variable → start < s.pos ∧ ∀ v, s.val = .str v → start + 1 + v.length ≤ s.pos

/-- A function that reads a token without expressions. -/
def Lexes (env : Env) (start : Nat) (m : P Unit) : Prop :=
  ∀ s, Rd env s → start < s.pos → wp env m (fun _ s' => Fr env s s' ∧ TokOk start s') tt s

theorem classify_variable {hd : Bool} {w : GoStr} : classify env .variable hd w = (.variable, .str w) := rfl

theorem classify_val {tok : Tok} {hd : Bool} {w : GoStr} : ∀ e, (classify env tok hd w).2 ≠ .expr e := by
  intro e
  unfold classify
  split
  · split
    · intro h; cases h
    · split <;> intro h <;> cases h
  · intro h; cases h

theorem keywords_variable : ∀ x ∈ keywords, x.2 ≠ .variable := by decide +kernel

theorem classify_tok {hd : Bool} {w : GoStr} {tok : Tok} (h : tok = .identifier ∨ tok = .typeName) :
    (classify env tok hd w).1 ≠ .variable := by
  rcases h with rfl | rfl
  · unfold classify
    rw [if_pos rfl]
    split
    · intro h; cases h
    · split
      · intro h; cases h
      · intro h; cases h
      · dsimp only; split <;> (intro h; cases h)
      · next k _ _ _ hk =>
        intro h
        dsimp only at h
        subst h
        unfold lookupStr at hk
        rw [Option.map_eq_some_iff] at hk
        obtain ⟨x, hx, hx2⟩ := hk
        exact keywords_variable x (List.mem_of_find?_eq_some hx) hx2
      · intro h; cases h
  · intro h; cases h

theorem consumeQualifiedName' (start : Nat) (tok : Tok) (ht : tok = .identifier ∨ tok = .typeName ∨ tok = .variable) :
    Lexes env start (consumeQualifiedName start tok) := by
  intro s hr hs
  unfold consumeQualifiedName
  wpr
  refine wp_imp (nameLoop' _ _ _ _ _ hr) ?_
  intro hd s1 h1
  refine from' fun h2 h3 => ?_
  refine ⟨⟨h1.nls, h1.defs, h1.tsp, h1.ge, h1.le⟩, classify_val, ?_⟩
  intro hv
  refine ⟨Nat.lt_of_lt_of_le hs h1.ge, ?_⟩
  intro v hvv
  rcases ht with rfl | rfl | rfl
  · exact absurd hv (classify_tok (.inl rfl))
  · exact absurd hv (classify_tok (.inr rfl))
  · rw [classify_variable] at hvv
    cases hvv
    have := h1.ge
    simp only [if_true] at h2
    simp only [List.length_take, List.length_drop, if_true]
    omega

theorem skipDecimalDigits' (hr : Rd env s) : wp env skipDecimalDigits (fun _ s' => Fr env s s') tt s := by
  unfold skipDecimalDigits
  wpr
  refine peek' hr fun c n hc hn => ?_
  dsimp only
  split
  · wpr
    refine wp_imp (advWhile' _ _ (s := { s with pos := s.pos + n }) ⟨hr.1, hn⟩) ?_
    rintro a s1 ⟨_, h1, _⟩
    exact (Sk.adv hr hn).toFr.trans h1
  · wpr
    refine wp_imp (advWhile' _ _ hr) ?_
    rintro a s1 ⟨_, h1, _⟩
    exact h1

theorem needDigits' (hr : Rd env s) : wp env needDigits (fun _ s' => Fr env s s') tt s := by
  unfold needDigits
  wpr
  refine wp_imp (skipDecimalDigits' hr) ?_
  intro a s1 h1
  split
  · exact h1
  · exact trivial

/-- A token without value, or with a value that is not an expression. -/
theorem TokOk.set {start : Nat} {s : St} {t : Tok} {v : TokVal} (ht : t ≠ .variable) (hv : ∀ e, v ≠ .expr e) :
    TokOk start { s with tok := t, val := v } := ⟨hv, fun h => absurd h ht⟩

theorem consumeFloat' (start d : Nat) : Lexes env start (consumeFloat start d) := by
  intro s hr hs
  unfold consumeFloat
  wpr
  refine wp_imp (needDigits' hr) ?_
  intro _ s1 h1
  refine peek' h1.rd fun c n hc hn => ?_
  dsimp only
  split
  · wpr
    refine wp_imp (needDigits' (s := { s1 with pos := s1.pos + n }) ⟨h1.nls, hn⟩) ?_
    intro _ s2 h2
    refine peek' h2.rd fun c n hc hn' => ?_
    dsimp only
    split
    · exact trivial
    · wpr
      refine from' fun _ _ => ?_
      exact ⟨(h1.trans (Sk.adv h1.rd hn).toFr).trans ⟨h2.nls, h2.defs, h2.tsp, h2.ge, h2.le⟩, .set (by decide) (by intro e h; cases h)⟩
  · wpr
    split
    · exact trivial
    · wpr
      refine from' fun _ _ => ?_
      exact ⟨⟨h1.nls, h1.defs, h1.tsp, h1.ge, h1.le⟩, .set (by decide) (by intro e h; cases h)⟩

theorem appendHexadec' (hr : Rd env s) : wp env appendHexadec (fun _ s' => Fr env s s') tt s := by
  unfold appendHexadec
  wpr
  refine next' hr fun c n hc hn hf => ?_
  dsimp only
  split
  · wpr
    refine next' hf.rd fun c' n' hc' hn' hf' => ?_
    dsimp only
    split
    · wpr
      refine from' fun _ _ => ?_
      exact hf.trans hf'
    · exact trivial
  · wpr
    refine from' fun _ _ => ?_
    exact hf

theorem hexDigits' (start k : Nat) (hr : Rd env s) : wp env (hexDigits start k) (fun _ s' => Fr env s s') tt s := by
  induction k generalizing s with
  | zero => exact Fr.refl hr
  | succ k ih =>
    unfold hexDigits
    wpr
    refine next' hr fun c n hc hn hf => ?_
    dsimp only
    split
    · exact wp_imp (ih hf.rd) fun _ _ h => hf.trans h
    · exact trivial

theorem appendUnicode' (hr : Rd env s) : wp env appendUnicode (fun _ s' => Fr env s s') tt s := by
  unfold appendUnicode
  wpr
  refine next' hr fun c n hc hn hf => ?_
  dsimp only
  split
  · wpr
    refine wp_imp (hexDigits' _ _ hf.rd) fun _ s1 h1 => ?_
    refine from' fun _ _ => ?_
    exact hf.trans h1
  split
  · exact trivial
  · wpr
    refine wp_imp (advWhile' _ _ hf.rd) ?_
    rintro ⟨c', n'⟩ s1 ⟨_, h1, hc'⟩
    dsimp only at hc' ⊢
    split
    · wpr
      refine from' fun _ h3 => ?_
      have := hc'.bound
      exact (hf.trans h1).trans (Sk.adv h1.rd (by omega)).toFr
    · exact trivial

theorem escapeHandler' (h : Handler) (c : Nat) (hr : Rd env s) :
    wp env (escapeHandler h c) (fun _ s' => Fr env s s') tt s := by
  have h0 := Fr.refl hr
  unfold escapeHandler
  split
  · exact h0
  · exact h0
  · wpr
    repeat' split
    all_goals first
      | exact h0
      | exact appendUnicode' hr
      | exact appendHexadec' hr

theorem eppComment' (f prev : Nat) (hr : Rd env s) : wp env (eppComment f prev) (fun _ s' => Fr env s s') tt s := by
  induction f generalizing s prev with
  | zero => exact trivial
  | succ f ih =>
    unfold eppComment
    wpr
    refine next' hr fun c n hc hn hf => ?_
    dsimp only
    split
    · exact hf
    split
    · wpr
      refine peek' hf.rd fun c' n' hc' hn' => ?_
      dsimp only
      split
      · wpr; exact hf.trans (Sk.adv hf.rd hn').toFr
      · exact wp_imp (ih _ hf.rd) fun _ _ h => hf.trans h
    · exact wp_imp (ih _ hf.rd) fun _ _ h => hf.trans h

theorem eppText' (f : Nat) (buf : GoStr) (last : Nat) (hr : Rd env s) :
    wp env (eppText f buf last) (fun _ s' => Fr env s s') tt s := by
  induction f generalizing s buf last with
  | zero => exact trivial
  | succ f ih =>
    have go : ∀ (t : St) (buf : GoStr) (last : Nat), Fr env s t →
        wp env (eppText f buf last) (fun _ s' => Fr env s s') tt t := by
      intro t buf last ht
      exact wp_imp (ih buf last ht.rd) fun _ _ h => ht.trans h
    unfold eppText
    wpr
    refine next' hr fun c n hc hn hf => ?_
    dsimp only
    split
    · exact hf
    split
    · wpr
      refine peek' hf.rd fun c' n' hc' hn' => ?_
      dsimp only
      split
      · exact go _ _ _ hf
      wpr
      have hf' : Fr env s { s with pos := s.pos + n + n' } := hf.trans (Sk.adv hf.rd hn').toFr
      refine peek' hf'.rd fun c'' n'' hc'' hn'' => ?_
      have hf'' : Fr env s { s with pos := s.pos + n + n' + n'' } := hf'.trans (Sk.adv hf'.rd hn'').toFr
      dsimp only
      split
      · wpr; exact go _ _ _ hf''
      split
      · wpr
        refine wp_imp (eppComment' _ _ hf''.rd) fun found s2 h2 => ?_
        split
        · exact go _ _ _ (hf''.trans h2)
        · exact trivial
      · wpr
        exact ⟨hr.1, rfl, rfl, Nat.le_refl _, hr.2⟩
    split
    · exact go _ _ _ hf
    split
    · wpr
      refine peek' hf.rd fun c' n' hc' hn' => ?_
      dsimp only
      split
      · wpr
        have hf' : Fr env s { s with pos := s.pos + n + n' } := hf.trans (Sk.adv hf.rd hn').toFr
        refine peek' hf'.rd fun c'' n'' hc'' hn'' => ?_
        have hf'' : Fr env s { s with pos := s.pos + n + n' + n'' } := hf'.trans (Sk.adv hf'.rd hn'').toFr
        dsimp only
        split
        · wpr; exact go _ _ _ hf''
        · exact go _ _ _ hf'
      · exact go _ _ _ hf
    · exact go _ _ _ hf

theorem consumeBacktickedString' (start : Nat) : Lexes env start consumeBacktickedString := by
  intro s hr hs
  unfold consumeBacktickedString
  wpr
  refine wp_imp (advWhile' _ _ hr) ?_
  rintro ⟨c, n⟩ s1 ⟨_, h1, hc⟩
  dsimp only at hc ⊢
  split
  · exact trivial
  · wpr
    refine from' fun _ h3 => ?_
    have := hc.bound
    refine ⟨⟨h1.nls, h1.defs, h1.tsp, Nat.le_trans h1.ge ?_, ?_⟩, ⟨(fun e h => nomatch h), (fun h => nomatch h)⟩⟩
    · exact Nat.le_add_right _ _
    · show s1.pos + n ≤ _
      omega

end
end PP.Rg
