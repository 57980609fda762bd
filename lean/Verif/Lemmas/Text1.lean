import Verif.Spec.Text
import Verif.Parser

/-! # Strings in results are UTF-8: the logic -/
namespace PP.Vt
open PP PP.Props

/-! ## Valid strings -/

abbrev V (w : GoStr) : Prop := ValidUtf8 w

theorem V.nil : V [] := ⟨[], by simp, rfl⟩
theorem V.append {a b : GoStr} (ha : V a) (hb : V b) : V (a ++ b) := by
  obtain ⟨rs, h1, rfl⟩ := ha
  obtain ⟨ts, h2, rfl⟩ := hb
  refine ⟨rs ++ ts, ?_, by simp⟩
  intro r hr
  rcases List.mem_append.1 hr with hr | hr
  · exact h1 r hr
  · exact h2 r hr
theorem V.rune {r : Nat} (h : isScalar r = true) : V (encodeRune r) := ⟨[r], by simpa using h, by simp⟩
theorem V.encode (r : Nat) : V (encodeRune r) := by
  cases h : isScalar r with
  | true => exact .rune h
  | false =>
    have : encodeRune r = encodeRune 0xFFFD := by
      have hs := mt (scalar_iff r).2 (by simp [h])
      unfold encodeRune
      simp only [isScalar] at h
      repeat' split
      all_goals first | rfl | omega | (exfalso; simp_all; omega) | simp_all
    rw [this]
    exact .rune (by decide)
theorem V.byte {b : UInt8} (h : b.toNat < 128) : V [b] := by
  have := V.rune (r := b.toNat) (by rw [scalar_iff]; omega)
  rwa [encodeRune_ascii h, ofNat_toNat] at this
theorem V.ascii {w : GoStr} (h : ∀ b ∈ w, b.toNat < 128) : V w := by
  induction w with
  | nil => exact .nil
  | cons b w ih => exact (V.byte (h b (List.mem_cons_self ..))).append (ih fun x hx => h x (List.mem_cons_of_mem _ hx))
theorem V.lit {w : GoStr} (h : w.all (fun b => b.toNat < 128) = true) : V w := .ascii (by simpa using h)

/-- Without a last byte that is ASCII. -/
theorem V.dropLast {w : GoStr} {b : UInt8} (h : V (w ++ [b])) (hb : b.toNat < 128) : V w := by
  obtain ⟨rs, h1, h2⟩ := h
  rcases List.eq_nil_or_concat rs with rfl | ⟨rs', r, rfl⟩
  · simp at h2
  · rw [List.concat_eq_append] at h1 h2
    rw [utf8_append] at h2
    simp only [utf8_cons, utf8_nil, List.append_nil] at h2
    have hm : b ∈ encodeRune r := by
      have h3 := congrArg List.getLast? h2
      rw [List.getLast?_append, List.getLast?_append] at h3
      simp only [List.getLast?_singleton, Option.some_or] at h3
      cases hl : (encodeRune r).getLast? with
      | none => exact absurd (List.getLast?_eq_none_iff.1 hl) (encodeRune_ne_nil r)
      | some x =>
        rw [hl] at h3
        simp only [Option.some_or, Option.some.injEq] at h3
        subst h3
        exact List.mem_of_getLast? hl
    have hr := encodeRune_ascii_mem hm hb
    have : encodeRune r = [b] := by
      rw [encodeRune_ascii (by omega)]
      rw [encodeRune_ascii (by omega)] at hm
      simp at hm
      rw [hm]
    rw [this] at h2
    have := List.append_inj_left' h2 rfl
    subst this
    exact ⟨rs', fun r hr => h1 r (List.mem_append_left _ hr), rfl⟩

section
variable (env : Env)

/-- The text between two positions. -/
structure Seg (p q : Nat) : Prop where
  le : p ≤ q
  v : V ((env.text.drop p).take (q - p))

end

section
variable {env : Env} {p q r : Nat}

theorem Seg.refl : Seg env p p := ⟨Nat.le_refl _, by simpa using V.nil⟩
theorem Seg.trans (h1 : Seg env p q) (h2 : Seg env q r) : Seg env p r := by
  refine ⟨Nat.le_trans h1.le h2.le, ?_⟩
  have hq : (env.text.drop p).take (r - p) = (env.text.drop p).take (q - p) ++ (env.text.drop q).take (r - q) := by
    have h3 : r - p = (q - p) + (r - q) := by have := h1.le; have := h2.le; omega
    rw [h3, List.take_add, List.drop_drop]
    have : p + (q - p) = q := by have := h1.le; omega
    rw [this]
  rw [hq]
  exact h1.v.append h2.v

/-- What was decoded. -/
theorem Seg.rune {c n : Nat} (h : decodeRune (env.text.drop p) = (c, n)) (hc : c ≠ runeError) : Seg env p (p + n) := by
  obtain ⟨h1, rfl, t, ht⟩ := decode_valid h hc
  refine ⟨by omega, ?_⟩
  rw [Nat.add_sub_cancel_left, ht, List.take_left']
  · exact .rune h1
  · rfl

/-- Without a last byte that is ASCII. -/
theorem Seg.drop1 {b : UInt8} (h : Seg env p (q + 1)) (hp : p ≤ q) (hb : env.text[q]? = some b) (ha : b.toNat < 128) : Seg env p q := by
  refine ⟨hp, V.dropLast (b := b) ?_ ha⟩
  have h2 := h.v
  have h3 : q + 1 - p = (q - p) + 1 := by omega
  rw [h3, List.take_add_one, List.getElem?_drop] at h2
  have : p + (q - p) = q := by omega
  rw [this, hb] at h2
  exact h2
end

/-! ## The logic -/

/-- All strings in a tree are valid. -/
inductive Txt : Expr → Prop
  | mk {e} : (∀ w ∈ strings e, V w) → (∀ k ∈ e.kids, Txt k) → Txt e

/-- The value of a token. -/
def VOK : TokVal → Prop
  | .str w => V w
  | .expr e => Txt e
  | .flt v => V v.text
  | _ => True

structure I (s : St) : Prop where
  val : VOK s.val
  defs : ∀ d ∈ s.defs, Txt d
  names : ∀ n ∈ s.names, V n

section
variable (env : Env)

/-- The results of `x` satisfy `R`. -/
def Ok {α : Type} (x : P α) (R : α → Prop) : Prop :=
  ∀ s a t, I s → x env s = .ok a t → I t ∧ R a
/-- The same with the states. -/
def Tr {α : Type} (s : St) (x : P α) (Q : α → St → Prop) : Prop :=
  ∀ a t, I s → x env s = .ok a t → I t ∧ Q a t
end

variable {env : Env} {α β : Type} {R : α → Prop} {R' : β → Prop}

theorem Tr.bind {s : St} {x : P α} {f : α → P β} {Q : α → St → Prop} {Q' : β → St → Prop}
    (h : Tr env s x Q) (k : ∀ a t, Q a t → Tr env t (f a) Q') : Tr env s (x >>= f) Q' := by
  intro b t hi hx
  change (match x env s with | .ok a s' => f a env s' | .fail e s' => .fail e s') = _ at hx
  cases hxx : x env s with
  | ok a u =>
    rw [hxx] at hx
    obtain ⟨h1, h3⟩ := h a u hi hxx
    exact k a u h3 b t h1 hx
  | fail e u => rw [hxx] at hx; cases hx
theorem Tr.pure {s : St} {a : α} {Q : α → St → Prop} (h : Q a s) : Tr env s (pure a) Q := by
  intro b t hi hx; cases hx; exact ⟨hi, h⟩
theorem Tr.bindPure {s : St} {a : α} {f : α → P β} {Q : β → St → Prop} (h : Tr env s (f a) Q) : Tr env s (Pure.pure a >>= f) Q := h
theorem Tr.weak {s : St} {x : P α} {Q Q' : α → St → Prop} (h : Tr env s x Q) (k : ∀ a t, Q a t → Q' a t) : Tr env s x Q' :=
  fun a t hi hx => by obtain ⟨h1, h2⟩ := h a t hi hx; exact ⟨h1, k a t h2⟩
theorem Tr.ite {s : St} {c : Prop} [Decidable c] {x y : P α} {Q : α → St → Prop} (hx : c → Tr env s x Q) (hy : ¬ c → Tr env s y Q) :
    Tr env s (if c then x else y) Q := by
  split
  · exact hx ‹_›
  · exact hy ‹_›
theorem Ok.tr {s : St} {x : P α} (h : Ok env x R) : Tr env s x (fun a _ => R a) := fun a t hi hx => h s a t hi hx
theorem Tr.ok {x : P α} {Q : St → α → St → Prop} (h : ∀ s, Tr env s x (Q s)) (k : ∀ s a t, Q s a t → R a) : Ok env x R :=
  fun s a t hi hx => by obtain ⟨h1, h2⟩ := h s a t hi hx; exact ⟨h1, k s a t h2⟩
theorem Tr.failing {s : St} {x : P α} {Q : α → St → Prop} (h : ∀ s a t, x env s ≠ .ok a t) : Tr env s x Q :=
  fun a t _ hx => absurd hx (h s a t)
theorem Tr.issue {s : St} {c : Code} {Q : α → St → Prop} : Tr env s (issue c) Q := fun _ _ _ hx => nomatch hx
theorem Tr.timeout {s : St} {Q : α → St → Prop} : Tr env s timeout Q := fun _ _ _ hx => nomatch hx
theorem Tr.crash {s : St} {c : Crash} {Q : α → St → Prop} : Tr env s (crash c) Q := fun _ _ _ hx => nomatch hx
theorem Tr.issueAt {s : St} {n : Nat} {c : Code} {Q : α → St → Prop} : Tr env s (issueAt n c) Q := fun _ _ _ hx => nomatch hx
theorem Tr.getEnv {s : St} : Tr env s getEnv (fun a t => env = a ∧ t = s) := by intro a t hi hx; cases hx; exact ⟨hi, rfl, rfl⟩
theorem Tr.getPos {s : St} : Tr env s getPos (fun a t => a = s.pos ∧ t = s) := by intro a t hi hx; cases hx; exact ⟨hi, rfl, rfl⟩
theorem Tr.getS {s : St} : Tr env s getS (fun a t => a = s ∧ t = s) := by intro a t hi hx; cases hx; exact ⟨hi, rfl, rfl⟩
theorem Tr.curTok {s : St} : Tr env s curTok (fun a t => a = s.tok ∧ t = s) := by intro a t hi hx; cases hx; exact ⟨hi, rfl, rfl⟩
theorem Tr.setPos {s : St} {n : Nat} : Tr env s (setPos n) (fun _ t => t.pos = n) := by
  intro a t hi hx; cases hx; exact ⟨⟨hi.val, hi.defs, hi.names⟩, rfl⟩
theorem Tr.advance {s : St} {n : Nat} : Tr env s (advance n) (fun _ t => t.pos = s.pos + n) := by
  intro a t hi hx; cases hx; exact ⟨⟨hi.val, hi.defs, hi.names⟩, rfl⟩
/-- What was seen at a position. -/
structure Saw (env : Env) (p : Nat) (cw : Nat × Nat) : Prop where
  seg : Seg env p (p + cw.2)
  asc : cw.1 ≠ 0 → cw.1 < 128 → cw.2 = 1 ∧ env.text[p]? = some (UInt8.ofNat cw.1)
theorem Tr.peekAt {s : St} {n : Nat} : Tr env s (peekAt n) (fun cw t => t = s ∧ Saw env n cw) := by
  intro a t hi hx
  unfold PP.peekAt at hx
  dsimp only at hx
  split at hx
  · cases hx; exact ⟨hi, rfl, .refl, fun h => absurd rfl h⟩
  · split at hx
    · cases hx
    · rename_i hne
      cases hx
      refine ⟨hi, rfl, .rune rfl hne, fun _ h => ?_⟩
      obtain ⟨h1, h2, t', h3⟩ := decode_valid (r := (decodeRune (env.text.drop n)).1) (w := (decodeRune (env.text.drop n)).2) rfl hne
      rw [encodeRune_ascii h] at h2 h3
      refine ⟨h2, ?_⟩
      have := congrArg (fun l => l[0]?) h3
      simp only [List.getElem?_drop] at this
      exact this
theorem Tr.peek {s : St} : Tr env s peek (fun cw t => t = s ∧ Saw env s.pos cw) := fun a t hi hx => Tr.peekAt a t hi hx
theorem Tr.next {s : St} : Tr env s next (fun cp t => cp.2 = s.pos ∧ ∃ n, Saw env s.pos (cp.1, n) ∧ t.pos = s.pos + n) := by
  intro a t hi hx
  unfold PP.next at hx
  cases hp : PP.peekAt s.pos env s with
  | ok c u =>
    rw [hp] at hx
    cases hx
    obtain ⟨h1, rfl, h2⟩ := Tr.peekAt c u hi hp
    exact ⟨⟨h1.val, h1.defs, h1.names⟩, rfl, c.2, h2, rfl⟩
  | fail => rw [hp] at hx; cases hx
theorem Tr.from_ {s : St} {n : Nat} : Tr env s (from_ n) (fun w t => t = s ∧ (Seg env n s.pos → V w)) := by
  intro a t hi hx
  unfold PP.from_ at hx
  split at hx
  · cases hx; exact ⟨hi, rfl, fun h => h.v⟩
  · cases hx

theorem Ok.bind {x : P α} {f : α → P β} (h : Ok env x R) (k : ∀ a, R a → Ok env (f a) R') :
    Ok env (x >>= f) R' := fun s b t hi hx => Tr.bind (Ok.tr (s := s) h) (fun a _ ha => (k a ha).tr) b t hi hx
theorem Ok.pure {a : α} (h : R a) : Ok env (pure a) R := fun s b t hi hx => by cases hx; exact ⟨hi, h⟩
theorem Ok.bindPure {a : α} {f : α → P β} (h : Ok env (f a) R') : Ok env (Pure.pure a >>= f) R' := h
theorem Ok.weak {R₂ : α → Prop} {x : P α} (h : Ok env x R) (k : ∀ a, R a → R₂ a) : Ok env x R₂ :=
  fun s a t hi hx => by obtain ⟨h1, h3⟩ := h s a t hi hx; exact ⟨h1, k a h3⟩
theorem Ok.any {x : P α} (h : Ok env x R) : Ok env x (fun _ => True) := h.weak fun _ _ => trivial
theorem Ok.ite {c : Prop} [Decidable c] {x y : P α} (hx : c → Ok env x R) (hy : ¬ c → Ok env y R) :
    Ok env (if c then x else y) R := by
  split
  · exact hx ‹_›
  · exact hy ‹_›
theorem Ok.throwE {e : Err} : Ok env (throwE e : P α) R := fun _ _ _ _ hx => nomatch hx
theorem Ok.issue {c : Code} : Ok env (issue c : P α) R := fun _ _ _ _ hx => nomatch hx
theorem Ok.crash {c : Crash} : Ok env (crash c : P α) R := fun _ _ _ _ hx => nomatch hx
theorem Ok.timeout : Ok env (timeout : P α) R := fun _ _ _ _ hx => nomatch hx
theorem Ok.getS : Ok env getS I := by
  intro s a t hi hx; cases hx; exact ⟨hi, hi⟩
theorem Ok.getEnv : Ok env getEnv (fun _ => True) := by
  intro s a t hi hx; cases hx; exact ⟨hi, trivial⟩
theorem Ok.getPos : Ok env getPos (fun _ => True) := by
  intro s a t hi hx; cases hx; exact ⟨hi, trivial⟩
theorem Ok.curTok : Ok env curTok (fun _ => True) := by
  intro s a t hi hx; cases hx; exact ⟨hi, trivial⟩
theorem Ok.tokStart : Ok env tokStart (fun _ => True) := by
  intro s a t hi hx; cases hx; exact ⟨hi, trivial⟩
theorem Ok.here {n : Nat} : Ok env (here n) (fun _ => True) := by
  intro s a t hi hx; cases hx; exact ⟨hi, trivial⟩
theorem V.tok (t : Tok) : V t.str := by
  apply V.lit
  cases t <;> decide
theorem Ok.tokenString : Ok env tokenString V := by
  intro s a t hi hx
  unfold PP.tokenString at hx
  split at hx
  · cases hx; exact ⟨hi, V.tok _⟩
  · rename_i heq; cases hx; have := hi.val; rw [heq] at this; exact ⟨hi, this⟩
  · cases hx

/-- Assignments that concern neither names nor definitions nor values of tokens. -/
theorem Ok.modS {f : St → St} (h : ∀ s, (f s).names = s.names ∧ (f s).defs = s.defs ∧ (f s).val = s.val) :
    Ok env (modS f) (fun _ => True) := by
  intro s a t hi hx
  cases hx
  obtain ⟨h1, h2, h3⟩ := h s
  exact ⟨⟨by rw [h3]; exact hi.val, by rw [h2]; exact hi.defs, by rw [h1]; exact hi.names⟩, trivial⟩
theorem Ok.setPos {n : Nat} : Ok env (setPos n) (fun _ => True) := .modS fun _ => ⟨rfl, rfl, rfl⟩
theorem Ok.advance {n : Nat} : Ok env (advance n) (fun _ => True) := .modS fun _ => ⟨rfl, rfl, rfl⟩
theorem Ok.newLine : Ok env newLine (fun _ => True) := by
  intro s a t hi hx; cases hx; exact ⟨⟨hi.val, hi.defs, hi.names⟩, trivial⟩
theorem Ok.setTokenValue {t : Tok} {v : TokVal} (h : VOK v) :
    Ok env (setTokenValue t v) (fun _ => True) := by
  intro s a t hi hx; cases hx; exact ⟨⟨h, hi.defs, hi.names⟩, trivial⟩
theorem Ok.setToken {t : Tok} : Ok env (setToken t) (fun _ => True) :=
  fun s a t hi hx => by cases hx; exact ⟨⟨trivial, hi.defs, hi.names⟩, trivial⟩
theorem Ok.peekAt {n : Nat} : Ok env (peekAt n) (fun _ => True) :=
  Tr.ok (Q := fun s a t => t = s ∧ Saw env n a) (fun _ => Tr.peekAt) fun _ _ _ _ => trivial
theorem Ok.peek : Ok env peek (fun _ => True) := fun s a t hi hx => Ok.peekAt s a t hi hx
theorem Ok.next : Ok env next (fun _ => True) := Tr.ok (fun _ => Tr.next) fun _ _ _ _ => trivial
theorem Ok.from_ {n : Nat} : Ok env (from_ n) (fun _ => True) := Tr.ok (fun _ => Tr.from_) fun _ _ _ _ => trivial
theorem Ok.issueAt {n : Nat} {c : Code} : Ok env (issueAt n c : P α) R := fun _ _ _ _ hx => nomatch hx
theorem Ok.unterminatedQuote {n : Nat} : Ok env (unterminatedQuote n : P α) R := fun _ _ _ _ hx => nomatch hx

theorem Ok.bindIssue {c : Code} {f : α → P β} : Ok env (PP.issue c >>= f) R' := fun _ _ _ _ hx => nomatch hx
theorem Ok.bindIssueAt {n : Nat} {c : Code} {f : α → P β} : Ok env (PP.issueAt n c >>= f) R' := fun _ _ _ _ hx => nomatch hx
theorem Ok.bindCrash {c : Crash} {f : α → P β} : Ok env (PP.crash c >>= f) R' := fun _ _ _ _ hx => nomatch hx

/-- Valid strings. -/
syntax "vl" : tactic
macro_rules | `(tactic| vl) => `(tactic| first
  | with_reducible exact V.nil | with_reducible exact V.encode _ | (with_reducible apply V.append <;> vl)
  | exact V.lit (by decide))
macro_rules | `(tactic| vl) => `(tactic| assumption)

/-- Known calls. -/
syntax "okl" : tactic
macro_rules | `(tactic| okl) => `(tactic| assumption)
macro_rules | `(tactic| okl) => `(tactic| with_reducible exact Ok.pure trivial)
macro_rules | `(tactic| okl) => `(tactic| ((with_reducible refine Ok.setTokenValue ?_); (first | with_reducible exact True.intro | exact True.intro | (show V _; vl)); done))
macro_rules | `(tactic| okl) => `(tactic| with_reducible exact Ok.modS (by intro _; exact ⟨rfl, rfl, rfl⟩))
macro_rules | `(tactic| okl) => `(tactic| first
  | with_reducible exact Ok.getS | with_reducible exact Ok.getEnv | with_reducible exact Ok.getPos | with_reducible exact Ok.curTok | with_reducible exact Ok.tokStart | with_reducible exact Ok.here
  | with_reducible exact Ok.tokenString | with_reducible exact Ok.setPos | with_reducible exact Ok.advance | with_reducible exact Ok.newLine | with_reducible exact Ok.setToken | with_reducible exact Ok.peekAt
  | with_reducible exact Ok.peek | with_reducible exact Ok.next | with_reducible exact Ok.from_ | with_reducible exact Ok.throwE | with_reducible exact Ok.issue | with_reducible exact Ok.crash | with_reducible exact Ok.timeout
  | with_reducible exact Ok.issueAt | with_reducible exact Ok.unterminatedQuote)

/-- One step into a function. -/
macro "ok1" : tactic => `(tactic| first
  | okl
  | with_reducible apply Ok.bindPure
  | with_reducible exact Ok.bindIssue
  | with_reducible exact Ok.bindIssueAt
  | with_reducible exact Ok.bindCrash
  | ((with_reducible apply Ok.bind); (· okl); intro _ _)
  | (with_reducible refine Ok.bind (R := V) (Ok.ite (fun _ => ?_) (fun _ => ?_)) (fun _ _ => ?_))
  | (with_reducible refine Ok.bind (R := fun _ => True) (Ok.ite (fun _ => ?_) (fun _ => ?_)) (fun _ _ => ?_))
  | (with_reducible refine Ok.ite ?_ ?_ <;> intro _)
  | split
  | (dsimp only))

macro "ok" : tactic => `(tactic| repeat' ok1)

theorem Ok.advWhile (p : Nat → Bool) (f : Nat) : Ok env (advWhile p f) (fun _ => True) := by
  induction f with
  | zero => unfold PP.advWhile; ok
  | succ f ih => unfold PP.advWhile; ok
end PP.Vt
