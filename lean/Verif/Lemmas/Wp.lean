import Verif.Parser
import Verif.Lemmas.Utf8

/-!
# Weakest preconditions for the parser monad

`wp env m Q E s`: running `m` from `s` ends in a value and a state that satisfy `Q`, or in a panic
value that satisfies `E`.
-/
namespace PP

def wp {α} (env : Env) (m : P α) (Q : α → St → Prop) (E : Err → Prop) (s : St) : Prop :=
  match m env s with
  | .ok a s' => Q a s'
  | .fail e _ => E e

section
variable {α β : Type} {env : Env} {Q : α → St → Prop} {R : β → St → Prop} {E : Err → Prop} {s : St}

theorem wp_mono {Q' : α → St → Prop} {E' : Err → Prop} {m : P α} (h : wp env m Q E s)
    (hQ : ∀ a s', Q a s' → Q' a s') (hE : ∀ e, E e → E' e) : wp env m Q' E' s := by
  unfold wp at *
  cases hm : m env s <;> simp only [hm] at h ⊢
  · exact hQ _ _ h
  · exact hE _ h

/-- Same panics. -/
theorem wp_imp {Q' : α → St → Prop} {m : P α} (h : wp env m Q E s)
    (hQ : ∀ a s', Q a s' → Q' a s') : wp env m Q' E s := wp_mono h hQ (fun _ h => h)

theorem wp_bind {m : P α} {f : α → P β} :
    wp env (m >>= f) R E s ↔ wp env m (fun a s' => wp env (f a) R E s') E s := by
  show wp env (P.bind m f) R E s ↔ _
  unfold wp P.bind
  cases m env s <;> rfl

theorem wp_pure {a : α} : wp env (pure a) Q E s ↔ Q a s := Iff.rfl
theorem wp_getS {Q : St → St → Prop} : wp env getS Q E s ↔ Q s s := Iff.rfl
theorem wp_getEnv {Q : Env → St → Prop} : wp env getEnv Q E s ↔ Q env s := Iff.rfl
theorem wp_modS {f : St → St} {Q : Unit → St → Prop} : wp env (modS f) Q E s ↔ Q () (f s) := Iff.rfl
theorem wp_issue {c : Code} : wp env (issue c) Q E s ↔ E (.issue c s.pos) := Iff.rfl
theorem wp_throwE {e : Err} : wp env (throwE e) Q E s ↔ E e := Iff.rfl
theorem wp_crash {k : Crash} : wp env (crash k) Q E s ↔ E (.crash k) := Iff.rfl
theorem wp_timeout : wp env timeout Q E s ↔ E .timeout := Iff.rfl
theorem wp_getPos {Q : Nat → St → Prop} : wp env getPos Q E s ↔ Q s.pos s := Iff.rfl
theorem wp_setPos {n : Nat} {Q : Unit → St → Prop} : wp env (setPos n) Q E s ↔ Q () { s with pos := n } := Iff.rfl
theorem wp_advance {n : Nat} {Q : Unit → St → Prop} :
    wp env (advance n) Q E s ↔ Q () { s with pos := s.pos + n } := Iff.rfl
theorem wp_curTok {Q : Tok → St → Prop} : wp env curTok Q E s ↔ Q s.tok s := Iff.rfl
theorem wp_tokStart {Q : Nat → St → Prop} : wp env tokStart Q E s ↔ Q s.tsp s := Iff.rfl
theorem wp_setToken {t : Tok} {Q : Unit → St → Prop} :
    wp env (setToken t) Q E s ↔ Q () { s with tok := t, val := .nil } := Iff.rfl
theorem wp_setTokenValue {t : Tok} {v : TokVal} {Q : Unit → St → Prop} :
    wp env (setTokenValue t v) Q E s ↔ Q () { s with tok := t, val := v } := Iff.rfl
theorem wp_here {n : Nat} {Q : Pos → St → Prop} :
    wp env (here n) Q E s ↔ Q ⟨n, (s.pos : Int) - n⟩ s := Iff.rfl
theorem wp_qualifiedName {n : GoStr} {Q : GoStr → St → Prop} :
    wp env (qualifiedName n) Q E s ↔ Q (joinStr b!"::" (s.names ++ [n])) s := Iff.rfl
theorem wp_pushName {n : GoStr} {Q : Unit → St → Prop} :
    wp env (pushName n) Q E s ↔ Q () { s with names := s.names ++ [n] } := Iff.rfl
theorem wp_popName {Q : Unit → St → Prop} :
    wp env popName Q E s ↔ Q () { s with names := s.names.dropLast } := Iff.rfl
theorem wp_issueAt {c : Code} {n : Nat} : wp env (issueAt n c) Q E s ↔ E (.issue c n) := Iff.rfl
theorem wp_addDefinition {e : Expr} {Q : Expr → St → Prop} :
    wp env (addDefinition e) Q E s ↔ Q e { s with defs := s.defs ++ [e] } := Iff.rfl
theorem wp_assertToken {t : Tok} {Q : Unit → St → Prop} :
    wp env (assertToken t) Q E s ↔ if s.tok = t then Q () s else E (.issue .parseExpectedToken s.tsp) := by
  unfold assertToken
  rw [wp_bind, wp_getS]
  split <;> rfl
theorem wp_ite {c : Prop} [Decidable c] {a b : P α} :
    wp env (if c then a else b) Q E s ↔ if c then wp env a Q E s else wp env b Q E s := by
  split <;> rfl
theorem wp_newLine {Q : Unit → St → Prop} :
    wp env newLine Q E s ↔
      Q () { s with pos := s.nls.getD s.pos, nls := Option.none, bol := s.nls.getD s.pos } := Iff.rfl

/-- What `PeekAt p` can see: nothing at the end, else a rune of at least one byte that lies in the
text. -/
structure Seen (env : Env) (p c n : Nat) : Prop where
  bound : p + n ≤ max p env.text.length
  atEnd : env.text.length ≤ p → c = 0 ∧ n = 0
  dec : p < env.text.length → decodeRune (env.text.drop p) = (c, n)
  pos : p < env.text.length → 1 ≤ n
  ascii : p < env.text.length → c < 128 → n = 1

theorem Seen.lt {p c n} (h : Seen env p c n) (hc : c ≠ 0) : p < env.text.length := by
  rcases Nat.lt_or_ge p env.text.length with h' | h'
  · exact h'
  · exact absurd (h.atEnd h').1 hc

theorem Seen.le {p c n} (h : Seen env p c n) (hc : c ≠ 0) : p + n ≤ env.text.length := by
  have := h.lt hc
  have := h.bound
  omega

theorem Seen.ge {p c n} (h : Seen env p c n) (hc : c ≠ 0) : 1 ≤ n := h.pos (h.lt hc)

theorem Seen.one {p c n} (h : Seen env p c n) (hc : c ≠ 0) (hc' : c < 128) : n = 1 := h.ascii (h.lt hc) hc'

theorem decodeRune_ascii {s : GoStr} (h : (decodeRune s).1 < 128) : (decodeRune s).2 = 1 := by
  have hr : (decodeRune s).1 ≠ runeError := by simp only [runeError]; omega
  have h2 := (decode_valid (s := s) (r := (decodeRune s).1) (w := (decodeRune s).2) rfl hr).2.1
  rw [h2, encodeRune_ascii h]; rfl

theorem wp_peekAt {p : Nat} {Q : Nat × Nat → St → Prop}
    (h : ∀ c n, Seen env p c n → Q (c, n) s)
    (hE : E (.invalidUnicode s.pos)) : wp env (peekAt p) Q E s := by
  unfold wp peekAt
  by_cases hp : env.text.length ≤ p
  · simp only [if_pos hp]
    exact h _ _ ⟨by omega, fun _ => ⟨rfl, rfl⟩, by omega, by omega, by omega⟩
  · simp only [if_neg hp]
    by_cases hr : (decodeRune (env.text.drop p)).1 = runeError
    · simp only [if_pos hr]; exact hE
    · simp only [if_neg hr]
      have hne : env.text.drop p ≠ [] := by
        intro h0
        have := congrArg List.length h0
        simp at this; omega
      have h1 := decodeRune_width_pos hne
      have h2 := decodeRune_width_le (env.text.drop p)
      simp only [List.length_drop] at h2
      have h2' : p + (decodeRune (env.text.drop p)).2 ≤ env.text.length := by omega
      exact h _ _ ⟨Nat.le_trans h2' (Nat.le_max_right _ _), fun h' => absurd h' hp, fun _ => rfl, fun _ => h1, fun _ => decodeRune_ascii⟩

theorem wp_peek {Q : Nat × Nat → St → Prop}
    (h : ∀ c n, Seen env s.pos c n → Q (c, n) s)
    (hE : E (.invalidUnicode s.pos)) : wp env peek Q E s := wp_peekAt h hE

theorem wp_next {Q : Nat × Nat → St → Prop}
    (h : ∀ c n, Seen env s.pos c n → Q (c, s.pos) { s with pos := s.pos + n })
    (hE : E (.invalidUnicode s.pos)) : wp env next Q E s := by
  have := wp_peekAt (env := env) (s := s) (p := s.pos) (E := E)
    (Q := fun cw s' => Q (cw.1, s.pos) { s' with pos := s.pos + cw.2 }) h hE
  unfold wp at this ⊢
  unfold next
  cases hp : peekAt s.pos env s <;> simp only [hp] at this ⊢ <;> exact this

theorem wp_from {n : Nat} {Q : GoStr → St → Prop} (h1 : n ≤ s.pos) (h2 : s.pos ≤ env.text.length)
    (h : Q ((env.text.drop n).take (s.pos - n)) s) : wp env (from_ n) Q E s := by
  unfold wp from_
  simp only [if_pos (And.intro h1 h2)]
  exact h

end
end PP
