import Verif.Lemmas.Utf8
import Verif.Lemmas.Dec
import Verif.Parser
import Verif.Spec.Lexemes

/-!
# Running the lexer on a known text

`Here env p rs`: the source from offset `p` on is the encoding of the characters `rs`.
-/
namespace PP

/-- The source from `p` on. -/
structure Here (env : Env) (p : Nat) (rs : List Nat) : Prop where
  le : p ≤ env.text.length
  drop : env.text.drop p = utf8 rs
  runes : ∀ r ∈ rs, Rune r

/-- What `Peek` gives. -/
def width : List Nat → Nat
  | [] => 0
  | c :: _ => (encodeRune c).length

theorem width_cons {c : Nat} {rs : List Nat} : width (c :: rs) = (encodeRune c).length := rfl

section
variable {env : Env} {s : St} {p : Nat} {rs ws : List Nat} {c : Nat}

theorem Rune.ascii {c : Nat} (h : c < 128) : Rune c := by
  refine ⟨(scalar_iff c).2 (.inl (by omega)), ?_⟩
  unfold runeError; omega

theorem enc_len {c : Nat} (h : c < 128) : (encodeRune c).length = 1 := by rw [encodeRune_ascii h]; rfl

theorem bind_ok {α β : Type} {m : P α} {f : α → P β} {a : α} {t : St} (h : m env s = .ok a t) :
    (m >>= f) env s = f a env t := by
  show P.bind m f env s = _
  unfold P.bind; rw [h]

theorem bind_fail {α β : Type} {m : P α} {f : α → P β} {e : Err} {t : St} (h : m env s = .fail e t) :
    (m >>= f) env s = .fail e t := by
  show P.bind m f env s = _
  unfold P.bind; rw [h]

theorem ex_bind {α β : Type} {m : P α} {f : α → P β} :
    (m >>= f) env s = match m env s with | .ok a t => f a env t | .fail e t => .fail e t := rfl
theorem ex_pure {α : Type} {a : α} : (pure a : P α) env s = .ok a s := rfl
theorem ex_getS : getS env s = .ok s s := rfl
theorem ex_getEnv : getEnv env s = .ok env s := rfl
theorem ex_modS {f : St → St} : modS f env s = .ok () (f s) := rfl
theorem ex_getPos : getPos env s = .ok s.pos s := rfl
theorem ex_setPos {n : Nat} : setPos n env s = .ok () { s with pos := n } := rfl
theorem ex_advance {n : Nat} : advance n env s = .ok () { s with pos := s.pos + n } := rfl
theorem ex_curTok : curTok env s = .ok s.tok s := rfl
theorem ex_tokStart : tokStart env s = .ok s.tsp s := rfl
theorem ex_setToken {t : Tok} : setToken t env s = .ok () { s with tok := t, val := .nil } := rfl
theorem ex_setTokenValue {t : Tok} {v : TokVal} : setTokenValue t v env s = .ok () { s with tok := t, val := v } := rfl
theorem ex_here {n : Nat} : here n env s = .ok ⟨n, (s.pos : Int) - n⟩ s := rfl
theorem ex_issue {α : Type} {k : Code} : (issue k : P α) env s = .fail (.issue k s.pos) s := rfl
theorem ex_ite {α : Type} {b : Prop} [Decidable b] {x y : P α} :
    (if b then x else y) env s = if b then x env s else y env s := by split <;> rfl

/-- Evaluate the monadic operations. -/
macro "ex" : tactic => `(tactic| simp only [ex_bind, ex_pure, ex_getS, ex_getEnv, ex_modS, ex_getPos, ex_setPos,
  ex_advance, ex_curTok, ex_tokStart, ex_setToken, ex_setTokenValue, ex_here, ex_issue, ex_ite])

theorem Here.length (h : Here env p rs) : env.text.length = p + (utf8 rs).length := by
  have := congrArg List.length h.drop
  rw [List.length_drop] at this
  have := h.le
  omega

theorem Here.append (h : Here env p (ws ++ rs)) : Here env (p + (utf8 ws).length) rs := by
  refine ⟨?_, ?_, fun r hr => h.runes r (List.mem_append_right _ hr)⟩
  · have := h.length; rw [utf8_append, List.length_append] at this; omega
  · rw [← List.drop_drop, h.drop, utf8_append, List.drop_left]

theorem Here.tail (h : Here env p (c :: rs)) : Here env (p + (encodeRune c).length) rs := by
  have := Here.append (ws := [c]) h
  simpa using this

theorem Here.tail1 (h : Here env p (c :: rs)) (hc : c < 128) : Here env (p + 1) rs := by
  have := h.tail; rwa [enc_len hc] at this

theorem Here.take (h : Here env p (ws ++ rs)) : (env.text.drop p).take (utf8 ws).length = utf8 ws := by
  rw [h.drop, utf8_append, List.take_left]

theorem peekAt_here (h : Here env p rs) : peekAt p env s = .ok (headC rs, width rs) s := by
  unfold peekAt
  have hl := h.length
  cases rs with
  | nil => rw [if_pos (by simpa using Nat.le_of_eq hl)]; rfl
  | cons c rs =>
    have hp := encodeRune_length_pos c
    rw [utf8_cons, List.length_append] at hl
    obtain ⟨h1, h2⟩ := h.runes c (List.mem_cons_self ..)
    rw [if_neg (by omega), h.drop, utf8_cons, decode_encode c _ h1]
    simp only [if_neg h2]
    rfl

theorem peek_here (h : Here env s.pos rs) : peek env s = .ok (headC rs, width rs) s := peekAt_here h

theorem next_here (h : Here env s.pos rs) :
    next env s = .ok (headC rs, s.pos) { s with pos := s.pos + width rs } := by
  unfold next
  rw [peekAt_here h]

theorem from_here {start : Nat} (h : Here env start (ws ++ rs)) (hp : s.pos = start + (utf8 ws).length) :
    from_ start env s = .ok (utf8 ws) s := by
  unfold from_
  have h1 := h.append.le
  rw [if_pos ⟨by omega, by omega⟩]
  have : s.pos - start = (utf8 ws).length := by omega
  rw [this, h.take]

theorem advWhile_here {q : Nat → Bool} {f : Nat} (hf : ws.length < f) (h : Here env s.pos (ws ++ rs))
    (hw : ∀ w ∈ ws, q w = true) (hr : q (headC rs) = false) :
    advWhile q f env s = .ok (headC rs, width rs) { s with pos := s.pos + (utf8 ws).length } := by
  induction ws generalizing f s with
  | nil =>
    cases f with
    | zero => cases hf
    | succ f =>
      unfold advWhile
      rw [bind_ok (peek_here h)]
      simp only [List.nil_append, hr]
      rfl
  | cons w ws ih =>
    cases f with
    | zero => cases hf
    | succ f =>
      unfold advWhile
      ex
      rw [peek_here h]
      simp only [List.cons_append, headC_cons, hw w (List.mem_cons_self ..), if_true]
      rw [ih (by simp at hf; omega) (by simpa [width] using h.tail) (fun w' hw' => hw w' (List.mem_cons_of_mem _ hw'))]
      simp only [width, utf8_cons, List.length_append, Nat.add_assoc]

theorem utf8_length_le (ws : List Nat) : ws.length ≤ (utf8 ws).length := by
  induction ws with
  | nil => simp
  | cons w ws ih =>
    have := encodeRune_length_pos w
    rw [utf8_cons, List.length_append, List.length_cons]
    omega

/-- The fuel of the character loops suffices. -/
theorem Here.fuel (h : Here env p (ws ++ rs)) : ws.length < charFuel env := by
  have := h.length
  rw [utf8_append, List.length_append] at this
  have := utf8_length_le ws
  unfold charFuel; omega

theorem utf8_ascii_length {ws : List Nat} (h : ∀ w ∈ ws, w < 128) : (utf8 ws).length = ws.length := by
  induction ws with
  | nil => rfl
  | cons w ws ih =>
    rw [utf8_cons, List.length_append, enc_len (h w (List.mem_cons_self ..)), ih fun x hx => h x (List.mem_cons_of_mem _ hx)]
    simp; omega

/-- The source as a whole. -/
theorem Here.start {env : Env} {rs : List Nat} (h : env.text = utf8 rs) (hr : ∀ r ∈ rs, Rune r) : Here env 0 rs :=
  ⟨Nat.zero_le _, h, hr⟩

end
end PP
