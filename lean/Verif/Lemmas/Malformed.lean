import Verif.Spec.Malformed
import Verif.Lemmas.Puncts
import Verif.Lemmas.Floats
import Verif.Lemmas.Layout

/-! # Lexical errors -/
namespace PP
open PP.Spec
set_option linter.unusedSimpArgs false

section
variable {env : Env} {s : St} {rs ws ds rest src : List Nat} {n p' b' f csp p scan : Nat}

/-! ## Comments -/

theorem loop_open {body : List Nat} (hb : ∀ c ∈ body, c ≠ 0) (hn : ¬ [42, 47] <:+: body) (hf : body.length < f)
    (h : Here env s.pos (body ++ rs)) (h0 : headC rs = 0) :
    skipWhiteLoop false f .star csp env s = .fail (.issue .lexUnterminatedComment csp)
      { s with pos := csp } := by
  induction body generalizing f s with
  | nil =>
    obtain ⟨f, rfl⟩ : ∃ g, f = g + 1 := ⟨f - 1, by simp at hf; omega⟩
    unfold skipWhiteLoop
    ex
    rw [next_here h]
    simp only [List.nil_append, h0, if_true]
  | cons c body ih =>
    obtain ⟨f, rfl⟩ : ∃ g, f = g + 1 := ⟨f - 1, by simp at hf; omega⟩
    have hc := hb c (List.mem_cons_self ..)
    have hn' : ¬ [42, 47] <:+: body := fun h => hn (h.trans (List.suffix_cons _ _).isInfix)
    have ih := ih (f := f) (s := { s with pos := s.pos + (encodeRune c).length })
      (fun x hx => hb x (List.mem_cons_of_mem _ hx)) hn' (by simpa using hf) h.tail
    rw [← ih]
    conv => lhs; unfold skipWhiteLoop
    ex
    rw [next_here h]
    simp only [List.cons_append, headC_cons, width]
    simp only [hc, if_false, if_true, reduceCtorEq]
    by_cases h42 : c = 42
    · subst h42
      simp only [if_true, if_false, (by decide : ¬ (42:Nat) = 10), (by decide : ¬ (42:Nat) = 35), (by decide : ¬ (42:Nat) = 47)]
      have ht : Here env (s.pos + (encodeRune 42).length) (body ++ rs) := h.tail
      rw [peek_here (s := { s with pos := s.pos + (encodeRune 42).length }) ht]
      have : headC (body ++ rs) ≠ 47 := by
        cases body with
        | nil => simp [h0]
        | cons d body =>
          simp only [List.cons_append, headC_cons]
          rintro rfl
          exact hn ⟨[], body, rfl⟩
      dsimp only
      rw [if_neg this]
    · simp only [h42, if_false]
      repeat' split
      all_goals first | rfl | contradiction

theorem skipWhite_open (hs : Skips s.pos s.bol ws p' b') (hn : s.nls = none) (h : Here env s.pos (ws ++ rs)) (ho : OpenComment rs) :
    ∃ t, skipWhite false env s = .fail (.issue .lexUnterminatedComment p') t := by
  obtain ⟨body, rest, rfl, hb, hc, h0⟩ := ho
  unfold skipWhite
  ex
  have hf0 : (ws ++ (47 :: 42 :: body)).length < charFuel env := by
    refine Here.fuel (p := s.pos) (rs := rest) ?_
    simpa using h
  obtain ⟨f', csp', h1, -, h2⟩ := loop_skips (csp := 0) hs rfl rfl hn h (Nat.le_of_lt h.fuel)
  rw [h2]
  simp only [List.length_append, List.length_cons] at hf0
  obtain ⟨g, rfl⟩ : ∃ g, f' = g + 1 := ⟨f' - 1, by omega⟩
  have h3 := h.append
  rw [← hs.pos] at h3
  have h4 : Here env (p' + 1) (42 :: (body ++ rest)) := h3.tail1 (by omega)
  have h5 : Here env (p' + 1 + 1) (body ++ rest) := h4.tail1 (by omega)
  unfold skipWhiteLoop
  ex
  rw [next_here (s := { s with pos := p', bol := b' }) h3]
  simp only [List.cons_append, headC_cons, width, enc_len (show 47 < 128 by omega)]
  simp only [(by decide : ¬ (47:Nat) = 0), (by decide : ¬ (47:Nat) = 10), (by decide : ¬ (47:Nat) = 35), if_false, if_true]
  rw [peek_here (s := { s with pos := p' + 1, bol := b' }) h4]
  simp only [headC_cons, width, enc_len (show 42 < 128 by omega), if_true]
  rw [loop_open (s := { s with pos := p' + 1 + 1, bol := b' }) hb hc (by omega) h5 h0]
  exact ⟨_, rfl⟩

/-! ## Strings -/

theorem rest_eof {d dstart start : Nat} {i : Bool} {hd : Handler} {segs : List Expr} {buf : GoStr} (hd47 : d ≠ 47)
    (h : Here env s.pos rs) (h0 : headC rs = 0) :
    ∃ t, rest_ (n + 1) d dstart i hd start segs buf env s = .fail (.issue .lexUnterminatedString dstart) t := by
  unfold rest_
  ex
  rw [next_here h]
  show ∃ t, delimBody (run n) d dstart i hd buf (headC rs) start segs env _ = .fail _ t
  unfold delimBody unterminatedQuote
  ex
  rw [if_pos h0, if_pos hd47]
  exact ⟨_, rfl⟩

theorem rest_eofEsc {d dstart start : Nat} {i : Bool} {hd : Handler} {segs : List Expr} {buf : GoStr} (hd92 : d ≠ 92)
    (h : Here env s.pos (92 :: rs)) (h0 : headC rs = 0) :
    ∃ t, rest_ (n + 1) d dstart i hd start segs buf env s = .fail (.issue .lexUnterminatedString dstart) t := by
  have ht : Here env (s.pos + 1) rs := h.tail1 (by omega)
  unfold rest_
  ex
  rw [next_here h]
  simp only [headC_cons, width, enc_len (show 92 < 128 by omega)]
  show ∃ t, delimBody (run n) d dstart i hd buf 92 start segs env _ = .fail _ t
  unfold delimBody unterminatedQuote
  ex
  rw [if_neg (by omega), if_neg (by omega), if_pos trivial, next_here (s := { s with pos := s.pos + 1 }) ht]
  simp only [h0, if_true]
  exact ⟨_, rfl⟩

/-- Text in a single quoted string. -/
theorem sq_steps {dstart start : Nat} {segs : List Expr} {out : List Nat} (hq : Sq src out) {buf : GoStr}
    (h : Here env s.pos (src ++ rs)) :
    ∃ k, k ≤ src.length ∧ ∀ n, rest_ (n + k) 39 dstart false .sq start segs buf env s =
      rest_ n 39 dstart false .sq start segs (buf ++ utf8 out) env { s with pos := s.pos + (utf8 src).length } := by
  induction hq generalizing s buf with
  | nil => exact ⟨0, by simp, fun n => by simp [utf8]⟩
  | @char c src out h1 h2 h3 hq ih =>
    rw [utf8_cons]
    refine rest_cons (o := encodeRune c) (q := s.pos + (encodeRune c).length) (fun n => rest_char h3 h1 h2 (by simp) h) (ih (s := { s with pos := _ }) h.tail) ?_ (by simp)
    simp only [utf8_cons, List.length_append]; omega
  | @quote src out hq ih =>
    rw [utf8_cons (r := 39) (rs := out)]
    refine rest_cons (o := encodeRune 39) (q := s.pos + 2) (fun n => rest_escD (by omega) (by omega) (by omega) h)
      (ih (s := { s with pos := s.pos + 2 }) ((h.tail1 (by omega)).tail1 (by omega))) ?_ (by simp)
    simp only [utf8_cons, List.length_append, enc_len (show 92 < 128 by omega), enc_len (show 39 < 128 by omega)]; omega
  | @backslash src out hq ih =>
    rw [utf8_cons (r := 92) (rs := out)]
    refine rest_cons (o := encodeRune 92) (q := s.pos + 2) (fun n => rest_esc (by omega) (by omega) (by omega) h
      (by show Res.ok _ _ = _; simp [enc_len]; rfl))
      (ih (s := { s with pos := s.pos + 2 }) ((h.tail1 (by omega)).tail1 (by omega))) ?_ (by simp)
    simp only [utf8_cons, List.length_append, enc_len (show 92 < 128 by omega)]; omega
  | @other c src out h1 h2 h3 hq ih =>
    have e : utf8 (92 :: c :: out) = (92 :: encodeRune c) ++ utf8 out := by
      rw [utf8_cons, utf8_cons, encodeRune_ascii (by omega)]; rfl
    rw [e]
    refine rest_cons (o := 92 :: encodeRune c) (q := s.pos + 1 + (encodeRune c).length) (fun n => rest_esc (by omega) h3 h1 h
      (by show Res.ok _ _ = _; simp [h2]))
      (ih (s := { s with pos := s.pos + 1 + (encodeRune c).length }) (h.tail1 (by omega)).tail) ?_ (by simp)
    simp only [utf8_cons, List.length_append, enc_len (show 92 < 128 by omega)]; omega

theorem rest_escFail {c d dstart start : Nat} {i : Bool} {hd : Handler} {segs : List Expr} {buf : GoStr} {e : Err}
    (h92 : d ≠ 92) (h0 : c ≠ 0) (h1 : c ≠ d) (h : Here env s.pos (92 :: c :: rs))
    (ho : ∃ t, escapeHandler hd c env { s with pos := s.pos + 1 + (encodeRune c).length } = .fail e t) :
    ∃ t, rest_ (n + 1) d dstart i hd start segs buf env s = .fail e t := by
  obtain ⟨t, ho⟩ := ho
  have ht : Here env (s.pos + 1) (c :: rs) := h.tail1 (by omega)
  unfold rest_
  ex
  rw [next_here h]
  simp only [headC_cons, width, enc_len (show 92 < 128 by omega)]
  show ∃ t, delimBody (run n) d dstart i hd buf 92 start segs env _ = .fail _ t
  unfold delimBody
  ex
  rw [if_neg (by omega), if_neg (by omega), if_pos trivial, next_here (s := { s with pos := s.pos + 1 }) ht]
  simp only [headC_cons, width, h0, h1, if_false]
  rw [ho]
  exact ⟨_, rfl⟩

theorem hexDigits_bad {start k : Nat} (hd : ∀ c ∈ ds, isHexDigit c = true) (hk : ds.length < k) (hr : isHexDigit (headC rs) = false)
    (h : Here env s.pos (ds ++ rs)) : ∃ t, hexDigits start k env s = .fail (.issue .lexMalformedUnicodeEscape (start - 2)) t := by
  induction ds generalizing s k with
  | nil =>
    obtain ⟨k, rfl⟩ : ∃ j, k = j + 1 := ⟨k - 1, by simp at hk; omega⟩
    unfold hexDigits
    ex
    rw [next_here h]
    simp only [List.nil_append, hr, Bool.false_eq_true, if_false]
    exact ⟨_, rfl⟩
  | cons c ds ih =>
    obtain ⟨k, rfl⟩ : ∃ j, k = j + 1 := ⟨k - 1, by simp at hk; omega⟩
    have hc := hd c (List.mem_cons_self ..)
    unfold hexDigits
    ex
    rw [next_here h]
    simp only [List.cons_append, headC_cons, hc, if_true, width, enc_len (hex_ascii hc)]
    exact ih (s := { s with pos := s.pos + 1 }) (fun x hx => hd x (List.mem_cons_of_mem _ hx)) (by simp at hk; omega) (h.tail1 (hex_ascii hc))

theorem appendUnicode_bad (hb : BadUnicode rs) (h : Here env s.pos rs) :
    ∃ t, appendUnicode env s = .fail (.issue .lexMalformedUnicodeEscape (s.pos - 2)) t := by
  unfold appendUnicode
  ex
  rw [next_here h]
  cases hb with
  | start h1 h2 =>
    simp only [h1, Bool.false_eq_true, if_false, h2, ne_eq, not_false_eq_true, if_true]
    exact ⟨_, rfl⟩
  | @short a hs rest ha hh hl hr =>
    simp only [headC_cons, ha, if_true, width, enc_len (hex_ascii ha)]
    obtain ⟨t, e⟩ := hexDigits_bad (s := { s with pos := s.pos + 1 }) (start := s.pos) hh hl hr (h.tail1 (hex_ascii ha))
    rw [e]
    exact ⟨_, rfl⟩
  | @braces hs rest hh hr hl =>
    have h1 : Here env (s.pos + 1) (hs ++ rest) := h.tail1 (by omega)
    have hu : (utf8 hs).length = hs.length := utf8_ascii_length fun w hw => hex_ascii (hh w hw)
    simp only [headC_cons, width, enc_len (show 123 < 128 by omega)]
    simp only [show isHexDigit 123 = false from rfl, Bool.false_eq_true, if_false, ne_eq, not_true_eq_false]
    rw [advWhile_here (s := { s with pos := s.pos + 1 }) h1.fuel h1 hh hr]
    dsimp only
    rw [hu, if_neg (by intro hx; apply hl; refine ⟨by omega, by omega, hx.2.2⟩)]
    exact ⟨_, rfl⟩

theorem appendHexadec_bad {a : Nat} (ha : isHexDigit a = true) (hr : isHexDigit (headC rs) = false) (h : Here env s.pos (a :: rs)) :
    ∃ t, appendHexadec env s = .fail (.issue .lexMalformedHexEscape (s.pos - 2)) t := by
  have h1 : Here env (s.pos + 1) rs := h.tail1 (hex_ascii ha)
  unfold appendHexadec
  ex
  rw [next_here h]
  simp only [headC_cons, width, enc_len (hex_ascii ha), ha, if_true]
  rw [next_here (s := { s with pos := s.pos + 1 }) h1]
  simp only [hr, Bool.false_eq_true, if_false]
  exact ⟨_, rfl⟩

/-- `$` that starts no interpolation. -/
theorem rest_dollarBad {dstart start : Nat} {segs : List Expr} {buf : GoStr} {hd : Handler} (h : Here env s.pos (36 :: rs))
    (h1 : headC rs ≠ 123) (h2 : headC rs ≠ 58) (h3 : isLowercaseLetter (headC rs) = false) (h4 : isDecimalDigit (headC rs) = false) :
    ∃ t, rest_ (n + 1) 34 dstart true hd start segs buf env s = .fail (.issue .lexMalformedInterpolation start) t := by
  have ht : Here env (s.pos + 1) rs := h.tail1 (by omega)
  unfold rest_
  ex
  rw [next_here h]
  simp only [headC_cons, width, enc_len (show 36 < 128 by omega)]
  show ∃ t, delimBody (run n) 34 dstart true hd buf 36 start segs env _ = .fail _ t
  unfold delimBody handleInterpolation interpolate
  ex
  rw [if_neg (by omega), if_neg (by omega), if_neg (by omega), if_pos (by simp), peek_here (s := { s with pos := s.pos + 1 }) ht]
  dsimp only
  rw [if_neg h1, if_neg (by simp [h2, h3, h4])]
  simp only [reduceCtorEq, not_false_eq_true, ne_eq, if_true]
  exact ⟨_, rfl⟩

/-! ## Numbers -/

theorem Number.len {cs : List Nat} (hn : Number cs rest) : (utf8 cs).length = cs.length := by
  obtain ⟨⟨sg, ds, rfl, hsg, hd⟩, -, -⟩ := hn
  refine utf8_ascii_length fun w hw => ?_
  rcases List.mem_append.1 hw with h | h
  · rcases hsg with rfl | rfl | rfl <;> simp at h <;> omega
  · exact hex_ascii (dec_hex (hd w h)).1

instance {cs : List Nat} : Decidable (HasDigit cs) := inferInstanceAs (Decidable (∃ c ∈ cs, isDecimalDigit c = true))

theorem skipDigits_exec {cs : List Nat} (hn : Number cs rest) (h : Here env s.pos (cs ++ rest)) :
    skipDecimalDigits env s = .ok (decide (HasDigit cs)) { s with pos := s.pos + cs.length } := by
  obtain ⟨⟨sg, ds, rfl, hsg, hd⟩, hr, he⟩ := hn
  have hl := digits_len hd
  have hh : (∃ c ∈ ds, isDecimalDigit c = true) ↔ 0 < ds.length := by
    constructor
    · rintro ⟨c, hc, -⟩; exact List.length_pos_of_mem hc
    · intro h
      obtain ⟨c, t, rfl⟩ : ∃ c t, ds = c :: t := by cases ds with | nil => simp at h | cons c t => exact ⟨c, t, rfl⟩
      exact ⟨c, by simp, hd c (by simp)⟩
  unfold skipDecimalDigits
  ex
  rw [peek_here h]
  rcases hsg with rfl | rfl | rfl
  · have h2 : Here env s.pos (ds ++ rest) := h
    have hne : ¬ (headC ([] ++ ds ++ rest) = 45 ∨ headC ([] ++ ds ++ rest) = 43) := by
      cases ds with
      | nil => have := he rfl; simp only [List.nil_append]; omega
      | cons c t =>
        have := hd c (by simp)
        simp only [isDecimalDigit, Bool.and_eq_true, decide_eq_true_eq] at this
        simp only [List.nil_append, List.cons_append, headC_cons]; omega
    dsimp only
    rw [if_neg hne]
    rw [advWhile_here h2.fuel h2 hd hr]
    simp only [hl, List.nil_append, HasDigit, hh]
    congr 1
    exact decide_eq_decide.2 (by omega)
  all_goals
    dsimp only [List.cons_append, headC_cons, width_cons, List.nil_append]
    rw [if_pos (by omega), enc_len (by omega)]
    have h1 : Here env (s.pos + 1) (ds ++ rest) := h.tail1 (by omega)
    rw [advWhile_here (s := { s with pos := s.pos + 1 }) h1.fuel h1 hd hr]
    simp only [hl]
    congr 1
    · refine decide_eq_decide.2 ?_
      unfold HasDigit
      simp only [List.mem_cons, exists_eq_or_imp, hh]
      constructor
      · intro h; exact .inr (by omega)
      · rintro (h | h)
        · exact absurd h (by decide)
        · omega
    · simp only [List.length_cons]; congr 1; omega

theorem needDigits_bad {cs : List Nat} (hn : Number cs rest) (hd : ¬ HasDigit cs) (h : Here env s.pos (cs ++ rest)) :
    needDigits env s = .fail (.issue .lexDigitExpected (s.pos + cs.length)) { s with pos := s.pos + cs.length } := by
  unfold needDigits
  ex
  rw [skipDigits_exec hn h]
  simp only [hd, decide_false, Bool.false_eq_true, if_false]

theorem needDigits_ok {cs : List Nat} (hn : Number cs rest) (hd : HasDigit cs) (h : Here env s.pos (cs ++ rest)) :
    needDigits env s = .ok () { s with pos := s.pos + cs.length } := by
  unfold needDigits
  ex
  rw [skipDigits_exec hn h]
  simp only [hd, decide_true, if_true]

theorem Number.tail {cs : List Nat} (hn : Number cs rest) (h : Here env p (cs ++ rest)) : Here env (p + cs.length) rest := by
  rw [← hn.len]; exact h.append

theorem consumeFloat_badE {start d k : Nat} (hd : d ≠ 46) (hb : BadNumber env rest k) (h : Here env s.pos rest) :
    ∃ t, consumeFloat start d env s = .fail (.issue .lexDigitExpected (s.pos + k)) t := by
  unfold consumeFloat
  ex
  cases hb with
  | none hn hd => rw [needDigits_bad hn hd h]; exact ⟨_, rfl⟩
  | @letter cs rest hn hdg hl =>
    rw [needDigits_ok hn hdg h]
    dsimp only
    rw [peek_here (s := { s with pos := s.pos + cs.length }) (hn.tail h)]
    dsimp only
    rw [if_neg (by omega)]
    simp only [hl, if_true]
    exact ⟨_, rfl⟩

theorem consumeFloat_bad {start k : Nat} (hb : BadFraction env rest k) (h : Here env s.pos rest) :
    ∃ t, consumeFloat start 46 env s = .fail (.issue .lexDigitExpected (s.pos + k)) t := by
  unfold consumeFloat
  ex
  cases hb with
  | none hn hd => rw [needDigits_bad hn hd h]; exact ⟨_, rfl⟩
  | @letter cs rest hn hdg hl he he' =>
    rw [needDigits_ok hn hdg h]
    dsimp only
    rw [peek_here (s := { s with pos := s.pos + cs.length }) (hn.tail h)]
    dsimp only
    rw [if_neg (by omega)]
    simp only [hl, if_true]
    exact ⟨_, rfl⟩
  | @exponent cs e rest k hn hdg he hb =>
    rw [needDigits_ok hn hdg h]
    have h1 := hn.tail h
    dsimp only
    rw [peek_here (s := { s with pos := s.pos + cs.length }) h1]
    dsimp only [headC_cons, width_cons]
    have he128 : e < 128 := by omega
    rw [if_pos ⟨trivial, he⟩, enc_len he128]
    have h2 : Here env (s.pos + cs.length + 1) rest := h1.tail1 he128
    cases hb with
    | @none cs' rest hn' hd' =>
      rw [needDigits_bad (s := { s with pos := s.pos + cs.length + 1 }) hn' hd' h2]
      rw [show s.pos + (cs.length + 1 + cs'.length) = s.pos + cs.length + 1 + cs'.length by omega]
      exact ⟨_, rfl⟩
    | @letter cs' rest hn' hdg' hl =>
      rw [needDigits_ok (s := { s with pos := s.pos + cs.length + 1 }) hn' hdg' h2]
      dsimp only
      rw [peek_here (s := { s with pos := s.pos + cs.length + 1 + cs'.length }) (hn'.tail h2)]
      dsimp only
      simp only [hl, if_true]
      rw [show s.pos + (cs.length + 1 + cs'.length) = s.pos + cs.length + 1 + cs'.length by omega]
      exact ⟨_, rfl⟩

theorem letter_ne {c : Nat} (h : uniIsLetter env c = true) : c ≠ 46 := by
  rintro rfl; simp [uniIsLetter, isUppercaseLetter, isLowercaseLetter] at h

theorem lexNumber_letter {start : Nat} {cs : List Nat} (hn : Number cs rest) (hl : uniIsLetter env (headC rest) = true)
    (h1 : headC rest ≠ 101) (h2 : headC rest ≠ 69) (h : Here env s.pos (cs ++ rest)) :
    ∃ t, lexNumber start env s = .fail (.issue .lexDigitExpected (s.pos + cs.length)) t := by
  unfold lexNumber
  ex
  rw [skipDigits_exec hn h]
  dsimp only
  rw [peek_here (s := { s with pos := s.pos + cs.length }) (hn.tail h)]
  dsimp only
  have := letter_ne hl
  rw [if_neg (by omega)]
  simp only [hl, if_true]
  exact ⟨_, rfl⟩

theorem lexNumber_float {start c k : Nat} {cs : List Nat} (hn : Number cs (c :: rest)) (hc : c = 46 ∨ c = 101 ∨ c = 69)
    (hb : if c = 46 then BadFraction env rest k else BadNumber env rest k) (h : Here env s.pos (cs ++ c :: rest)) :
    ∃ t, lexNumber start env s = .fail (.issue .lexDigitExpected (s.pos + cs.length + 1 + k)) t := by
  unfold lexNumber
  ex
  rw [skipDigits_exec hn h]
  have h1 := hn.tail h
  dsimp only
  rw [peek_here (s := { s with pos := s.pos + cs.length }) h1]
  dsimp only [headC_cons, width_cons]
  have hc128 : c < 128 := by omega
  rw [if_pos hc, enc_len hc128]
  have h2 : Here env (s.pos + cs.length + 1) rest := h1.tail1 hc128
  by_cases h46 : c = 46
  · subst h46
    exact consumeFloat_bad (s := { s with pos := s.pos + cs.length + 1 }) (by simpa using hb) h2
  · rw [if_neg h46] at hb
    exact consumeFloat_badE (s := { s with pos := s.pos + cs.length + 1 }) h46 hb h2

theorem lexZero_float {start c k : Nat} (hc : c = 46 ∨ c = 101 ∨ c = 69)
    (hb : if c = 46 then BadFraction env rest k else BadNumber env rest k) (h : Here env s.pos (c :: rest)) :
    ∃ t, lexZero start env s = .fail (.issue .lexDigitExpected (s.pos + 1 + k)) t := by
  unfold lexZero
  ex
  rw [peek_here (s := { s with radix := 10 }) h]
  dsimp only [headC_cons, width_cons]
  have hc128 : c < 128 := by omega
  rw [if_neg (by omega), if_neg (by omega), if_pos hc, enc_len hc128]
  have h2 : Here env (s.pos + 1) rest := h.tail1 hc128
  by_cases h46 : c = 46
  · subst h46
    exact consumeFloat_bad (s := { s with radix := 10, pos := s.pos + 1 }) (by simpa using hb) h2
  · rw [if_neg h46] at hb
    exact consumeFloat_badE (s := { s with radix := 10, pos := s.pos + 1 }) h46 hb h2

theorem lexZero_hex {start x : Nat} (hx : x = 120 ∨ x = 88) (hd : ∀ c ∈ ds, isHexDigit c = true) (hr : isHexDigit (headC rest) = false)
    (hb : ds = [] ∨ isLetter (headC rest) = true) (h : Here env s.pos (x :: (ds ++ rest))) :
    ∃ t, lexZero start env s = .fail (.issue .lexHexdigitExpected (s.pos + 1 + ds.length)) t := by
  unfold lexZero
  ex
  rw [peek_here (s := { s with radix := 10 }) h]
  dsimp only [headC_cons, width_cons]
  have hc128 : x < 128 := by omega
  rw [if_neg (by omega), if_pos hx, enc_len hc128]
  have h2 : Here env (s.pos + 1) (ds ++ rest) := h.tail1 hc128
  have hu : (utf8 ds).length = ds.length := utf8_ascii_length fun w hw => hex_ascii (hd w hw)
  rw [advWhile_here (s := { s with radix := 10, pos := s.pos + 1 }) h2.fuel h2 hd hr]
  dsimp only
  rw [hu, if_pos]
  · exact ⟨_, rfl⟩
  · rcases hb with rfl | hb
    · exact .inl rfl
    · exact .inr hb

theorem oct_ne {c : Nat} (h : isOctalDigit c = true) : 48 ≤ c ∧ c ≤ 55 := by
  simpa [isOctalDigit] using h

theorem lexZero_oct {start : Nat} (hd : ∀ c ∈ ds, isOctalDigit c = true)
    (hl : isDecimalDigit (headC rest) = true ∨ uniIsLetter env (headC rest) = true) (hr : isOctalDigit (headC rest) = false)
    (he : ds = [] → headC rest ∉ [120, 88, 101, 69]) (h : Here env s.pos (ds ++ rest)) :
    ∃ t, lexZero start env s = .fail (.issue .lexOctaldigitExpected (s.pos + ds.length)) t := by
  have hu : (utf8 ds).length = ds.length := utf8_ascii_length fun w hw => by have := oct_ne (hd w hw); omega
  have h0 : headC rest ≠ 0 ∧ headC rest ≠ 46 := by
    constructor <;> intro e <;> rw [e] at hl <;> simp [isDecimalDigit, uniIsLetter, isUppercaseLetter, isLowercaseLetter] at hl
  have hc : headC (ds ++ rest) ≠ 0 ∧ headC (ds ++ rest) ∉ [120, 88, 46, 101, 69] := by
    cases ds with
    | nil =>
      have := he rfl
      simp only [List.nil_append, List.mem_cons, List.not_mem_nil, or_false, not_or] at this ⊢
      exact ⟨h0.1, this.1, this.2.1, h0.2, this.2.2⟩
    | cons c t =>
      have := oct_ne (hd c (by simp))
      simp only [List.cons_append, headC_cons, List.mem_cons, List.not_mem_nil, or_false, not_or]
      omega
  simp only [List.mem_cons, List.not_mem_nil, or_false, not_or] at hc
  unfold lexZero
  ex
  rw [peek_here (s := { s with radix := 10 }) h]
  dsimp only
  rw [if_neg (by omega), if_neg (by omega), if_neg (by omega)]
  rw [advWhile_here (s := { s with radix := 10 }) h.fuel h hd hr]
  dsimp only
  rw [hu, if_pos hl]
  exact ⟨_, rfl⟩

/-! ## Names -/

theorem nameLoop_badName {tok : Tok} {start f : Nat} {u d0 : Bool} {t : List Nat} (ht : BadName tok u t) (hf : t.length < f)
    (h : Here env s.pos t) :
    nameLoop start tok f u d0 env s = .fail (.issue (invalidNameCode tok) start) { s with pos := start } := by
  induction ht generalizing f s d0 with
  | @here u ws rest hw hb =>
    obtain ⟨f, rfl⟩ : ∃ g, f = g + 1 := ⟨f - 1, by omega⟩
    have hl : (utf8 ws).length = ws.length := utf8_ascii_length fun w hw' => lod_ascii (hw w hw')
    have h2 := h.append
    rw [hl] at h2
    have h3 : Here env (s.pos + ws.length + 1) (58 :: rest) := h2.tail1 (by omega)
    have h4 : Here env (s.pos + ws.length + 1 + 1) rest := h3.tail1 (by omega)
    unfold nameLoop
    ex
    rw [advWhile_here h.fuel h hw rfl, hl]
    simp only [headC_cons, width, enc_len (show 58 < 128 by omega)]
    rw [if_neg (by omega), if_neg (by omega), peek_here (s := { s with pos := s.pos + ws.length + 1 }) h3]
    simp only [headC_cons, width, enc_len (show 58 < 128 by omega), ne_eq, not_true_eq_false, if_false]
    rw [peek_here (s := { s with pos := s.pos + ws.length + 1 + 1 }) h4]
    dsimp only
    rw [segmentStart_eq]
    rcases hb with hb | rfl
    · rw [hb]; simp
    · simp
  | @next ws c t hw hs _ ih =>
    obtain ⟨f, rfl⟩ : ∃ g, f = g + 1 := ⟨f - 1, by omega⟩
    have hl : (utf8 ws).length = ws.length := utf8_ascii_length fun w hw' => lod_ascii (hw w hw')
    have h2 := h.append
    rw [hl] at h2
    have h3 : Here env (s.pos + ws.length + 1) (58 :: c :: t) := h2.tail1 (by omega)
    have h4 : Here env (s.pos + ws.length + 1 + 1) (c :: t) := h3.tail1 (by omega)
    rw [← segmentStart_eq] at hs
    have hc := lod_ascii (segStart_lod hs)
    have h5 : Here env (s.pos + ws.length + 1 + 1 + 1) t := h4.tail1 hc
    unfold nameLoop
    ex
    rw [advWhile_here h.fuel h hw rfl, hl]
    simp only [headC_cons, width, enc_len (show 58 < 128 by omega)]
    rw [if_neg (by omega), if_neg (by omega), peek_here (s := { s with pos := s.pos + ws.length + 1 }) h3]
    simp only [headC_cons, width, enc_len (show 58 < 128 by omega), ne_eq, not_true_eq_false, if_false]
    rw [peek_here (s := { s with pos := s.pos + ws.length + 1 + 1 }) h4]
    simp only [headC_cons, width, enc_len hc, hs, Bool.not_false, Bool.and_self, if_true]
    rw [ih (s := { s with pos := s.pos + ws.length + 1 + 1 + 1 }) (by simp at hf; omega) h5]
  | @dash u ws k c t hi hw hc _ ih =>
    obtain ⟨f, rfl⟩ : ∃ g, f = g + 1 := ⟨f - 1, by omega⟩
    have hl : (utf8 ws).length = ws.length := utf8_ascii_length fun w hw' => lod_ascii (hw w hw')
    have h : Here env s.pos (ws ++ 45 :: (List.replicate k 45 ++ c :: t)) := by simpa [List.replicate_succ] using h
    have h2 := h.append
    rw [hl] at h2
    have h3 : Here env (s.pos + ws.length + 1) (List.replicate k 45 ++ c :: t) := h2.tail1 (by omega)
    have hk : (utf8 (List.replicate k 45)).length = k := by
      rw [utf8_ascii_length (by intro w hw; rw [List.mem_replicate] at hw; omega)]; simp
    have h4 : Here env (s.pos + ws.length + 1 + k + 1) t := by
      have := h3.append
      rw [hk] at this
      exact this.tail1 (lod_ascii hc)
    unfold nameLoop
    ex
    rw [advWhile_here h.fuel h hw rfl, hl]
    simp only [headC_cons, width, enc_len (show 45 < 128 by omega)]
    rw [if_pos ⟨trivial, hi⟩]
    have h45 : headC (c :: t) ≠ 45 := by
      rintro h; simp only [headC_cons] at h; subst h; exact absurd hc (by decide)
    have hfu : k < charFuel env := by have := h3.fuel; simpa using this
    rw [dashLoop_exec hfu h3 h45]
    simp only [headC_cons, hc, if_true, width, enc_len (lod_ascii hc)]
    rw [ih (s := { s with pos := s.pos + ws.length + 1 + k + 1 }) (by simp at hf; omega) h4]

theorem name_bad {tok : Tok} {start : Nat} {t : List Nat} (ht : BadName tok false t) (h : Here env s.pos t) :
    ∃ u, consumeQualifiedName start tok env s = .fail (.issue (invalidNameCode tok) start) u := by
  unfold consumeQualifiedName
  ex
  rw [nameLoop_badName ht (Here.fuel (p := s.pos) (ws := t) (rs := []) (by simpa using h)) h]
  exact ⟨_, rfl⟩

theorem lexColon_bad {c : Nat} {t : List Nat} {tok : Tok} (hv : tok = .typeName ∧ isUppercaseLetter c = true ∨ tok = .identifier ∧ isLowercaseLetter c = true)
    (ht : BadName tok false t) (h : Here env s.pos (58 :: c :: t)) :
    ∃ u, lexColon p env s = .fail (.issue (invalidNameCode tok) p) u := by
  have hc : c < 128 ∧ (isUppercaseLetter c = true → tok = .typeName) ∧ (isUppercaseLetter c = false → tok = .identifier ∧ isLowercaseLetter c = true) := by
    simp only [isUppercaseLetter, isLowercaseLetter, Bool.and_eq_true, decide_eq_true_eq, Bool.and_eq_false_iff, decide_eq_false_iff_not] at hv ⊢
    rcases hv with ⟨rfl, hv⟩ | ⟨rfl, hv⟩
    · refine ⟨by omega, fun _ => rfl, fun h => by omega⟩
    · refine ⟨by omega, fun h => by omega, fun _ => ⟨rfl, by omega⟩⟩
  have h2 : Here env (s.pos + 1) (c :: t) := h.tail1 (by omega)
  have h3 : Here env (s.pos + 1 + 1) t := h2.tail1 hc.1
  unfold lexColon
  ex
  rw [peek_here (s := { s with tok := .colon, val := .nil }) h]
  simp only [headC_cons, if_true, width_cons, enc_len (show 58 < 128 by omega)]
  rw [next_here (s := { s with tok := .colon, val := .nil, pos := s.pos + 1 }) h2]
  simp only [headC_cons, width_cons, enc_len hc.1]
  cases hu : isUppercaseLetter c with
  | true =>
    have := hc.2.1 hu
    subst this
    simp only [if_true]
    exact name_bad (s := { s with tok := .colon, val := .nil, pos := s.pos + 1 + 1 }) ht h3
  | false =>
    obtain ⟨rfl, hlow⟩ := hc.2.2 hu
    simp only [Bool.false_eq_true, if_false, hlow, if_true]
    exact name_bad (s := { s with tok := .colon, val := .nil, pos := s.pos + 1 + 1 }) ht h3

theorem lexColon_noName (h1 : isLowercaseLetter (headC rest) = false) (h2 : isUppercaseLetter (headC rest) = false)
    (h : Here env s.pos (58 :: rest)) : ∃ u, lexColon p env s = .fail (.issue .lexDoubleColonNotFollowedByName p) u := by
  have h3 : Here env (s.pos + 1) rest := h.tail1 (by omega)
  unfold lexColon issueAt
  ex
  rw [peek_here (s := { s with tok := .colon, val := .nil }) h]
  simp only [headC_cons, if_true, width_cons, enc_len (show 58 < 128 by omega)]
  rw [next_here (s := { s with tok := .colon, val := .nil, pos := s.pos + 1 }) h3]
  simp only [h1, h2, Bool.false_eq_true, if_false]
  exact ⟨_, rfl⟩

/-- The optional `::` after `$`. -/
theorem lexDollar_prefix {g : List Nat} (hg : g = [] ∨ g = [58, 58]) (h58 : g = [] → headC rest ≠ 58) (h : Here env s.pos (g ++ rest)) :
    lexDollar p env s =
      (if isLowercaseLetter (headC rest) = true then consumeQualifiedName p .variable env { s with pos := s.pos + g.length + width rest }
      else if isDecimalDigit (headC rest) = true then (do
          let _ ← skipDecimalDigits
          let t ← from_ (p + 1)
          setTokenValue .variable (.int (parseInt64 10 t)) : P Unit) env { s with pos := s.pos + g.length + width rest }
      else if uniIsLetter env (headC rest) = true then .fail (.issue .lexInvalidVariableName (s.pos + g.length)) { s with pos := s.pos + g.length }
      else .ok () { s with pos := s.pos + g.length, tok := .variable, val := .str [] }) := by
  unfold lexDollar
  ex
  rw [peek_here h]
  rcases hg with rfl | rfl
  · simp only [List.nil_append, h58 rfl, if_false]
    rfl
  · have h1 : Here env (s.pos + 1) (58 :: rest) := h.tail1 (by omega)
    have h2 : Here env (s.pos + 1 + 1) rest := h1.tail1 (by omega)
    simp only [List.cons_append, headC_cons, if_true, width_cons, enc_len (show 58 < 128 by omega)]
    rw [peek_here (s := { s with pos := s.pos + 1 }) h1]
    simp only [headC_cons, ne_eq, not_true_eq_false, if_false, width_cons, enc_len (show 58 < 128 by omega)]
    rw [peek_here (s := { s with pos := s.pos + 1 + 1 }) h2]
    rfl

theorem lexDollar_colon (h1 : headC rest ≠ 58) (h : Here env s.pos (58 :: rest)) :
    ∃ u, lexDollar p env s = .fail (.issue .lexInvalidVariableName p) u := by
  have h2 : Here env (s.pos + 1) rest := h.tail1 (by omega)
  unfold lexDollar issueAt
  ex
  rw [peek_here h]
  simp only [headC_cons, if_true, width_cons, enc_len (show 58 < 128 by omega)]
  rw [peek_here (s := { s with pos := s.pos + 1 }) h2]
  simp only [h1, ne_eq, not_false_eq_true, if_true]
  exact ⟨_, rfl⟩

theorem white_skip {ws : List Nat} {nl : Bool} (h : White ws nl) (p b : Nat) : ∃ b', Skips p b ws (p + (utf8 ws).length) b' := by
  obtain ⟨b', -, h2, -⟩ := white_skips h p b
  exact ⟨b', h2⟩

/-! ## All lexical errors -/

theorem lexChar_upper {c : Nat} {self : Self} (hc : isUppercaseLetter c = true) :
    lexChar self scan c p env s = consumeQualifiedName p .typeName env s := by
  have hc' := hc
  simp only [isUppercaseLetter, Bool.and_eq_true, decide_eq_true_eq] at hc'
  unfold lexChar
  ex
  rw [if_neg (by omega)]
  simp only [hc, if_true]

theorem lexChar_lower {c : Nat} {self : Self} (hc : isLowercaseLetter c = true) :
    lexChar self scan c p env s = consumeQualifiedName p .identifier env s := by
  have hc' := hc
  simp only [isLowercaseLetter, Bool.and_eq_true, decide_eq_true_eq] at hc'
  have hu : isUppercaseLetter c = false := by simp [isUppercaseLetter]; omega
  unfold lexChar
  ex
  rw [if_neg (by omega)]
  simp only [hu, hc, Bool.false_eq_true, if_false, if_true]

theorem lexChar_digit {c : Nat} {self : Self} (h1 : 49 ≤ c) (h2 : c ≤ 57) : lexChar self scan c p env s = lexNumber p env s := by
  unfold lexChar
  ex
  rw [if_pos ⟨h1, h2⟩]

theorem lexChar_dq : lexChar (run n) scan 34 p env s = consumeDoubleQuotedString (run n) env s := by dispatch
theorem lexChar_sq : lexChar (run n) scan 39 p env s = consumeSingleQuotedString (run n) env s := by dispatch

theorem lexChar_other {c : Nat} (hc : startsToken env c = false) :
    lexChar (run n) scan c p env s = .fail (.issue .lexUnexpectedToken p) { s with pos := p } := by
  unfold startsToken at hc
  simp only [Bool.or_eq_false_iff, beq_eq_false_iff_ne, List.mem_cons, List.not_mem_nil, or_false, decide_eq_false_iff_not, not_or] at hc
  obtain ⟨⟨⟨⟨⟨h0, hd⟩, hu⟩, hl⟩, hm⟩, hb⟩ := hc
  have hd : ¬ (48 ≤ c ∧ c ≤ 57) := by simpa [isDecimalDigit] using hd
  unfold lexChar issueAt
  ex
  simp only [hu, hl, Bool.false_eq_true, if_false]
  have h48 : ¬ (49 ≤ c ∧ c ≤ 57) := by omega
  have h480 : c ≠ 48 := by omega
  have hbt : ¬ (c = 96 ∧ env.backtick = true) := by
    rintro ⟨rfl, h⟩; simp [h] at hb
  simp only [h48, h480, hbt, h0, hm, if_false]

theorem lexSq_open (hf : rs.length < n) (h : Here env s.pos rs) (hr : ∃ src out rest, Sq src out ∧ headC rest = 0 ∧ (rs = src ++ rest ∨ rs = src ++ 92 :: rest)) :
    ∃ t, consumeSingleQuotedString (run n) env s = .fail (.issue .lexUnterminatedString (s.pos - 1)) t := by
  obtain ⟨src, out, rest, hq, h0, e⟩ := hr
  unfold consumeSingleQuotedString consumeDelimitedString
  ex
  have key : ∃ t, rest_ n 39 (s.pos - 1) false .sq s.pos [] [] env s = .fail (.issue .lexUnterminatedString (s.pos - 1)) t := by
    rcases e with rfl | rfl
    · obtain ⟨k, hk, hst⟩ := sq_steps (dstart := s.pos - 1) (start := s.pos) (segs := []) hq (buf := []) h
      simp only [List.length_append] at hf
      obtain ⟨m, rfl⟩ : ∃ m, n = m + 1 + k := ⟨n - 1 - k, by omega⟩
      rw [hst]
      exact rest_eof (by omega) h.append h0
    · obtain ⟨k, hk, hst⟩ := sq_steps (dstart := s.pos - 1) (start := s.pos) (segs := []) hq (buf := []) h
      simp only [List.length_append, List.length_cons] at hf
      obtain ⟨m, rfl⟩ : ∃ m, n = m + 1 + k := ⟨n - 1 - k, by omega⟩
      rw [hst]
      exact rest_eofEsc (by omega) h.append h0
  obtain ⟨t, key⟩ := key
  unfold rest_ at key
  simp only [ex_bind, next_here h] at key ⊢
  rw [key]
  exact ⟨_, rfl⟩

/-- An error in a double quoted string. -/
theorem lexDq_fail {e : Err} (hfac : env.hasFactory = true) (h : Here env s.pos rs)
    (key : ∃ t, rest_ n 34 (s.pos - 1) true .dq s.pos [] [] env s = .fail e t) :
    ∃ t, consumeDoubleQuotedString (run n) env s = .fail e t := by
  obtain ⟨t, key⟩ := key
  unfold consumeDoubleQuotedString consumeDelimitedString
  unfold rest_ at key
  rw [← hfac] at key
  ex
  simp only [ex_bind, next_here h] at key ⊢
  rw [key]
  exact ⟨_, rfl⟩

theorem lexDq_bad {e : Err} {src : List Nat} {out : GoStr} (hfac : env.hasFactory = true) (hq : Dq env.hexEsc src out)
    (hf : (src ++ rs).length < n) (h : Here env s.pos (src ++ rs))
    (key : ∀ m u, Here env (St.pos u) rs → u.pos = s.pos + (utf8 src).length → ∃ t, rest_ (m + 1) 34 (s.pos - 1) true .dq s.pos [] out env u = .fail e t) :
    ∃ t, consumeDoubleQuotedString (run n) env s = .fail e t := by
  refine lexDq_fail hfac h ?_
  obtain ⟨k, hk, hst⟩ := dq_steps (dstart := s.pos - 1) (start := s.pos) (segs := []) (i := true) hq hfac (buf := []) h
  simp only [List.length_append] at hf
  obtain ⟨m, rfl⟩ : ∃ m, n = m + 1 + k := ⟨n - 1 - k, by omega⟩
  rw [hst]
  exact key m { s with pos := s.pos + (utf8 src).length } h.append rfl

theorem lexBacktick_open {src : List Nat} (hq : ∀ c ∈ src, c ≠ 96 ∧ c ≠ 0) (h0 : headC rest = 0) (h : Here env s.pos (src ++ rest)) :
    ∃ t, consumeBacktickedString env s = .fail (.issue .lexUnterminatedString (s.pos - 1)) t := by
  unfold consumeBacktickedString unterminatedQuote
  ex
  rw [advWhile_here h.fuel h (fun w hw => by simp [hq w hw]) (by simp [h0])]
  dsimp only
  rw [if_pos h0]
  exact ⟨_, rfl⟩

/-- `\x` at the end. -/
theorem rest_hexEnd {dstart start : Nat} {segs : List Expr} {buf : GoStr} (hx : env.hexEsc = true)
    (h : Here env s.pos [92, 120]) :
    ∃ t, rest_ (n + 2) 34 dstart true .dq start segs buf env s = .fail (.issue .lexUnterminatedString dstart) t := by
  have h2 : Here env (s.pos + 1 + 1) [] := (h.tail1 (by omega)).tail1 (by omega)
  have ho : appendHexadec env { s with pos := s.pos + 1 + 1 } = .ok [0] { s with pos := s.pos + 1 + 1 } := by
    unfold appendHexadec
    ex
    rw [next_here (s := { s with pos := s.pos + 1 + 1 }) h2]
    simp only [headC_nil, show isHexDigit 0 = false from rfl, Bool.false_eq_true, if_false, width]
    rw [from_here (s := { s with pos := s.pos + 1 + 1 }) (ws := []) h2 (by simp)]
    rfl
  rw [rest_esc (c := 120) (out := [0]) (q := s.pos + 1 + 1) (by omega) (by omega) (by omega) h (by rw [enc_len (by omega), dq_x hx]; exact ho)]
  exact rest_eof (s := { s with pos := s.pos + 1 + 1 }) (by omega) h2 rfl

/-- Text between slashes. -/
theorem rx_steps {dstart start : Nat} {segs : List Expr} {out : List Nat} (hq : Rx src out) {buf : GoStr}
    (h : Here env s.pos (src ++ rs)) :
    ∃ k, k ≤ src.length ∧ ∀ n, rest_ (n + k) 47 dstart false .regexp start segs buf env s =
      rest_ n 47 dstart false .regexp start segs (buf ++ utf8 out) env { s with pos := s.pos + (utf8 src).length } := by
  induction hq generalizing s buf with
  | nil => exact ⟨0, by simp, fun n => by simp [utf8]⟩
  | @char c src out h1 h2 h3 hq ih =>
    rw [utf8_cons]
    refine rest_cons (o := encodeRune c) (q := s.pos + (encodeRune c).length) (fun n => rest_char h3 h1 h2 (by simp) h) (ih (s := { s with pos := _ }) h.tail) ?_ (by simp)
    simp only [utf8_cons, List.length_append]; omega
  | @slash src out hq ih =>
    rw [utf8_cons (r := 47) (rs := out)]
    refine rest_cons (o := encodeRune 47) (q := s.pos + 2) (fun n => rest_escD (by omega) (by omega) (by omega) h)
      (ih (s := { s with pos := s.pos + 2 }) ((h.tail1 (by omega)).tail1 (by omega))) ?_ (by simp)
    simp only [utf8_cons, List.length_append, enc_len (show 92 < 128 by omega), enc_len (show 47 < 128 by omega)]; omega
  | @other c src out h1 h3 hq ih =>
    have e : utf8 (92 :: c :: out) = (92 :: encodeRune c) ++ utf8 out := by
      rw [utf8_cons, utf8_cons, encodeRune_ascii (by omega)]; rfl
    rw [e]
    refine rest_cons (o := 92 :: encodeRune c) (q := s.pos + 1 + (encodeRune c).length) (fun n => rest_esc (by omega) h3 h1 h rfl)
      (ih (s := { s with pos := s.pos + 1 + (encodeRune c).length }) (h.tail1 (by omega)).tail) ?_ (by simp)
    simp only [utf8_cons, List.length_append, enc_len (show 92 < 128 by omega)]; omega

theorem acceptable_eq (q : Tok) : isRegexpAcceptable q = beforeRegexp q := by cases q <;> rfl

theorem lexRegexp_open {out : List Nat} (hq : Rx src out) (h0 : headC rest = 0) (hp : beforeRegexp s.tok = true)
    (hf : (src ++ 92 :: rest).length < n) (h : Here env s.pos (src ++ 92 :: rest)) :
    ∃ t, lexSlash (run n) env s = .fail (.issue .lexUnterminatedString (s.pos - 1)) t := by
  unfold lexSlash consumeRegexp consumeDelimitedString
  ex
  rw [acceptable_eq, hp]
  simp only [if_true]
  obtain ⟨k, hk, hst⟩ := rx_steps (dstart := s.pos - 1) (start := s.pos) (segs := []) (buf := []) hq h
  simp only [List.length_append, List.length_cons] at hf
  obtain ⟨m, rfl⟩ : ∃ m, n = m + 1 + k := ⟨n - 1 - k, by omega⟩
  have key := hst (m + 1)
  obtain ⟨t, e⟩ := rest_eofEsc (n := m) (d := 47) (dstart := s.pos - 1) (i := false) (hd := .regexp) (start := s.pos) (segs := []) (buf := [] ++ utf8 out)
    (s := { s with pos := s.pos + (utf8 src).length }) (by omega) h.append h0
  rw [e] at key
  unfold rest_ at key
  rw [ex_bind] at key
  rw [next_here h] at key ⊢
  dsimp only at key ⊢
  rw [key]
  exact ⟨_, rfl⟩

theorem lexPipe_open {nl : Bool} (hw : White ws nl) (hp : s.tok ≠ .pipe) (h62 : headC (ws ++ rs) ≠ 62) (hn : s.nls = none)
    (h : Here env s.pos (ws ++ rs)) (ho : OpenComment rs) :
    ∃ t, lexPipe env s = .fail (.issue .lexUnterminatedComment (s.pos + (utf8 ws).length)) t := by
  obtain ⟨b', hsk⟩ := white_skip hw s.pos s.bol
  obtain ⟨t, e⟩ := skipWhite_open hsk hn h ho
  unfold lexPipe
  ex
  rw [peek_here h]
  dsimp only
  rw [if_neg h62, if_neg hp, e]
  exact ⟨_, rfl⟩

/-- A malformed lexeme is an error with its code at its place. -/
theorem lex_malformed {code : Code} {off : Nat} (hm : Malformed env s.tok rs code off) (hfac : env.hasFactory = true) (hn : s.nls = none)
    (hs : Skips s.pos s.bol ws p' b') (h : Here env s.pos (ws ++ rs)) (hf : rs.length < n) :
    ∃ t, run (n + 1) .nextToken env s = .fail (.issue code (p' + off)) t := by
  have hp := h.append
  rw [← hs.pos] at hp
  have step : NoSkip rs → (∃ t, lexChar (run n) s.pos (headC rs) p' env { s with pos := p' + width rs, bol := b', tsp := p' } =
      .fail (.issue code (p' + off)) t) → ∃ t, run (n + 1) .nextToken env s = .fail (.issue code (p' + off)) t := by
    intro hns hx
    rw [nextToken_exec hs hn h hns]
    exact hx
  have one : ∀ {c : Nat}, c < 128 → (encodeRune c).length = 1 := enc_len
  cases hm with
  | comment ho =>
    show ∃ t, nextTokenBody (run n) env s = _
    unfold nextTokenBody
    ex
    obtain ⟨t, e⟩ := skipWhite_open hs hn h ho
    rw [e]
    exact ⟨_, rfl⟩
  | @single src out rest hq h0 =>
    refine step ⟨rfl, by simp, by simp⟩ ?_
    rw [headC_cons, width_cons, one (by omega), lexChar_sq]
    have := lexSq_open (n := n) (s := { s with pos := p' + 1, bol := b', tsp := p' }) (by simp at hf ⊢; omega) (hp.tail1 (by omega)) ⟨src, out, rest, hq, h0, .inl rfl⟩
    simpa using this
  | @singleEscape src out rest hq h0 =>
    refine step ⟨rfl, by simp, by simp⟩ ?_
    rw [headC_cons, width_cons, one (by omega), lexChar_sq]
    have := lexSq_open (n := n) (s := { s with pos := p' + 1, bol := b', tsp := p' }) (by simp at hf ⊢; omega) (hp.tail1 (by omega)) ⟨src, out, rest, hq, h0, .inr rfl⟩
    simpa using this
  | @double src out rest hq h0 =>
    refine step ⟨rfl, by simp, by simp⟩ ?_
    rw [headC_cons, width_cons, one (by omega), lexChar_dq]
    have h1 : Here env (p' + 1) (src ++ rest) := hp.tail1 (by omega)
    refine lexDq_bad (s := { s with pos := p' + 1, bol := b', tsp := p' }) hfac hq (by simp at hf ⊢; omega) h1 fun m u hu _ => ?_
    exact rest_eof (by omega) hu h0
  | @doubleEscape src out rest hq h0 =>
    refine step ⟨rfl, by simp, by simp⟩ ?_
    rw [headC_cons, width_cons, one (by omega), lexChar_dq]
    have h1 : Here env (p' + 1) (src ++ 92 :: rest) := hp.tail1 (by omega)
    refine lexDq_bad (s := { s with pos := p' + 1, bol := b', tsp := p' }) hfac hq (by simp at hf ⊢; omega) h1 fun m u hu _ => ?_
    exact rest_eofEsc (by omega) hu h0
  | @doubleHex src out hx hq =>
    refine step ⟨rfl, by simp, by simp⟩ ?_
    rw [headC_cons, width_cons, one (by omega), lexChar_dq]
    have h1 : Here env (p' + 1) (src ++ [92, 120]) := hp.tail1 (by omega)
    refine lexDq_fail (s := { s with pos := p' + 1, bol := b', tsp := p' }) hfac h1 ?_
    obtain ⟨k, hk, hst⟩ := dq_steps (s := { s with pos := p' + 1, bol := b', tsp := p' }) (dstart := p' + 1 - 1) (start := p' + 1) (segs := []) (i := true) hq hfac (buf := []) h1
    simp only [List.length_append, List.length_cons, List.length_nil] at hf
    obtain ⟨m, rfl⟩ : ∃ m, n = m + 2 + k := ⟨n - 2 - k, by omega⟩
    dsimp only at hst ⊢
    rw [hst]
    exact rest_hexEnd hx h1.append
  | @regexp src out rest hr hq h0 hst =>
    refine step ⟨rfl, by simp, ?_⟩ ?_
    · rintro r e
      injection e with _ e
      apply hst
      cases src with
      | nil => exact absurd e (by simp)
      | cons a src => injection e
    · rw [headC_cons, width_cons, one (by omega), lexChar_slash]
      have := lexRegexp_open (n := n) (s := { s with pos := p' + 1, bol := b', tsp := p' }) hq h0 hr (by simp at hf ⊢; omega) (hp.tail1 (by omega))
      simpa using this
  | @pipe ws' rs' nl hpp h62 hw ho =>
    refine step ⟨rfl, by simp, by simp⟩ ?_
    rw [headC_cons, width_cons, one (by omega), lexChar_pipe]
    have := lexPipe_open (s := { s with pos := p' + 1, bol := b', tsp := p' }) hw hpp h62 hn (hp.tail1 (by omega)) ho
    rwa [show p' + (1 + (utf8 ws').length) = p' + 1 + (utf8 ws').length by omega]
  | @backtick src rest hb hq h0 =>
    refine step ⟨rfl, by simp, by simp⟩ ?_
    rw [headC_cons, width_cons, one (by omega), lexChar_backtick hb]
    have := lexBacktick_open (s := { s with pos := p' + 1, bol := b', tsp := p' }) hq h0 (hp.tail1 (by omega))
    simpa using this
  | @unicode src out rest hq hb =>
    refine step ⟨rfl, by simp, by simp⟩ ?_
    rw [headC_cons, width_cons, one (by omega), lexChar_dq]
    have h1 : Here env (p' + 1) (src ++ 92 :: 117 :: rest) := hp.tail1 (by omega)
    refine lexDq_bad (s := { s with pos := p' + 1, bol := b', tsp := p' }) hfac hq (by simp at hf ⊢; omega) h1 fun m u hu hup => ?_
    refine rest_escFail (by omega) (by omega) (by omega) hu ?_
    rw [dq_u, one (by omega)]
    obtain ⟨t, e⟩ := appendUnicode_bad (s := { u with pos := u.pos + 1 + 1 }) hb ((hu.tail1 (by omega)).tail1 (by omega))
    refine ⟨t, ?_⟩
    rw [e]
    congr 2
    dsimp only at hup ⊢
    omega
  | @hexEscape src out a rest hx hq ha hr =>
    refine step ⟨rfl, by simp, by simp⟩ ?_
    rw [headC_cons, width_cons, one (by omega), lexChar_dq]
    have h1 : Here env (p' + 1) (src ++ 92 :: 120 :: a :: rest) := hp.tail1 (by omega)
    refine lexDq_bad (s := { s with pos := p' + 1, bol := b', tsp := p' }) hfac hq (by simp at hf ⊢; omega) h1 fun m u hu hup => ?_
    refine rest_escFail (by omega) (by omega) (by omega) hu ?_
    rw [dq_x hx, one (by omega)]
    obtain ⟨t, e⟩ := appendHexadec_bad (s := { u with pos := u.pos + 1 + 1 }) ha hr ((hu.tail1 (by omega)).tail1 (by omega))
    refine ⟨t, ?_⟩
    rw [e]
    congr 2
    dsimp only at hup ⊢
    omega
  | @interpolation src out rest hq h1 h2 h3 h4 =>
    refine step ⟨rfl, by simp, by simp⟩ ?_
    rw [headC_cons, width_cons, one (by omega), lexChar_dq]
    have h1' : Here env (p' + 1) (src ++ 36 :: rest) := hp.tail1 (by omega)
    refine lexDq_bad (s := { s with pos := p' + 1, bol := b', tsp := p' }) hfac hq (by simp at hf ⊢; omega) h1' fun m u hu hup => ?_
    exact rest_dollarBad hu h1 h2 h3 h4
  | @decimal d cs rest hd1 hd2 hnum hl he he' =>
    refine step ⟨by simp [isBlank]; omega, by simp; omega, by rintro r e; injection e with e; omega⟩ ?_
    rw [headC_cons, width_cons, one (by omega), lexChar_digit hd1 hd2]
    have := lexNumber_letter (start := p') (s := { s with pos := p' + 1, bol := b', tsp := p' }) hnum hl he he' (hp.tail1 (by omega))
    rwa [show p' + (1 + cs.length) = p' + 1 + cs.length by omega]
  | @fraction d cs rest k hd1 hd2 hnum hb =>
    refine step ⟨by simp [isBlank]; omega, by simp; omega, by rintro r e; injection e with e; omega⟩ ?_
    rw [headC_cons, width_cons, one (by omega), lexChar_digit hd1 hd2]
    have := lexNumber_float (start := p') (s := { s with pos := p' + 1, bol := b', tsp := p' }) hnum (.inl rfl) (by simpa using hb) (hp.tail1 (by omega))
    rwa [show p' + (2 + cs.length + k) = p' + 1 + cs.length + 1 + k by omega]
  | @exponent d cs e rest k hd1 hd2 hnum he hb =>
    refine step ⟨by simp [isBlank]; omega, by simp; omega, by rintro r e; injection e with e; omega⟩ ?_
    rw [headC_cons, width_cons, one (by omega), lexChar_digit hd1 hd2]
    have := lexNumber_float (start := p') (s := { s with pos := p' + 1, bol := b', tsp := p' }) hnum (.inr he) (by rw [if_neg (by omega)]; exact hb) (hp.tail1 (by omega))
    rwa [show p' + (2 + cs.length + k) = p' + 1 + cs.length + 1 + k by omega]
  | @zeroFraction rest k hb =>
    refine step ⟨rfl, by simp, by simp⟩ ?_
    rw [headC_cons, width_cons, one (by omega), lexChar_zero]
    have := lexZero_float (start := p') (c := 46) (s := { s with pos := p' + 1, bol := b', tsp := p' }) (.inl rfl) (by simpa using hb) (hp.tail1 (by omega))
    rwa [show p' + (2 + k) = p' + 1 + 1 + k by omega]
  | @zeroExponent e rest k he hb =>
    refine step ⟨rfl, by simp, by simp⟩ ?_
    rw [headC_cons, width_cons, one (by omega), lexChar_zero]
    have := lexZero_float (start := p') (s := { s with pos := p' + 1, bol := b', tsp := p' }) (.inr he) (by rw [if_neg (by omega)]; exact hb) (hp.tail1 (by omega))
    rwa [show p' + (2 + k) = p' + 1 + 1 + k by omega]
  | @hexadecimal x ds rest hx hd hr hb =>
    refine step ⟨rfl, by simp, by simp⟩ ?_
    rw [headC_cons, width_cons, one (by omega), lexChar_zero]
    have := lexZero_hex (start := p') (s := { s with pos := p' + 1, bol := b', tsp := p' }) hx hd hr hb (hp.tail1 (by omega))
    rwa [show p' + (2 + ds.length) = p' + 1 + 1 + ds.length by omega]
  | @octal ds rest hd hl hr he =>
    refine step ⟨rfl, by simp, by simp⟩ ?_
    rw [headC_cons, width_cons, one (by omega), lexChar_zero]
    have := lexZero_oct (start := p') (s := { s with pos := p' + 1, bol := b', tsp := p' }) hd hl hr he (hp.tail1 (by omega))
    rwa [show p' + (1 + ds.length) = p' + 1 + ds.length by omega]
  | @word c t hc hb =>
    have hc' := hc
    simp only [isLowercaseLetter, Bool.and_eq_true, decide_eq_true_eq] at hc'
    refine step ⟨by simp [isBlank]; omega, by simp; omega, by rintro r e; injection e with e; omega⟩ ?_
    rw [headC_cons, width_cons, one (by omega), lexChar_lower hc]
    exact name_bad (s := { s with pos := p' + 1, bol := b', tsp := p' }) hb (hp.tail1 (by omega))
  | @typeName c t hc hb =>
    have hc' := hc
    simp only [isUppercaseLetter, Bool.and_eq_true, decide_eq_true_eq] at hc'
    refine step ⟨by simp [isBlank]; omega, by simp; omega, by rintro r e; injection e with e; omega⟩ ?_
    rw [headC_cons, width_cons, one (by omega), lexChar_upper hc]
    exact name_bad (s := { s with pos := p' + 1, bol := b', tsp := p' }) hb (hp.tail1 (by omega))
  | @globalWord c t hc hb =>
    refine step ⟨rfl, by simp, by simp⟩ ?_
    rw [headC_cons, width_cons, one (by omega), lexChar_colon]
    exact lexColon_bad (s := { s with pos := p' + 1, bol := b', tsp := p' }) (.inr ⟨rfl, hc⟩) hb (hp.tail1 (by omega))
  | @globalTypeName c t hc hb =>
    refine step ⟨rfl, by simp, by simp⟩ ?_
    rw [headC_cons, width_cons, one (by omega), lexChar_colon]
    exact lexColon_bad (s := { s with pos := p' + 1, bol := b', tsp := p' }) (.inl ⟨rfl, hc⟩) hb (hp.tail1 (by omega))
  | @noName rest h1 h2 =>
    refine step ⟨rfl, by simp, by simp⟩ ?_
    rw [headC_cons, width_cons, one (by omega), lexChar_colon]
    exact lexColon_noName (s := { s with pos := p' + 1, bol := b', tsp := p' }) h1 h2 (hp.tail1 (by omega))
  | @«variable» g c t hg hc hb =>
    have hc' := hc
    simp only [isLowercaseLetter, Bool.and_eq_true, decide_eq_true_eq] at hc'
    refine step ⟨rfl, by simp, by simp⟩ ?_
    have h1 : Here env (p' + 1) (g ++ c :: t) := hp.tail1 (by omega)
    rw [headC_cons, width_cons, one (by omega), lexChar_dollar, lexDollar_prefix (s := { s with pos := p' + 1, bol := b', tsp := p' }) hg (by simp; omega) h1,
      headC_cons, if_pos hc]
    refine name_bad (s := { s with pos := p' + 1 + g.length + width (c :: t), bol := b', tsp := p' }) hb ?_
    have h2 := h1.append
    have hl : (utf8 g).length = g.length := utf8_ascii_length fun w hw => by rcases hg with rfl | rfl <;> simp at hw; omega
    rw [hl] at h2
    rw [width_cons]
    exact h2.tail
  | @variableColon rest h1 =>
    refine step ⟨rfl, by simp, by simp⟩ ?_
    rw [headC_cons, width_cons, one (by omega), lexChar_dollar]
    exact lexDollar_colon (s := { s with pos := p' + 1, bol := b', tsp := p' }) h1 (hp.tail1 (by omega))
  | @variableLetter g rest hg hl hlow =>
    refine step ⟨rfl, by simp, by simp⟩ ?_
    have h58 : headC rest ≠ 58 := by
      intro e; rw [e] at hl; simp [uniIsLetter, isUppercaseLetter, isLowercaseLetter] at hl
    have hdig : isDecimalDigit (headC rest) = false := by
      rw [← Bool.not_eq_true]
      intro e
      simp only [isDecimalDigit, Bool.and_eq_true, decide_eq_true_eq] at e
      unfold uniIsLetter at hl
      rw [if_pos (by omega)] at hl
      simp only [isUppercaseLetter, isLowercaseLetter, Bool.or_eq_true, Bool.and_eq_true, decide_eq_true_eq] at hl
      omega
    have h1 : Here env (p' + 1) (g ++ rest) := hp.tail1 (by omega)
    rw [headC_cons, width_cons, one (by omega), lexChar_dollar, lexDollar_prefix (s := { s with pos := p' + 1, bol := b', tsp := p' }) hg (fun _ => h58) h1,
      if_neg (by simp [hlow]), if_neg (by simp [hdig]), if_pos hl, show p' + (1 + g.length) = p' + 1 + g.length by omega]
    exact ⟨_, rfl⟩
  | @tilde rest h1 =>
    refine step ⟨rfl, by simp, by simp⟩ ?_
    rw [headC_cons, width_cons, one (by omega), lexChar_tilde]
    unfold lexTilde issueAt
    ex
    rw [peek_here (s := { s with pos := p' + 1, bol := b', tsp := p' }) (hp.tail1 (by omega))]
    dsimp only
    rw [if_neg h1]
    exact ⟨_, rfl⟩
  | @noToken c rest h1 h2 h3 =>
    refine step ⟨h2, h3, ?_⟩ ?_
    · rintro r e
      injection e with e
      subst e
      exact absurd h1 (by unfold startsToken; simp)
    · rw [headC_cons, lexChar_other h1]
      exact ⟨_, rfl⟩

end
end PP
