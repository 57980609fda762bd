import Verif.Lemmas.Tokens
import Verif.Lemmas.Names
import Verif.Spec.Layout

/-! # Floating point literals -/
namespace PP
open PP.Spec

section
variable {env : Env} {s : St} {rs ds sign rest : List Nat} {n : Nat}

theorem digits_len (h : ∀ c ∈ ds, isDecimalDigit c = true) : (utf8 ds).length = ds.length :=
  utf8_ascii_length fun w hw => hex_ascii (dec_hex (h w hw)).1

theorem digits_head (h : Digits ds) : ∃ d t, ds = d :: t ∧ 48 ≤ d ∧ d ≤ 57 := by
  obtain ⟨hne, h⟩ := h
  cases ds with
  | nil => exact absurd rfl hne
  | cons d t =>
    have := h d (by simp)
    simp only [isDecimalDigit, Bool.and_eq_true, decide_eq_true_eq] at this
    exact ⟨d, t, rfl, this⟩

theorem needDigits_exec (hs : sign = [] ∨ sign = [45] ∨ sign = [43]) (hd : Digits ds) (hr : isDecimalDigit (headC rs) = false)
    (h : Here env s.pos (sign ++ (ds ++ rs))) :
    needDigits env s = .ok () { s with pos := s.pos + (utf8 (sign ++ ds)).length } := by
  have hl := digits_len hd.2
  have hne : 0 < ds.length := List.length_pos_iff.2 hd.1
  obtain ⟨d, t, e, hd1, hd2⟩ := digits_head hd
  unfold needDigits skipDecimalDigits
  ex
  rw [peek_here h]
  have h1 := h.append
  have hh : headC (ds ++ rs) = d := by rw [e]; rfl
  rcases hs with rfl | rfl | rfl
  · dsimp only [List.nil_append]
    rw [if_neg (by rw [hh]; omega)]
    have h2 : Here env s.pos (ds ++ rs) := h
    rw [advWhile_here h2.fuel h2 hd.2 hr]
    simp only [hl]
    rw [if_pos (by simp; omega)]
  all_goals
    dsimp only [List.cons_append, headC_cons, width_cons, List.nil_append]
    rw [if_pos (by omega), enc_len (by omega)]
    have h1 : Here env (s.pos + 1) (ds ++ rs) := h.tail1 (by omega)
    rw [advWhile_here (s := { s with pos := s.pos + 1 }) h1.fuel h1 hd.2 hr]
    simp only [utf8_cons, List.length_append, hl]
    rw [if_pos (by simp; omega), enc_len (by omega), Nat.add_assoc]

theorem letterE {c : Nat} (h : uniIsLetter env c = false) : c ≠ 101 ∧ c ≠ 69 := by
  constructor <;> (rintro rfl; revert h; simp [uniIsLetter, isUppercaseLetter, isLowercaseLetter])

/-- `consumeFloat` after `whole` and the character `d`. -/
theorem consumeFloat_exec {whole ds xp : List Nat} {d start : Nat}
    (hx : (d = 46 ∧ Digits ds ∧ (xp = [] ∨ Exponent xp)) ∨ ((d = 101 ∨ d = 69) ∧ xp = [] ∧ Exponent (d :: ds)))
    (hr1 : isDecimalDigit (headC rest) = false) (hr2 : uniIsLetter env (headC rest) = false)
    (h : Here env start (whole ++ d :: (ds ++ (xp ++ rest)))) (hp : s.pos = start + (utf8 whole).length + 1) :
    consumeFloat start d env s = .ok ()
      { s with pos := start + (utf8 (whole ++ d :: (ds ++ xp))).length, tok := .float, val := .flt ⟨false, utf8 (whole ++ d :: (ds ++ xp))⟩ } := by
  have hE := letterE hr2
  have hd : d < 128 := by omega
  have h1 : Here env s.pos (ds ++ (xp ++ rest)) := by rw [hp]; exact h.append.tail1 hd
  have hlen : (utf8 (whole ++ d :: (ds ++ xp))).length = (utf8 whole).length + 1 + (utf8 ds).length + (utf8 xp).length := by
    simp only [utf8_append, utf8_cons, List.length_append, enc_len hd]; omega
  have fin : ∀ u : St, u = { s with pos := u.pos } → u.pos = start + (utf8 (whole ++ d :: (ds ++ xp))).length →
      (do let t ← from_ start; setTokenValue .float (.flt { neg := false, text := t }) : P Unit) env u =
      .ok ()
        { s with pos := start + (utf8 (whole ++ d :: (ds ++ xp))).length, tok := .float, val := .flt ⟨false, utf8 (whole ++ d :: (ds ++ xp))⟩ } := by
    intro u hu hup
    have hf : from_ start env u = .ok (utf8 (whole ++ d :: (ds ++ xp))) u :=
      from_here (rs := rest) (ws := whole ++ d :: (ds ++ xp)) (by simpa using h) hup
    ex
    rw [hf]
    simp only
    rw [hu, ← hup]
  unfold consumeFloat
  ex
  rcases hx with ⟨rfl, hds, hex⟩ | ⟨hd2, rfl, hex⟩
  · rcases hex with rfl | ⟨e, sg, es, rfl, he, hsg, hes⟩
    · rw [needDigits_exec (sign := []) (.inl rfl) hds hr1 h1]
      dsimp only
      have h2 : Here env (s.pos + (utf8 ([] ++ ds)).length) rest := by simpa using h1.append
      rw [peek_here (s := { s with pos := s.pos + (utf8 ([] ++ ds)).length }) h2]
      dsimp only
      rw [if_neg (by omega), if_neg (by simp [hr2])]
      have := fin { s with pos := s.pos + (utf8 ([] ++ ds)).length } rfl (by rw [hlen]; simp; omega)
      exact this
    · have hns : isDecimalDigit (headC (e :: (sg ++ es) ++ rest)) = false := by
        rcases he with rfl | rfl <;> rfl
      have he128 : e < 128 := by omega
      rw [needDigits_exec (sign := []) (.inl rfl) hds hns h1]
      dsimp only
      have h2 : Here env (s.pos + (utf8 ([] ++ ds)).length) (e :: (sg ++ (es ++ rest))) := by simpa using h1.append
      rw [peek_here (s := { s with pos := s.pos + (utf8 ([] ++ ds)).length }) h2]
      dsimp only [headC_cons, width_cons]
      rw [if_pos ⟨rfl, he⟩, enc_len he128]
      have h3 : Here env (s.pos + (utf8 ([] ++ ds)).length + 1) (sg ++ (es ++ rest)) := h2.tail1 he128
      rw [needDigits_exec (s := { s with pos := s.pos + (utf8 ([] ++ ds)).length + 1 }) hsg hes hr1 h3]
      dsimp only
      have h4 : Here env (s.pos + (utf8 ([] ++ ds)).length + 1 + (utf8 (sg ++ es)).length) rest := by
        have h5 : Here env (s.pos + (utf8 ([] ++ ds)).length + 1) ((sg ++ es) ++ rest) := by simpa using h3
        exact h5.append
      rw [peek_here (s := { s with pos := s.pos + (utf8 ([] ++ ds)).length + 1 + (utf8 (sg ++ es)).length }) h4]
      dsimp only
      rw [if_neg (by simp [hr2])]
      have := fin { s with pos := s.pos + (utf8 ([] ++ ds)).length + 1 + (utf8 (sg ++ es)).length } rfl
        (by rw [hlen]; simp only [utf8_cons, utf8_append, List.length_append, enc_len he128, List.nil_append]; omega)
      exact this
  · obtain ⟨e, sg, es, he0, he, hsg, hes⟩ := hex
    injection he0 with he1 he2
    subst he1 he2
    have h1' : Here env s.pos (sg ++ (es ++ rest)) := by simpa using h1
    rw [needDigits_exec hsg hes hr1 h1']
    dsimp only
    have h2 : Here env (s.pos + (utf8 (sg ++ es)).length) rest := by simpa using h1.append
    rw [peek_here (s := { s with pos := s.pos + (utf8 (sg ++ es)).length }) h2]
    dsimp only
    rw [if_neg (by omega), if_neg (by simp [hr2])]
    have := fin { s with pos := s.pos + (utf8 (sg ++ es)).length } rfl (by rw [hlen]; simp; omega)
    exact this

/-- A floating point literal. -/
theorem lexFloat_exec {cs : List Nat} {start scan : Nat} (hc : IsFloat cs) (hr1 : isDecimalDigit (headC rest) = false) (hr2 : uniIsLetter env (headC rest) = false)
    (h : Here env start (cs ++ rest)) (hp : s.pos = start + 1) :
    lexChar (run n) scan (headC cs) start env s =
      .ok () { s with pos := start + (utf8 cs).length, tok := .float, val := .flt ⟨false, utf8 cs⟩,
                      radix := if headC cs = 48 then 10 else s.radix } := by
  obtain ⟨whole, part, rfl, hw, hpart⟩ := hc
  obtain ⟨d, ds, xp, rfl, hx⟩ : ∃ d ds xp, part = d :: (ds ++ xp) ∧
      ((d = 46 ∧ Digits ds ∧ (xp = [] ∨ Exponent xp)) ∨ ((d = 101 ∨ d = 69) ∧ xp = [] ∧ Exponent (d :: ds))) := by
    rcases hpart with g | ⟨ds, rfl, g⟩ | ⟨ds, xp, rfl, h1, h2⟩
    · obtain ⟨e, sg, es, rfl, h1, h2⟩ := id g
      exact ⟨e, sg ++ es, [], by simp, .inr ⟨h1, rfl, g⟩⟩
    · exact ⟨_, ds, [], by simp, .inl ⟨rfl, g, .inl rfl⟩⟩
    · exact ⟨_, ds, xp, rfl, .inl ⟨rfl, h1, .inr h2⟩⟩
  have hd : d = 46 ∨ d = 101 ∨ d = 69 := by omega
  have h' : Here env start (whole ++ d :: (ds ++ (xp ++ rest))) := by simpa using h
  rcases hw with rfl | ⟨hw, h0⟩
  · have h1 : Here env s.pos (d :: (ds ++ (xp ++ rest))) := by rw [hp]; exact h'.tail1 (by omega)
    rw [show headC ([48] ++ d :: (ds ++ xp)) = 48 from rfl, if_pos rfl]
    rw [lexChar_zero]
    unfold lexZero
    ex
    rw [peek_here (s := { s with radix := 10 }) h1]
    dsimp only [headC_cons, width_cons]
    rw [if_neg (by omega), if_neg (by omega), if_pos hd, enc_len (by omega)]
    rw [consumeFloat_exec (s := { s with radix := 10, pos := s.pos + 1 }) (whole := [48]) hx hr1 hr2 h' (by simp [hp, utf8, enc_len])]
  · obtain ⟨w0, ws, rfl, hw1, hw2⟩ := digits_head hw
    rw [headC_cons] at h0
    have hws : ∀ c ∈ ws, isDecimalDigit c = true := fun c hc => hw.2 c (by simp [hc])
    have h1 : Here env s.pos (ws ++ d :: (ds ++ (xp ++ rest))) := by rw [hp]; exact h'.tail1 (by omega)
    have hsgn : ¬ (headC (ws ++ d :: (ds ++ (xp ++ rest))) = 45 ∨ headC (ws ++ d :: (ds ++ (xp ++ rest))) = 43) := by
      cases ws with
      | nil => simp only [List.nil_append, headC_cons]; omega
      | cons c t =>
        have := hws c (List.mem_cons_self ..)
        simp only [isDecimalDigit, Bool.and_eq_true, decide_eq_true_eq] at this
        simp only [List.cons_append, headC_cons]; omega
    have hnd : isDecimalDigit (headC (d :: (ds ++ (xp ++ rest)))) = false := by
      rcases hd with rfl | rfl | rfl <;> rfl
    rw [show headC (w0 :: ws ++ d :: (ds ++ xp)) = w0 from rfl, if_neg h0]
    unfold lexChar
    ex
    rw [if_pos (by omega)]
    unfold lexNumber skipDecimalDigits
    ex
    rw [peek_here h1]
    dsimp only
    simp only [hsgn, if_false]
    rw [advWhile_here h1.fuel h1 hws hnd]
    dsimp only
    have h2 : Here env (s.pos + (utf8 ws).length) (d :: (ds ++ (xp ++ rest))) := h1.append
    rw [peek_here (s := { s with pos := s.pos + (utf8 ws).length }) h2]
    dsimp only [headC_cons, width_cons]
    rw [if_pos hd, enc_len (by omega)]
    rw [consumeFloat_exec (s := { s with pos := s.pos + (utf8 ws).length + 1 }) (whole := w0 :: ws) hx hr1 hr2 h'
      (by simp [hp, utf8_cons, enc_len (show w0 < 128 by omega)]; omega)]

end
end PP
