import Verif.Lemmas.Skip

/-! # Single tokens -/
namespace PP

section
variable {env : Env} {s : St} {rs ws ds rest : List Nat} {n p' b' : Nat}

/-- `nextToken` after the white space. -/
theorem nextToken_exec (hs : Skips s.pos s.bol ws p' b') (hn : s.nls = none)
    (h : Here env s.pos (ws ++ rs)) (hr : NoSkip rs) :
    run (n + 1) .nextToken env s =
      lexChar (run n) s.pos (headC rs) p' env { s with pos := p' + width rs, bol := b', tsp := p' } := by
  show nextTokenBody (run n) env s = _
  unfold nextTokenBody
  ex
  rw [skipWhite_exec hs hn h hr]

theorem digitVal_hex {c : Nat} (h : isHexDigit c = true) : digitVal (UInt8.ofNat c) = some (digitOf c) := by
  simp only [isHexDigit, Bool.or_eq_true, Bool.and_eq_true, decide_eq_true_eq] at h
  unfold digitVal digitOf
  rw [toNat_ofNat (by omega)]
  simp only [Bool.and_eq_true, decide_eq_true_eq]
  repeat' split
  all_goals first | omega | rfl | (congr 1; omega)

theorem parseDigits_numeral {base : Nat} (hd : ∀ c ∈ ds, isHexDigit c = true ∧ digitOf c < base) (acc : Nat) :
    parseDigits base (utf8 ds) acc = some (ds.foldl (fun n c => n * base + digitOf c) acc) := by
  induction ds generalizing acc with
  | nil => rfl
  | cons c ds ih =>
    have hc := hd c (List.mem_cons_self ..)
    have h1 := hc.1
    simp only [isHexDigit, Bool.or_eq_true, Bool.and_eq_true, decide_eq_true_eq] at h1
    rw [utf8_cons, encodeRune_ascii (by omega)]
    simp only [List.cons_append, List.nil_append, parseDigits, digitVal_hex hc.1, if_pos hc.2, List.foldl_cons]
    exact ih (fun x hx => hd x (List.mem_cons_of_mem _ hx)) _

/-- Integer literals: the value saturates. -/
def saturate (n : Nat) : Int := if n < 9223372036854775808 then (n : Int) else 9223372036854775807

theorem parseInt64_numeral {base : Nat} (hd : ∀ c ∈ ds, isHexDigit c = true ∧ digitOf c < base) (hne : ds ≠ []) :
    parseInt64 base (utf8 ds) = saturate (numeral base ds) := by
  obtain ⟨c, ds, rfl⟩ : ∃ c t, ds = c :: t := by cases ds with | nil => exact absurd rfl hne | cons c t => exact ⟨c, t, rfl⟩
  have hc := (hd c (List.mem_cons_self ..)).1
  simp only [isHexDigit, Bool.or_eq_true, Bool.and_eq_true, decide_eq_true_eq] at hc
  have hp := parseDigits_numeral hd 0
  have he : utf8 (c :: ds) = UInt8.ofNat c :: utf8 ds := by rw [utf8_cons, encodeRune_ascii (by omega)]; rfl
  have h1 : ((utf8 (c :: ds)).head? == some 45) = false := by
    rw [he, List.head?_cons]
    rw [beq_eq_false_iff_ne]; intro h
    have := congrArg UInt8.toNat (Option.some.inj h)
    rw [toNat_ofNat (by omega)] at this
    simp at this; omega
  have h2 : ((utf8 (c :: ds)).head? == some 43) = false := by
    rw [he, List.head?_cons]
    rw [beq_eq_false_iff_ne]; intro h
    have := congrArg UInt8.toNat (Option.some.inj h)
    rw [toNat_ofNat (by omega)] at this
    simp at this; omega
  unfold parseInt64
  simp only [h1, h2, Bool.or_self, Bool.false_eq_true, if_false, hp]
  rw [he]
  simp only [List.isEmpty_cons, Bool.false_eq_true, if_false]
  rfl

theorem dec_hex {c : Nat} (h : isDecimalDigit c = true) : isHexDigit c = true ∧ digitOf c < 10 := by
  simp only [isDecimalDigit, Bool.and_eq_true, decide_eq_true_eq] at h
  simp only [isHexDigit, digitOf, Bool.or_eq_true, Bool.and_eq_true, decide_eq_true_eq]
  exact ⟨by omega, by split <;> omega⟩

theorem oct_hex {c : Nat} (h : isOctalDigit c = true) : isHexDigit c = true ∧ digitOf c < 8 := by
  simp only [isOctalDigit, Bool.and_eq_true, decide_eq_true_eq] at h
  simp only [isHexDigit, digitOf, Bool.or_eq_true, Bool.and_eq_true, decide_eq_true_eq]
  exact ⟨by omega, by split <;> omega⟩

theorem hex_hex {c : Nat} (h : isHexDigit c = true) : isHexDigit c = true ∧ digitOf c < 16 := by
  refine ⟨h, ?_⟩
  simp only [isHexDigit, Bool.or_eq_true, Bool.and_eq_true, decide_eq_true_eq] at h
  unfold digitOf
  repeat' split
  all_goals omega

theorem hex_ascii {c : Nat} (h : isHexDigit c = true) : c < 128 := by
  simp only [isHexDigit, Bool.or_eq_true, Bool.and_eq_true, decide_eq_true_eq] at h
  omega

/-- What may follow a decimal integer. -/
def EndsDecimal (env : Env) (ds : List Nat) (c : Nat) : Prop :=
  isDecimalDigit c = false ∧ uniIsLetter env c = false ∧ c ≠ 46 ∧ (ds = [] → c ≠ 45 ∧ c ≠ 43)

theorem lexNumber_exec {d start scan : Nat} (hd : 49 ≤ d ∧ d ≤ 57) (hds : ∀ c ∈ ds, isDecimalDigit c = true)
    (he : EndsDecimal env ds (headC rest)) (h : Here env start (d :: (ds ++ rest))) (hp : s.pos = start + 1) :
    lexChar (run n) scan d start env s =
      .ok () { s with pos := start + 1 + ds.length, tok := .integer, radix := 10,
                      val := .int (saturate (numeral 10 (d :: ds))) } := by
  obtain ⟨e1, e2, e3, e4⟩ := he
  have hE : headC rest ≠ 101 ∧ headC rest ≠ 69 := by
    constructor <;> (intro h; rw [h] at e2; revert e2; simp [uniIsLetter, isUppercaseLetter, isLowercaseLetter])
  have h1 : Here env s.pos (ds ++ rest) := by rw [hp]; exact h.tail1 (by omega)
  have hs : ¬ (headC (ds ++ rest) = 45 ∨ headC (ds ++ rest) = 43) := by
    cases ds with
    | nil => have := e4 rfl; simp only [List.nil_append]; omega
    | cons c t =>
      have := hds c (List.mem_cons_self ..)
      simp only [isDecimalDigit, Bool.and_eq_true, decide_eq_true_eq] at this
      simp only [List.cons_append, headC_cons]; omega
  have hl : (utf8 ds).length = ds.length := utf8_ascii_length fun w hw => hex_ascii (dec_hex (hds w hw)).1
  have hd0 : isDecimalDigit d = true := by simp [isDecimalDigit]; omega
  have hall : ∀ c ∈ d :: ds, isDecimalDigit c = true := by
    intro c hc
    rcases List.mem_cons.1 hc with rfl | hc
    · exact hd0
    · exact hds c hc
  have h2 := h1.append
  unfold lexChar
  ex
  rw [if_pos (by omega)]
  unfold lexNumber skipDecimalDigits
  ex
  rw [peek_here h1]
  dsimp only
  simp only [hs, if_false]
  rw [advWhile_here h1.fuel h1 hds e1]
  dsimp only
  rw [peek_here (s := { s with pos := s.pos + (utf8 ds).length }) h2]
  dsimp only
  rw [if_neg (by omega), e2]
  simp only [Bool.false_eq_true, if_false]
  have hf : from_ start env { s with pos := s.pos + (utf8 ds).length } =
      .ok (utf8 (d :: ds)) { s with pos := s.pos + (utf8 ds).length } := by
    refine from_here (rs := rest) (ws := d :: ds) h ?_
    rw [utf8_cons, List.length_append, enc_len (by omega)]
    show s.pos + _ = _; omega
  rw [hf]
  dsimp only
  rw [parseInt64_numeral (fun c hc => dec_hex (hall c hc)) (by simp), hl, hp]

theorem isLetter_split {c : Nat} (h : isLetter c = false) : isUppercaseLetter c = false ∧ isLowercaseLetter c = false := by
  simp only [isLetter, Bool.or_eq_false_iff] at h
  exact h.1

/-- The switch of `nextToken` on `0`. -/
theorem lexChar_zero {start scan : Nat} : lexChar (run n) scan 48 start env s = lexZero start env s := by
  unfold lexChar
  ex
  simp [isUppercaseLetter, isLowercaseLetter]

theorem lexHex_exec {x start scan : Nat} (hx : x = 120 ∨ x = 88) (hds : ∀ c ∈ ds, isHexDigit c = true) (hne : ds ≠ [])
    (he : isHexDigit (headC rest) = false ∧ isLetter (headC rest) = false)
    (h : Here env start (48 :: x :: (ds ++ rest))) (hp : s.pos = start + 1) :
    lexChar (run n) scan 48 start env s =
      .ok () { s with pos := start + 2 + ds.length, tok := .integer, radix := 16,
                      val := .int (saturate (numeral 16 ds)) } := by
  have h1 : Here env s.pos (x :: (ds ++ rest)) := by rw [hp]; exact h.tail1 (by omega)
  have h2 : Here env (s.pos + 1) (ds ++ rest) := h1.tail1 (by omega)
  have hl : (utf8 ds).length = ds.length := utf8_ascii_length fun w hw => hex_ascii (hds w hw)
  have hpos : 0 < ds.length := List.length_pos_iff.2 hne
  rw [lexChar_zero]
  unfold lexZero
  ex
  rw [peek_here (s := { s with radix := 10 }) h1]
  simp only [headC_cons, width, enc_len (show x < 128 by omega)]
  rw [if_neg (by omega), if_pos hx]
  rw [advWhile_here (s := { s with radix := 10, pos := s.pos + 1 }) h2.fuel h2 hds he.1]
  dsimp only
  rw [he.2]
  simp only [Bool.false_eq_true, or_false]
  rw [if_neg (by omega)]
  have hf := from_here (s := { s with radix := 10, pos := s.pos + 1 + (utf8 ds).length }) (ws := ds) h2 rfl
  rw [hf]
  dsimp only
  rw [parseInt64_numeral (fun c hc => hex_hex (hds c hc)) hne, hl, hp]

/-- What may follow an octal integer. -/
def EndsOctal (env : Env) (c : Nat) : Prop :=
  isDecimalDigit c = false ∧ uniIsLetter env c = false ∧ c ≠ 46

theorem lexOctal_exec {start scan : Nat} (hds : ∀ c ∈ ds, isOctalDigit c = true)
    (he : EndsOctal env (headC rest)) (h : Here env start (48 :: (ds ++ rest))) (hp : s.pos = start + 1) :
    lexChar (run n) scan 48 start env s =
      .ok () { s with pos := start + 1 + ds.length, tok := .integer, radix := if ds = [] then 10 else 8,
                      val := .int (saturate (numeral 8 ds)) } := by
  obtain ⟨e1, e2, e3⟩ := he
  have hE : headC rest ≠ 101 ∧ headC rest ≠ 69 ∧ headC rest ≠ 120 ∧ headC rest ≠ 88 := by
    refine ⟨?_, ?_, ?_, ?_⟩ <;> (intro h; rw [h] at e2; revert e2; simp [uniIsLetter, isUppercaseLetter, isLowercaseLetter])
  have h1 : Here env s.pos (ds ++ rest) := by rw [hp]; exact h.tail1 (by omega)
  have hl : (utf8 ds).length = ds.length := utf8_ascii_length fun w hw => hex_ascii (oct_hex (hds w hw)).1
  rw [lexChar_zero]
  unfold lexZero
  ex
  rw [peek_here (s := { s with radix := 10 }) h1]
  dsimp only
  have hh : headC (ds ++ rest) = 0 → ds = [] ∧ headC rest = 0 := by
    cases ds with
    | nil => intro h; exact ⟨rfl, h⟩
    | cons c t =>
      have := hds c (List.mem_cons_self ..)
      simp only [isOctalDigit, Bool.and_eq_true, decide_eq_true_eq] at this
      simp only [List.cons_append, headC_cons]; intro h; omega
  have hx : headC (ds ++ rest) ≠ 120 ∧ headC (ds ++ rest) ≠ 88 ∧ headC (ds ++ rest) ≠ 46 ∧
      headC (ds ++ rest) ≠ 101 ∧ headC (ds ++ rest) ≠ 69 := by
    cases ds with
    | nil => simp only [List.nil_append]; omega
    | cons c t =>
      have := hds c (List.mem_cons_self ..)
      simp only [isOctalDigit, Bool.and_eq_true, decide_eq_true_eq] at this
      simp only [List.cons_append, headC_cons]; omega
  by_cases h0 : headC (ds ++ rest) = 0
  · obtain ⟨rfl, h0'⟩ := hh h0
    rw [if_pos h0, hp]
    rfl
  rw [if_neg h0, if_neg (by omega), if_neg (by omega)]
  have e1' : isOctalDigit (headC rest) = false := by
    cases hb : isOctalDigit (headC rest) with
    | false => rfl
    | true =>
      rw [← e1]
      simp only [isOctalDigit, Bool.and_eq_true, decide_eq_true_eq] at hb
      simp [isDecimalDigit]; omega
  rw [advWhile_here (s := { s with radix := 10 }) h1.fuel h1 hds e1']
  dsimp only
  rw [e1, e2]
  simp only [Bool.false_eq_true, or_false, if_false]
  cases ds with
  | nil => simp only [utf8, List.flatMap_nil, List.length_nil]; rw [if_neg (by omega), hp]; rfl
  | cons c t =>
    rw [if_pos (by rw [hl]; simp)]
    have hf := from_here (s := { s with radix := 10, pos := s.pos + (utf8 (c :: t)).length }) (ws := c :: t) h1 rfl
    rw [hf]
    dsimp only
    rw [parseInt64_numeral (fun c hc => oct_hex (hds c hc)) (by simp), hl, hp]
    simp

/-- A digit and a sign: everything is swallowed and the value is 0. -/
theorem lexNumber_sign {d g start scan : Nat} (hd : 49 ≤ d ∧ d ≤ 57) (hg : g = 45 ∨ g = 43) (hds : ∀ c ∈ ds, isDecimalDigit c = true)
    (he : isDecimalDigit (headC rest) = false ∧ uniIsLetter env (headC rest) = false ∧ headC rest ≠ 46)
    (h : Here env start (d :: g :: (ds ++ rest))) (hp : s.pos = start + 1) :
    lexChar (run n) scan d start env s =
      .ok () { s with pos := start + 2 + ds.length, tok := .integer, radix := 10, val := .int 0 } := by
  obtain ⟨e1, e2, e3⟩ := he
  have hE : headC rest ≠ 101 ∧ headC rest ≠ 69 := by
    constructor <;> (intro h; rw [h] at e2; revert e2; simp [uniIsLetter, isUppercaseLetter, isLowercaseLetter])
  have h0 : Here env s.pos (g :: (ds ++ rest)) := by rw [hp]; exact h.tail1 (by omega)
  have h1 : Here env (s.pos + 1) (ds ++ rest) := h0.tail1 (by omega)
  have hl : (utf8 ds).length = ds.length := utf8_ascii_length fun w hw => hex_ascii (dec_hex (hds w hw)).1
  have h2 := h1.append
  unfold lexChar
  ex
  rw [if_pos (by omega)]
  unfold lexNumber skipDecimalDigits
  ex
  rw [peek_here h0]
  simp only [headC_cons, hg, if_true, width, enc_len (show g < 128 by omega)]
  rw [advWhile_here (s := { s with pos := s.pos + 1 }) h1.fuel h1 hds e1]
  dsimp only
  rw [peek_here (s := { s with pos := s.pos + 1 + (utf8 ds).length }) h2]
  dsimp only
  rw [if_neg (by omega), e2]
  simp only [Bool.false_eq_true, if_false]
  have hf : from_ start env { s with pos := s.pos + 1 + (utf8 ds).length } =
      .ok (utf8 (d :: g :: ds)) { s with pos := s.pos + 1 + (utf8 ds).length } := by
    refine from_here (rs := rest) (ws := d :: g :: ds) h ?_
    rw [utf8_cons, utf8_cons, List.length_append, List.length_append, enc_len (by omega), enc_len (by omega)]
    show s.pos + 1 + _ = _; omega
  rw [hf]
  dsimp only
  have hz : parseInt64 10 (utf8 (d :: g :: ds)) = 0 := by
    have he : utf8 (d :: g :: ds) = UInt8.ofNat d :: UInt8.ofNat g :: utf8 ds := by
      rw [utf8_cons, utf8_cons, encodeRune_ascii (by omega), encodeRune_ascii (by omega)]; rfl
    have hd1 : digitVal (UInt8.ofNat d) = some (digitOf d) := digitVal_hex (by simp [isHexDigit]; omega)
    have hd2 : digitVal (UInt8.ofNat g) = none := by rcases hg with rfl | rfl <;> rfl
    have h45 : ∀ b : UInt8, b.toNat < 49 → (some (UInt8.ofNat d) == some b) = false := by
      intro b hb
      rw [beq_eq_false_iff_ne]; intro h
      have := congrArg UInt8.toNat (Option.some.inj h)
      rw [toNat_ofNat (by omega)] at this
      omega
    unfold parseInt64
    simp only [he, List.head?_cons, h45 45 (by decide), h45 43 (by decide), Bool.or_self, Bool.false_eq_true, if_false, List.isEmpty_cons,
      parseDigits, hd1, hd2]
    split
    · rfl
    · next h => split at h <;> exact absurd h (by simp)
  rw [hz, hl, hp]

theorem numeral_natToDec (k : Nat) : ∃ ds : List Nat, (∀ c ∈ ds, isDecimalDigit c = true) ∧ utf8 ds = natToDec k ∧ numeral 10 ds = k ∧
    (0 < k → ∃ d t, ds = d :: t ∧ 49 ≤ d ∧ d ≤ 57) ∧ (k = 0 → ds = [48]) := by
  have key : ∀ f k, k < f → ∃ ds : List Nat, (∀ c ∈ ds, isDecimalDigit c = true) ∧ utf8 ds = natDigits f k ∧
      (0 < k → ∃ d t, ds = d :: t ∧ 49 ≤ d ∧ d ≤ 57) ∧ (k = 0 → ds = [48]) := by
    intro f
    induction f with
    | zero => intro k h; omega
    | succ f ih =>
      intro k hk
      unfold natDigits
      split
      · next h10 =>
        refine ⟨[48 + k], ?_, ?_, ?_, ?_⟩
        · intro c hc; simp only [List.mem_singleton] at hc; subst hc; simp [isDecimalDigit]; omega
        · simp only [utf8, List.flatMap_cons, List.flatMap_nil, List.append_nil]; rw [encodeRune_ascii (by omega)]
        · intro h; exact ⟨_, _, rfl, by omega, by omega⟩
        · rintro rfl; rfl
      · next h10 =>
        obtain ⟨ds, h1, h2, h3, h4⟩ := ih (k / 10) (by omega)
        refine ⟨ds ++ [48 + k % 10], ?_, ?_, ?_, by omega⟩
        · intro c hc
          rcases List.mem_append.1 hc with hc | hc
          · exact h1 c hc
          · simp only [List.mem_singleton] at hc; subst hc; simp [isDecimalDigit]; omega
        · rw [utf8_append, h2]
          simp only [utf8, List.flatMap_cons, List.flatMap_nil, List.append_nil]; rw [encodeRune_ascii (by omega)]
        · intro _
          obtain ⟨d, t, rfl, h5⟩ := h3 (by omega)
          exact ⟨d, t ++ [48 + k % 10], rfl, h5⟩
  obtain ⟨ds, h1, h2, h3, h4⟩ := key (k + 1) k (by omega)
  refine ⟨ds, h1, h2, ?_, h3, h4⟩
  have ha := parseDigits_numeral (base := 10) (fun c hc => dec_hex (h1 c hc)) 0
  have hb := natToDec_parse k
  unfold natToDec at hb
  rw [← h2, ha] at hb
  exact Option.some.inj hb

end
end PP
