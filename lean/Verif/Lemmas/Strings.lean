import Verif.Lemmas.Tokens

/-! # Quoted strings -/
namespace PP
set_option linter.unusedSimpArgs false

section
variable {env : Env} {s : St} {rs ws ds rest src : List Nat} {n p' b' : Nat}

theorem numeral_lt {base : Nat} (hd : ∀ c ∈ ds, digitOf c < base) : numeral base ds < base ^ ds.length := by
  have key : ∀ (ds : List Nat) (acc : Nat), (∀ c ∈ ds, digitOf c < base) →
      ds.foldl (fun n c => n * base + digitOf c) acc < (acc + 1) * base ^ ds.length := by
    intro ds
    induction ds with
    | nil => intro acc _; simp
    | cons c ds ih =>
      intro acc hd
      have h1 := ih (acc * base + digitOf c) fun x hx => hd x (List.mem_cons_of_mem _ hx)
      have h2 := hd c (List.mem_cons_self ..)
      simp only [List.foldl_cons, List.length_cons]
      refine Nat.lt_of_lt_of_le h1 ?_
      have h3 : (acc * base + digitOf c + 1) ≤ (acc + 1) * base := by rw [Nat.add_mul, Nat.one_mul]; omega
      calc (acc * base + digitOf c + 1) * base ^ ds.length ≤ ((acc + 1) * base) * base ^ ds.length := Nat.mul_le_mul_right _ h3
        _ = (acc + 1) * base ^ (ds.length + 1) := by rw [Nat.pow_succ, Nat.mul_assoc, Nat.mul_comm base]
  simpa [numeral] using key ds 0 hd

theorem hexInt (hd : ∀ c ∈ ds, isHexDigit c = true) (hne : ds ≠ []) (hl : ds.length ≤ 6) :
    (parseInt64 16 (utf8 ds)).toNat = numeral 16 ds := by
  rw [parseInt64_numeral (fun c hc => hex_hex (hd c hc)) hne]
  have h1 := numeral_lt (base := 16) (fun c hc => (hex_hex (hd c hc)).2)
  have h2 : 16 ^ ds.length ≤ 16 ^ 6 := Nat.pow_le_pow_right (by omega) hl
  have h3 : 16 ^ 6 = 16777216 := by decide
  unfold saturate
  rw [if_pos (by omega)]
  rfl

theorem hexDigits_exec {start : Nat} (hd : ∀ c ∈ ds, isHexDigit c = true) (h : Here env s.pos (ds ++ rs)) :
    hexDigits start ds.length env s = .ok () { s with pos := s.pos + ds.length } := by
  induction ds generalizing s with
  | nil => rfl
  | cons c ds ih =>
    have hc := hd c (List.mem_cons_self ..)
    simp only [List.length_cons]
    unfold hexDigits
    ex
    rw [next_here h]
    simp only [List.cons_append, headC_cons, hc, if_true, width, enc_len (hex_ascii hc)]
    rw [ih (fun x hx => hd x (List.mem_cons_of_mem _ hx)) (h.tail1 (hex_ascii hc))]
    dsimp only
    rw [Nat.add_assoc, Nat.add_comm 1]

theorem appendUnicode4 {a : Nat} (hd : ∀ c ∈ a :: ds, isHexDigit c = true) (hl : ds.length = 3) (h : Here env s.pos (a :: (ds ++ rs))) :
    appendUnicode env s = .ok (encodeRune (numeral 16 (a :: ds))) { s with pos := s.pos + 4 } := by
  have ha := hd a (List.mem_cons_self ..)
  have hds : ∀ c ∈ ds, isHexDigit c = true := fun x hx => hd x (List.mem_cons_of_mem _ hx)
  unfold appendUnicode
  ex
  rw [next_here h]
  simp only [headC_cons, ha, if_true, width, enc_len (hex_ascii ha)]
  rw [← hl, hexDigits_exec (s := { s with pos := s.pos + 1 }) hds (h.tail1 (hex_ascii ha))]
  dsimp only
  have hu : (utf8 (a :: ds)).length = 4 := by
    rw [utf8_ascii_length fun w hw => hex_ascii (hd w hw)]; simp [hl]
  have hf := from_here (s := { s with pos := s.pos + 1 + ds.length }) (ws := a :: ds) h (by rw [hu, hl])
  rw [hf]
  dsimp only
  rw [hexInt hd (by simp) (by simp [hl]), hl]

theorem appendUnicodeBraces (hd : ∀ c ∈ ds, isHexDigit c = true) (h2 : 2 ≤ ds.length) (h6 : ds.length ≤ 6)
    (h : Here env s.pos (123 :: (ds ++ 125 :: rs))) :
    appendUnicode env s = .ok (encodeRune (numeral 16 ds)) { s with pos := s.pos + 2 + ds.length } := by
  have h1 : Here env (s.pos + 1) (ds ++ 125 :: rs) := h.tail1 (by omega)
  have hu : (utf8 ds).length = ds.length := utf8_ascii_length fun w hw => hex_ascii (hd w hw)
  unfold appendUnicode
  ex
  rw [next_here h]
  simp only [headC_cons, width, enc_len (show 123 < 128 by omega)]
  simp only [show isHexDigit 123 = false from rfl, Bool.false_eq_true, if_false, ne_eq, not_true_eq_false]
  rw [advWhile_here (s := { s with pos := s.pos + 1 }) h1.fuel h1 hd rfl]
  dsimp only
  rw [hu, if_pos ⟨by omega, by omega, rfl⟩]
  have hf := from_here (s := { s with pos := s.pos + 1 + ds.length }) (ws := ds) h1 (by rw [hu])
  rw [hf]
  simp only [width, enc_len (show 125 < 128 by omega)]
  rw [hexInt hd (by intro h; subst h; simp at h2) h6]
  have : s.pos + 1 + ds.length + 1 = s.pos + 2 + ds.length := by omega
  rw [this]

theorem appendHexadec_exec {a b : Nat} (ha : isHexDigit a = true) (hb : isHexDigit b = true) (h : Here env s.pos (a :: b :: rs)) :
    appendHexadec env s = .ok [UInt8.ofNat (numeral 16 [a, b])] { s with pos := s.pos + 2 } := by
  have h1 : Here env (s.pos + 1) (b :: rs) := h.tail1 (hex_ascii ha)
  unfold appendHexadec
  ex
  rw [next_here h]
  simp only [headC_cons, width, enc_len (hex_ascii ha), ha, if_true]
  rw [next_here (s := { s with pos := s.pos + 1 }) h1]
  simp only [headC_cons, width, enc_len (hex_ascii hb), hb, if_true]
  have hd : ∀ c ∈ [a, b], isHexDigit c = true := by
    intro c hc; simp only [List.mem_cons, List.not_mem_nil, or_false] at hc; rcases hc with rfl | rfl <;> assumption
  have hf := from_here (s := { s with pos := s.pos + 1 + 1 }) (ws := [a, b]) h (by
    rw [utf8_ascii_length fun w hw => hex_ascii (hd w hw)]; rfl)
  rw [hf]
  dsimp only
  rw [hexInt hd (by simp) (by simp)]

theorem parseInt64_other {a : Nat} (ha : isHexDigit a = false) : parseInt64 16 (encodeRune a) = 0 := by
  obtain ⟨b, bs, e⟩ : ∃ b bs, encodeRune a = b :: bs := by
    cases h : encodeRune a with
    | nil => exact absurd h (encodeRune_ne_nil a)
    | cons b bs => exact ⟨b, bs, rfl⟩
  have hb : ∀ d, digitVal b = some d → ¬ d < 16 := by
    intro d hd hlt
    by_cases h128 : b.toNat < 128
    · have ha' := encodeRune_ascii_mem (r := a) (b := b) (by rw [e]; simp) h128
      unfold digitVal at hd
      simp only [Bool.and_eq_true, decide_eq_true_eq] at hd
      simp only [isHexDigit, Bool.or_eq_false_iff, Bool.and_eq_false_iff, decide_eq_false_iff_not] at ha
      have hab : a = b.toNat := by first | exact ha' | exact ha'.1 | exact ha'.symm
      repeat' split at hd
      all_goals first | (cases hd; done) | (injection hd with hd; omega)
    · unfold digitVal at hd
      simp only [Bool.and_eq_true, decide_eq_true_eq] at hd
      repeat' split at hd
      all_goals first | (cases hd; done) | (injection hd with hd; omega)
  have pd : ∀ t, parseDigits 16 (b :: t) 0 = none := by
    intro t
    unfold parseDigits
    cases hd : digitVal b with
    | none => rfl
    | some d => dsimp only; rw [if_neg (hb d hd)]
  unfold parseInt64
  rw [e]
  simp only [List.head?_cons, List.tail_cons]
  by_cases hs : (some b == some 45 || some b == some 43) = true
  · simp only [hs, if_true]
    have hbs : bs = [] := by
      have h128 : b.toNat < 128 := by
        simp only [Bool.or_eq_true, beq_iff_eq, Option.some.injEq] at hs
        rcases hs with rfl | rfl <;> decide
      have ha' := encodeRune_ascii_mem (r := a) (b := b) (by rw [e]; simp) h128
      have hab : a = b.toNat := by first | exact ha' | exact ha'.1 | exact ha'.symm
      rw [encodeRune_ascii (by omega)] at e
      injection e with _ e
      exact e.symm
    rw [hbs]
    rfl
  · simp only [Bool.not_eq_true] at hs
    simp only [hs, Bool.false_eq_true, if_false, pd]
    rfl

theorem appendHexadec_other {a : Nat} (ha : isHexDigit a = false) (h : Here env s.pos (a :: rs)) :
    appendHexadec env s = .ok [0] { s with pos := s.pos + (encodeRune a).length } := by
  unfold appendHexadec
  ex
  rw [next_here h]
  simp only [headC_cons, width, ha, Bool.false_eq_true, if_false]
  have hf := from_here (s := { s with pos := s.pos + (encodeRune a).length }) (ws := [a]) (rs := rs) h (by simp)
  rw [hf]
  dsimp only
  rw [show utf8 [a] = encodeRune a by simp, parseInt64_other ha]
  rfl

/-- The rest of a delimited string when `buf` was read. -/
def rest_ (n d ds : Nat) (i : Bool) (hd : Handler) (start : Nat) (segs : List Expr) (buf : GoStr) : P (List Expr) := do
  let (ec, _) ← next
  run n (.delim d ds i hd buf ec start segs)

theorem rest_end {d dstart start : Nat} {i : Bool} {hd : Handler} {segs : List Expr} {buf : GoStr}
    (hd0 : d ≠ 0) (h7 : d < 128) (h : Here env s.pos (d :: rs)) :
    rest_ (n + 1) d dstart i hd start segs buf env s =
      .ok segs { s with pos := s.pos + 1, tok := .string, val := .str buf } := by
  unfold rest_
  ex
  rw [next_here h]
  simp only [headC_cons, width, enc_len h7]
  show delimBody (run n) d dstart i hd buf d start segs env _ = _
  unfold delimBody
  ex
  rw [if_neg hd0, if_pos trivial]

theorem rest_char {c d dstart start : Nat} {i : Bool} {hd : Handler} {segs : List Expr} {buf : GoStr}
    (h0 : c ≠ 0) (h1 : c ≠ d) (h2 : c ≠ 92) (h3 : ¬ (c = 36 ∧ i = true)) (h : Here env s.pos (c :: rs)) :
    rest_ (n + 1) d dstart i hd start segs buf env s =
      rest_ n d dstart i hd start segs (buf ++ encodeRune c) env { s with pos := s.pos + (encodeRune c).length } := by
  conv => lhs; unfold rest_
  ex
  rw [next_here h]
  simp only [headC_cons, width]
  show delimBody (run n) d dstart i hd buf c start segs env _ = _
  unfold delimBody
  ex
  rw [if_neg h0, if_neg h1, if_neg h2, if_neg h3]
  unfold rest_
  ex

theorem rest_escD {d dstart start : Nat} {i : Bool} {hd : Handler} {segs : List Expr} {buf : GoStr}
    (hd0 : d ≠ 0) (h7 : d < 128) (h92 : d ≠ 92) (h : Here env s.pos (92 :: d :: rs)) :
    rest_ (n + 1) d dstart i hd start segs buf env s =
      rest_ n d dstart i hd start segs (buf ++ encodeRune d) env { s with pos := s.pos + 2 } := by
  have ht : Here env (s.pos + 1) (d :: rs) := h.tail1 (by omega)
  conv => lhs; unfold rest_
  ex
  rw [next_here h]
  simp only [headC_cons, width, enc_len (show 92 < 128 by omega)]
  show delimBody (run n) d dstart i hd buf 92 start segs env _ = _
  unfold delimBody
  ex
  rw [if_neg (by omega), if_neg (by omega), if_pos trivial, next_here (s := { s with pos := s.pos + 1 }) ht]
  simp only [headC_cons, width, enc_len h7, hd0, if_false, if_true]
  unfold rest_
  ex

theorem rest_esc {c d dstart start q : Nat} {i : Bool} {hd : Handler} {segs : List Expr} {buf out : GoStr}
    (h92 : d ≠ 92) (h0 : c ≠ 0) (h1 : c ≠ d) (h : Here env s.pos (92 :: c :: rs))
    (ho : escapeHandler hd c env { s with pos := s.pos + 1 + (encodeRune c).length } = .ok out { s with pos := q }) :
    rest_ (n + 1) d dstart i hd start segs buf env s =
      rest_ n d dstart i hd start segs (buf ++ out) env { s with pos := q } := by
  have ht : Here env (s.pos + 1) (c :: rs) := h.tail1 (by omega)
  conv => lhs; unfold rest_
  ex
  rw [next_here h]
  simp only [headC_cons, width, enc_len (show 92 < 128 by omega)]
  show delimBody (run n) d dstart i hd buf 92 start segs env _ = _
  unfold delimBody
  ex
  rw [if_neg (by omega), if_neg (by omega), if_pos trivial, next_here (s := { s with pos := s.pos + 1 }) ht]
  simp only [headC_cons, width, h0, h1, if_false]
  rw [ho]
  unfold rest_
  ex

theorem sq_exec {dstart start : Nat} {segs : List Expr} {out : List Nat} (hq : Sq src out) {buf : GoStr} (hf : src.length < n)
    (h : Here env s.pos (src ++ 39 :: rs)) :
    rest_ n 39 dstart false .sq start segs buf env s =
      .ok segs { s with pos := s.pos + (utf8 src).length + 1, tok := .string, val := .str (buf ++ utf8 out) } := by
  induction hq generalizing n s buf with
  | nil =>
    obtain ⟨n, rfl⟩ : ∃ m, n = m + 1 := ⟨n - 1, by omega⟩
    rw [rest_end (by omega) (by omega) h]
    simp [utf8]
  | @char c src out h1 h2 h3 hq ih =>
    obtain ⟨n, rfl⟩ : ∃ m, n = m + 1 := ⟨n - 1, by omega⟩
    rw [rest_char h3 h1 h2 (by simp) h, ih (by simp at hf; omega) h.tail]
    simp only [utf8_cons, List.length_append, List.append_assoc, Nat.add_assoc]
  | @quote src out hq ih =>
    obtain ⟨n, rfl⟩ : ∃ m, n = m + 1 := ⟨n - 1, by omega⟩
    rw [rest_escD (by omega) (by omega) (by omega) h, ih (by simp at hf; omega) ((h.tail1 (by omega)).tail1 (by omega))]
    simp only [utf8_cons, List.length_append, List.append_assoc, enc_len (show 92 < 128 by omega), enc_len (show 39 < 128 by omega)]
    simp only [Nat.add_assoc]
    congr 2; omega
  | @backslash src out hq ih =>
    obtain ⟨n, rfl⟩ : ∃ m, n = m + 1 := ⟨n - 1, by omega⟩
    rw [rest_esc (out := encodeRune 92) (q := s.pos + 2) (by omega) (by omega) (by omega) h
      (by show Res.ok _ _ = _; simp [enc_len]; rfl), ih (by simp at hf; omega) ((h.tail1 (by omega)).tail1 (by omega))]
    simp only [utf8_cons, List.length_append, List.append_assoc, enc_len (show 92 < 128 by omega)]
    simp only [Nat.add_assoc]
    congr 2; omega
  | @other c src out h1 h2 h3 hq ih =>
    obtain ⟨n, rfl⟩ : ∃ m, n = m + 1 := ⟨n - 1, by omega⟩
    rw [rest_esc (out := 92 :: encodeRune c) (q := s.pos + 1 + (encodeRune c).length) (by omega) h3 h1 h
      (by show Res.ok _ _ = _; simp [h2]), ih (by simp at hf; omega) (h.tail1 (by omega)).tail]
    simp only [utf8_cons, List.length_append, List.append_assoc, enc_len (show 92 < 128 by omega)]
    simp only [Nat.add_assoc, encodeRune_ascii (show 92 < 128 by omega)]
    rfl

/-- The escape handler on the one character escapes. -/
theorem dq_simple {c d : Nat} (hc : (c, d) ∈ dqTable) (h34 : c ≠ 34) (hf : env.hasFactory = true) :
    escapeHandler .dq c env s = .ok (encodeRune d) s := by
  simp only [dqTable, List.mem_cons, Prod.mk.injEq, List.not_mem_nil, or_false] at hc
  unfold escapeHandler
  ex
  rcases hc with ⟨rfl, rfl⟩ | ⟨rfl, rfl⟩ | ⟨rfl, rfl⟩ | ⟨rfl, rfl⟩ | ⟨rfl, rfl⟩ | ⟨rfl, rfl⟩ | ⟨rfl, rfl⟩ | ⟨rfl, rfl⟩ <;>
    first | exact absurd rfl h34 | (simp [hf]; try rfl)

theorem dq_other {c : Nat} (hc : ∀ d, (c, d) ∉ dqTable) (hu : c ≠ 117) (hx : c = 120 → env.hexEsc = false) :
    escapeHandler .dq c env s = .ok (92 :: encodeRune c) s := by
  simp only [dqTable, List.mem_cons, Prod.mk.injEq, List.not_mem_nil, or_false, not_or] at hc
  have h := fun d => hc d
  unfold escapeHandler
  ex
  have h1 := (h 92).1; have h2 := (h 39).2.1; have h3 := (h 36).2.2.2.1; have h4 := (h 10).2.2.2.2.1
  have h5 := (h 13).2.2.2.2.2.1; have h6 := (h 9).2.2.2.2.2.2.1; have h7 := (h 32).2.2.2.2.2.2.2
  simp only [and_true] at h1 h2 h3 h4 h5 h6 h7
  rw [if_neg (by omega), if_neg h3, if_neg h4, if_neg h5, if_neg h6, if_neg h7, if_neg hu, if_neg]
  rintro ⟨h8, h9⟩
  rw [hx h8] at h9; cases h9

theorem dq_u : escapeHandler .dq 117 env s = appendUnicode env s := by
  unfold escapeHandler
  ex
  simp only [(by decide : ¬ ((117:Nat) = 92 ∨ (117:Nat) = 39)), (by decide : ¬ (117:Nat) = 36), (by decide : ¬ (117:Nat) = 110),
    (by decide : ¬ (117:Nat) = 114), (by decide : ¬ (117:Nat) = 116), (by decide : ¬ (117:Nat) = 115), if_false, if_true]

theorem dq_x (hx : env.hexEsc = true) : escapeHandler .dq 120 env s = appendHexadec env s := by
  unfold escapeHandler
  ex
  simp only [hx]
  simp only [(by decide : ¬ ((120:Nat) = 92 ∨ (120:Nat) = 39)), (by decide : ¬ (120:Nat) = 36), (by decide : ¬ (120:Nat) = 110),
    (by decide : ¬ (120:Nat) = 114), (by decide : ¬ (120:Nat) = 116), (by decide : ¬ (120:Nat) = 115), (by decide : ¬ (120:Nat) = 117),
    if_false, and_self, if_true]

theorem rest_cons {d dstart start q L L' len len' : Nat} {i : Bool} {hd : Handler} {segs : List Expr} {buf o out : GoStr}
    (h1 : ∀ n, rest_ (n + 1) d dstart i hd start segs buf env s = rest_ n d dstart i hd start segs (buf ++ o) env { s with pos := q })
    (h2 : ∃ k, k ≤ L ∧ ∀ n, rest_ (n + k) d dstart i hd start segs (buf ++ o) env { s with pos := q } =
      rest_ n d dstart i hd start segs (buf ++ o ++ out) env { s with pos := q + len })
    (h3 : q + len = s.pos + len') (h4 : L + 1 ≤ L') :
    ∃ k, k ≤ L' ∧ ∀ n, rest_ (n + k) d dstart i hd start segs buf env s =
      rest_ n d dstart i hd start segs (buf ++ (o ++ out)) env { s with pos := s.pos + len' } := by
  obtain ⟨k, hk, h2⟩ := h2
  refine ⟨k + 1, by omega, fun n => ?_⟩
  show rest_ (n + k + 1) _ _ _ _ _ _ _ _ _ = _
  rw [h1, h2, h3, List.append_assoc]

/-- Text in a double quoted string. -/
theorem dq_steps {dstart start : Nat} {segs : List Expr} {out : GoStr} {i : Bool} (hq : Dq env.hexEsc src out)
    (hfac : env.hasFactory = true) {buf : GoStr} (h : Here env s.pos (src ++ rs)) :
    ∃ k, k ≤ src.length ∧ ∀ n, rest_ (n + k) 34 dstart i .dq start segs buf env s =
      rest_ n 34 dstart i .dq start segs (buf ++ out) env { s with pos := s.pos + (utf8 src).length } := by
  induction hq generalizing s buf with
  | nil =>
    exact ⟨0, by simp, fun n => by simp [utf8]⟩
  | @char c src out h1 h2 h3 h4 hq ih =>
    refine rest_cons (o := encodeRune c) (q := s.pos + (encodeRune c).length) (fun n => rest_char h4 h1 h2 (by simp [h3]) h) (ih (s := { s with pos := _ }) h.tail) ?_ (by simp)
    simp only [utf8_cons, List.length_append]; omega
  | @esc c d src out hc hq ih =>
    have h128 : c < 128 ∧ c ≠ 0 := by
      simp only [dqTable, List.mem_cons, Prod.mk.injEq, List.not_mem_nil, or_false] at hc; omega
    have ht : Here env (s.pos + 2) (src ++ rs) := (h.tail1 (by omega)).tail1 h128.1
    have hd : ∀ n, rest_ (n + 1) 34 dstart i .dq start segs buf env s =
        rest_ n 34 dstart i .dq start segs (buf ++ encodeRune d) env { s with pos := s.pos + 2 } := by
      intro n
      by_cases h34 : c = 34
      · subst h34
        have : d = 34 := by simp [dqTable] at hc; exact hc
        subst this
        exact rest_escD (by omega) (by omega) (by omega) h
      · exact rest_esc (by omega) h128.2 h34 h (by rw [enc_len h128.1]; exact dq_simple hc h34 hfac)
    refine rest_cons (o := encodeRune d) (q := s.pos + 2) hd (ih (s := { s with pos := s.pos + 2 }) ht) ?_ (by simp)
    simp only [utf8_cons, List.length_append, List.append_assoc, enc_len (show 92 < 128 by omega), enc_len h128.1]
    omega
  | @u4 a b c d src out hd hq ih =>
    have hb : ∀ x ∈ [a, b, c, d], x < 128 := fun x hx => hex_ascii (hd x hx)
    simp only [List.mem_cons, List.not_mem_nil, or_false, forall_eq_or_imp, forall_eq] at hb
    have h2 : Here env (s.pos + 2) (a :: ([b, c, d] ++ (src ++ rs))) := (h.tail1 (by omega)).tail1 (by omega)
    have h3 : Here env (s.pos + 6) (src ++ rs) :=
      (((h2.tail1 hb.1).tail1 hb.2.1).tail1 hb.2.2.1).tail1 hb.2.2.2
    refine rest_cons (o := encodeRune (numeral 16 [a, b, c, d])) (q := s.pos + 6) (fun n => rest_esc (c := 117) (by omega) (by omega) (by omega) h
      (by rw [enc_len (by omega), dq_u]; exact appendUnicode4 (s := { s with pos := s.pos + 2 }) hd rfl h2)) (ih (s := { s with pos := s.pos + 6 }) h3) ?_ (by simp)
    simp only [utf8_cons, List.length_append, List.append_assoc, enc_len (show 92 < 128 by omega), enc_len (show 117 < 128 by omega),
      enc_len hb.1, enc_len hb.2.1, enc_len hb.2.2.1, enc_len hb.2.2.2]
    omega
  | @braces hs src out hd hl2 hl6 hq ih =>
    have h2 : Here env (s.pos + 2) (123 :: (hs ++ 125 :: (src ++ rs))) := by
      have := (h.tail1 (by omega)).tail1 (by omega)
      simpa using this
    have hu : (utf8 hs).length = hs.length := utf8_ascii_length fun w hw => hex_ascii (hd w hw)
    have h3 : Here env (s.pos + 4 + hs.length) (src ++ rs) := by
      have := ((h2.tail1 (by omega)).append).tail1 (by omega)
      rw [hu] at this
      have e : s.pos + 2 + 1 + hs.length + 1 = s.pos + 4 + hs.length := by omega
      rwa [e] at this
    refine rest_cons (o := encodeRune (numeral 16 hs)) (q := s.pos + 4 + hs.length) (fun n => rest_esc (c := 117) (by omega) (by omega) (by omega) h
      (by rw [enc_len (by omega), dq_u, appendUnicodeBraces (s := { s with pos := s.pos + 2 }) hd hl2 hl6 h2])) (ih (s := { s with pos := s.pos + 4 + hs.length }) h3) ?_
      (by simp; omega)
    simp only [utf8_cons, utf8_append, List.length_append, List.append_assoc, enc_len (show 92 < 128 by omega), enc_len (show 117 < 128 by omega),
      enc_len (show 123 < 128 by omega), enc_len (show 125 < 128 by omega), hu]
    omega
  | @hex a b src out hx ha hb hq ih =>
    have h2 : Here env (s.pos + 2) (a :: b :: (src ++ rs)) := (h.tail1 (by omega)).tail1 (by omega)
    have h3 : Here env (s.pos + 4) (src ++ rs) := (h2.tail1 (hex_ascii ha)).tail1 (hex_ascii hb)
    refine rest_cons (o := [UInt8.ofNat (numeral 16 [a, b])]) (q := s.pos + 4) (fun n => rest_esc (c := 120) (by omega) (by omega) (by omega) h
      (by rw [enc_len (by omega), dq_x hx]; exact appendHexadec_exec (s := { s with pos := s.pos + 2 }) ha hb h2)) (ih (s := { s with pos := s.pos + 4 }) h3) ?_ (by simp)
    simp only [utf8_cons, List.length_append, List.append_assoc, enc_len (show 92 < 128 by omega), enc_len (show 120 < 128 by omega),
      enc_len (hex_ascii ha), enc_len (hex_ascii hb), List.cons_append, List.nil_append]
    omega
  | @badHex a src out hx ha hq ih =>
    have h2 : Here env (s.pos + 2) (a :: (src ++ rs)) := (h.tail1 (by omega)).tail1 (by omega)
    refine rest_cons (o := [0]) (q := s.pos + 2 + (encodeRune a).length) (fun n => rest_esc (c := 120) (by omega) (by omega) (by omega) h
      (by rw [enc_len (by omega), dq_x hx]; exact appendHexadec_other (s := { s with pos := s.pos + 2 }) ha h2))
      (ih (s := { s with pos := s.pos + 2 + (encodeRune a).length }) h2.tail) ?_ (by simp)
    simp only [utf8_cons, List.length_append, List.append_assoc, enc_len (show 92 < 128 by omega), enc_len (show 120 < 128 by omega)]
    omega
  | @other c src out h1 h2 h3 h4 hq ih =>
    have h34 : c ≠ 34 := by rintro rfl; exact h1 34 (by decide)
    refine rest_cons (o := 92 :: encodeRune c) (q := s.pos + 1 + (encodeRune c).length) (fun n => rest_esc (by omega) h4 h34 h
      (dq_other h1 h2 h3)) (ih (s := { s with pos := s.pos + 1 + (encodeRune c).length }) (h.tail1 (by omega)).tail) ?_ (by simp)
    simp only [utf8_cons, List.length_append, enc_len (show 92 < 128 by omega)]; omega


theorem dq_exec {dstart start : Nat} {segs : List Expr} {out : GoStr} {i : Bool} (hq : Dq env.hexEsc src out)
    (hfac : env.hasFactory = true) {buf : GoStr} (hf : src.length < n) (h : Here env s.pos (src ++ 34 :: rs)) :
    rest_ n 34 dstart i .dq start segs buf env s =
      .ok segs { s with pos := s.pos + (utf8 src).length + 1, tok := .string, val := .str (buf ++ out) } := by
  obtain ⟨k, hk, h1⟩ := dq_steps (dstart := dstart) (start := start) (segs := segs) (i := i) (buf := buf) hq hfac h
  obtain ⟨m, rfl⟩ : ∃ m, n = m + 1 + k := ⟨n - k - 1, by omega⟩
  rw [h1, rest_end (s := { s with pos := s.pos + (utf8 src).length }) (by omega) (by omega) h.append]

/-- A single quoted string as a token. -/
theorem lexSq_exec {start scan : Nat} {out : List Nat} (hq : Sq src out) (hf : src.length < n)
    (h : Here env s.pos (src ++ 39 :: rs)) :
    lexChar (run n) scan 39 start env s =
      .ok () { s with pos := s.pos + (utf8 src).length + 1, tok := .string, val := .str (utf8 out) } := by
  unfold lexChar
  ex
  simp only [(by decide : ¬ (49 ≤ 39 ∧ 39 ≤ 57)), show isUppercaseLetter 39 = false from rfl, show isLowercaseLetter 39 = false from rfl,
    if_false, Bool.false_eq_true]
  simp only [Nat.reduceEqDiff, if_false, if_true]
  unfold consumeSingleQuotedString consumeDelimitedString
  ex
  have := sq_exec (dstart := s.pos - 1) (start := s.pos) (segs := []) (buf := []) hq hf h
  unfold rest_ at this
  rw [ex_bind] at this
  rw [next_here h] at this ⊢
  dsimp only at this ⊢
  rw [this]
  rfl

/-- A double quoted string without interpolation as a token. -/
theorem lexDq_exec {start scan : Nat} {out : GoStr} (hq : Dq env.hexEsc src out) (hfac : env.hasFactory = true) (hf : src.length < n)
    (h : Here env s.pos (src ++ 34 :: rs)) :
    lexChar (run n) scan 34 start env s =
      .ok () { s with pos := s.pos + (utf8 src).length + 1, tok := .string, val := .str out } := by
  unfold lexChar
  ex
  simp only [(by decide : ¬ (49 ≤ 34 ∧ 34 ≤ 57)), show isUppercaseLetter 34 = false from rfl, show isLowercaseLetter 34 = false from rfl,
    if_false, Bool.false_eq_true]
  simp only [Nat.reduceEqDiff, if_false, if_true]
  unfold consumeDoubleQuotedString consumeDelimitedString
  ex
  have := dq_exec (dstart := s.pos - 1) (start := s.pos) (segs := []) (buf := []) (i := env.hasFactory) hq hfac hf h
  unfold rest_ at this
  rw [ex_bind] at this
  rw [next_here h] at this ⊢
  dsimp only at this ⊢
  rw [this]
  simp [hfac]
  rfl

end
end PP
