import Verif.Json
import Verif.Spec.Json
import Verif.Lemmas.Dec

/-! # Reading what the JSON encoder writes. -/
namespace PP

/-! ## Strings -/

theorem readString_plain {b : UInt8} {t : GoStr} (h1 : 0x20 ≤ b.toNat) (h2 : b ≠ 0x22) (h3 : b ≠ 0x5C) :
    readString (b :: t) = (readString t).map fun r => (b :: r.1, r.2) := by
  unfold readString
  rw [readStr, if_neg h2, if_neg h3, if_neg (by omega)]

theorem readString_raw {bs t : GoStr} (h : ∀ b ∈ bs, 0x80 ≤ b.toNat) :
    readString (bs ++ t) = (readString t).map fun r => (bs ++ r.1, r.2) := by
  induction bs with
  | nil => simp
  | cons b bs ih =>
    have hb := h b (List.mem_cons_self ..)
    rw [List.cons_append, readString_plain (by omega) (by rintro rfl; exact absurd hb (by decide))
      (by rintro rfl; exact absurd hb (by decide)), ih fun x hx => h x (List.mem_cons_of_mem _ hx), Option.map_map]
    rfl

theorem encodeRune_high {c : Nat} (h : 0x80 ≤ c) : ∀ b ∈ encodeRune c, 0x80 ≤ b.toNat := by
  intro b hb
  by_cases h8 : b.toNat < 0x80
  · have := encodeRune_ascii_mem hb h8
    omega
  · omega

theorem decode_replacement {s : GoStr} {w : Nat} (h : decodeRune s = (runeError, w)) (hw : w ≠ 1) (hs : s ≠ []) :
    s.take w = encodeRune runeError := by
  have key : ∀ {P : Prop} [Decidable P] {a b : Nat × Nat}, (if P then a else b) = (runeError, w) →
      (P ∧ a = (runeError, w)) ∨ (¬ P ∧ b = (runeError, w)) := by
    intro P _ a b h
    split at h
    · exact .inl ⟨by assumption, h⟩
    · exact .inr ⟨by assumption, h⟩
  have bad : ∀ {k : Nat}, (k, 1) = (runeError, w) → False := fun h => hw (by injection h with _ h; exact h.symm)
  cases s with
  | nil => exact absurd rfl hs
  | cons b0 rest =>
    have := UInt8.toNat_lt b0
    unfold decodeRune at h
    simp only at h
    rcases key h with ⟨-, g⟩ | ⟨h1, g⟩
    · unfold runeError at g
      injection g with g _
      omega
    clear h
    rcases key g with ⟨-, h⟩ | ⟨h2, h⟩
    · exact (bad h).elim
    clear g
    rcases key h with ⟨h3, g⟩ | ⟨h3, g⟩
    · clear h
      split at g
      · rename_i b1 t
        rcases key g with ⟨hc, h⟩ | ⟨_, h⟩
        · have := UInt8.toNat_lt b1
          have e := congrArg Prod.fst h
          simp only [runeError] at e
          omega
        · exact (bad h).elim
      · exact (bad g).elim
    clear h
    rcases key g with ⟨h4, h⟩ | ⟨h4, h⟩
    · split at h
      · rename_i b1 b2 t
        rcases key h with ⟨hc, h⟩ | ⟨_, h⟩
        · have := UInt8.toNat_lt b1
          have := UInt8.toNat_lt b2
          simp only [isCont, Bool.and_eq_true, decide_eq_true_eq] at hc
          have hc1 : b1.toNat ≤ 0xBF := by
            have := hc.1.2
            split at this <;> omega
          have hc2 := hc.2
          have e := congrArg Prod.fst h
          have ew := congrArg Prod.snd h
          simp only [runeError] at e ew
          subst ew
          have e0 : b0 = 0xEF := UInt8.toNat_inj.1 (show b0.toNat = 0xEF by omega)
          have e1 : b1 = 0xBF := UInt8.toNat_inj.1 (show b1.toNat = 0xBF by omega)
          have e2 : b2 = 0xBD := UInt8.toNat_inj.1 (show b2.toNat = 0xBD by omega)
          subst e0; subst e1; subst e2
          rfl
        · exact (bad h).elim
      · exact (bad h).elim
    clear g
    rcases key h with ⟨h5, g⟩ | ⟨h5, g⟩
    · clear h
      split at g
      · rename_i b1 b2 b3 t
        rcases key g with ⟨hc, h⟩ | ⟨_, h⟩
        · simp only [isCont, Bool.and_eq_true, decide_eq_true_eq] at hc
          have hc1 := hc.1.1.1
          have e := congrArg Prod.fst h
          simp only [runeError] at e
          split at hc1 <;> omega
        · exact (bad h).elim
      · exact (bad g).elim
    · exact (bad g).elim

theorem readString_rune {s t : GoStr} (hs : s ≠ []) :
    readString (jsonRune (decodeRune s).1 (decodeRune s).2 (s.take (decodeRune s).2) ++ t) =
      (readString t).map fun r => (encodeRune (decodeRune s).1 ++ r.1, r.2) := by
  cases hd : decodeRune s with
  | mk c w =>
  have raw : c ≠ runeError ∨ w ≠ 1 → s.take w = encodeRune c := by
    intro h
    by_cases hc : c = runeError
    · subst hc
      exact decode_replacement hd (h.resolve_left (fun h => h rfl)) hs
    · obtain ⟨-, rfl, u, rfl⟩ := decode_valid hd hc
      simp
  simp only
  unfold jsonRune
  split
  · rename_i hc
    have e : encodeRune c = [UInt8.ofNat c] := encodeRune_ascii hc
    have hr := raw (.inl (by unfold runeError; omega))
    rw [hr, e]
    split
    · subst_vars; rfl
    split
    · subst_vars; rfl
    split
    · subst_vars; rfl
    split
    · subst_vars; rfl
    split
    · subst_vars; rfl
    split
    · rename_i h20
      have : ∀ k : Fin 32, hexVal (hexDigit (k.val / 16)) = some (k.val / 16) ∧ hexVal (hexDigit (k.val % 16)) = some (k.val % 16) ∧
          isScalar k.val = true := by decide
      obtain ⟨h4, h5, hsc⟩ := this ⟨c, h20⟩
      simp only at h4 h5 hsc
      have h0 : hexVal 0x30 = some 0 := by decide
      have hv : ((0 * 16 + 0) * 16 + 0) * 16 + c / 16 = c / 16 := by omega
      have hv' : (c / 16) * 16 + c % 16 = c := by omega
      simp only [readString, List.cons_append, List.nil_append, readStr, h0, h4, h5, hv, hv', hsc, e,
        show ((0x5C : UInt8) = 0x22) = False by decide, if_true, if_false, Nat.reduceSub, Nat.reduceEqDiff]
    · rename_i h1 h2 h3 h4 h5 h6
      have hn : (UInt8.ofNat c).toNat = c := toNat_ofNat (by omega)
      exact readString_plain (by omega) (by rintro h; rw [h] at hn; exact h1 hn.symm)
        (by rintro h; rw [h] at hn; exact h2 hn.symm)
  · rename_i hc
    split
    · rename_i h
      obtain ⟨rfl, rfl⟩ := h
      rfl
    · rename_i hne
      split
      · rename_i h
        rcases h with rfl | rfl <;> rfl
      · rw [raw (by
          by_cases h : c = runeError
          · exact .inr fun h' => hne ⟨h, h'⟩
          · exact .inl h)]
        exact readString_raw (encodeRune_high (by omega))

theorem readString_body {n : Nat} {s t : GoStr} (h : s.length ≤ n) :
    readString (jsonBody n s ++ 0x22 :: t) = some (utf8 (runesAux n s), t) := by
  induction n generalizing s with
  | zero =>
    have : s = [] := List.length_eq_zero_iff.1 (by omega)
    subst this
    rfl
  | succ n ih =>
    cases s with
    | nil => rfl
    | cons b s =>
      rw [jsonBody, List.append_assoc, readString_rune (by simp), ih]
      · rfl
      · have := decodeRune_width_pos (s := b :: s) (by simp)
        simp only [List.length_drop, List.length_cons] at h ⊢
        omega

theorem readString_jsonString {s t : GoStr} : jsonString s ++ t = 0x22 :: (jsonBody s.length s ++ 0x22 :: t) := by
  simp [jsonString]

/-! ## Values -/

/-- What follows a value does not continue a word. -/
def Stops (r : GoStr) : Prop := ∀ b t, r = b :: t → wordByte b = false

/-- The text is read as the value. -/
structure ReadAs (t : GoStr) (j : Json) : Prop where
  ne : t ≠ []
  blank : ∀ b u, t = b :: u → jsonBlank b = false ∧ b ≠ 0x5D
  read : ∀ n r, t.length < n → Stops r → readValue n (t ++ r) = some (j, r)

theorem skip_of {b : UInt8} {s : GoStr} (h : jsonBlank b = false) : skipBlank (b :: s) = b :: s := by
  simp [skipBlank, List.dropWhile_cons, h]

theorem ReadAs.skip {t j r} (h : ReadAs t j) : skipBlank (t ++ r) = t ++ r := by
  cases t with
  | nil => exact absurd rfl h.ne
  | cons b u => exact skip_of (h.blank b u rfl).1

theorem good_string (s : GoStr) : ReadAs (jsonString s) (.str (shown s)) where
  ne := by simp [jsonString]
  blank b u h := by
    simp only [jsonString, List.cons_append, List.cons.injEq] at h
    obtain ⟨rfl, -⟩ := h
    decide
  read n r hn _ := by
    cases n with
    | zero => omega
    | succ n =>
      rw [readString_jsonString, readValue, skip_of (by decide)]
      simp only [if_true]
      rw [readString_body (Nat.le_refl _)]
      rfl

/-- Words and numbers. -/
theorem takeWhile_word {w r : GoStr} (hw : ∀ b ∈ w, wordByte b = true) (hr : Stops r) :
    (w ++ r).takeWhile wordByte = w ∧ (w ++ r).dropWhile wordByte = r := by
  induction w with
  | nil =>
    cases r with
    | nil => exact ⟨rfl, rfl⟩
    | cons b t => simp [List.takeWhile_cons, List.dropWhile_cons, hr b t rfl]
  | cons b w ih =>
    obtain ⟨h1, h2⟩ := ih fun x hx => hw x (List.mem_cons_of_mem _ hx)
    have hb := hw b (List.mem_cons_self ..)
    simp [List.takeWhile_cons, List.dropWhile_cons, hb, h1, h2]

theorem good_word {w : GoStr} {j : Json} (ne : w ≠ []) (hw : ∀ b ∈ w, wordByte b = true)
    (hj : ∀ r : GoStr, (if w = b!"null" then some (Json.null, r)
        else if w = b!"true" then some (.bool true, r)
        else if w = b!"false" then some (.bool false, r)
        else if jsonNumber w then some (.num w, r)
        else none) = some (j, r)) : ReadAs w j := by
  have hd : ∀ b : UInt8, wordByte b = true → jsonBlank b = false ∧ b ≠ 0x5D ∧ b ≠ 0x22 ∧ b ≠ 0x5B ∧ b ≠ 0x7B := by
    intro b hb
    refine ⟨?_, ?_, ?_, ?_, ?_⟩
    · simp only [jsonBlank, Bool.or_eq_false_iff, beq_eq_false_iff_ne]
      refine ⟨⟨⟨?_, ?_⟩, ?_⟩, ?_⟩ <;> (rintro rfl; revert hb; decide)
    all_goals (rintro rfl; revert hb; decide)
  refine ⟨ne, ?_, ?_⟩
  · rintro b u rfl
    have := hd b (hw b (List.mem_cons_self ..))
    exact ⟨this.1, this.2.1⟩
  · intro n r hn hr
    cases n with
    | zero => omega
    | succ n =>
      cases w with
      | nil => exact absurd rfl ne
      | cons b u =>
        obtain ⟨h1, h2, h3, h4, h5⟩ := hd b (hw b (List.mem_cons_self ..))
        have ht := takeWhile_word hw hr
        rw [readValue, List.cons_append, skip_of h1]
        simp only [if_neg h3, if_neg h4, if_neg h5]
        rw [← List.cons_append, ht.1, ht.2]
        exact hj r

theorem digit_word {b : UInt8} (h : 48 ≤ b.toNat ∧ b.toNat ≤ 57) : wordByte b = true := by
  simp [wordByte, isLetterOrDigit, isDecimalDigit, h.1, h.2]

theorem natDigits_head (f n : Nat) (h : n < f) : ∃ b t, natDigits f n = b :: t ∧ (t ≠ [] → b ≠ 0x30) := by
  induction f generalizing n with
  | zero => omega
  | succ f ih =>
    unfold natDigits
    split
    · exact ⟨_, [], rfl, fun h => absurd rfl h⟩
    · obtain ⟨b, t, e, hb⟩ := ih (n / 10) (by omega)
      refine ⟨b, t ++ [UInt8.ofNat (48 + n % 10)], by rw [e]; rfl, fun _ => ?_⟩
      cases t with
      | cons => exact hb (by simp)
      | nil =>
        -- one digit, which is n / 10 ≥ 1
        intro hb0
        subst hb0
        have hp := natDigits_parse f (n / 10) (by omega)
        rw [e] at hp
        have : parseDigits 10 [0x30] 0 = some 0 := by decide
        rw [this] at hp
        injection hp with hp
        omega

theorem takeWhile_all {p : UInt8 → Bool} {s : GoStr} (h : ∀ b ∈ s, p b = true) : s.takeWhile p = s ∧ s.dropWhile p = [] := by
  induction s with
  | nil => exact ⟨rfl, rfl⟩
  | cons b s ih =>
    obtain ⟨h1, h2⟩ := ih fun x hx => h x (List.mem_cons_of_mem _ hx)
    simp [h b (List.mem_cons_self ..), h1, h2]

theorem jsonNumber_nat (n : Nat) : jsonNumber (natToDec n) = true ∧ jsonNumber (0x2D :: natToDec n) = true := by
  have hd := natToDec_digit n
  obtain ⟨b, t, e, hb⟩ := natDigits_head (n + 1) n (by omega)
  have e' : natToDec n = b :: t := e
  rw [e'] at hd ⊢
  have all : ∀ x ∈ (b :: t), isDigitByte x = true := fun x hx => by
    have := hd x hx
    simp [isDigitByte, this.1, this.2]
  have h1 : (b :: t).takeWhile isDigitByte = b :: t := by
    have := takeWhile_all all
    exact this.1
  have h2 : (b :: t).dropWhile isDigitByte = [] := (takeWhile_all all).2
  have h3 : allDigits (b :: t) = true := by
    simp only [allDigits, List.isEmpty_cons, Bool.not_false, Bool.true_and, List.all_eq_true]
    exact all
  have h4 : ((b :: t).length == 1 || (b :: t).head? != some 0x30) = true := by
    cases t with
    | nil => rfl
    | cons c u => simp [hb (by simp)]
  have hb2 : b ≠ 0x2D := by
    rintro rfl
    have := hd 0x2D (List.mem_cons_self ..)
    exact absurd this (by decide)
  constructor
  · unfold jsonNumber
    split
    · rename_i h; injection h with h _; exact absurd h hb2
    · simp only [h1, h2, h3, h4, Bool.and_self]
  · unfold jsonNumber
    simp only [h1, h2, h3, h4, Bool.and_self]

theorem jsonNumber_head {w : GoStr} (h : jsonNumber w = true) : ∃ b t, w = b :: t ∧ (b = 0x2D ∨ isDigitByte b = true) := by
  unfold jsonNumber at h
  simp only at h
  cases w with
  | nil => simp [allDigits] at h
  | cons b t =>
    refine ⟨b, t, rfl, ?_⟩
    by_cases hb : b = 0x2D
    · exact .inl hb
    · right
      split at h
      · rename_i h'; injection h' with h' _; exact absurd h' hb
      · cases hd : isDigitByte b with
        | true => rfl
        | false => simp [allDigits, List.takeWhile_cons, hd] at h

theorem good_number {w : GoStr} (hn : jsonNumber w = true) (hw : ∀ b ∈ w, wordByte b = true) : ReadAs w (.num w) := by
  obtain ⟨b, t, rfl, hb⟩ := jsonNumber_head hn
  have hd : ∀ x : UInt8, (x = 0x2D ∨ isDigitByte x = true) → x ≠ 0x6E ∧ x ≠ 0x74 ∧ x ≠ 0x66 := by
    intro x hx
    refine ⟨?_, ?_, ?_⟩ <;> (rintro rfl; revert hx; decide)
  obtain ⟨h1, h2, h3⟩ := hd b hb
  apply good_word (by simp) hw
  intro r
  rw [if_neg (by simp [h1]), if_neg (by simp [h2]), if_neg (by simp [h3]), if_pos hn]

theorem good_int (i : Int) : ReadAs (intToDec i) (.num (intToDec i)) := by
  apply good_number
  · match i with
    | Int.ofNat n => exact (jsonNumber_nat n).1
    | Int.negSucc n => exact (jsonNumber_nat (n + 1)).2
  · intro b hb
    rcases intToDec_char i b hb with h | h
    · have : b = 0x2D := UInt8.toNat_inj.1 h
      subst this
      decide
    · exact digit_word h

theorem stops_cons {b : UInt8} {t : GoStr} (h : wordByte b = false) : Stops (b :: t) := by
  intro c u e
  injection e with e _
  exact e ▸ h

/-- Texts and the values they are read as. -/
inductive AllReadAs : List GoStr → List Json → Prop
  | nil : AllReadAs [] []
  | cons {t j ts js} : ReadAs t j → AllReadAs ts js → AllReadAs (t :: ts) (j :: js)

theorem read_elements {ts js} (h : AllReadAs ts js) (hne : ts ≠ []) (n : Nat) (r : GoStr)
    (hn : (jsonElements ts).length + 1 < n) : readElements n (jsonElements ts ++ 0x5D :: r) = some (js, r) := by
  induction h generalizing n with
  | nil => exact absurd rfl hne
  | cons hg hs ih =>
    rename_i t j ts js
    cases n with
    | zero => omega
    | succ n =>
      cases hs with
      | nil =>
        rw [jsonElements] at hn ⊢
        rw [readElements, hg.read n _ (by omega) (stops_cons (by decide))]
        simp only
        rw [skip_of (by decide)]
        rfl
      | cons hg' hs' =>
        rename_i u j' ts' js'
        rw [jsonElements] at hn ⊢
        have : 0 < t.length := List.length_pos_iff.2 hg.ne
        simp only [List.length_append, List.length_cons] at hn
        rw [List.append_assoc, List.cons_append, readElements, hg.read n _ (by omega) (stops_cons (by decide))]
        simp only
        rw [skip_of (by decide)]
        simp only
        rw [ih (by simp) n (by omega)]
        rfl

theorem elements_head {ts js} (h : AllReadAs ts js) (hne : ts ≠ []) :
    ∃ b u, jsonElements ts = b :: u ∧ jsonBlank b = false ∧ b ≠ 0x5D := by
  cases h with
  | nil => exact absurd rfl hne
  | cons hg hs =>
    rename_i t j ts js
    cases t with
    | nil => exact absurd rfl hg.ne
    | cons b u =>
      obtain ⟨h1, h2⟩ := hg.blank b u rfl
      cases ts with
      | nil => exact ⟨b, u, rfl, h1, h2⟩
      | cons => exact ⟨b, _, rfl, h1, h2⟩

theorem good_arr {ts js} (h : AllReadAs ts js) : ReadAs (0x5B :: jsonElements ts ++ [0x5D]) (.arr js) where
  ne := by simp
  blank b u e := by
    simp only [List.cons_append, List.cons.injEq] at e
    obtain ⟨rfl, -⟩ := e
    decide
  read n r hn hr := by
    cases n with
    | zero => omega
    | succ n =>
      simp only [List.cons_append, List.append_assoc, List.length_cons, List.length_append, List.length_nil] at hn ⊢
      rw [readValue, skip_of (by decide)]
      simp only [show ((0x5B : UInt8) = 0x22) = False by decide, if_true, if_false]
      cases ts with
      | nil => cases h; rfl
      | cons t ts =>
        obtain ⟨b, u, e, h1, h2⟩ := elements_head h (by simp)
        have hre := read_elements h (by simp) n r (by omega)
        rw [e] at hre ⊢
        simp only [List.cons_append, List.nil_append] at hre ⊢
        rw [skip_of h1]
        split
        · rename_i h'; injection h' with h' _; exact absurd h' h2
        · rename_i h'
          rw [hre]
          rfl

/-- Members and the values they are read as. -/
inductive MembersReadAs : List (GoStr × GoStr) → List (GoStr × Json) → Prop
  | nil : MembersReadAs [] []
  | cons {k t j ts js} : ReadAs t j → MembersReadAs ts js → MembersReadAs ((k, t) :: ts) ((shown k, j) :: js)

theorem read_members {ts js} (h : MembersReadAs ts js) (hne : ts ≠ []) (n : Nat) (r : GoStr)
    (hn : (jsonMembers ts).length + 1 < n) : readMembers n (jsonMembers ts ++ 0x7D :: r) = some (js, r) := by
  induction h generalizing n with
  | nil => exact absurd rfl hne
  | cons hg hs ih =>
    rename_i k t j ts js
    cases n with
    | zero => omega
    | succ n =>
      cases hs with
      | nil =>
        rw [jsonMembers] at hn ⊢
        simp only [List.length_append, List.length_cons] at hn
        rw [List.append_assoc, List.cons_append, readMembers, readString_jsonString, skip_of (by decide)]
        simp only
        rw [readString_body (Nat.le_refl _)]
        simp only
        rw [skip_of (by decide)]
        simp only
        rw [hg.read n _ (by omega) (stops_cons (by decide))]
        simp only
        rw [skip_of (by decide)]
        rfl
      | cons hg' hs' =>
        rename_i k' u j' ts' js'
        rw [jsonMembers] at hn ⊢
        simp only [List.length_append, List.length_cons] at hn
        rw [List.append_assoc, List.cons_append, List.append_assoc, List.cons_append, readMembers, readString_jsonString,
          skip_of (by decide)]
        simp only
        rw [readString_body (Nat.le_refl _)]
        simp only
        rw [skip_of (by decide)]
        simp only
        rw [hg.read n _ (by omega) (stops_cons (by decide))]
        simp only
        rw [skip_of (by decide)]
        simp only
        rw [ih (by simp) n (by omega)]
        rfl

theorem good_obj {ts js} (h : MembersReadAs ts js) : ReadAs (0x7B :: jsonMembers ts ++ [0x7D]) (.obj js) where
  ne := by simp
  blank b u e := by
    simp only [List.cons_append, List.cons.injEq] at e
    obtain ⟨rfl, -⟩ := e
    decide
  read n r hn hr := by
    cases n with
    | zero => omega
    | succ n =>
      simp only [List.cons_append, List.append_assoc, List.length_cons, List.length_append, List.length_nil] at hn ⊢
      rw [readValue, skip_of (by decide)]
      simp only [show ((0x7B : UInt8) = 0x22) = False by decide, show ((0x7B : UInt8) = 0x5B) = False by decide, if_true, if_false]
      cases ts with
      | nil => cases h; rfl
      | cons t ts =>
        have hre := read_members h (by simp) n r (by omega)
        have hq : ∃ u, jsonMembers (t :: ts) = 0x22 :: u := by
          cases ts with
          | nil => exact ⟨_, rfl⟩
          | cons => exact ⟨_, rfl⟩
        obtain ⟨u, e⟩ := hq
        rw [e] at hre ⊢
        simp only [List.cons_append, List.nil_append] at hre ⊢
        rw [skip_of (by decide)]
        change Option.map _ (readMembers n _) = _
        rw [hre]
        rfl

end PP
