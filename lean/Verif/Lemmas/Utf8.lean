import Verif.Basic

/-! # UTF-8 lemmas -/

namespace PP

theorem toNat_ofNat {n : Nat} (h : n < 256) : (UInt8.ofNat n).toNat = n := by
  simp [UInt8.toNat_ofNat']; omega

theorem ofNat_toNat (b : UInt8) : UInt8.ofNat b.toNat = b := by simp

theorem toNat_lt (b : UInt8) : b.toNat < 256 := UInt8.toNat_lt b

theorem ofNat_eq_of_toNat {n : Nat} {b : UInt8} (h : n = b.toNat) : UInt8.ofNat n = b := by
  subst h; simp

theorem scalar_iff (r : Nat) : isScalar r = true ↔ r < 0xD800 ∨ (0xE000 ≤ r ∧ r ≤ 0x10FFFF) := by
  simp [isScalar]

theorem decode_encode (r : Nat) (rest : GoStr) (h : isScalar r = true) :
    decodeRune (encodeRune r ++ rest) = (r, (encodeRune r).length) := by
  rw [scalar_iff] at h
  unfold encodeRune
  by_cases h1 : r < 0x80
  · simp only [h1, if_true, List.cons_append, List.nil_append, decodeRune]
    rw [toNat_ofNat (by omega)]; simp [h1]
  by_cases h2 : r < 0x800
  · simp only [h1, h2, if_true, if_false, List.cons_append, List.nil_append, decodeRune]
    rw [toNat_ofNat (by omega), toNat_ofNat (by omega)]
    have a1 : ¬ (0xC0 + r / 64 < 0x80) := by omega
    have a2 : ¬ (0xC0 + r / 64 < 0xC2) := by omega
    have a3 : (0xC0 + r / 64 < 0xE0) := by omega
    have a4 : isCont (UInt8.ofNat (0x80 + r % 64)) = true := by
      unfold isCont; rw [toNat_ofNat (by omega)]; simp; omega
    simp only [a1, a2, a3, a4, if_true, if_false, List.length_cons, List.length_nil]
    ext <;> simp; omega
  have h3 : ¬ ((decide (0x10FFFF < r) || (decide (0xD800 ≤ r) && decide (r ≤ 0xDFFF))) = true) := by
    simp; omega
  by_cases h4 : r < 0x10000
  · rw [if_neg h1, if_neg h2, if_neg h3, if_pos h4]
    simp only [List.cons_append, List.nil_append, decodeRune]
    rw [toNat_ofNat (by omega), toNat_ofNat (by omega), toNat_ofNat (by omega)]
    have a1 : ¬ (0xE0 + r / 4096 < 0x80) := by omega
    have a2 : ¬ (0xE0 + r / 4096 < 0xC2) := by omega
    have a3 : ¬ (0xE0 + r / 4096 < 0xE0) := by omega
    have a4 : (0xE0 + r / 4096 < 0xF0) := by omega
    have a5 : isCont (UInt8.ofNat (0x80 + r % 64)) = true := by
      unfold isCont; rw [toNat_ofNat (by omega)]; simp; omega
    simp only [a1, a2, a3, a4, a5, if_true, if_false, List.length_cons, List.length_nil]
    have a6 : (decide ((if 0xE0 + r / 4096 = 0xE0 then 0xA0 else 0x80) ≤ 0x80 + r / 64 % 64) &&
        decide (0x80 + r / 64 % 64 ≤ if 0xE0 + r / 4096 = 0xED then 0x9F else 0xBF) && true) = true := by
      simp only [Bool.and_true, Bool.and_eq_true, decide_eq_true_eq]
      constructor <;> split <;> omega
    rw [if_pos a6]
    ext <;> simp; omega
  · rw [if_neg h1, if_neg h2, if_neg h3, if_neg h4]
    simp only [List.cons_append, List.nil_append, decodeRune]
    rw [toNat_ofNat (by omega), toNat_ofNat (by omega), toNat_ofNat (by omega), toNat_ofNat (by omega)]
    have a1 : ¬ (0xF0 + r / 262144 < 0x80) := by omega
    have a2 : ¬ (0xF0 + r / 262144 < 0xC2) := by omega
    have a3 : ¬ (0xF0 + r / 262144 < 0xE0) := by omega
    have a4 : ¬ (0xF0 + r / 262144 < 0xF0) := by omega
    have a4' : (0xF0 + r / 262144 < 0xF5) := by omega
    have a5 : isCont (UInt8.ofNat (0x80 + r % 64)) = true := by
      unfold isCont; rw [toNat_ofNat (by omega)]; simp; omega
    have a5' : isCont (UInt8.ofNat (0x80 + r / 64 % 64)) = true := by
      unfold isCont; rw [toNat_ofNat (by omega)]; simp; omega
    simp only [a1, a2, a3, a4, a4', a5, a5', if_true, if_false, List.length_cons, List.length_nil]
    have a6 : (decide ((if 0xF0 + r / 262144 = 0xF0 then 0x90 else 0x80) ≤ 0x80 + r / 4096 % 64) &&
        decide (0x80 + r / 4096 % 64 ≤ if 0xF0 + r / 262144 = 0xF4 then 0x8F else 0xBF) && true && true) = true := by
      simp only [Bool.and_true, Bool.and_eq_true, decide_eq_true_eq]
      constructor <;> split <;> omega
    rw [if_pos a6]
    ext <;> simp; omega

theorem encodeRune_ne_nil (r : Nat) : encodeRune r ≠ [] := by
  unfold encodeRune; repeat' split
  all_goals simp

theorem encodeRune_length_pos (r : Nat) : 0 < (encodeRune r).length := by
  have := encodeRune_ne_nil r
  exact List.length_pos_iff.mpr this

theorem isCont_iff (b : UInt8) : isCont b = true ↔ 0x80 ≤ b.toNat ∧ b.toNat ≤ 0xBF := by
  simp [isCont]

/-- Decoding something other than U+FFFD means that the text starts with the encoding of the rune. -/
theorem decode_valid {s : GoStr} {r w : Nat} (h : decodeRune s = (r, w)) (hr : r ≠ runeError) :
    isScalar r = true ∧ w = (encodeRune r).length ∧ ∃ t, s = encodeRune r ++ t := by
  have bad : ∀ {k : Nat}, (runeError, k) = (r, w) → False := by
    intro k hk; injection hk with h1 _; exact hr h1.symm
  rw [scalar_iff]
  match s with
  | [] => exact (bad h).elim
  | b0 :: rest =>
    have l0 := toNat_lt b0
    unfold decodeRune at h
    simp only at h
    split at h
    · next h1 =>
      injection h with e1 e2
      subst e1; subst e2
      refine ⟨by omega, ?_, rest, ?_⟩
      · simp [encodeRune, h1]
      · simp [encodeRune, h1]
    split at h
    · exact (bad h).elim
    next h1 h2 =>
    split at h
    · next h3 =>
      split at h
      · next b1 t =>
        split at h
        · next hc =>
          rw [isCont_iff] at hc
          injection h with e1 e2
          subst e2
          have hr' : r = (b0.toNat - 192) * 64 + (b1.toNat - 128) := e1.symm
          have g1 : ¬ r < 0x80 := by omega
          have g2 : r < 0x800 := by omega
          have en : encodeRune r = [b0, b1] := by
            unfold encodeRune
            rw [if_neg g1, if_pos g2]
            rw [ofNat_eq_of_toNat (b := b0) (by omega), ofNat_eq_of_toNat (b := b1) (by omega)]
          refine ⟨by omega, by simp [en], t, by simp [en]⟩
        · exact (bad h).elim
      · exact (bad h).elim
    next h3 =>
    split at h
    · next h4 =>
      split at h
      · next b1 b2 t =>
        have l1 := toNat_lt b1
        by_cases hc : (decide ((if b0.toNat = 0xE0 then 0xA0 else 0x80) ≤ b1.toNat) &&
            decide (b1.toNat ≤ if b0.toNat = 0xED then 0x9F else 0xBF) && isCont b2) = true
        · rw [if_pos hc] at h
          simp only [Bool.and_eq_true, decide_eq_true_eq, isCont_iff] at hc
          obtain ⟨⟨c1, c2⟩, c3⟩ := hc
          injection h with e1 e2
          subst e2
          have hr' : r = (b0.toNat - 224) * 4096 + (b1.toNat - 128) * 64 + (b2.toNat - 128) := e1.symm
          have q1 : 0x80 ≤ b1.toNat := by split at c1 <;> omega
          have q2 : b1.toNat ≤ 0xBF := by split at c2 <;> omega
          have q3 : b0.toNat = 0xE0 → 0xA0 ≤ b1.toNat := by
            intro hh; rw [if_pos hh] at c1; exact c1
          have q4 : b0.toNat = 0xED → b1.toNat ≤ 0x9F := by
            intro hh; rw [if_pos hh] at c2; exact c2
          have g1 : ¬ r < 0x80 := by omega
          have g2 : ¬ r < 0x800 := by omega
          have g3 : ¬ ((decide (0x10FFFF < r) || (decide (0xD800 ≤ r) && decide (r ≤ 0xDFFF))) = true) := by
            simp; omega
          have g4 : r < 0x10000 := by omega
          have en : encodeRune r = [b0, b1, b2] := by
            unfold encodeRune
            rw [if_neg g1, if_neg g2, if_neg g3, if_pos g4]
            rw [ofNat_eq_of_toNat (b := b0) (by omega), ofNat_eq_of_toNat (b := b1) (by omega),
              ofNat_eq_of_toNat (b := b2) (by omega)]
          refine ⟨by omega, by simp [en], t, by simp [en]⟩
        · rw [if_neg hc] at h; exact (bad h).elim
      · exact (bad h).elim
    next h4 =>
    split at h
    · next h5 =>
      split at h
      · next b1 b2 b3 t =>
        have l1 := toNat_lt b1
        by_cases hc : (decide ((if b0.toNat = 0xF0 then 0x90 else 0x80) ≤ b1.toNat) &&
            decide (b1.toNat ≤ if b0.toNat = 0xF4 then 0x8F else 0xBF) && isCont b2 && isCont b3) = true
        · rw [if_pos hc] at h
          simp only [Bool.and_eq_true, decide_eq_true_eq, isCont_iff] at hc
          obtain ⟨⟨⟨c1, c2⟩, c3⟩, c4⟩ := hc
          injection h with e1 e2
          subst e2
          have hr' : r = (b0.toNat - 240) * 262144 + (b1.toNat - 128) * 4096 + (b2.toNat - 128) * 64 + (b3.toNat - 128) := e1.symm
          have q1 : 0x80 ≤ b1.toNat := by split at c1 <;> omega
          have q2 : b1.toNat ≤ 0xBF := by split at c2 <;> omega
          have q3 : b0.toNat = 0xF0 → 0x90 ≤ b1.toNat := by
            intro hh; rw [if_pos hh] at c1; exact c1
          have q4 : b0.toNat = 0xF4 → b1.toNat ≤ 0x8F := by
            intro hh; rw [if_pos hh] at c2; exact c2
          have g1 : ¬ r < 0x80 := by omega
          have g2 : ¬ r < 0x800 := by omega
          have g3 : ¬ ((decide (0x10FFFF < r) || (decide (0xD800 ≤ r) && decide (r ≤ 0xDFFF))) = true) := by
            simp; omega
          have g4 : ¬ r < 0x10000 := by omega
          have en : encodeRune r = [b0, b1, b2, b3] := by
            unfold encodeRune
            rw [if_neg g1, if_neg g2, if_neg g3, if_neg g4]
            rw [ofNat_eq_of_toNat (b := b0) (by omega), ofNat_eq_of_toNat (b := b1) (by omega),
              ofNat_eq_of_toNat (b := b2) (by omega), ofNat_eq_of_toNat (b := b3) (by omega)]
          refine ⟨by omega, by simp [en], t, by simp [en]⟩
        · rw [if_neg hc] at h; exact (bad h).elim
      · exact (bad h).elim
    · exact (bad h).elim

theorem decodeRune_width_pos {s : GoStr} (h : s ≠ []) : 0 < (decodeRune s).2 := by
  match s with
  | [] => exact absurd rfl h
  | b :: rest =>
    unfold decodeRune; simp only
    repeat' split
    all_goals simp

theorem decodeRune_width_le (s : GoStr) : (decodeRune s).2 ≤ s.length := by
  match s with
  | [] => simp [decodeRune]
  | b :: rest =>
    unfold decodeRune; simp only
    repeat' split
    all_goals simp

theorem decodeRune_width_le_four (s : GoStr) : (decodeRune s).2 ≤ 4 := by
  match s with
  | [] => simp [decodeRune]
  | b :: rest =>
    unfold decodeRune; simp only
    repeat' split
    all_goals simp

/-- Text of a list of scalar values. -/
def utf8 (rs : List Nat) : GoStr := rs.flatMap encodeRune

@[simp] theorem utf8_nil : utf8 [] = [] := rfl
@[simp] theorem utf8_cons (r : Nat) (rs : List Nat) : utf8 (r :: rs) = encodeRune r ++ utf8 rs := rfl
@[simp] theorem utf8_append (rs ts : List Nat) : utf8 (rs ++ ts) = utf8 rs ++ utf8 ts := by
  simp [utf8]

theorem runesAux_utf8 (n : Nat) (rs : List Nat) (hs : ∀ r ∈ rs, isScalar r = true)
    (hn : (utf8 rs).length ≤ n) : runesAux n (utf8 rs) = rs := by
  induction rs generalizing n with
  | nil => cases n <;> rfl
  | cons r rs ih =>
    obtain ⟨b, bs, hb⟩ := List.exists_cons_of_ne_nil (encodeRune_ne_nil r)
    have hl : 0 < (encodeRune r).length := encodeRune_length_pos r
    simp only [utf8_cons, List.length_append] at hn
    match n with
    | 0 => omega
    | n + 1 =>
      have hd := decode_encode r (utf8 rs) (hs r (by simp))
      have : utf8 (r :: rs) = b :: (bs ++ utf8 rs) := by simp [hb]
      rw [this, runesAux]
      have e2 : b :: (bs ++ utf8 rs) = encodeRune r ++ utf8 rs := by simp [hb]
      rw [e2, hd]
      simp only [List.drop_left]
      rw [ih n (fun x hx => hs x (by simp [hx])) (by omega)]

theorem runes_utf8 (rs : List Nat) (hs : ∀ r ∈ rs, isScalar r = true) : runes (utf8 rs) = rs :=
  runesAux_utf8 _ rs hs (Nat.le_refl _)

theorem utf8_injective {rs ts : List Nat} (h1 : ∀ r ∈ rs, isScalar r = true)
    (h2 : ∀ r ∈ ts, isScalar r = true) (h : utf8 rs = utf8 ts) : rs = ts := by
  rw [← runes_utf8 rs h1, ← runes_utf8 ts h2, h]

/-- ASCII bytes in the encoding of a rune are the rune itself. -/
theorem encodeRune_ascii_mem {r : Nat} {b : UInt8} (hb : b ∈ encodeRune r) (h : b.toNat < 0x80) :
    r = b.toNat := by
  unfold encodeRune at hb
  have hx : ∀ n : Nat, (UInt8.ofNat n).toNat = n % 256 := fun n => by simp [UInt8.toNat_ofNat']
  split at hb
  · simp only [List.mem_singleton] at hb; subst hb; rw [hx] at h ⊢; omega
  split at hb
  · simp only [List.mem_cons, List.not_mem_nil, or_false] at hb
    rcases hb with hb | hb <;> subst hb <;> rw [hx] at h <;> omega
  split at hb
  · simp only [List.mem_cons, List.not_mem_nil, or_false] at hb
    rcases hb with hb | hb | hb <;> subst hb <;> simp at h
  next h3 =>
  simp at h3
  split at hb
  · simp only [List.mem_cons, List.not_mem_nil, or_false] at hb
    rcases hb with hb | hb | hb <;> subst hb <;> rw [hx] at h <;> omega
  · simp only [List.mem_cons, List.not_mem_nil, or_false] at hb
    rcases hb with hb | hb | hb | hb <;> subst hb <;> rw [hx] at h <;> omega

theorem encodeRune_ascii {r : Nat} (h : r < 0x80) : encodeRune r = [UInt8.ofNat r] := by
  simp [encodeRune, h]

end PP
