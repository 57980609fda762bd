import Verif.Lemmas.Utf8

/-! # Decimal numbers -/

namespace PP

theorem digitVal_dec {n : Nat} (h : n < 10) : digitVal (UInt8.ofNat (48 + n)) = some n := by
  unfold digitVal
  rw [toNat_ofNat (by omega)]
  have : (decide (48 ≤ 48 + n) && decide (48 + n ≤ 57)) = true := by simp; omega
  simp only [this, if_true]
  congr 1; omega

theorem parseDigits_append (base : Nat) (a b : GoStr) (acc n : Nat) (h : parseDigits base a acc = some n) :
    parseDigits base (a ++ b) acc = parseDigits base b n := by
  induction a generalizing acc with
  | nil => simp only [parseDigits, Option.some.injEq] at h; subst h; rfl
  | cons x a ih =>
    simp only [List.cons_append, parseDigits] at h ⊢
    split at h
    · next d hd =>
      split at h
      · next hlt => rw [if_pos hlt]; exact ih _ h
      · exact absurd h (by simp)
    · exact absurd h (by simp)

theorem natDigits_parse (f n : Nat) (h : n < f) : parseDigits 10 (natDigits f n) 0 = some n := by
  induction f generalizing n with
  | zero => omega
  | succ f ih =>
    unfold natDigits
    split
    · next h10 =>
      simp only [parseDigits]
      rw [digitVal_dec h10]; simp [h10]
    · next h10 =>
      have hq := ih (n / 10) (by omega)
      rw [parseDigits_append _ _ _ _ _ hq]
      simp only [parseDigits]
      rw [digitVal_dec (by omega : n % 10 < 10)]
      simp only
      rw [if_pos (by omega)]
      congr 1; omega

theorem natToDec_parse (n : Nat) : parseDigits 10 (natToDec n) 0 = some n := natDigits_parse _ _ (by omega)

theorem natToDec_injective {m n : Nat} (h : natToDec m = natToDec n) : m = n := by
  have h1 := natToDec_parse m
  rw [h, natToDec_parse n] at h1
  exact (Option.some.inj h1).symm

theorem natDigits_digit (f n : Nat) : ∀ b ∈ natDigits f n, 48 ≤ b.toNat ∧ b.toNat ≤ 57 := by
  induction f generalizing n with
  | zero => simp [natDigits]
  | succ f ih =>
    unfold natDigits
    split
    · intro b hb
      simp only [List.mem_singleton] at hb
      subst hb; rw [toNat_ofNat (by omega)]; omega
    · intro b hb
      simp only [List.mem_append, List.mem_singleton] at hb
      rcases hb with hb | hb
      · exact ih _ b hb
      · subst hb; rw [toNat_ofNat (by omega)]; omega

theorem natToDec_digit (n : Nat) : ∀ b ∈ natToDec n, 48 ≤ b.toNat ∧ b.toNat ≤ 57 := natDigits_digit _ _

theorem natToDec_ne_nil (n : Nat) : natToDec n ≠ [] := by
  unfold natToDec natDigits
  split <;> simp

theorem intToDec_injective {i j : Int} (h : intToDec i = intToDec j) : i = j := by
  have key : ∀ a b : Nat, natToDec a ≠ 45 :: natToDec b := by
    intro a b hab
    have := natToDec_digit a 45 (by rw [hab]; simp)
    simp at this
  match i, j with
  | Int.ofNat a, Int.ofNat b => exact congrArg _ (natToDec_injective h)
  | Int.ofNat a, Int.negSucc b => exact (key _ _ h).elim
  | Int.negSucc a, Int.ofNat b => exact (key _ _ h.symm).elim
  | Int.negSucc a, Int.negSucc b =>
    simp only [intToDec, List.cons.injEq, true_and] at h
    have := natToDec_injective h
    have : a = b := by omega
    rw [this]

theorem intToDec_char (i : Int) : ∀ b ∈ intToDec i, b.toNat = 45 ∨ 48 ≤ b.toNat ∧ b.toNat ≤ 57 := by
  intro b hb
  match i with
  | Int.ofNat a => exact Or.inr (natToDec_digit _ b hb)
  | Int.negSucc a =>
    simp only [intToDec, List.mem_cons] at hb
    rcases hb with hb | hb
    · left; subst hb; rfl
    · exact Or.inr (natToDec_digit _ b hb)

theorem intToDec_ne_nil (i : Int) : intToDec i ≠ [] := by
  match i with
  | Int.ofNat a => exact natToDec_ne_nil a
  | Int.negSucc a => simp [intToDec]

end PP
