import Verif.Locator
import Verif.Lemmas.Utf8

/-! # Lemmas about the line index -/

namespace PP

/-- The offsets just after the newlines of a text that starts at offset `pos`. -/
def nlPos (pos : Nat) : GoStr → List Nat
  | [] => []
  | b :: bs => if b.toNat = 10 then (pos + 1) :: nlPos (pos + 1) bs else nlPos (pos + 1) bs

theorem nlPos_append (pos : Nat) (a b : GoStr) :
    nlPos pos (a ++ b) = nlPos pos a ++ nlPos (pos + a.length) b := by
  induction a generalizing pos with
  | nil => simp [nlPos]
  | cons x a ih =>
    simp only [List.cons_append, nlPos, ih, List.length_cons]
    rw [show pos + 1 + a.length = pos + (a.length + 1) by omega]
    split <;> simp

theorem nlPos_none (pos : Nat) (a : GoStr) (h : ∀ b ∈ a, b.toNat ≠ 10) : nlPos pos a = [] := by
  induction a generalizing pos with
  | nil => rfl
  | cons x a ih =>
    simp only [nlPos]
    rw [if_neg (h x (by simp)), ih _ (fun b hb => h b (by simp [hb]))]

theorem nlPos_encodeRune (pos r : Nat) :
    nlPos pos (encodeRune r) = if r = 10 then [pos + 1] else [] := by
  by_cases h : r = 10
  · subst h; simp [encodeRune, nlPos]
  · rw [if_neg h]
    apply nlPos_none
    intro b hb hb10
    have := encodeRune_ascii_mem hb (by omega)
    omega

theorem lineIndexLoop_utf8 (f pos : Nat) (rs : List Nat)
    (hs : ∀ r ∈ rs, isScalar r = true ∧ r ≠ runeError ∧ r ≠ 0) (hf : (utf8 rs).length ≤ f) :
    lineIndexLoop f pos (utf8 rs) = .ok (nlPos pos (utf8 rs)) := by
  induction rs generalizing f pos with
  | nil => cases f <;> rfl
  | cons r rs ih =>
    obtain ⟨b, bs, hb⟩ := List.exists_cons_of_ne_nil (encodeRune_ne_nil r)
    have hl : 0 < (encodeRune r).length := encodeRune_length_pos r
    simp only [utf8_cons, List.length_append] at hf
    have hr := hs r (by simp)
    match f with
    | 0 => omega
    | f + 1 =>
      have hd := decode_encode r (utf8 rs) hr.1
      have e1 : utf8 (r :: rs) = b :: (bs ++ utf8 rs) := by simp [hb]
      have e2 : b :: (bs ++ utf8 rs) = encodeRune r ++ utf8 rs := by simp [hb]
      rw [e1, lineIndexLoop]
      rw [e2, hd]
      simp only [List.drop_left]
      rw [if_neg hr.2.1, if_neg hr.2.2]
      rw [ih f _ (fun x hx => hs x (by simp [hx])) (by omega)]
      simp only
      rw [nlPos_append, nlPos_encodeRune]
      by_cases h10 : r = 10
      · subst h10; simp [encodeRune]
      · simp [h10]

theorem nlPos_gt (pos : Nat) (t : GoStr) : ∀ n ∈ nlPos pos t, pos < n := by
  induction t generalizing pos with
  | nil => simp [nlPos]
  | cons b bs ih =>
    intro n hn
    simp only [nlPos] at hn
    split at hn
    · simp only [List.mem_cons] at hn
      rcases hn with h | h
      · omega
      · have := ih _ n h; omega
    · have := ih _ n hn; omega

theorem takeWhile_nlPos (pos o : Nat) (t : GoStr) :
    (nlPos pos t).takeWhile (fun (n : Nat) => decide ((n : Int) < ((pos + o : Nat) : Int) + 1)) = nlPos pos (t.take o) := by
  induction t generalizing pos o with
  | nil => simp [nlPos]
  | cons b bs ih =>
    match o with
    | 0 =>
      simp only [List.take_zero, nlPos]
      have := nlPos_gt pos (b :: bs)
      simp only [nlPos] at this
      match h : (if b.toNat = 10 then (pos + 1) :: nlPos (pos + 1) bs else nlPos (pos + 1) bs) with
      | [] => rfl
      | x :: xs =>
        have hx := this x (by rw [h]; simp)
        rw [List.takeWhile_cons_of_neg]
        simp; omega
    | o + 1 =>
      have e : pos + (o + 1) = (pos + 1) + o := by omega
      simp only [List.take_succ_cons, nlPos]
      rw [e]
      split
      · rw [List.takeWhile_cons_of_pos (by simp; omega), ih]
      · rw [ih]

theorem nlPos_length (pos : Nat) (t : GoStr) : (nlPos pos t).length = t.count 10 := by
  induction t generalizing pos with
  | nil => rfl
  | cons b bs ih =>
    simp only [nlPos]
    by_cases h : b.toNat = 10
    · have hb : b = 10 := by
        have : UInt8.ofNat b.toNat = b := by simp
        rw [← this, h]; rfl
      subst hb
      simp [ih]
    · have hb : ¬ b = 10 := by intro hb; subst hb; exact h rfl
      rw [if_neg h, ih, List.count_cons]
      simp [hb]

theorem searchInts_index (t : GoStr) (o : Nat) :
    searchInts (0 :: nlPos 0 t) ((o : Int) + 1) = 1 + (t.take o).count 10 := by
  unfold searchInts
  rw [List.takeWhile_cons_of_pos (by simp)]
  have := takeWhile_nlPos 0 o t
  simp only [Nat.zero_add] at this
  rw [this, List.length_cons, nlPos_length]; omega

/-- The start of the line that contains offset `o`. -/
theorem index_get (t : GoStr) (o : Nat) :
    (0 :: nlPos 0 t)[(t.take o).count 10]? = (0 :: nlPos 0 (t.take o)).getLast? := by
  have hsplit : nlPos 0 t = nlPos 0 (t.take o) ++ nlPos (t.take o).length (t.drop o) := by
    have := nlPos_append 0 (t.take o) (t.drop o)
    rw [List.take_append_drop] at this
    simpa using this
  rw [hsplit, ← nlPos_length 0, List.getLast?_eq_getElem?]
  have hlt : (nlPos 0 (t.take o)).length < (0 :: nlPos 0 (t.take o)).length := by simp
  rw [← List.cons_append, List.getElem?_append_left hlt]
  simp

theorem getLast_nlPos_noNl (pos : Nat) (a b : GoStr) (d : Nat) (hb : ∀ x ∈ b, x.toNat ≠ 10) :
    (d :: nlPos pos (a ++ b)).getLast? = (d :: nlPos pos a).getLast? := by
  rw [nlPos_append, nlPos_none _ b hb]; simp

theorem getLast_nlPos_nl (pos d : Nat) (a : GoStr) :
    (d :: nlPos pos (a ++ [10])).getLast? = some (pos + a.length + 1) := by
  rw [nlPos_append]
  simp only [nlPos]
  rw [if_pos (by rfl)]
  rw [← List.cons_append, List.getLast?_append]
  simp

end PP
