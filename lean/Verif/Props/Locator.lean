import Verif.Lemmas.Locator

/-!
# C01, C02: reported lines and columns

Specification.  A source is given by its characters (Unicode scalar values); its bytes are their UTF-8
encoding.  The location of the character that follows the characters `pre` has

* line: one more than the number of newlines in `pre`,
* column: one more than the number of characters of `pre` after its last newline.
-/

namespace PP.Props

/-- A character the reader accepts, other than NUL: a scalar value that is not U+FFFD
(parser/reader.go rejects U+FFFD together with invalid bytes). -/
def Readable (r : Nat) : Prop := (r < 0xD800 ∨ 0xE000 ≤ r ∧ r ≤ 0x10FFFF) ∧ r ≠ 0xFFFD ∧ r ≠ 0

/-- Line of the character after `pre`. -/
def specLine (pre : List Nat) : Nat := 1 + pre.count 10

/-- Column of the character after `pre`. -/
def specColumn (pre : List Nat) : Nat := 1 + (pre.reverse.takeWhile (fun c => decide (c ≠ 10))).length

theorem Readable.scalar {r : Nat} (h : Readable r) : isScalar r = true ∧ r ≠ runeError ∧ r ≠ 0 :=
  ⟨(scalar_iff r).2 h.1, h.2.1, h.2.2⟩

theorem lineIndex_readable (rs : List Nat) (h : ∀ r ∈ rs, Readable r) :
    lineIndex (utf8 rs) = .ok (0 :: nlPos 0 (utf8 rs)) := by
  unfold lineIndex
  rw [lineIndexLoop_utf8 _ _ rs (fun r hr => (h r hr).scalar) (Nat.le_refl _)]

/-- C01, lines: for every offset (even inside a character), the line is one more than the number of
newline bytes before the offset. -/
theorem C01_line_exact (rs : List Nat) (h : ∀ r ∈ rs, Readable r) (o : Nat) :
    lineForOffset (utf8 rs) o = .ok (1 + ((utf8 rs).take o).count 10) := by
  unfold lineForOffset
  rw [lineIndex_readable rs h]
  simp only
  rw [searchInts_index]

theorem count_utf8 (rs : List Nat) : (utf8 rs).count 10 = rs.count 10 := by
  rw [← nlPos_length 0]
  suffices ∀ pos, (nlPos pos (utf8 rs)).length = rs.count 10 from this 0
  intro pos
  induction rs generalizing pos with
  | nil => rfl
  | cons r rs ih =>
    rw [utf8_cons, nlPos_append, nlPos_encodeRune, List.length_append, ih, List.count_cons]
    by_cases h : r = 10 <;> simp [h]; omega

/-- C01, lines of characters. -/
theorem C01_line_of_character (pre post : List Nat) (h : ∀ r ∈ pre ++ post, Readable r) :
    lineForOffset (utf8 (pre ++ post)) (utf8 pre).length = .ok (specLine pre) := by
  rw [C01_line_exact _ h, utf8_append, List.take_left, count_utf8, specLine]

theorem no_nl_utf8 (rs : List Nat) (h : ∀ r ∈ rs, r ≠ 10) : ∀ b ∈ utf8 rs, b.toNat ≠ 10 := by
  intro b hb h10
  simp only [utf8, List.mem_flatMap] at hb
  obtain ⟨r, hr, hb⟩ := hb
  exact h r hr (by rw [encodeRune_ascii_mem hb (by omega), h10])

theorem split_last_nl (pre : List Nat) :
    ∃ a line, pre = a ++ line ∧ (∀ r ∈ line, r ≠ 10) ∧ (a = [] ∨ ∃ a', a = a' ++ [10]) ∧
      (pre.reverse.takeWhile (fun c => decide (c ≠ 10))).length = line.length := by
  refine ⟨(pre.reverse.dropWhile (fun c => decide (c ≠ 10))).reverse,
    (pre.reverse.takeWhile (fun c => decide (c ≠ 10))).reverse, ?_, ?_, ?_, by simp⟩
  · rw [← List.reverse_append, List.takeWhile_append_dropWhile, List.reverse_reverse]
  · intro r hr
    rw [List.mem_reverse] at hr
    have hall := List.all_takeWhile (p := fun c => decide (c ≠ 10)) (l := pre.reverse)
    rw [List.all_eq_true] at hall
    simpa using hall r hr
  · cases hd : pre.reverse.dropWhile (fun c => decide (c ≠ 10)) with
    | nil => left; rfl
    | cons x xs =>
      right
      have hx := List.head?_dropWhile_not (p := fun c => decide (c ≠ 10)) (l := pre.reverse)
      rw [hd] at hx
      simp at hx
      exact ⟨xs.reverse, by simp [hx]⟩

/-- C01, columns: the column of a character counts the characters since the line started. -/
theorem C01_column_of_character (pre post : List Nat) (h : ∀ r ∈ pre ++ post, Readable r) :
    posOnLine (utf8 (pre ++ post)) (utf8 pre).length = .ok (specColumn pre) := by
  unfold posOnLine
  rw [lineIndex_readable _ h]
  simp only
  rw [searchInts_index, Nat.add_comm 1]
  simp only
  rw [index_get]
  rw [utf8_append, List.take_left]
  obtain ⟨a, line, hpre, hline, ha, hlen⟩ := split_last_nl pre
  have hlast : (0 :: nlPos 0 (utf8 pre)).getLast? = some (utf8 a).length := by
    rw [hpre, utf8_append, getLast_nlPos_noNl _ _ _ _ (no_nl_utf8 line hline)]
    rcases ha with ha | ⟨a', ha⟩
    · subst ha; rfl
    · subst ha
      rw [utf8_append]
      have : utf8 [10] = [10] := by simp [utf8, encodeRune]
      rw [this, getLast_nlPos_nl]; simp
  rw [hlast]
  simp only
  have hlenpre : (utf8 pre).length = (utf8 a).length + (utf8 line).length := by
    rw [hpre, utf8_append, List.length_append]
  have hscal : ∀ r ∈ line, isScalar r = true := fun r hr =>
    (h r (by rw [hpre]; simp [hr])).scalar.1
  rw [specColumn, hlen]
  by_cases h0 : ((utf8 pre).length : Int) = ((utf8 a).length : Int)
  · rw [if_pos h0]
    have : (utf8 line).length = 0 := by omega
    cases line with
    | nil => rfl
    | cons r rs =>
      rw [utf8_cons, List.length_append] at this
      have := encodeRune_length_pos r
      omega
  · rw [if_neg h0]
    have hle : ¬ (((utf8 pre ++ utf8 post).length : Int) < ((utf8 pre).length : Int)) := by
      rw [List.length_append]; omega
    rw [if_neg hle]
    have e1 : (((utf8 pre).length : Nat) : Int).toNat = (utf8 pre).length := by simp
    rw [e1, hlenpre]
    have e2 : ((utf8 pre ++ utf8 post).drop (utf8 a).length).take
        ((utf8 a).length + (utf8 line).length - (utf8 a).length) = utf8 line := by
      rw [hpre, utf8_append, List.append_assoc, List.drop_left, Nat.add_sub_cancel_left, List.take_left]
    rw [e2, runeCount, runes_utf8 line hscal, Nat.add_comm]

/-- C01 is not vacuous: line 2, column 3 of the `b` in "x\nåab". -/
example : lineForOffset (utf8 ([0x78, 10, 0xE5, 0x61] ++ [0x62])) 5 = .ok 2 ∧
    posOnLine (utf8 ([0x78, 10, 0xE5, 0x61] ++ [0x62])) 5 = .ok 3 := by decide +kernel

example : ∀ r ∈ [0x78, 10, 0xE5, 0x61] ++ [0x62], Readable r := by
  intro r hr; simp at hr; unfold Readable; omega

theorem takeWhile_len_lt (pre : List Nat) (r : Nat) (more : List Nat) (h : ∀ c ∈ r :: more, c ≠ 10) :
    (pre.reverse.takeWhile (fun c => decide (c ≠ 10))).length <
      ((pre ++ r :: more).reverse.takeWhile (fun c => decide (c ≠ 10))).length := by
  rw [List.reverse_append]
  have hall : ∀ c ∈ (r :: more).reverse, decide (c ≠ 10) = true := by
    intro c hc; simpa using h c (List.mem_reverse.1 hc)
  rw [List.takeWhile_append_of_pos hall, List.length_append, List.length_reverse, List.length_cons]
  omega

/-- C02: of two characters of a source the earlier one has the lexicographically smaller location, so
no two characters share a location. -/
theorem C02_locations_increase (pre : List Nat) (r : Nat) (more post : List Nat)
    (h : ∀ c ∈ (pre ++ r :: more) ++ post, Readable c) :
    ∃ l1 c1 l2 c2,
      lineForOffset (utf8 ((pre ++ r :: more) ++ post)) (utf8 pre).length = .ok l1 ∧
      posOnLine (utf8 ((pre ++ r :: more) ++ post)) (utf8 pre).length = .ok c1 ∧
      lineForOffset (utf8 ((pre ++ r :: more) ++ post)) (utf8 (pre ++ r :: more)).length = .ok l2 ∧
      posOnLine (utf8 ((pre ++ r :: more) ++ post)) (utf8 (pre ++ r :: more)).length = .ok c2 ∧
      (l1 < l2 ∨ l1 = l2 ∧ c1 < c2) := by
  have e : (pre ++ r :: more) ++ post = pre ++ (r :: more ++ post) := by simp
  refine ⟨specLine pre, specColumn pre, specLine (pre ++ r :: more), specColumn (pre ++ r :: more),
    ?_, ?_, C01_line_of_character _ _ h, C01_column_of_character _ _ h, ?_⟩
  · rw [e]; exact C01_line_of_character pre _ (e ▸ h)
  · rw [e]; exact C01_column_of_character pre _ (e ▸ h)
  · unfold specLine specColumn
    by_cases h10 : 10 ∈ r :: more
    · left
      rw [List.count_append]
      have := List.count_pos_iff.2 h10
      omega
    · right
      have hc : (r :: more).count 10 = 0 := List.count_eq_zero.2 h10
      refine ⟨by rw [List.count_append, hc, Nat.add_zero], ?_⟩
      have := takeWhile_len_lt pre r more (fun c hc e => h10 (e ▸ hc))
      omega

/-- C02 witness: two characters in the second line of "x\nåab". -/
example : (posOnLine (utf8 (([0x78, 10] ++ 0xE5 :: [0x61]) ++ [0x62])) 2 = .ok 1) ∧
    (posOnLine (utf8 (([0x78, 10] ++ 0xE5 :: [0x61]) ++ [0x62])) 5 = .ok 3) := by decide +kernel

/-- Outside the domain of C01 (F8): one invalid byte anywhere makes every question about a line panic,
even for offsets before it. -/
theorem C01_invalid_text_panics : lineForOffset [0x61, 0xFF] 0 = .error (.invalidUnicode 1) := by
  decide +kernel

/-- Outside the domain of C01 (F7): newlines after a NUL are not counted. -/
theorem C01_nul_stops_counting : lineForOffset [0x61, 0, 10, 0x62] 3 = .ok 1 := by decide +kernel

end PP.Props
