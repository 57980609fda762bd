import Verif.Lemmas.Tokens

/-! # Names -/
namespace PP

section
variable {env : Env} {s : St} {rs ws ds rest src : List Nat} {n p' b' : Nat} {tok : Tok}

theorem lod_ascii {c : Nat} (h : isLetterOrDigit c = true) : c < 128 := by
  simp only [isLetterOrDigit, isDecimalDigit, isLetter, isUppercaseLetter, isLowercaseLetter, Bool.or_eq_true, Bool.and_eq_true,
    decide_eq_true_eq, beq_iff_eq] at h
  omega

theorem segmentStart_eq (tok : Tok) (c : Nat) : segmentStart tok c = startsSegment tok c := by
  cases tok <;> simp [segmentStart, startsSegment, isUppercaseLetter, isLowercaseLetter]

theorem segStart_lod {c : Nat} (h : segmentStart tok c = true) : isLetterOrDigit c = true := by
  simp only [segmentStart, isUppercaseLetter, isLowercaseLetter, Bool.or_eq_true, Bool.and_eq_true, decide_eq_true_eq, beq_iff_eq] at h
  simp only [isLetterOrDigit, isDecimalDigit, isLetter, isUppercaseLetter, isLowercaseLetter, Bool.or_eq_true, Bool.and_eq_true,
    decide_eq_true_eq, beq_iff_eq]
  omega

theorem Tail.ascii {u t d} (h : Tail tok u t d) : ∀ c ∈ t, c < 128 := by
  induction h with
  | done h => exact fun c hc => lod_ascii (h c hc)
  | seg h hs _ ih =>
    intro c hc
    simp only [List.mem_append, List.mem_cons] at hc
    rcases hc with hc | rfl | rfl | rfl | hc
    · exact lod_ascii (h c hc)
    · omega
    · omega
    · exact lod_ascii (segStart_lod (segmentStart_eq _ _ ▸ hs))
    · exact ih c hc
  | dash _ h hs _ ih =>
    intro c hc
    simp only [List.mem_append, List.mem_cons, List.mem_replicate] at hc
    rcases hc with hc | ⟨_, rfl⟩ | rfl | hc
    · exact lod_ascii (h c hc)
    · omega
    · exact lod_ascii hs
    · exact ih c hc

theorem dashLoop_exec {f i k : Nat} (hf : k < f) (h : Here env i (List.replicate k 45 ++ rs)) (h0 : headC rs ≠ 45) :
    dashLoop f i env s = if isLetterOrDigit (headC rs) then .ok true { s with pos := i + k + width rs } else .ok false s := by
  induction k generalizing f i with
  | zero =>
    obtain ⟨f, rfl⟩ : ∃ g, f = g + 1 := ⟨f - 1, by omega⟩
    unfold dashLoop
    ex
    rw [peekAt_here h]
    simp only [List.replicate_zero, List.nil_append, Nat.add_zero]
    rw [if_pos h0]
  | succ k ih =>
    obtain ⟨f, rfl⟩ : ∃ g, f = g + 1 := ⟨f - 1, by omega⟩
    rw [List.replicate_succ] at h
    have ht : Here env (i + 1) (List.replicate k 45 ++ rs) := h.tail1 (by omega)
    unfold dashLoop
    ex
    rw [peekAt_here h]
    simp only [List.cons_append, headC_cons, show isLetterOrDigit 45 = false from rfl, Bool.false_eq_true, if_false, ne_eq, not_true_eq_false,
      width_cons, enc_len (show 45 < 128 by omega)]
    rw [ih (by omega) ht]
    have : i + 1 + k = i + (k + 1) := by omega
    rw [this]

theorem replicate_split (c : Nat) (l : List Nat) : ∃ k r, l = List.replicate k c ++ r ∧ headC r ≠ c ∨ (c = 0 ∧ l = List.replicate k c ++ r ∧ r = []) := by
  induction l with
  | nil =>
    by_cases h : c = 0
    · exact ⟨0, [], .inr ⟨h, rfl, rfl⟩⟩
    · exact ⟨0, [], .inl ⟨rfl, by simpa using fun e => h e.symm⟩⟩
  | cons x l ih =>
    by_cases h : x = c
    · subst h
      obtain ⟨k, r, h | ⟨h0, h1, h2⟩⟩ := ih
      · exact ⟨k + 1, r, .inl ⟨by rw [h.1]; rfl, h.2⟩⟩
      · exact ⟨k + 1, r, .inr ⟨h0, by rw [h1]; rfl, h2⟩⟩
    · exact ⟨0, x :: l, .inl ⟨rfl, by simpa using h⟩⟩

/-- The loop over a name. -/
theorem nameLoop_exec {start f : Nat} {u d0 d : Bool} (ht : Tail tok u src d) (hf : src.length < f)
    (h : Here env s.pos (src ++ rest)) (he : EndsName tok rest) :
    nameLoop start tok f u d0 env s = .ok (d0 || d) { s with pos := s.pos + src.length } := by
  induction ht generalizing f s d0 with
  | @done u ws hw =>
    obtain ⟨f, rfl⟩ : ∃ g, f = g + 1 := ⟨f - 1, by omega⟩
    have hl : (utf8 ws).length = ws.length := utf8_ascii_length fun w hw' => lod_ascii (hw w hw')
    have h2 := h.append
    rw [hl] at h2
    unfold nameLoop
    ex
    rw [advWhile_here h.fuel h hw he.word, hl]
    dsimp only
    by_cases hd : headC rest = 45 ∧ tok = .identifier
    · rw [if_pos hd]
      obtain ⟨k, r, hk⟩ := replicate_split 45 rest
      have hk : rest = List.replicate k 45 ++ r ∧ headC r ≠ 45 := by
        rcases hk with hk | ⟨hk, _⟩
        · exact hk
        · omega
      obtain ⟨rfl, hr⟩ := hk
      cases k with
      | zero => exact absurd hd.1 hr
      | succ k =>
        have hlo := he.dash hd.2 k r rfl
        rw [List.replicate_succ] at h2
        have h3 : Here env (s.pos + ws.length + 1) (List.replicate k 45 ++ r) := h2.tail1 (by omega)
        simp only [List.replicate_succ, List.cons_append, width, enc_len (show 45 < 128 by omega)]
        have hfu : k < charFuel env := by
          have := h3.fuel; simpa using this
        rw [dashLoop_exec hfu h3 hr, hlo]
        simp
    · rw [if_neg hd]
      by_cases hc : headC rest = 58
      · have hc' : ¬ headC rest ≠ 58 := by simpa using hc
        rw [if_neg hc']
        cases rest with
        | nil => simp at hc
        | cons x r =>
          simp only [headC_cons] at hc
          subst hc
          have h3 : Here env (s.pos + ws.length + 1) r := h2.tail1 (by omega)
          simp only [width, enc_len (show 58 < 128 by omega)]
          rw [peek_here (s := { s with pos := s.pos + ws.length + 1 }) h3]
          dsimp only
          have hr : headC r ≠ 58 := by
            cases r with
            | nil => simp
            | cons y r => rintro hy; simp only [headC_cons] at hy; subst hy; exact he.colon r rfl
          rw [if_pos hr]
          simp
      · rw [if_pos hc]
        simp
  | @seg ws c t d hw hs _ ih =>
    obtain ⟨f, rfl⟩ : ∃ g, f = g + 1 := ⟨f - 1, by omega⟩
    have hl : (utf8 ws).length = ws.length := utf8_ascii_length fun w hw' => lod_ascii (hw w hw')
    have h : Here env s.pos (ws ++ 58 :: 58 :: c :: (t ++ rest)) := by simpa using h
    have h2 := h.append
    rw [hl] at h2
    have h3 : Here env (s.pos + ws.length + 1) (58 :: c :: (t ++ rest)) := h2.tail1 (by omega)
    have h4 : Here env (s.pos + ws.length + 1 + 1) (c :: (t ++ rest)) := h3.tail1 (by omega)
    rw [← segmentStart_eq] at hs
    have hc := lod_ascii (segStart_lod hs)
    have h5 : Here env (s.pos + ws.length + 1 + 1 + 1) (t ++ rest) := h4.tail1 hc
    unfold nameLoop
    ex
    rw [advWhile_here h.fuel h hw rfl, hl]
    simp only [headC_cons, width, enc_len (show 58 < 128 by omega)]
    rw [if_neg (by omega), if_neg (by omega), peek_here (s := { s with pos := s.pos + ws.length + 1 }) h3]
    simp only [headC_cons, width, enc_len (show 58 < 128 by omega), ne_eq, not_true_eq_false, if_false]
    rw [peek_here (s := { s with pos := s.pos + ws.length + 1 + 1 }) h4]
    simp only [headC_cons, width, enc_len hc, hs, Bool.not_false, Bool.and_self, if_true]
    rw [ih (s := { s with pos := s.pos + ws.length + 1 + 1 + 1 }) (by simp at hf; omega) h5]
    simp only [List.length_append, List.length_cons]
    congr 2; omega
  | @dash u ws k c t d hi hw hc _ ih =>
    obtain ⟨f, rfl⟩ : ∃ g, f = g + 1 := ⟨f - 1, by omega⟩
    have hl : (utf8 ws).length = ws.length := utf8_ascii_length fun w hw' => lod_ascii (hw w hw')
    have h : Here env s.pos (ws ++ 45 :: (List.replicate k 45 ++ c :: (t ++ rest))) := by simpa [List.replicate_succ] using h
    have h2 := h.append
    rw [hl] at h2
    have h3 : Here env (s.pos + ws.length + 1) (List.replicate k 45 ++ c :: (t ++ rest)) := h2.tail1 (by omega)
    have hk : (utf8 (List.replicate k 45)).length = k := by
      rw [utf8_ascii_length (by intro w hw; rw [List.mem_replicate] at hw; omega)]; simp
    have h4 : Here env (s.pos + ws.length + 1 + k + 1) (t ++ rest) := by
      have := h3.append
      rw [hk] at this
      exact this.tail1 (lod_ascii hc)
    unfold nameLoop
    ex
    rw [advWhile_here h.fuel h hw rfl, hl]
    simp only [headC_cons, width, enc_len (show 45 < 128 by omega)]
    rw [if_pos ⟨trivial, hi⟩]
    have h45 : headC (c :: (t ++ rest)) ≠ 45 := by
      rintro h; simp only [headC_cons] at h; subst h; exact absurd hc (by decide)
    have hfu : k < charFuel env := by have := h3.fuel; simpa using this
    rw [dashLoop_exec hfu h3 h45]
    simp only [headC_cons, hc, if_true, width, enc_len (lod_ascii hc)]
    rw [ih (s := { s with pos := s.pos + ws.length + 1 + k + 1 }) (by simp at hf; omega) h4]
    simp only [List.length_append, List.length_cons, List.length_replicate, Bool.true_or, Bool.or_true]
    congr 2; omega

/-- A segment that does not start as it must. -/
theorem nameLoop_bad {start f : Nat} {u d0 d : Bool} (ht : Tail tok u src d) (hf : src.length < f)
    (h : Here env s.pos (src ++ 58 :: 58 :: rest)) (hb : startsSegment tok (headC rest) = false) :
    nameLoop start tok f u d0 env s = .fail (.issue (invalidNameCode tok) start) { s with pos := start } := by
  induction ht generalizing f s d0 with
  | @done u ws hw =>
    obtain ⟨f, rfl⟩ : ∃ g, f = g + 1 := ⟨f - 1, by omega⟩
    have hl : (utf8 ws).length = ws.length := utf8_ascii_length fun w hw' => lod_ascii (hw w hw')
    have h2 := h.append
    rw [hl] at h2
    have h3 : Here env (s.pos + ws.length + 1) (58 :: rest) := h2.tail1 (by omega)
    have h4 : Here env (s.pos + ws.length + 1 + 1) rest := h3.tail1 (by omega)
    unfold nameLoop
    ex
    rw [advWhile_here h.fuel h hw rfl, hl]
    simp only [headC_cons, width, enc_len (show 58 < 128 by omega)]
    rw [if_neg (by omega), if_neg (by omega), peek_here (s := { s with pos := s.pos + ws.length + 1 }) h3]
    simp only [headC_cons, width, enc_len (show 58 < 128 by omega), ne_eq, not_true_eq_false, if_false]
    rw [peek_here (s := { s with pos := s.pos + ws.length + 1 + 1 }) h4]
    dsimp only
    rw [segmentStart_eq, hb]
    simp
  | @seg ws c t d hw hs _ ih =>
    obtain ⟨f, rfl⟩ : ∃ g, f = g + 1 := ⟨f - 1, by omega⟩
    have hl : (utf8 ws).length = ws.length := utf8_ascii_length fun w hw' => lod_ascii (hw w hw')
    have h : Here env s.pos (ws ++ 58 :: 58 :: c :: (t ++ 58 :: 58 :: rest)) := by simpa using h
    have h2 := h.append
    rw [hl] at h2
    have h3 : Here env (s.pos + ws.length + 1) (58 :: c :: (t ++ 58 :: 58 :: rest)) := h2.tail1 (by omega)
    have h4 : Here env (s.pos + ws.length + 1 + 1) (c :: (t ++ 58 :: 58 :: rest)) := h3.tail1 (by omega)
    rw [← segmentStart_eq] at hs
    have hc := lod_ascii (segStart_lod hs)
    have h5 : Here env (s.pos + ws.length + 1 + 1 + 1) (t ++ 58 :: 58 :: rest) := h4.tail1 hc
    unfold nameLoop
    ex
    rw [advWhile_here h.fuel h hw rfl, hl]
    simp only [headC_cons, width, enc_len (show 58 < 128 by omega)]
    rw [if_neg (by omega), if_neg (by omega), peek_here (s := { s with pos := s.pos + ws.length + 1 }) h3]
    simp only [headC_cons, width, enc_len (show 58 < 128 by omega), ne_eq, not_true_eq_false, if_false]
    rw [peek_here (s := { s with pos := s.pos + ws.length + 1 + 1 }) h4]
    simp only [headC_cons, width, enc_len hc, hs, Bool.not_false, Bool.and_self, if_true]
    rw [ih (s := { s with pos := s.pos + ws.length + 1 + 1 + 1 }) (by simp at hf; omega) h5]
  | @dash u ws k c t d hi hw hc _ ih =>
    obtain ⟨f, rfl⟩ : ∃ g, f = g + 1 := ⟨f - 1, by omega⟩
    have hl : (utf8 ws).length = ws.length := utf8_ascii_length fun w hw' => lod_ascii (hw w hw')
    have h : Here env s.pos (ws ++ 45 :: (List.replicate k 45 ++ c :: (t ++ 58 :: 58 :: rest))) := by simpa [List.replicate_succ] using h
    have h2 := h.append
    rw [hl] at h2
    have h3 : Here env (s.pos + ws.length + 1) (List.replicate k 45 ++ c :: (t ++ 58 :: 58 :: rest)) := h2.tail1 (by omega)
    have hk : (utf8 (List.replicate k 45)).length = k := by
      rw [utf8_ascii_length (by intro w hw; rw [List.mem_replicate] at hw; omega)]; simp
    have h4 : Here env (s.pos + ws.length + 1 + k + 1) (t ++ 58 :: 58 :: rest) := by
      have := h3.append
      rw [hk] at this
      exact this.tail1 (lod_ascii hc)
    unfold nameLoop
    ex
    rw [advWhile_here h.fuel h hw rfl, hl]
    simp only [headC_cons, width, enc_len (show 45 < 128 by omega)]
    rw [if_pos ⟨trivial, hi⟩]
    have h45 : headC (c :: (t ++ 58 :: 58 :: rest)) ≠ 45 := by
      rintro h; simp only [headC_cons] at h; subst h; exact absurd hc (by decide)
    have hfu : k < charFuel env := by have := h3.fuel; simpa using this
    rw [dashLoop_exec hfu h3 h45]
    simp only [headC_cons, hc, if_true, width, enc_len (lod_ascii hc)]
    rw [ih (s := { s with pos := s.pos + ws.length + 1 + k + 1 }) (by simp at hf; omega) h4]

/-- A word. -/
theorem qualifiedName_exec {c start : Nat} {d : Bool} (hv : tok ≠ .variable) (ht : Tail tok false src d) (hc : c < 128)
    (h : Here env start (c :: (src ++ rest))) (he : EndsName tok rest) (hp : s.pos = start + 1) :
    consumeQualifiedName start tok env s =
      .ok () { s with pos := start + 1 + src.length, tok := (classify env tok d (utf8 (c :: src))).1,
                      val := (classify env tok d (utf8 (c :: src))).2 } := by
  have h1 : Here env s.pos (src ++ rest) := by rw [hp]; exact h.tail1 hc
  have hl : (utf8 src).length = src.length := utf8_ascii_length ht.ascii
  unfold consumeQualifiedName
  ex
  rw [nameLoop_exec ht h1.fuel h1 he]
  dsimp only
  rw [if_neg hv]
  have hf := from_here (s := { s with pos := s.pos + src.length }) (ws := c :: src) (rs := rest) h (by
    rw [utf8_cons, List.length_append, enc_len hc, hl]; show s.pos + _ = _; omega)
  rw [hf, hp]
  simp only [Bool.false_or]

/-- A variable. -/
theorem variable_exec {c start scan : Nat} {d : Bool} (ht : Tail .variable false src d) (hc : isLowercaseLetter c = true)
    (h : Here env start (36 :: c :: (src ++ rest))) (he : EndsName .variable rest) (hp : s.pos = start + 1) :
    lexChar (run n) scan 36 start env s =
      .ok () { s with pos := start + 2 + src.length, tok := .variable, val := .str (utf8 (c :: src)) } := by
  have h1 : Here env s.pos (c :: (src ++ rest)) := by rw [hp]; exact h.tail1 (by omega)
  have hl : (utf8 src).length = src.length := utf8_ascii_length ht.ascii
  have hc7 : c < 128 := by simp [isLowercaseLetter] at hc; omega
  have h2 : Here env (s.pos + 1) (src ++ rest) := h1.tail1 hc7
  unfold lexChar
  ex
  simp only [(by decide : ¬ (49 ≤ 36 ∧ 36 ≤ 57)), show isUppercaseLetter 36 = false from rfl, show isLowercaseLetter 36 = false from rfl,
    if_false, Bool.false_eq_true]
  simp only [Nat.reduceEqDiff, if_false, if_true]
  unfold lexDollar
  ex
  rw [peek_here h1]
  have h58 : c ≠ 58 := by simp [isLowercaseLetter] at hc; omega
  simp only [headC_cons, h58, if_false, hc, if_true, width, enc_len hc7]
  unfold consumeQualifiedName
  ex
  rw [nameLoop_exec (s := { s with pos := s.pos + 1 }) ht h2.fuel h2 he]
  simp only [if_true]
  have hf := from_here (s := { s with pos := s.pos + 1 + src.length }) (ws := c :: src) (rs := rest) h1 (by
    rw [utf8_cons, List.length_append, enc_len hc7, hl]; show s.pos + _ + _ = _; omega)
  rw [← hp, hf]
  simp only [classify, reduceCtorEq, if_false]
  rw [hp]

end
end PP
