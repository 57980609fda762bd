import Verif.Lemmas.Exec

/-! # White space and comments -/
namespace PP

section
variable {env : Env} {s : St} {rs ws : List Nat} {f csp : Nat}

theorem Skips.pos {p b ws p' b'} (h : Skips p b ws p' b') : p' = p + (utf8 ws).length := by
  induction h with
  | nil => rfl
  | blank h _ ih => rw [ih, utf8_cons, List.length_append, enc_len (by omega)]; omega
  | newline _ ih => rw [ih, utf8_cons, List.length_append, enc_len (by omega)]; omega
  | line _ _ ih =>
    rw [ih, utf8_cons, utf8_append, utf8_cons, List.length_append, List.length_append, List.length_append, enc_len (by omega), enc_len (by omega)]
    omega
  | block _ _ _ ih =>
    rw [ih, utf8_cons, utf8_cons, utf8_append, utf8_cons, utf8_cons]
    simp only [List.length_append]
    rw [enc_len (by omega), enc_len (by omega)]
    omega

theorem loop_hash {body : List Nat} (hb : ∀ c ∈ body, c ≠ 10 ∧ c ≠ 0) (hf : body.length ≤ f)
    (h : Here env s.pos (body ++ rs)) :
    skipWhiteLoop false f .hash csp env s =
      skipWhiteLoop false (f - body.length) .hash csp env { s with pos := s.pos + (utf8 body).length } := by
  induction body generalizing f s with
  | nil => rfl
  | cons c body ih =>
    obtain ⟨f, rfl⟩ : ∃ g, f = g + 1 := ⟨f - 1, by simp at hf; omega⟩
    have hc := hb c (List.mem_cons_self ..)
    have ih := ih (f := f) (s := { s with pos := s.pos + (encodeRune c).length })
      (fun x hx => hb x (List.mem_cons_of_mem _ hx)) (by simpa using hf) h.tail
    have e1 : f + 1 - (c :: body).length = f - body.length := by simp
    rw [e1, utf8_cons, List.length_append, ← Nat.add_assoc, ← ih]
    conv => lhs; unfold skipWhiteLoop
    ex
    rw [next_here h]
    simp only [List.cons_append, headC_cons, width]
    simp only [hc.1, hc.2, if_false, reduceCtorEq]
    repeat' split
    all_goals first | rfl | contradiction

theorem loop_star {body : List Nat} (hb : ∀ c ∈ body, c ≠ 0) (hn : ¬ [42, 47] <:+: body) (hf : body.length + 1 ≤ f)
    (h : Here env s.pos (body ++ 42 :: 47 :: rs)) :
    skipWhiteLoop false f .star csp env s =
      skipWhiteLoop false (f - body.length - 1) .none csp env { s with pos := s.pos + (utf8 body).length + 2 } := by
  induction body generalizing f s with
  | nil =>
    obtain ⟨f, rfl⟩ : ∃ g, f = g + 1 := ⟨f - 1, by simp at hf; omega⟩
    have h2 : Here env (s.pos + 1) (47 :: rs) := h.tail1 (by omega)
    conv => lhs; unfold skipWhiteLoop
    ex
    rw [next_here h]
    simp only [List.nil_append, headC_cons, width, enc_len (show 42 < 128 by omega)]
    simp only [reduceCtorEq, if_true, if_false, (by decide : ¬ (42:Nat) = 0), (by decide : ¬ (42:Nat) = 10),
      (by decide : ¬ (42:Nat) = 35), (by decide : ¬ (42:Nat) = 47)]
    rw [peek_here (s := { s with pos := s.pos + 1 }) h2]
    simp only [headC_cons, width, enc_len (show 47 < 128 by omega), if_true]
    simp
  | cons c body ih =>
    obtain ⟨f, rfl⟩ : ∃ g, f = g + 1 := ⟨f - 1, by simp at hf; omega⟩
    have hc := hb c (List.mem_cons_self ..)
    have hn' : ¬ [42, 47] <:+: body := fun h => hn (h.trans (List.suffix_cons _ _).isInfix)
    have ih := ih (f := f) (s := { s with pos := s.pos + (encodeRune c).length })
      (fun x hx => hb x (List.mem_cons_of_mem _ hx)) hn' (by simpa using hf) h.tail
    have e1 : f + 1 - (c :: body).length - 1 = f - body.length - 1 := by simp
    rw [e1, utf8_cons, List.length_append, ← Nat.add_assoc, ← ih]
    conv => lhs; unfold skipWhiteLoop
    ex
    rw [next_here h]
    simp only [List.cons_append, headC_cons, width]
    simp only [hc, if_false, if_true, reduceCtorEq]
    by_cases h42 : c = 42
    · subst h42
      simp only [if_true, if_false, (by decide : ¬ (42:Nat) = 10), (by decide : ¬ (42:Nat) = 35), (by decide : ¬ (42:Nat) = 47)]
      have ht : Here env (s.pos + (encodeRune 42).length) (body ++ 42 :: 47 :: rs) := h.tail
      rw [peek_here (s := { s with pos := s.pos + (encodeRune 42).length }) ht]
      have : headC (body ++ 42 :: 47 :: rs) ≠ 47 := by
        cases body with
        | nil => simp
        | cons d body =>
          simp only [List.cons_append, headC_cons]
          rintro rfl
          exact hn ⟨[], body, rfl⟩
      dsimp only
      rw [if_neg this]
    · simp only [h42, if_false]
      repeat' split
      all_goals first | rfl | contradiction

/-- The last line that is skipped. -/
theorem Skips.line' {p b ws p' b'} (h : Skips p b ws p' b') : b' = b ∨ ∃ w1 w2, ws = w1 ++ w2 ∧ b' = p + (utf8 w1).length ∧ Skips b' b' w2 p' b' := by
  have key : ∀ {c p ws p' b'}, Skips p p ws p' b' → (b' = p ∨ ∃ w1 w2, ws = w1 ++ w2 ∧ b' = p + (utf8 w1).length ∧ Skips b' b' w2 p' b') →
      ∀ (w0 : List Nat), p = c + (utf8 w0).length → ∃ w1 w2, w0 ++ ws = w1 ++ w2 ∧ b' = c + (utf8 w1).length ∧ Skips b' b' w2 p' b' := by
    intro c p ws p' b' h ih w0 hp
    rcases ih with rfl | ⟨w1, w2, rfl, h1, h2⟩
    · exact ⟨w0, ws, rfl, hp, h⟩
    · exact ⟨w0 ++ w1, w2, by simp, by rw [utf8_append, List.length_append]; omega, h2⟩
  induction h with
  | nil => exact .inl rfl
  | @blank p b c ws p' b' hc _ ih =>
    rcases ih with h | ⟨w1, w2, rfl, h1, h2⟩
    · exact .inl h
    · exact .inr ⟨c :: w1, w2, rfl, by rw [utf8_cons, List.length_append, enc_len (by omega)]; omega, h2⟩
  | @newline p b ws p' b' h ih =>
    exact .inr (key h ih [10] (by simp [utf8_cons, enc_len]))
  | @line p b body ws p' b' hb h ih =>
    have := key (c := p) h ih (35 :: (body ++ [10])) (by
      rw [utf8_cons, utf8_append, List.length_append, List.length_append, enc_len (by omega)]
      simp [utf8_cons, enc_len]; omega)
    exact .inr (by simpa using this)
  | @block p b body ws p' b' hb hb2 h ih =>
    rcases ih with h | ⟨w1, w2, rfl, h1, h2⟩
    · exact .inl h
    · refine .inr ⟨47 :: 42 :: (body ++ 42 :: 47 :: w1), w2, by simp, ?_, h2⟩
      rw [h1, utf8_cons, utf8_cons, utf8_append, utf8_cons, utf8_cons]
      simp only [List.length_append, enc_len (show 47 < 128 by omega), enc_len (show 42 < 128 by omega)]
      omega

theorem Skips.bol {p b ws p' b'} (h : Skips p b ws p' b') (hb : b ≤ p) : b ≤ b' ∧ b' ≤ p' := by
  induction h with
  | nil => omega
  | blank _ _ ih => have := ih (by omega); omega
  | newline _ ih => have := ih (by omega); omega
  | line _ _ ih => have := ih (by omega); omega
  | block _ _ _ ih => have := ih (by omega); omega

/-- White space and comments are skipped; line breaks only if no heredoc is pending. -/
theorem loop_skips' {p b p' b' : Nat} (hs : Skips p b ws p' b') (hp : s.pos = p) (hb : s.bol = b) (hn : s.nls = none ∨ b' = b ∧ b ≤ p)
    (h : Here env p (ws ++ rs)) (hf : ws.length ≤ f) :
    ∃ f' csp', f ≤ f' + ws.length ∧ f' ≤ f ∧ skipWhiteLoop false f .none csp env s =
      skipWhiteLoop false f' .none csp' env { s with pos := p', bol := b' } := by
  induction hs generalizing f csp s with
  | nil => subst hp hb; exact ⟨f, csp, Nat.le_refl _, Nat.le_refl _, rfl⟩
  | @blank p b c ws p' b' hc _ ih =>
    obtain ⟨f, rfl⟩ : ∃ g, f = g + 1 := ⟨f - 1, by simp at hf; omega⟩
    subst hp
    obtain ⟨f', csp', h1, h1', h2⟩ := ih (s := { s with pos := s.pos + 1 }) (f := f) (csp := csp) rfl hb (hn.imp id fun h => ⟨h.1, by omega⟩) (h.tail1 (by omega)) (by simpa using hf)
    refine ⟨f', csp', by simp only [List.length_cons]; omega, by omega, ?_⟩
    rw [← h2]
    conv => lhs; unfold skipWhiteLoop
    ex
    rw [next_here h]
    simp only [List.cons_append, headC_cons, width, enc_len (show c < 128 by omega)]
    rw [if_neg (by omega), if_neg (by omega), if_neg (by omega), if_neg (by omega), if_neg (by omega), if_pos (by omega)]
  | @newline p b ws p' b' hs' ih =>
    replace hn : s.nls = none := hn.resolve_right fun h => by have := hs'.bol (Nat.le_refl _); omega
    obtain ⟨f, rfl⟩ : ∃ g, f = g + 1 := ⟨f - 1, by simp at hf; omega⟩
    subst hp
    obtain ⟨f', csp', h1, h1', h2⟩ := ih (s := { s with pos := s.pos + 1, bol := s.pos + 1 }) (f := f) (csp := csp) rfl rfl (.inl hn) (h.tail1 (by omega)) (by simpa using hf)
    refine ⟨f', csp', by simp only [List.length_cons]; omega, by omega, ?_⟩
    rw [← h2]
    conv => lhs; unfold skipWhiteLoop
    ex
    rw [next_here h]
    simp only [List.cons_append, headC_cons, width, enc_len (show 10 < 128 by omega), newLine, hn]
    simp
  | @line p b body ws p' b' hbody hs' ih =>
    replace hn : s.nls = none := hn.resolve_right fun h => by have := hs'.bol (Nat.le_refl _); omega
    obtain ⟨f, rfl⟩ : ∃ g, f = g + 1 := ⟨f - 1, by simp at hf; omega⟩
    subst hp
    have hl : (35 :: (body ++ 10 :: ws)).length = body.length + ws.length + 2 := by simp; omega
    rw [hl] at hf ⊢
    have h1 : Here env (s.pos + 1) (body ++ 10 :: (ws ++ rs)) := by
      have := h.tail1 (by omega)
      simpa using this
    have h3 : Here env (s.pos + 1 + (utf8 body).length) (10 :: (ws ++ rs)) := h1.append
    have hh := loop_hash (csp := s.pos) (f := f) (s := { s with pos := s.pos + 1 }) hbody (by omega) h1
    obtain ⟨g, hg⟩ : ∃ g, f - body.length = g + 1 := ⟨f - body.length - 1, by omega⟩
    obtain ⟨f', csp', h4, h4', h5⟩ := ih (s := { s with pos := s.pos + 1 + (utf8 body).length + 1, bol := s.pos + 1 + (utf8 body).length + 1 })
      (f := g) (csp := s.pos) rfl rfl (.inl hn) (h3.tail1 (by omega)) (by omega)
    refine ⟨f', csp', by omega, by omega, ?_⟩
    rw [← h5]
    conv => lhs; unfold skipWhiteLoop
    ex
    rw [next_here h]
    simp only [List.cons_append, headC_cons, width, enc_len (show 35 < 128 by omega)]
    simp only [(by decide : ¬ (35:Nat) = 0), (by decide : ¬ (35:Nat) = 10), if_false, if_true]
    rw [hh, hg]
    conv => lhs; unfold skipWhiteLoop
    ex
    rw [next_here (s := { s with pos := s.pos + 1 + (utf8 body).length }) h3]
    simp only [headC_cons, width, enc_len (show 10 < 128 by omega), newLine, hn]
    simp
  | @block p b body ws p' b' hbody hnn _ ih =>
    obtain ⟨f, rfl⟩ : ∃ g, f = g + 1 := ⟨f - 1, by simp at hf; omega⟩
    subst hp
    have hl : (47 :: 42 :: (body ++ 42 :: 47 :: ws)).length = body.length + ws.length + 4 := by simp; omega
    rw [hl] at hf ⊢
    have h1 : Here env (s.pos + 1) (42 :: (body ++ 42 :: 47 :: (ws ++ rs))) := by
      have := h.tail1 (by omega)
      simpa using this
    have h2 : Here env (s.pos + 2) (body ++ 42 :: 47 :: (ws ++ rs)) := h1.tail1 (by omega)
    have h3 : Here env (s.pos + 2 + (utf8 body).length + 2) (ws ++ rs) := (h2.append.tail1 (by omega)).tail1 (by omega)
    have hh := loop_star (csp := s.pos) (f := f) (s := { s with pos := s.pos + 2 }) hbody hnn (by omega) h2
    obtain ⟨f', csp', h4, h4', h5⟩ := ih (s := { s with pos := s.pos + 2 + (utf8 body).length + 2 })
      (f := f - body.length - 1) (csp := s.pos) rfl hb (hn.imp id fun h => ⟨h.1, by omega⟩) h3 (by omega)
    refine ⟨f', csp', by omega, by omega, ?_⟩
    rw [← h5]
    conv => lhs; unfold skipWhiteLoop
    ex
    rw [next_here h]
    simp only [List.cons_append, headC_cons, width, enc_len (show 47 < 128 by omega)]
    simp only [(by decide : ¬ (47:Nat) = 0), (by decide : ¬ (47:Nat) = 10), (by decide : ¬ (47:Nat) = 35), if_false, if_true]
    rw [peek_here (s := { s with pos := s.pos + 1 }) h1]
    simp only [headC_cons, width, enc_len (show 42 < 128 by omega), if_true]
    rw [← hh]

/-- White space and comments are skipped. -/
theorem loop_skips {p b p' b' : Nat} (hs : Skips p b ws p' b') (hp : s.pos = p) (hb : s.bol = b) (hn : s.nls = none)
    (h : Here env p (ws ++ rs)) (hf : ws.length ≤ f) :
    ∃ f' csp', f ≤ f' + ws.length ∧ f' ≤ f ∧ skipWhiteLoop false f .none csp env s =
      skipWhiteLoop false f' .none csp' env { s with pos := p', bol := b' } := loop_skips' hs hp hb (.inl hn) h hf

theorem loop_stop (h : Here env s.pos rs) (hn : NoSkip rs) :
    skipWhiteLoop false (f + 1) .none csp env s = .ok (headC rs, s.pos) { s with pos := s.pos + width rs } := by
  obtain ⟨h1, h2, h3⟩ := hn
  simp only [isBlank, Bool.or_eq_false_iff, beq_eq_false_iff_ne] at h1
  unfold skipWhiteLoop
  ex
  rw [next_here h]
  dsimp only
  simp only [h2, if_true, reduceCtorEq, if_false]
  by_cases h0 : headC rs = 0
  · rw [if_pos h0]
  rw [if_neg h0, if_neg h1.2]
  by_cases h47 : headC rs = 47
  · cases rs with
    | nil => simp at h0
    | cons c rs =>
      simp only [headC_cons] at h47
      subst h47
      simp only [headC_cons, if_true, width, enc_len (show 47 < 128 by omega)]
      rw [peek_here (s := { s with pos := s.pos + 1 }) (h.tail1 (by omega))]
      have : headC rs ≠ 42 := by
        cases rs with
        | nil => simp
        | cons d rs => rintro rfl; exact h3 rs rfl
      simp only [this, if_false]
  · rw [if_neg h47]
    split
    · rfl
    · split
      · next h => omega
      · rfl

/-- `skipWhite` skips exactly the white space and the comments. -/
theorem skipWhite_exec' {b' p' : Nat} (hs : Skips s.pos s.bol ws p' b') (hn : s.nls = none ∨ b' = s.bol ∧ s.bol ≤ s.pos)
    (h : Here env s.pos (ws ++ rs)) (hr : NoSkip rs) :
    skipWhite false env s = .ok (headC rs, p') { s with pos := p' + width rs, bol := b' } := by
  unfold skipWhite
  ex
  obtain ⟨f', csp', h1, -, h2⟩ := loop_skips' (csp := 0) hs rfl rfl hn h (Nat.le_of_lt h.fuel)
  rw [h2]
  have hf := h.fuel
  obtain ⟨g, rfl⟩ : ∃ g, f' = g + 1 := ⟨f' - 1, by omega⟩
  have h3 := h.append
  rw [← hs.pos] at h3
  rw [loop_stop (s := { s with pos := p', bol := b' }) h3 hr]

theorem skipWhite_exec {b' p' : Nat} (hs : Skips s.pos s.bol ws p' b') (hn : s.nls = none)
    (h : Here env s.pos (ws ++ rs)) (hr : NoSkip rs) :
    skipWhite false env s = .ok (headC rs, p') { s with pos := p' + width rs, bol := b' } := skipWhite_exec' hs (.inl hn) h hr

end
end PP
