import Verif.Spec.Epp
import Verif.Lemmas.Layout

/-! # Reading the text of a template -/
namespace PP
open PP.Spec

section
variable {env : Env} {s : St} {rest cs out : List Nat}

theorem Trimmed.snoc_blank {out a : List Nat} {c : Nat} (h : Trimmed out a) (hc : IsBlank c) : Trimmed (out ++ [c]) a := by
  obtain ⟨b, rfl, h1, h2⟩ := h
  refine ⟨b ++ [c], by simp, fun x hx => ?_, h2⟩
  rcases List.mem_append.1 hx with hx | hx
  · exact h1 x hx
  · rw [List.mem_singleton] at hx; subst hx; exact hc

theorem trimmed_self {out : List Nat} {c : Nat} (hc : ¬ IsBlank c) : Trimmed (out ++ [c]) (out ++ [c]) :=
  ⟨[], by simp, by simp, fun x hx => by
    rw [List.getLast?_concat, Option.some.injEq] at hx
    subst hx; exact hc⟩

theorem comment_run (body cs : List Nat) (hb : ∀ c ∈ body, c ≠ c%'%' ∧ c ≠ 0) {f prev : Nat} (hp : prev ≠ c%'%') (hf : body.length < f)
    (h : Here env s.pos (body ++ c%'%' :: c%'>' :: cs)) :
    eppComment f prev env s = .ok true { s with pos := s.pos + (utf8 body).length + 2 } := by
  induction body generalizing f s prev with
  | nil =>
    obtain ⟨f, rfl⟩ : ∃ g, f = g + 1 := ⟨f - 1, by omega⟩
    unfold eppComment
    ex
    rw [next_here h]
    have h2 : Here env (s.pos + 1) (c%'>' :: cs) := h.tail1 (by decide)
    simp only [List.nil_append, headC_cons, width_cons, enc_len (show 37 < 128 by omega), Nat.reduceEqDiff, if_false, if_true]
    rw [peek_here (s := { s with pos := s.pos + 1 }) h2]
    simp only [headC_cons, width_cons, enc_len (show 62 < 128 by omega)]
    rw [if_pos ⟨trivial, hp⟩]
    rfl
  | cons c body ih =>
    obtain ⟨f, rfl⟩ : ∃ g, f = g + 1 := ⟨f - 1, by simp at hf; omega⟩
    obtain ⟨h1, h2⟩ := hb c (by simp)
    unfold eppComment
    ex
    rw [next_here h]
    dsimp only [List.cons_append, headC_cons, width_cons]
    rw [if_neg h2, if_neg h1, ih (fun x hx => hb x (by simp [hx])) h1 (by simp at hf; omega) h.tail]
    simp only [utf8_cons, List.length_append, Nat.add_assoc]

section steps
variable {c f last : Nat} {buf : GoStr} {r : List Nat}

theorem step_other (h : Here env s.pos (c :: r)) (h0 : c ≠ 0) (h1 : c ≠ c%'<') (h2 : ¬ IsBlank c) (h3 : c ≠ c%'%') :
    eppText (f + 1) buf last env s = eppText f (buf ++ encodeRune c) (buf.length + (encodeRune c).length) env
      { s with pos := s.pos + (encodeRune c).length } := by
  rw [eppText]; ex; rw [next_here h]; dsimp only [headC_cons, width_cons]
  unfold IsBlank at h2
  simp only [if_neg h0, if_neg h1, if_neg h2, if_neg h3]

theorem step_blank (h : Here env s.pos (c :: r)) (h2 : IsBlank c) :
    eppText (f + 1) buf last env s = eppText f (buf ++ encodeRune c) last env { s with pos := s.pos + (encodeRune c).length } := by
  have h0 : c ≠ 0 ∧ c ≠ c%'<' := by rcases h2 with rfl | rfl <;> decide
  rw [eppText]; ex; rw [next_here h]; dsimp only [headC_cons, width_cons]
  unfold IsBlank at h2
  simp only [if_neg h0.1, if_neg h0.2, if_pos h2]

theorem step_lt (h : Here env s.pos (c%'<' :: r)) (h1 : headC r ≠ c%'%') :
    eppText (f + 1) buf last env s = eppText f (buf ++ [60]) (buf.length + 1) env { s with pos := s.pos + 1 } := by
  have ht : Here env (s.pos + 1) r := h.tail1 (by decide)
  rw [eppText]; ex; rw [next_here h]; dsimp only
  simp only [headC_cons, width_cons, enc_len (show 60 < 128 by omega), Nat.reduceEqDiff, if_false, if_true]
  rw [peek_here (s := { s with pos := s.pos + 1 }) ht]
  dsimp only
  rw [if_pos h1]

theorem step_percent (h : Here env s.pos (c%'%' :: r)) (h1 : headC r ≠ c%'%') :
    eppText (f + 1) buf last env s = eppText f (buf ++ [37]) (buf.length + 1) env { s with pos := s.pos + 1 } := by
  have ht : Here env (s.pos + 1) r := h.tail1 (by decide)
  rw [eppText]; ex; rw [next_here h]; dsimp only
  simp only [headC_cons, width_cons, enc_len (show 37 < 128 by omega), Nat.reduceEqDiff, if_false, if_true, or_self]
  rw [peek_here (s := { s with pos := s.pos + 1 }) ht]
  dsimp only
  rw [if_neg h1]

theorem step_opening (h : Here env s.pos (c%'<' :: c%'%' :: c%'%' :: r)) :
    eppText (f + 1) buf last env s = eppText f (buf ++ [60, 37]) (buf.length + 2) env { s with pos := s.pos + 3 } := by
  have h1 : Here env (s.pos + 1) (c%'%' :: c%'%' :: r) := h.tail1 (by decide)
  have h2 : Here env (s.pos + 1 + 1) (c%'%' :: r) := h1.tail1 (by decide)
  rw [eppText]; ex; rw [next_here h]; dsimp only
  simp only [headC_cons, width_cons, enc_len (show 60 < 128 by omega), Nat.reduceEqDiff, if_false, if_true]
  rw [peek_here (s := { s with pos := s.pos + 1 }) h1]
  simp only [headC_cons, width_cons, enc_len (show 37 < 128 by omega), ne_eq, not_true, if_false]
  rw [peek_here (s := { s with pos := s.pos + 1 + 1 }) h2]
  simp only [headC_cons, width_cons, enc_len (show 37 < 128 by omega), if_true, Nat.add_assoc, Nat.reduceAdd]

theorem step_closing (h : Here env s.pos (c%'%' :: c%'%' :: c%'>' :: r)) :
    eppText (f + 1) buf last env s = eppText f (buf ++ [37, 62]) (buf.length + 2) env { s with pos := s.pos + 3 } := by
  have h1 : Here env (s.pos + 1) (c%'%' :: c%'>' :: r) := h.tail1 (by decide)
  have h2 : Here env (s.pos + 1 + 1) (c%'>' :: r) := h1.tail1 (by decide)
  rw [eppText]; ex; rw [next_here h]; dsimp only
  simp only [headC_cons, width_cons, enc_len (show 37 < 128 by omega), Nat.reduceEqDiff, if_false, if_true, or_self]
  rw [peek_here (s := { s with pos := s.pos + 1 }) h1]
  simp only [headC_cons, width_cons, enc_len (show 37 < 128 by omega), if_true]
  rw [peek_here (s := { s with pos := s.pos + 1 + 1 }) h2]
  simp only [headC_cons, width_cons, enc_len (show 62 < 128 by omega), if_true, Nat.add_assoc, Nat.reduceAdd]

theorem step_percents (h : Here env s.pos (c%'%' :: c%'%' :: r)) (hn : headC r ≠ c%'>') :
    eppText (f + 1) buf last env s = eppText f (buf ++ [37, 37]) (buf.length + 2) env { s with pos := s.pos + 2 } := by
  have h1 : Here env (s.pos + 1) (c%'%' :: r) := h.tail1 (by decide)
  have h2 : Here env (s.pos + 1 + 1) r := h1.tail1 (by decide)
  rw [eppText]; ex; rw [next_here h]; dsimp only
  simp only [headC_cons, width_cons, enc_len (show 37 < 128 by omega), Nat.reduceEqDiff, if_false, if_true, or_self]
  rw [peek_here (s := { s with pos := s.pos + 1 }) h1]
  simp only [headC_cons, width_cons, enc_len (show 37 < 128 by omega), if_true]
  rw [peek_here (s := { s with pos := s.pos + 1 + 1 }) h2]
  simp only [hn, if_false, Nat.add_assoc, Nat.reduceAdd]

theorem step_comment {body cs : List Nat} (h : Here env s.pos (c%'<' :: c%'%' :: c%'#' :: (body ++ c%'%' :: c%'>' :: cs)))
    (hb : ∀ c ∈ body, c ≠ c%'%' ∧ c ≠ 0) :
    eppText (f + 1) buf last env s = eppText f buf last env { s with pos := s.pos + (utf8 body).length + 5 } := by
  have h1 : Here env (s.pos + 1) (c%'%' :: c%'#' :: (body ++ c%'%' :: c%'>' :: cs)) := h.tail1 (by decide)
  have h2 : Here env (s.pos + 1 + 1) (c%'#' :: (body ++ c%'%' :: c%'>' :: cs)) := h1.tail1 (by decide)
  have h3 : Here env (s.pos + 1 + 1 + 1) (body ++ c%'%' :: c%'>' :: cs) := h2.tail1 (by decide)
  rw [eppText]; ex; rw [next_here h]; dsimp only
  simp only [headC_cons, width_cons, enc_len (show 60 < 128 by omega), Nat.reduceEqDiff, if_false, if_true]
  rw [peek_here (s := { s with pos := s.pos + 1 }) h1]
  simp only [headC_cons, width_cons, enc_len (show 37 < 128 by omega), ne_eq, not_true, if_false]
  rw [peek_here (s := { s with pos := s.pos + 1 + 1 }) h2]
  simp only [headC_cons, width_cons, enc_len (show 35 < 128 by omega), if_true, Nat.reduceEqDiff, if_false]
  rw [comment_run (s := { s with pos := s.pos + 1 + 1 + 1 }) body cs hb (by decide) h3.fuel h3]
  simp only [if_true]
  congr 2
  omega

end steps

/-- The text up to a tag or the end. -/
theorem text_run (hr : Rendered rest cs out) {f : Nat} (hf : cs.length < f) {o a : List Nat} (ha : Trimmed o a)
    (h : Here env s.pos (cs ++ rest)) :
    ∃ f' a', 1 ≤ f' ∧ Trimmed (o ++ out) a' ∧ eppText f (utf8 o) (utf8 a).length env s =
      eppText f' (utf8 (o ++ out)) (utf8 a').length env { s with pos := s.pos + (utf8 cs).length } := by
  induction hr generalizing f s o a with
  | done => exact ⟨f, a, by omega, by simpa using ha, by simp⟩
  | @char c cs out h0 h1 h2 _ ih =>
    obtain ⟨f, rfl⟩ : ∃ g, f = g + 1 := ⟨f - 1, by simp at hf; omega⟩
    have hlen : cs.length < f := by simp at hf; omega
    have ht : Here env (s.pos + (encodeRune c).length) (cs ++ rest) := h.tail
    have fin : ∀ a1, Trimmed (o ++ [c]) a1 → ∃ f' a', 1 ≤ f' ∧ Trimmed (o ++ c :: out) a' ∧
        eppText f (utf8 (o ++ [c])) (utf8 a1).length env { s with pos := s.pos + (encodeRune c).length } =
          eppText f' (utf8 (o ++ c :: out)) (utf8 a').length env { s with pos := s.pos + (utf8 (c :: cs)).length } := by
      intro a1 h3
      obtain ⟨f', a', g1, g2, g3⟩ := ih (s := { s with pos := s.pos + (encodeRune c).length }) hlen h3 ht
      refine ⟨f', a', g1, by simpa using g2, ?_⟩
      rw [g3]
      simp only [utf8_cons, List.length_append, Nat.add_assoc, List.append_assoc, List.singleton_append]
    have e1 : utf8 (o ++ [c]) = utf8 o ++ encodeRune c := by simp [utf8_append, utf8_cons]
    by_cases hb : IsBlank c
    · rw [step_blank h hb, ← e1]
      exact fin a (Trimmed.snoc_blank ha hb)
    · have e2 : (utf8 (o ++ [c])).length = (utf8 o).length + (encodeRune c).length := by rw [e1, List.length_append]
      have := fin _ (trimmed_self hb)
      by_cases hlt : c = c%'<'
      · subst hlt
        rw [step_lt h (h1 rfl)]
        rwa [e2, e1, encodeRune_ascii (show 60 < 128 by omega)] at this
      · by_cases hpc : c = c%'%'
        · subst hpc
          rw [step_percent h (h2 rfl)]
          rwa [e2, e1, encodeRune_ascii (show 37 < 128 by omega)] at this
        · rw [step_other h h0 hlt hb hpc, ← e1, ← e2]
          exact this
  | @opening cs out _ ih =>
    obtain ⟨f, rfl⟩ : ∃ g, f = g + 1 := ⟨f - 1, by simp at hf; omega⟩
    have h3 : Here env (s.pos + 3) (cs ++ rest) := ((h.tail1 (by decide)).tail1 (by decide)).tail1 (by decide)
    obtain ⟨f', a', g1, g2, g3⟩ := ih (s := { s with pos := s.pos + 3 }) (f := f) (by simp at hf; omega)
      (trimmed_self (out := o ++ [c%'<']) (c := c%'%') (by unfold IsBlank; omega)) h3
    refine ⟨f', a', g1, by simpa using g2, ?_⟩
    have e : utf8 (o ++ [c%'<'] ++ [c%'%']) = utf8 o ++ [60, 37] := by
      simp [utf8_append, utf8_cons, encodeRune_ascii]
    rw [step_opening h]
    rw [e, List.length_append] at g3
    refine g3.trans ?_
    simp only [utf8_cons, enc_len (show 60 < 128 by omega), enc_len (show 37 < 128 by omega), List.length_append, List.append_assoc,
      List.cons_append, List.nil_append]
    congr 2; omega
  | @closing cs out _ ih =>
    obtain ⟨f, rfl⟩ : ∃ g, f = g + 1 := ⟨f - 1, by simp at hf; omega⟩
    have h3 : Here env (s.pos + 3) (cs ++ rest) := ((h.tail1 (by decide)).tail1 (by decide)).tail1 (by decide)
    obtain ⟨f', a', g1, g2, g3⟩ := ih (s := { s with pos := s.pos + 3 }) (f := f) (by simp at hf; omega)
      (trimmed_self (out := o ++ [c%'%']) (c := c%'>') (by unfold IsBlank; omega)) h3
    refine ⟨f', a', g1, by simpa using g2, ?_⟩
    have e : utf8 (o ++ [c%'%'] ++ [c%'>']) = utf8 o ++ [37, 62] := by
      simp [utf8_append, utf8_cons, encodeRune_ascii]
    rw [step_closing h]
    rw [e, List.length_append] at g3
    refine g3.trans ?_
    simp only [utf8_cons, enc_len (show 62 < 128 by omega), enc_len (show 37 < 128 by omega), List.length_append, List.append_assoc,
      List.cons_append, List.nil_append]
    congr 2; omega
  | @percents cs out hn _ ih =>
    obtain ⟨f, rfl⟩ : ∃ g, f = g + 1 := ⟨f - 1, by simp at hf; omega⟩
    have h3 : Here env (s.pos + 2) (cs ++ rest) := (h.tail1 (by decide)).tail1 (by decide)
    obtain ⟨f', a', g1, g2, g3⟩ := ih (s := { s with pos := s.pos + 2 }) (f := f) (by simp at hf; omega)
      (trimmed_self (out := o ++ [c%'%']) (c := c%'%') (by unfold IsBlank; omega)) h3
    refine ⟨f', a', g1, by simpa using g2, ?_⟩
    have e : utf8 (o ++ [c%'%'] ++ [c%'%']) = utf8 o ++ [37, 37] := by
      simp [utf8_append, utf8_cons, encodeRune_ascii]
    rw [step_percents h hn]
    rw [e, List.length_append] at g3
    refine g3.trans ?_
    simp only [utf8_cons, enc_len (show 37 < 128 by omega), List.length_append, List.append_assoc,
      List.cons_append, List.nil_append]
    congr 2; omega
  | @comment body cs out hb _ ih =>
    obtain ⟨f, rfl⟩ : ∃ g, f = g + 1 := ⟨f - 1, by simp at hf; omega⟩
    have h : Here env s.pos (c%'<' :: c%'%' :: c%'#' :: (body ++ c%'%' :: c%'>' :: (cs ++ rest))) := by simpa using h
    have h3 : Here env (s.pos + (utf8 body).length + 5) (cs ++ rest) := by
      have := (((h.tail1 (by decide)).tail1 (by decide)).tail1 (by decide)).append.tail1 (by decide) |>.tail1 (by decide)
      rwa [show s.pos + (utf8 body).length + 5 = s.pos + 1 + 1 + 1 + (utf8 body).length + 1 + 1 by omega]
    obtain ⟨f', a', g1, g2, g3⟩ := ih (s := { s with pos := s.pos + (utf8 body).length + 5 }) (f := f) (by simp at hf; omega) ha h3
    refine ⟨f', a', g1, g2, ?_⟩
    rw [step_comment h hb]
    refine g3.trans ?_
    simp only [utf8_cons, utf8_append, enc_len (show 60 < 128 by omega), enc_len (show 35 < 128 by omega), enc_len (show 62 < 128 by omega),
      enc_len (show 37 < 128 by omega), List.length_append]
    congr 2; omega

/-- At a tag the text ends; `<%-` trims it. -/
theorem step_tag {f : Nat} {buf : GoStr} {last : Nat} {r : List Nat} (h : Here env s.pos (c%'<' :: c%'%' :: r)) (h1 : headC r ≠ c%'%') (h2 : headC r ≠ c%'#') :
    eppText (f + 1) buf last env s = .ok (if headC r = c%'-' then buf.take last else buf, true) s := by
  have h3 : Here env (s.pos + 1) (c%'%' :: r) := h.tail1 (by decide)
  have h4 : Here env (s.pos + 1 + 1) r := h3.tail1 (by decide)
  rw [eppText]; ex; rw [next_here h]; dsimp only
  simp only [headC_cons, width_cons, enc_len (show 60 < 128 by omega), Nat.reduceEqDiff, if_false, if_true]
  rw [peek_here (s := { s with pos := s.pos + 1 }) h3]
  simp only [headC_cons, width_cons, enc_len (show 37 < 128 by omega), ne_eq, not_true, if_false]
  rw [peek_here (s := { s with pos := s.pos + 1 + 1 }) h4]
  simp only [if_neg h1, if_neg h2]

theorem step_end {f : Nat} {buf : GoStr} {last : Nat} (h : Here env s.pos []) :
    eppText (f + 1) buf last env s = .ok (buf, false) s := by
  rw [eppText]; ex; rw [next_here h]; dsimp only [headC_nil, width]
  rw [if_pos rfl]; rfl

theorem utf8_nil_iff {cs : List Nat} : (utf8 cs).isEmpty = cs.isEmpty := by
  cases cs with
  | nil => rfl
  | cons c cs =>
    have := encodeRune_length_pos c
    rw [utf8_cons]
    cases h : encodeRune c with
    | nil => rw [h] at this; cases this
    | cons _ _ => rfl

/-- What is read of a template that ends without a tag. -/
theorem consume_end {self : Self} (hr : Rendered [] cs out) (h : Here env s.pos cs) :
    consumeEPP self env s = .ok () (if out.isEmpty then { s with pos := env.text.length, tok := .end_, val := .nil }
      else { s with pos := env.text.length, tok := .renderString, val := .str (utf8 out) }) := by
  have h : Here env s.pos (cs ++ []) := by simpa using h
  obtain ⟨f', a', g1, -, g3⟩ := text_run (f := charFuel env) hr h.fuel (o := []) (a := []) ⟨[], rfl, by simp, by simp⟩ h
  obtain ⟨f', rfl⟩ : ∃ g, f' = g + 1 := ⟨f' - 1, by omega⟩
  have hl : s.pos + (utf8 cs).length = env.text.length := by have := h.length; simp at this; omega
  have he : Here env (s.pos + (utf8 cs).length) [] := h.append
  rw [step_end (s := { s with pos := s.pos + (utf8 cs).length }) he] at g3
  unfold consumeEPP
  ex
  have g3 : eppText (charFuel env) [] 0 env s = _ := g3
  rw [g3]
  simp only [List.nil_append, utf8_nil_iff, Bool.false_eq_true, if_false]
  split <;> simp only [hl]

/-- What is read of a template up to a tag. -/
theorem consume_tag {self : Self} (hr : Rendered rest cs out) (ht : Tag rest) (h : Here env s.pos (cs ++ rest)) :
    ∃ o, Shown rest out o ∧
    consumeEPP self env s =
      if o.isEmpty then self .nextToken env { s with pos := s.pos + (utf8 cs).length, tok := .renderString, val := .str [] }
      else .ok () { s with pos := s.pos + (utf8 cs).length, tok := .renderString, val := .str (utf8 o) } := by
  obtain ⟨f', a', g1, g2, g3⟩ := text_run (f := charFuel env) hr h.fuel (o := []) (a := []) ⟨[], rfl, by simp, by simp⟩ h
  obtain ⟨f', rfl⟩ : ∃ g, f' = g + 1 := ⟨f' - 1, by omega⟩
  obtain ⟨r, rfl, k1, k2⟩ := ht
  have he : Here env (s.pos + (utf8 cs).length) (c%'<' :: c%'%' :: r) := h.append
  rw [step_tag (s := { s with pos := s.pos + (utf8 cs).length }) he k1 k2] at g3
  have g3 : eppText (charFuel env) [] 0 env s = _ := g3
  have key : ∀ o, eppText (charFuel env) [] 0 env s = .ok (utf8 o, true) { s with pos := s.pos + (utf8 cs).length } →
      consumeEPP self env s =
      if o.isEmpty then self .nextToken env { s with pos := s.pos + (utf8 cs).length, tok := .renderString, val := .str [] }
      else .ok () { s with pos := s.pos + (utf8 cs).length, tok := .renderString, val := .str (utf8 o) } := by
    intro o ho
    unfold consumeEPP
    ex
    rw [ho]
    simp only [utf8_nil_iff, if_true]
    split
    · next hn => rw [List.isEmpty_iff.1 hn]; rfl
    · rfl
  by_cases hm : headC r = c%'-'
  · refine ⟨a', .inl ⟨?_, g2⟩, key a' ?_⟩
    · cases r with
      | nil => cases hm
      | cons x r => rw [headC_cons] at hm; subst hm; exact ⟨r, rfl⟩
    · rw [g3]
      obtain ⟨b, e, -, -⟩ := g2
      rw [if_pos hm, e, utf8_append, List.take_left]
  · refine ⟨out, .inr ⟨?_, rfl⟩, key out ?_⟩
    · rintro ⟨r', e⟩
      simp only [List.cons.injEq, true_and] at e
      exact hm (by rw [e]; rfl)
    · rw [g3, if_neg hm]; rfl

theorem Trimmed.unique {out a a' : List Nat} (h : Trimmed out a) (h' : Trimmed out a') : a = a' := by
  obtain ⟨b, rfl, h1, h2⟩ := h
  obtain ⟨b', e, h1', h2'⟩ := h'
  rcases List.append_eq_append_iff.1 e with ⟨x, rfl, rfl⟩ | ⟨x, rfl, rfl⟩
  · rcases List.eq_nil_or_concat x with rfl | ⟨y, z, rfl⟩
    · simp
    · exact absurd (h1 z (by simp)) (h2' z (by simp [← List.append_assoc]))
  · rcases List.eq_nil_or_concat x with rfl | ⟨y, z, rfl⟩
    · simp
    · exact absurd (h1' z (by simp)) (h2 z (by simp [← List.append_assoc]))

theorem Shown.unique {out a a' : List Nat} (h : Shown rest out a) (h' : Shown rest out a') : a = a' := by
  rcases h with ⟨h1, h2⟩ | ⟨h1, rfl⟩ <;> rcases h' with ⟨h3, h4⟩ | ⟨h3, rfl⟩
  · exact Trimmed.unique h2 h4
  · exact absurd h1 h3
  · exact absurd h3 h1
  · rfl

/-- The text after a tag. -/
theorem consume_text {self : Self} {o : List Nat} (hr : Rendered rest cs out) (hrest : rest = [] ∨ Tag rest) (ho : Shown rest out o) (hne : o ≠ [])
    (h : Here env s.pos (cs ++ rest)) :
    consumeEPP self env s = .ok () { s with pos := s.pos + (utf8 cs).length, tok := .renderString, val := .str (utf8 o) } := by
  have hne : ¬ o.isEmpty = true := by rwa [List.isEmpty_iff]
  rcases hrest with rfl | ht
  · have h' : Here env s.pos cs := by simpa using h
    have ho : o = out := by
      rcases ho with ⟨⟨r, hr⟩, _⟩ | ⟨_, h⟩
      · cases hr
      · exact h
    subst ho
    rw [consume_end hr h', if_neg hne, h'.length]
  · obtain ⟨o', h1, h2⟩ := consume_tag (self := self) hr ht h
    have := Shown.unique ho h1
    subst this
    rw [h2, if_neg hne]

theorem lexPercent_close {self : Self} {r : List Nat} (he : env.epp = true) (h : Here env s.pos (c%'>' :: r)) :
    lexPercent self env s = consumeEPP self env { s with pos := s.pos + 1, tok := .remainder, val := .nil } := by
  unfold lexPercent
  ex
  rw [if_pos he, peek_here (s := { s with tok := .remainder, val := .nil }) h]
  simp only [headC_cons, width_cons, enc_len (show 62 < 128 by omega), if_true]

theorem lexMinus_close {self : Self} {bs r : List Nat} (he : env.epp = true) (h : Here env s.pos (c%'%' :: c%'>' :: (bs ++ r)))
    (hb : ∀ c ∈ bs, IsBlank c) (hr : ¬ IsBlank (headC r)) :
    lexMinus self env s = consumeEPP self env { s with pos := s.pos + 2 + (utf8 bs).length + if headC r = c%'\n' then 1 else 0 } := by
  have h1 : Here env (s.pos + 1) (c%'>' :: (bs ++ r)) := h.tail1 (by decide)
  have h2 : Here env (s.pos + 1 + 1) (bs ++ r) := h1.tail1 (by decide)
  unfold lexMinus
  ex
  rw [peek_here h]
  simp only [headC_cons, width_cons, enc_len (show 37 < 128 by omega), Nat.reduceEqDiff, if_false, he, and_self, if_true]
  rw [peek_here (s := { s with pos := s.pos + 1 }) h1]
  simp only [headC_cons, width_cons, enc_len (show 62 < 128 by omega), if_true]
  rw [advWhile_here (s := { s with pos := s.pos + 1 + 1 }) h2.fuel h2 (fun c hc => by rcases hb c hc with rfl | rfl <;> rfl)
    (by unfold IsBlank at hr; simpa using hr)]
  dsimp only
  by_cases hn : headC r = c%'\n'
  · have : width r = 1 := by
      cases r with
      | nil => cases hn
      | cons x r => rw [headC_cons] at hn; subst hn; rfl
    simp only [if_pos hn, this, Nat.add_assoc, Nat.reduceAdd]
  · simp only [if_neg hn, Nat.add_assoc, Nat.reduceAdd, Nat.add_zero]

end
end PP
