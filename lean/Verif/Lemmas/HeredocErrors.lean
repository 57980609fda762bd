import Verif.Spec.HeredocErrors
import Verif.Lemmas.Heredoc2
import Verif.Lemmas.Lexes

/-! # Running the lexer on heredocs that are errors -/
namespace PP
open PP.Spec
set_option linter.unusedSimpArgs false

section
variable {env : Env} {s : St} {rest cs tag l pre : List Nat}

/-- What is known after the beginning of a declaration. -/
structure Partly (env : Env) (start p : Nat) (k sy fl : Bool) (ne : Prop) (h : HDecl) : Prop where
  empty : h.tag.isEmpty = !k
  tag : ne → ∀ u : St, u.pos = p → ∃ t : GoStr, t.isEmpty = false ∧ ∀ h' : HDecl, h'.tag = h.tag → h'.withTag start env u = .ok { h' with tag := t } u
  syn : fl = false → h.syntaxStart.isSome = sy
  synLe : ∀ q, h.syntaxStart = some q → q ≤ p
  synNone : k = false ∨ fl = true → h.syntaxStart = none
  esc : h.escapeStart.isSome = fl

theorem tag_known {start : Nat} {h : HDecl} (he : h.tag.isEmpty = false) (u : St) :
    ∃ t : GoStr, t.isEmpty = false ∧ ∀ h' : HDecl, h'.tag = h.tag → h'.withTag start env u = .ok { h' with tag := t } u := by
  refine ⟨h.tag, he, fun h' e => ?_⟩
  unfold HDecl.withTag
  rw [e, if_neg (by rw [he]; simp), ← e]
  rfl

/-- The slash in front of the escapes. -/
theorem slash_exec {start : Nat} {k sy : Bool} {h : HDecl} {f : Nat} {ne : Prop} (hne : ne) (hg : Partly env start s.pos k sy false ne h)
    (hh : Here env s.pos (c%'/' :: rest)) :
    ∃ h' : HDecl, h'.tag.isEmpty = false ∧ h'.syntaxStart = none ∧ h'.escapeStart = some (s.pos + 1) ∧
      findTagEnd start (f + 1) h env s = findTagEnd start f h' env { s with pos := s.pos + 1 } := by
  have hle : s.pos ≤ env.text.length := hh.le
  rw [findTagEnd]; ex; rw [peek_here hh]
  dsimp only [headC_cons, width_cons]
  have hesc : h.escapeStart = none := by have := hg.esc; cases he : h.escapeStart <;> simp_all
  rw [if_neg (by omega), if_neg (by omega), if_neg (by omega), if_pos rfl, hesc, enc_len (by omega)]
  dsimp only
  cases k with
  | false =>
    have hem : h.tag.isEmpty = true := hg.empty
    obtain ⟨t, ht, h1⟩ := hg.tag hne s rfl
    rw [if_pos hem]
    ex
    rw [h1 h rfl]
    exact ⟨{ h with tag := t, escapeStart := some (s.pos + 1) }, ht, hg.synNone (.inl rfl), rfl, rfl⟩
  | true =>
    have hem : h.tag.isEmpty = false := hg.empty
    rw [if_neg (by rw [hem]; simp)]
    cases hss : h.syntaxStart with
    | none =>
      dsimp only
      ex
      exact ⟨{ h with escapeStart := some (s.pos + 1) }, hem, hss, rfl, rfl⟩
    | some p =>
      obtain ⟨t, ht⟩ := from_ok (env := env) (s := s) (hg.synLe p hss) hle
      dsimp only
      ex
      rw [ht]
      exact ⟨{ h with syntx := t, syntaxStart := none, escapeStart := some (s.pos + 1) }, hem, rfl, rfl, rfl⟩

/-- The beginning of a declaration is read. -/
theorem part_exec {k sy fl : Bool} (hp : DeclPart k sy fl pre) {f : Nat} (hf : pre.length ≤ f) (hh : Here env s.pos (pre ++ rest)) :
    ∃ f' h, f ≤ f' + pre.length ∧ Partly env s.pos (s.pos + (utf8 pre).length) k sy fl (pre ≠ []) h ∧
      findTagEnd s.pos f {} env s = findTagEnd s.pos f' h env { s with pos := s.pos + (utf8 pre).length } := by
  induction hp generalizing f rest with
  | @start x hc =>
    obtain ⟨f', g1, g2⟩ := findTagEnd_chars (start := s.pos) (h := {}) hc hf hh
    refine ⟨f', {}, g1, ⟨rfl, fun hne u hu => ⟨utf8 x, utf8_ne hne, fun h' e => ?_⟩, fun _ => rfl, nofun, fun _ => rfl, rfl⟩, g2⟩
    unfold HDecl.withTag
    ex
    rw [e, if_pos (show ([] : GoStr).isEmpty = true from rfl), from_here (s := u) hh hu]
  | @quoted t y ht hne hy =>
    obtain ⟨f, rfl⟩ : ∃ g, f = g + 1 := ⟨f - 1, by simp at hf; omega⟩
    have hh : Here env s.pos (c%'"' :: (t ++ c%'"' :: (y ++ rest))) := by simpa using hh
    have h1 : Here env (s.pos + 1) (t ++ c%'"' :: (y ++ rest)) := hh.tail1 (by decide)
    have h2 : Here env (s.pos + 1 + (utf8 t).length + 1) (y ++ rest) := h1.append.tail1 (by decide)
    have hlen : 0 < (utf8 t).length := by
      obtain ⟨c, r, rfl⟩ := List.exists_cons_of_ne_nil hne
      have := encodeRune_length_pos c
      simp only [utf8_cons, List.length_append]; omega
    simp only [List.length_cons, List.length_append] at hf
    obtain ⟨f2, k1, k2⟩ := findTagEnd_chars (start := s.pos) (h := { tag := utf8 t, quoteStart := some (s.pos + 1) })
      (s := { s with pos := s.pos + 1 + (utf8 t).length + 1 }) hy (f := f) (by omega) h2
    refine ⟨f2, { tag := utf8 t, quoteStart := some (s.pos + 1) }, by simp only [List.length_cons, List.length_append]; omega,
      ⟨utf8_ne hne, fun _ u _ => tag_known (h := { tag := utf8 t, quoteStart := some (s.pos + 1) }) (utf8_ne hne) u, fun _ => rfl, nofun, fun _ => rfl, rfl⟩, ?_⟩
    rw [findTagEnd]; ex; rw [peek_here hh]
    dsimp only [headC_cons, width_cons]
    rw [if_neg (by omega), if_neg (by omega), if_neg (by omega), if_neg (by omega), if_pos rfl, enc_len (by omega),
      if_neg (by simp), advWhile_here (s := { s with pos := s.pos + 1 }) h1.fuel h1 (fun w hw => by
        obtain ⟨k1, k2, k3⟩ := ht w hw
        simp [k1, k2, k3]) rfl]
    dsimp only [headC_cons, width_cons]
    rw [if_neg (by omega), if_neg (by omega), from_here (s := { s with pos := s.pos + 1 + (utf8 t).length }) h1 rfl]
    dsimp only
    rw [enc_len (by omega), k2]
    have hl : (utf8 (c%'"' :: (t ++ c%'"' :: y))).length = 1 + (utf8 t).length + 1 + (utf8 y).length := by
      simp [utf8_append, utf8_cons, enc_len]; omega
    rw [hl]
    simp only [Nat.add_assoc]
  | @syntx k pre sy hp hne hsy ih =>
    have hh : Here env s.pos (pre ++ (c%':' :: (sy ++ rest))) := by simpa using hh
    simp only [List.length_append, List.length_cons] at hf
    obtain ⟨f1, h, g1, g2, g3⟩ := ih (f := f) (by omega) hh
    obtain ⟨f1, rfl⟩ : ∃ g, f1 = g + 1 := ⟨f1 - 1, by omega⟩
    have h0 := hh.append
    have h1 : Here env (s.pos + (utf8 pre).length + 1) (sy ++ rest) := h0.tail1 (by decide)
    obtain ⟨t, ht, hw⟩ := g2.tag hne { s with pos := s.pos + (utf8 pre).length } rfl
    obtain ⟨f2, k1, k2⟩ := findTagEnd_chars (start := s.pos) (h := { h with tag := t, syntaxStart := some (s.pos + (utf8 pre).length + 1) })
      (s := { s with pos := s.pos + (utf8 pre).length + 1 }) hsy (f := f1) (by omega) h1
    have hss : h.syntaxStart = none := by have := g2.syn rfl; cases he : h.syntaxStart <;> simp_all
    have hlen : (utf8 (pre ++ c%':' :: sy)).length = (utf8 pre).length + 1 + (utf8 sy).length := by
      simp [utf8_append, utf8_cons, enc_len]; omega
    refine ⟨f2, { h with tag := t, syntaxStart := some (s.pos + (utf8 pre).length + 1) }, by simp only [List.length_append, List.length_cons]; omega,
      ⟨ht, fun _ u _ => tag_known (h := { h with tag := t, syntaxStart := some (s.pos + (utf8 pre).length + 1) }) ht u, fun _ => rfl,
        fun q hq => by injection hq with hq; omega, by simp, g2.esc⟩, ?_⟩
    rw [g3, findTagEnd]; ex; rw [peek_here (s := { s with pos := s.pos + (utf8 pre).length }) h0]
    dsimp only [headC_cons, width_cons]
    rw [if_neg (by omega), if_neg (by omega), if_pos rfl, hss]
    dsimp only
    ex
    rw [hw h rfl]
    dsimp only
    rw [enc_len (by omega), k2, hlen]
    simp only [Nat.add_assoc]
  | @flags k sy pre fl hp hne hfl ih =>
    have hh : Here env s.pos (pre ++ (c%'/' :: (fl ++ rest))) := by simpa using hh
    simp only [List.length_append, List.length_cons] at hf
    obtain ⟨f1, h, g1, g2, g3⟩ := ih (f := f) (by omega) hh
    obtain ⟨f1, rfl⟩ : ∃ g, f1 = g + 1 := ⟨f1 - 1, by omega⟩
    have h0 := hh.append
    have h1 : Here env (s.pos + (utf8 pre).length + 1) (fl ++ rest) := h0.tail1 (by decide)
    obtain ⟨h', e1, e2, e3, e4⟩ := slash_exec (s := { s with pos := s.pos + (utf8 pre).length }) (f := f1) hne g2 h0
    obtain ⟨f2, k1, k2⟩ := findTagEnd_chars (start := s.pos) (h := h')
      (s := { s with pos := s.pos + (utf8 pre).length + 1 }) hfl (f := f1) (by omega) h1
    have hlen : (utf8 (pre ++ c%'/' :: fl)).length = (utf8 pre).length + 1 + (utf8 fl).length := by
      simp [utf8_append, utf8_cons, enc_len]; omega
    refine ⟨f2, h', by simp only [List.length_append, List.length_cons]; omega,
      ⟨e1, fun _ u _ => tag_known e1 u, nofun, fun q hq => (by rw [e2] at hq; cases hq), fun _ => e2, by rw [e3]; rfl⟩, ?_⟩
    rw [g3, e4]
    dsimp only
    rw [k2, hlen]
    simp only [Nat.add_assoc]

theorem fail_at {α : Type} {p : Nat} {c : Code} : (issueAt p c : P α) env s = .fail (.issue c p) { s with pos := p } := by
  unfold issueAt
  ex

/-- A declaration that does not end on its line. -/
theorem part_open {start f : Nat} {h : HDecl} (h0 : headC rest = 0 ∨ headC rest = c%'\n') (hh : Here env s.pos rest) :
    ∃ t, findTagEnd start (f + 1) h env s = .fail (.issue .lexHeredocDeclUnterminated (start - 2)) t := by
  rw [findTagEnd]; ex; rw [peek_here hh]
  dsimp only
  rw [if_pos h0, fail_at]
  exact ⟨_, rfl⟩

theorem chars_quote {start f : Nat} {h : HDecl} {t : List Nat} (he : h.tag.isEmpty = true) (ht : QuotedChars t)
    (hh : Here env s.pos (c%'"' :: (t ++ rest))) (hr : headC rest = 0 ∨ headC rest = c%'\n' ∨ t = [] ∧ headC rest = c%'"') :
    ∃ u, findTagEnd start (f + 1) h env s =
      .fail (.issue (if headC rest = c%'"' then .lexHeredocEmptyTag else .lexHeredocDeclUnterminated) (start - 2)) u := by
  have h1 : Here env (s.pos + 1) (t ++ rest) := hh.tail1 (by decide)
  rw [findTagEnd]; ex; rw [peek_here hh]
  dsimp only [headC_cons, width_cons]
  rw [if_neg (by omega), if_neg (by omega), if_neg (by omega), if_neg (by omega), if_pos rfl, enc_len (by omega),
    if_neg (by rw [he]; simp), advWhile_here (s := { s with pos := s.pos + 1 }) h1.fuel h1 (fun w hw => by
      obtain ⟨k1, k2, k3⟩ := ht w hw
      simp [k1, k2, k3]) (by rcases hr with h | h | h <;> simp [h])]
  dsimp only
  rcases hr with h | h | ⟨rfl, h⟩
  · rw [if_pos (.inl h), fail_at, if_neg (by omega)]; exact ⟨_, rfl⟩
  · rw [if_pos (.inr h), fail_at, if_neg (by omega)]; exact ⟨_, rfl⟩
  · rw [if_neg (by omega), if_pos (by simp [utf8_nil]), fail_at, if_pos h]; exact ⟨_, rfl⟩

theorem flags_none {fl : List Nat} (h : ∃ c ∈ fl, c ∉ flagLetters) : (utf8 fl).mapM flagByte = none := by
  have key : ∀ bs : GoStr, (∃ b ∈ bs, flagByte b = none) → bs.mapM flagByte = none := by
    intro bs
    induction bs with
    | nil => rintro ⟨b, hb, -⟩; cases hb
    | cons a bs ih =>
      rintro ⟨b, hb, hn⟩
      rw [List.mapM_cons]
      rcases List.mem_cons.1 hb with rfl | hb
      · rw [hn]; rfl
      · rw [ih ⟨b, hb, hn⟩]
        cases flagByte a <;> rfl
  obtain ⟨c, hc, hn⟩ := h
  obtain ⟨l, r, rfl⟩ := List.append_of_mem hc
  refine key _ ?_
  rw [utf8_append, utf8_cons]
  have hbyte : ∃ b ∈ encodeRune c, flagByte b = none := by
    have hno : ∀ b : UInt8, (∀ n ∈ flagLetters, b.toNat ≠ n) → flagByte b = none := by
      intro b hb
      have h1 : b ∉ b!"trnsu$" := by
        intro hm
        simp only [List.mem_cons, List.not_mem_nil, or_false] at hm
        rcases hm with rfl | rfl | rfl | rfl | rfl | rfl <;> exact hb _ (by decide) rfl
      have h2 : b ≠ 76 := by
        rintro rfl
        exact hb 76 (by decide) rfl
      unfold flagByte
      rw [if_neg h1, if_neg h2]
    by_cases h128 : c < 128
    · refine ⟨UInt8.ofNat c, by rw [encodeRune_ascii h128]; simp, hno _ fun n hn' e => ?_⟩
      rw [UInt8.toNat_ofNat', Nat.mod_eq_of_lt (by omega)] at e
      subst e
      exact hn hn'
    · obtain ⟨b, hb⟩ := List.exists_mem_of_ne_nil _ (encodeRune_ne_nil c)
      refine ⟨b, hb, hno b fun n hn' e => ?_⟩
      have h3 : b.toNat < 128 := by
        rw [e]
        simp only [flagLetters, List.mem_cons, List.not_mem_nil, or_false] at hn'
        omega
      have := encodeRune_ascii_mem hb h3
      omega
  obtain ⟨b, hb, h⟩ := hbyte
  exact ⟨b, by simp [hb], h⟩

/-- An escape that does not exist. -/
theorem flags_bad {start f : Nat} {h : HDecl} {k sy : Bool} {ne : Prop} {fl : List Nat} (hne : ne) (hg : Partly env start s.pos k sy false ne h)
    (hfl : PlainChars fl) (hbad : ∃ c ∈ fl, c ∉ flagLetters) (hf : fl.length + 1 < f) (hh : Here env s.pos (c%'/' :: (fl ++ c%')' :: rest))) :
    ∃ t, findTagEnd start f h env s = .fail (.issue .lexHeredocIllegalEscape (s.pos + 1)) t := by
  obtain ⟨f, rfl⟩ : ∃ g, f = g + 1 := ⟨f - 1, by omega⟩
  obtain ⟨h', e1, e2, e3, e4⟩ := slash_exec (f := f) hne hg hh
  have h1 : Here env (s.pos + 1) (fl ++ c%')' :: rest) := hh.tail1 (by decide)
  obtain ⟨f2, k1, k2⟩ := findTagEnd_chars (start := start) (h := h') (s := { s with pos := s.pos + 1 }) hfl (f := f) (by omega) h1
  obtain ⟨f2, rfl⟩ : ∃ g, f2 = g + 1 := ⟨f2 - 1, by omega⟩
  have h2 : Here env (s.pos + 1 + (utf8 fl).length) (c%')' :: rest) := h1.append
  rw [e4, k2, findTagEnd]; ex; rw [peek_here (s := { s with pos := s.pos + 1 + (utf8 fl).length }) h2]
  dsimp only [headC_cons, width_cons]
  rw [if_neg (by omega), if_pos rfl, e2]
  dsimp only
  ex
  rw [e3]
  dsimp only
  unfold extractFlags
  ex
  rw [from_here (s := { s with pos := s.pos + 1 + (utf8 fl).length }) h1 rfl]
  dsimp only
  rw [flags_none hbad]
  dsimp only
  ex
  exact ⟨_, rfl⟩

/-- The line of the declaration ends with the source. -/
theorem findStart_open {hs : Nat} (hr : RestOfLine cs) (h0 : headC rest = 0) (hh : Here env s.pos (cs ++ rest)) {f : Nat} (hf : cs.length + 1 < f) :
    ∃ t, findStartOfText hs f (headC (cs ++ rest)) (width (cs ++ rest)) env s = .fail (.issue .lexHeredocUnterminated hs) t := by
  have eof : ∀ {s : St} {f sz : Nat}, 0 < f → ∃ t, findStartOfText hs f 0 sz env s = .fail (.issue .lexHeredocUnterminated hs) t := by
    intro s f sz hf
    obtain ⟨f, rfl⟩ : ∃ g, f = g + 1 := ⟨f - 1, by omega⟩
    rw [findStartOfText, if_pos rfl, fail_at]
    exact ⟨_, rfl⟩
  induction hr generalizing f s with
  | nil => rw [List.nil_append, h0]; exact eof (by omega)
  | @char c cs h1 h2 h3 h4 _ ih =>
    obtain ⟨f, rfl⟩ : ∃ g, f = g + 1 := ⟨f - 1, by omega⟩
    have ht : Here env (s.pos + (encodeRune c).length) (cs ++ rest) := hh.tail
    rw [List.cons_append, headC_cons, width_cons, findStartOfText]; ex
    rw [if_neg h1, if_neg h3, if_neg h4, if_neg h2, peek_here (s := { s with pos := s.pos + (encodeRune c).length }) ht]
    dsimp only
    exact ih (s := { s with pos := s.pos + (encodeRune c).length }) ht (by simp at hf; omega)
  | @slash c d cs h1 h2 h3 h4 h5 hd hd' _ ih =>
    simp only [List.length_cons] at hf
    obtain ⟨f, rfl⟩ : ∃ g, f = g + 1 + 1 := ⟨f - 2, by omega⟩
    have ht1 : Here env (s.pos + 1) (c :: d :: (cs ++ rest)) := hh.tail1 (by decide)
    have ht2 : Here env (s.pos + 1 + (encodeRune c).length) (d :: (cs ++ rest)) := ht1.tail
    have ht3 : Here env (s.pos + 1 + (encodeRune c).length + 1) (cs ++ rest) := ht2.tail1 hd
    rw [List.cons_append, headC_cons, width_cons, findStartOfText]; ex
    simp only [Nat.reduceEqDiff, if_false, if_true, enc_len (show 47 < 128 by omega)]
    rw [next_here (s := { s with pos := s.pos + 1 }) ht1]
    dsimp only [headC_cons, width_cons]
    rw [if_neg h5, findStartOfText]; ex
    rw [if_neg h1, if_neg h3, if_neg h4, if_neg h2, peek_here (s := { s with pos := s.pos + 1 + (encodeRune c).length + 1 }) ht3]
    dsimp only
    exact ih (s := { s with pos := s.pos + 1 + (encodeRune c).length + 1 }) ht3 (by omega)
  | @comment cs hc =>
    simp only [List.length_cons] at hf
    obtain ⟨f, rfl⟩ : ∃ g, f = g + 1 := ⟨f - 1, by omega⟩
    have ht : Here env (s.pos + 1) (cs ++ rest) := hh.tail1 (by decide)
    rw [List.cons_append, headC_cons, width_cons, findStartOfText]; ex
    simp only [Nat.reduceEqDiff, if_false, if_true, enc_len (show 35 < 128 by omega)]
    have key : ∀ (body : List Nat) (k csp : Nat) (s : St), (∀ c ∈ body, c ≠ 0 ∧ c ≠ c%'\n') → body.length < k → Here env s.pos (body ++ rest) →
        ∃ q u, skipWhiteLoop true k .hash csp env s = .ok (0, q) u := by
      intro body
      induction body with
      | nil =>
        intro k csp s _ hk hh
        obtain ⟨k, rfl⟩ : ∃ g, k = g + 1 := ⟨k - 1, by omega⟩
        rw [skipWhiteLoop]; ex
        rw [next_here hh]
        simp [headC_cons, h0]
      | cons c body ih =>
        intro k csp s hb hk hh
        obtain ⟨k, rfl⟩ : ∃ g, k = g + 1 := ⟨k - 1, by omega⟩
        have h1 := hb c (by simp)
        obtain ⟨q, u, ih⟩ := ih k csp { s with pos := s.pos + (encodeRune c).length } (fun x hx => hb x (by simp [hx])) (by simp at hk; omega) hh.tail
        refine ⟨q, u, ?_⟩
        rw [← ih]
        conv => lhs; unfold skipWhiteLoop
        ex
        rw [next_here hh]
        simp only [List.cons_append, headC_cons, width]
        simp only [h1.1, h1.2, if_false, reduceCtorEq]
        repeat' split
        all_goals first | rfl | contradiction
    have hsk : ∃ q u, skipWhite true env s = .ok (0, q) u := by
      have hfuel := Here.fuel (ws := c%'#' :: cs) hh
      simp only [List.length_cons] at hfuel
      obtain ⟨g, hg⟩ : ∃ g, charFuel env = g + 1 := ⟨charFuel env - 1, by omega⟩
      obtain ⟨q, u, hk⟩ := key cs g s.pos { s with pos := s.pos + 1 } hc (by omega) ht
      refine ⟨q, u, ?_⟩
      unfold skipWhite
      ex
      rw [hg, skipWhiteLoop]; ex
      rw [next_here hh]
      simp only [List.cons_append, headC_cons, width, enc_len (show 35 < 128 by omega), Nat.reduceEqDiff, if_false, if_true]
      rw [hk]
    obtain ⟨q, u, hsk⟩ := hsk
    rw [hsk]
    dsimp only
    exact eof (by omega)

/-- The last line ends with the source. -/
theorem scan_open {hs f indent c : Nat} {sup : Bool} {tg : GoStr} (hn : c ≠ c%'\n') (hl : ∀ x ∈ l, x ≠ 0 ∧ x ≠ c%'\n') (h0 : headC rest = 0)
    (hf : l.length + 1 < f) (hh : Here env s.pos (l ++ rest)) :
    ∃ t, findEndOfText hs tg f c sup indent env s = .fail (.issue .lexHeredocUnterminated hs) t := by
  have eof : ∀ {s : St} {f : Nat}, 0 < f → ∃ t, findEndOfText hs tg f 0 sup indent env s = .fail (.issue .lexHeredocUnterminated hs) t := by
    intro s f hf
    obtain ⟨f, rfl⟩ : ∃ g, f = g + 1 := ⟨f - 1, by omega⟩
    rw [findEndOfText, if_pos rfl, fail_at]
    exact ⟨_, rfl⟩
  by_cases hc : c = 0
  · subst hc; exact eof (by omega)
  induction l generalizing f s c with
  | nil =>
    obtain ⟨f, rfl⟩ : ∃ g, f = g + 1 := ⟨f - 1, by omega⟩
    rw [findEndOfText]; ex
    rw [if_neg hc, if_neg hn, next_here hh]
    dsimp only [List.nil_append]
    rw [h0]
    exact eof (by omega)
  | cons x l ih =>
    obtain ⟨f, rfl⟩ : ∃ g, f = g + 1 := ⟨f - 1, by omega⟩
    obtain ⟨h1, h2⟩ := hl x (by simp)
    obtain ⟨t, e⟩ := ih (s := { s with pos := s.pos + (encodeRune x).length }) h2 (fun x hx => hl x (by simp [hx])) (f := f) (by simp at hf; omega) hh.tail h1
    refine ⟨t, ?_⟩
    rw [findEndOfText]; ex
    rw [if_neg hc, if_neg hn, next_here hh]
    dsimp only [List.cons_append, headC_cons, width_cons]
    exact e

theorem last_line {hs f indent : Nat} {sup : Bool} (ht : IsTag tag) (hrt : ∀ r ∈ tag, Rune r) (hl : TextLine tag l) (h0 : headC rest = 0)
    (hf : l.length + 2 < f) (hh : Here env s.pos (l ++ rest)) :
    ∃ t, findEndOfText hs (utf8 tag) f c%'\n' sup indent env s = .fail (.issue .lexHeredocUnterminated hs) t := by
  obtain ⟨f, rfl⟩ : ∃ g, f = g + 1 := ⟨f - 1, by omega⟩
  obtain ⟨bs, r, rfl, hb, hr⟩ := split_ws l
  obtain ⟨t0, tag, rfl⟩ := List.exists_cons_of_ne_nil ht.ne
  have htd : (decodeRune (utf8 (t0 :: tag))).1 = t0 := decode_utf8 (hrt t0 (by simp))
  have htc := ht.chars t0 (by simp)
  have hh : Here env s.pos (bs ++ (r ++ rest)) := by simpa using hh
  rw [findEndOfText]; ex
  rw [if_neg (by omega), if_pos trivial]
  rcases hr with rfl | ⟨c, r, rfl, hc⟩
  · rw [skipWs_exec hb (by simp [h0, IsWs]) hh]
    dsimp only [List.nil_append]
    rw [if_pos h0, fail_at]
    exact ⟨_, rfl⟩
  · rw [skipWs_exec hb (by simpa using hc) hh]
    dsimp only [List.cons_append, headC_cons, width_cons]
    obtain ⟨m1, m2⟩ := hl.mark bs c r rfl hb
    have hcc := hl.chars c (by simp)
    have hrr : ∀ x ∈ r, x ≠ 0 ∧ x ≠ c%'\n' := fun x hx => hl.chars x (by simp [hx])
    rw [if_neg hcc.1]
    unfold marginOf
    ex
    rw [if_neg m1, if_neg m2]
    dsimp only
    have h1 : Here env (s.pos + (utf8 bs).length) (c :: (r ++ rest)) := hh.append
    have h2 : Here env (s.pos + (utf8 bs).length + (encodeRune c).length) (r ++ rest) := h1.tail
    have hscan : ∃ t, findEndOfText hs (utf8 (t0 :: tag)) f c sup indent env
        { s with pos := s.pos + (utf8 bs).length + (encodeRune c).length } = .fail (.issue .lexHeredocUnterminated hs) t :=
      scan_open (s := { s with pos := s.pos + (utf8 bs).length + (encodeRune c).length }) hcc.2 hrr h0 (by simp at hf; omega) h2
    rw [htd]
    by_cases hct : c ≠ t0
    · rw [if_pos hct]
      exact hscan
    · have hct : c = t0 := by omega
      subst hct
      rw [if_neg (by omega)]
      split
      · next hpre =>
        have hpre2 := hpre.2
        rw [h1.drop] at hpre2
        have hpp := utf8_prefix hrt h1.runes hpre2
        obtain ⟨q0, hq0⟩ := hpp
        have hq0 : c :: tag ++ q0 = (c :: r) ++ rest := hq0
        have hq : ∃ q, c :: r = c :: tag ++ q := by
          rcases List.append_eq_append_iff.1 hq0 with ⟨q, e, -⟩ | ⟨q, e, e2⟩
          · exact ⟨q, e⟩
          · cases q with
            | nil => exact ⟨[], by simpa using e.symm⟩
            | cons y q =>
              exfalso
              rw [e2] at h0
              have : y = 0 := h0
              subst this
              exact (ht.chars 0 (by rw [e]; simp)).1 rfl
        obtain ⟨q, hq⟩ := hq
        have hr : r = tag ++ q := by injection hq
        subst hr
        obtain ⟨bs', q', rfl, hb', hq'⟩ := split_ws q
        have h3 : Here env (s.pos + (utf8 bs).length + (utf8 (c :: tag)).length) (bs' ++ (q' ++ rest)) := by
          have : Here env (s.pos + (utf8 bs).length) ((c :: tag) ++ (bs' ++ (q' ++ rest))) := by simpa using h1
          exact this.append
        rcases hq' with rfl | ⟨d, q', rfl, hd⟩
        · exact absurd (by simp) (hl.notEnd bs bs' hb hb')
        · have hdc := hl.chars d (by simp)
          have h4 : Here env (s.pos + (utf8 bs).length + (utf8 (c :: tag)).length + (utf8 bs').length) (d :: (q' ++ rest)) := h3.append
          have h5 : Here env (s.pos + (utf8 bs).length + (utf8 (c :: tag)).length + (utf8 bs').length + (encodeRune d).length) (q' ++ rest) := h4.tail
          rw [skipWs_exec (s := { s with pos := s.pos + (utf8 bs).length + (utf8 (c :: tag)).length }) hb' (by simpa using hd) h3]
          dsimp only [List.cons_append, headC_cons, width_cons]
          rw [if_neg (by omega)]
          exact scan_open (s := { s with pos := s.pos + (utf8 bs).length + (utf8 (c :: tag)).length + (utf8 bs').length + (encodeRune d).length })
            hdc.2 (fun x hx => hl.chars x (by simp [hx])) h0 (by simp at hf; omega) h5
      · exact hscan

/-- The lines of the text. -/
theorem text_lines' {hs f indent : Nat} {sup : Bool} {ls : List (List Nat)} (ht : IsTag tag) (hrt : ∀ r ∈ tag, Rune r) (hl : ∀ l ∈ ls, TextLine tag l)
    (hf : (unlines ls).length < f) (hh : Here env s.pos (unlines ls ++ rest)) :
    ∃ f', f ≤ f' + (unlines ls).length ∧ findEndOfText hs (utf8 tag) f c%'\n' sup indent env s =
      findEndOfText hs (utf8 tag) f' c%'\n' sup indent env { s with pos := s.pos + (utf8 (unlines ls)).length } := by
  induction ls generalizing f s with
  | nil => exact ⟨f, by simp [unlines], by simp [unlines]⟩
  | cons l ls ih =>
    rw [unlines_cons] at hf
    have hh : Here env s.pos (l ++ c%'\n' :: (unlines ls ++ rest)) := by simpa [unlines_cons] using hh
    obtain ⟨f1, g1, g2⟩ := text_line (hs := hs) (indent := indent) (sup := sup) ht hrt (hl l (by simp)) (f := f) (by simp at hf; omega) hh
    have h2 : Here env (s.pos + (utf8 l).length + 1) (unlines ls ++ rest) := hh.append.tail1 (by decide)
    obtain ⟨f', k1, k2⟩ := ih (s := { s with pos := s.pos + (utf8 l).length + 1 }) (fun x hx => hl x (by simp [hx])) (f := f1) (by simp at hf; omega) h2
    refine ⟨f', by rw [unlines_cons]; simp only [List.length_append, List.length_cons]; omega, ?_⟩
    rw [g2, k2]
    simp only [unlines_cons, utf8_append, utf8_cons, List.length_append, Nat.add_assoc, enc_len (show 10 < 128 by omega)]

/-! ## The token -/

theorem lexChar_heredoc {n scan start : Nat} {e : Err} (h1 : Here env s.pos (c%'(' :: rest))
    (h : ∃ t, consumeHeredocString (run n) env { s with pos := s.pos + 1 } = .fail e t) : ∃ t, lexChar (run n) scan c%'@' start env s = .fail e t := by
  obtain ⟨t, hk⟩ := h
  refine ⟨t, ?_⟩
  show lexChar (run n) scan 64 start env s = _
  unfold lexChar
  ex
  simp only [isUppercaseLetter, isLowercaseLetter]
  simp only [Nat.reduceEqDiff, Nat.reduceLeDiff, decide_true, decide_false, Bool.false_and, Bool.false_eq_true, if_false, if_true, false_and]
  unfold lexAt
  ex
  rw [peek_here h1]
  dsimp only [headC_cons, width_cons]
  simp only [Nat.reduceEqDiff, if_false, if_true]
  rw [enc_len (by omega)]
  exact hk

theorem consume_decl {self : Self} {e : Err} (h : ∃ t, findTagEnd s.pos (charFuel env) {} env s = .fail e t) :
    ∃ t, consumeHeredocString self env s = .fail e t := by
  obtain ⟨t, h⟩ := h
  refine ⟨t, ?_⟩
  unfold consumeHeredocString
  ex
  rw [h]

theorem consume_bad {self : Self} {rs : List Nat} {code : Code} {off start : Nat} (hb : BadHeredoc rs code off) (hs : s.pos = start + 2) (hn : s.nls = none)
    (hh : Here env s.pos rs) : ∃ t, consumeHeredocString self env s = .fail (.issue code (start + off)) t := by
  have hst : s.pos - 2 = start := by omega
  cases hb with
  | @«open» k sy fl pre rest hp h0 =>
    have hf := Here.fuel hh
    obtain ⟨f', h, g1, g2, g3⟩ := part_exec hp (f := charFuel env) (by omega) hh
    obtain ⟨f', rfl⟩ : ∃ g, f' = g + 1 := ⟨f' - 1, by omega⟩
    refine consume_decl ?_
    rw [g3]
    have := part_open (start := s.pos) (f := f') (h := h) (s := { s with pos := s.pos + (utf8 pre).length }) h0 hh.append
    rwa [hst] at this
  | @openQuote x t rest hx ht h0 =>
    have hf := Here.fuel hh
    obtain ⟨f', h, g1, g2, g3⟩ := part_exec (.start hx) (f := charFuel env) (by omega) hh
    obtain ⟨f', rfl⟩ : ∃ g, f' = g + 1 := ⟨f' - 1, by omega⟩
    refine consume_decl ?_
    rw [g3]
    have := chars_quote (start := s.pos) (f := f') (h := h) (s := { s with pos := s.pos + (utf8 x).length }) g2.empty ht hh.append (h0.imp_right .inl)
    rwa [hst, if_neg (by omega)] at this
  | @noTag rest =>
    obtain ⟨f, hf⟩ : ∃ f, charFuel env = f + 1 := ⟨charFuel env - 1, by have := Here.fuel (ws := [c%')']) hh; simp at this; omega⟩
    unfold consumeHeredocString
    ex
    rw [hf, findTagEnd]; ex; rw [peek_here hh]
    dsimp only [headC_cons, width_cons]
    rw [if_neg (by omega), if_pos rfl]
    dsimp only [HDecl.withTag]
    ex
    rw [if_pos (show ([] : GoStr).isEmpty = true from rfl), from_here (ws := []) hh (by simp [utf8_nil])]
    dsimp only [utf8_nil]
    rw [if_pos (show ([] : GoStr).isEmpty = true from rfl), fail_at, hst]
    exact ⟨_, rfl⟩
  | @emptyQuote x rest hx =>
    have hf := Here.fuel hh
    obtain ⟨f', h, g1, g2, g3⟩ := part_exec (.start hx) (f := charFuel env) (by omega) hh
    obtain ⟨f', rfl⟩ : ∃ g, f' = g + 1 := ⟨f' - 1, by omega⟩
    refine consume_decl ?_
    rw [g3]
    have := chars_quote (start := s.pos) (f := f') (h := h) (t := []) (rest := c%'"' :: rest) (s := { s with pos := s.pos + (utf8 x).length }) g2.empty
      (by intro c hc; cases hc) hh.append (.inr (.inr ⟨rfl, rfl⟩))
    rwa [hst, show headC (c%'"' :: rest) = c%'"' from rfl, if_pos rfl] at this
  | @twoTags sy fl pre rest hp =>
    have hf := Here.fuel hh
    obtain ⟨f', h, g1, g2, g3⟩ := part_exec hp (f := charFuel env) (by omega) hh
    obtain ⟨f', rfl⟩ : ∃ g, f' = g + 1 := ⟨f' - 1, by omega⟩
    refine consume_decl ?_
    rw [g3, findTagEnd]; ex; rw [peek_here (s := { s with pos := s.pos + (utf8 pre).length }) hh.append]
    dsimp only [headC_cons, width_cons]
    rw [if_neg (by omega), if_neg (by omega), if_neg (by omega), if_neg (by omega), if_pos rfl, if_pos (show h.tag.isEmpty = false from g2.empty)]
    rw [show start + (2 + (utf8 pre).length) = s.pos + (utf8 pre).length by omega]
    exact ⟨_, rfl⟩
  | @twoSyntaxes pre rest hp =>
    have hf := Here.fuel hh
    obtain ⟨f', h, g1, g2, g3⟩ := part_exec hp (f := charFuel env) (by omega) hh
    obtain ⟨f', rfl⟩ : ∃ g, f' = g + 1 := ⟨f' - 1, by omega⟩
    obtain ⟨q, hq⟩ := Option.isSome_iff_exists.1 (g2.syn rfl)
    refine consume_decl ?_
    rw [g3, findTagEnd]; ex; rw [peek_here (s := { s with pos := s.pos + (utf8 pre).length }) hh.append]
    dsimp only [headC_cons, width_cons]
    rw [if_neg (by omega), if_neg (by omega), if_pos rfl, hq]
    dsimp only
    ex
    rw [show start + (2 + (utf8 pre).length) = s.pos + (utf8 pre).length by omega]
    exact ⟨_, rfl⟩
  | @twoFlags sy pre rest hp =>
    have hf := Here.fuel hh
    obtain ⟨f', h, g1, g2, g3⟩ := part_exec hp (f := charFuel env) (by omega) hh
    obtain ⟨f', rfl⟩ : ∃ g, f' = g + 1 := ⟨f' - 1, by omega⟩
    obtain ⟨q, hq⟩ := Option.isSome_iff_exists.1 g2.esc
    refine consume_decl ?_
    rw [g3, findTagEnd]; ex; rw [peek_here (s := { s with pos := s.pos + (utf8 pre).length }) hh.append]
    dsimp only [headC_cons, width_cons]
    rw [if_neg (by omega), if_neg (by omega), if_neg (by omega), if_pos rfl, hq]
    dsimp only
    ex
    rw [show start + (2 + (utf8 pre).length) = s.pos + (utf8 pre).length by omega]
    exact ⟨_, rfl⟩
  | @badFlag k sy pre fl rest hp hne hfl hbad =>
    have hf := Here.fuel (ws := pre ++ c%'/' :: (fl ++ [c%')'])) (rs := rest) (by simpa using hh)
    simp only [List.length_append, List.length_cons, List.length_nil] at hf
    obtain ⟨f', h, g1, g2, g3⟩ := part_exec hp (f := charFuel env) (by omega) hh
    refine consume_decl ?_
    rw [g3]
    have := flags_bad (s := { s with pos := s.pos + (utf8 pre).length }) hne g2 hfl hbad (f := f') (by omega) hh.append
    rwa [show s.pos + (utf8 pre).length + 1 = start + (3 + (utf8 pre).length) by omega] at this
  | @noText tag q syn fl decl ln rest ht hd hln h0 =>
    obtain ⟨h, hD, hd1⟩ := decl_exec ht hd hh
    have h3 : Here env (s.pos + (utf8 decl).length + 1) (ln ++ rest) := hh.append.tail1 (by decide)
    have hf := Here.fuel (ws := decl ++ c%')' :: ln) (rs := rest) (by simpa using hh)
    simp only [List.length_append, List.length_cons] at hf
    obtain ⟨t, e⟩ := findStart_open (hs := start) (s := { s with pos := s.pos + (utf8 decl).length + 1 }) (f := charFuel env) hln h0 h3 (by omega)
    refine ⟨t, ?_⟩
    unfold consumeHeredocString
    ex
    rw [hd1]
    dsimp only
    rw [if_neg (by rw [hD.tag, utf8_ne ht.ne]; simp), peek_here (s := { s with pos := s.pos + (utf8 decl).length + 1 }) h3]
    dsimp only
    rw [hst, e]
    rfl
  | @noEnd tag q syn fl decl ln ls l rest ht hd hln hls hl h0 =>
    obtain ⟨h, hD, hd1⟩ := decl_exec ht hd hh
    have h3 : Here env (s.pos + (utf8 decl).length + 1) (ln ++ c%'\n' :: (unlines ls ++ (l ++ rest))) := hh.append.tail1 (by decide)
    have hrt : ∀ r ∈ tag, Rune r := fun r hr => hh.runes r (by
      have : r ∈ decl := by
        rcases hd with h | ⟨h, -⟩ | ⟨h, -⟩ | ⟨h, -⟩ <;> rcases h with _ | _ <;> simp [hr]
      simp [this])
    have hf := Here.fuel (ws := decl ++ c%')' :: (ln ++ c%'\n' :: (unlines ls ++ l))) (rs := rest) (by simpa using hh)
    simp only [List.length_append, List.length_cons] at hf
    have e1 := findStart_exec (hs := start) (s := { s with pos := s.pos + (utf8 decl).length + 1 }) (f := charFuel env) hln h3 (by omega)
    have h4 : Here env (s.pos + (utf8 decl).length + 1 + (utf8 ln).length + 1) (unlines ls ++ (l ++ rest)) := h3.append.tail1 (by decide)
    obtain ⟨f', g1, g2⟩ := text_lines' (hs := start) (indent := 0) (sup := false) (s := { s with pos := s.pos + (utf8 decl).length + 1 + (utf8 ln).length + 1, nls := none }) ht hrt hls
      (f := charFuel env) (by omega) h4
    obtain ⟨t, e⟩ := last_line (hs := start) (indent := 0) (sup := false) (f := f')
      (s := { s with pos := s.pos + (utf8 decl).length + 1 + (utf8 ln).length + 1 + (utf8 (unlines ls)).length, nls := none }) ht hrt hl h0 (by omega) h4.append
    refine ⟨t, ?_⟩
    unfold consumeHeredocString
    ex
    rw [hd1]
    dsimp only
    rw [if_neg (by rw [hD.tag, utf8_ne ht.ne]; simp), peek_here (s := { s with pos := s.pos + (utf8 decl).length + 1 }) h3]
    dsimp only
    rw [hst, e1]
    simp only [hn, Option.getD_none]
    rw [hD.tag, g2]
    dsimp only
    rw [e]
    rfl

end
end PP
