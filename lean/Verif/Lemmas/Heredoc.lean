import Verif.Spec.Heredoc
import Verif.Lemmas.Feed
import Verif.Lemmas.Layout
import Verif.Lemmas.Strings

/-! # Running the lexer on a heredoc -/
namespace PP
open PP.Spec

section
variable {env : Env} {s : St} {rest cs tag l : List Nat}

/-! ## The declaration -/

theorem findTagEnd_chars {start : Nat} {h : HDecl} (hc : PlainChars cs) {f : Nat} (hf : cs.length ≤ f) (hh : Here env s.pos (cs ++ rest)) :
    ∃ f', f ≤ f' + cs.length ∧ findTagEnd start f h env s = findTagEnd start f' h env { s with pos := s.pos + (utf8 cs).length } := by
  induction cs generalizing f s with
  | nil => exact ⟨f, by simp, by simp⟩
  | cons c cs ih =>
    obtain ⟨f, rfl⟩ : ∃ g, f = g + 1 := ⟨f - 1, by simp at hf; omega⟩
    obtain ⟨h1, h2, h3, h4, h5, h6⟩ := hc c (by simp)
    obtain ⟨f', g1, g2⟩ := ih (s := { s with pos := s.pos + (encodeRune c).length }) (fun x hx => hc x (by simp [hx])) (f := f) (by simp at hf; omega) hh.tail
    refine ⟨f', by simp; omega, ?_⟩
    rw [findTagEnd]; ex; rw [peek_here hh]
    dsimp only [List.cons_append, headC_cons, width_cons]
    rw [if_neg (by omega), if_neg h3, if_neg h4, if_neg h5, if_neg h6, g2]
    simp only [utf8_cons, List.length_append, Nat.add_assoc]

/-- What is known in front of `)`, `:` or `/`. -/
structure Tagged (env : Env) (start p : Nat) (tag : List Nat) (q : Bool) (h : HDecl) : Prop where
  tag : ∀ u : St, u.pos = p → h.withTag start env u = .ok { h with tag := utf8 tag } u
  syn : h.syntaxStart = none
  sy : h.syntx = []
  esc : h.escapeStart = none
  fl : h.flags = none
  quote : h.quoteStart.isSome = q

theorem utf8_ne {cs : List Nat} (h : cs ≠ []) : (utf8 cs).isEmpty = false := by
  obtain ⟨c, r, rfl⟩ := List.exists_cons_of_ne_nil h
  have := encodeRune_length_pos c
  rw [utf8_cons]
  cases h : encodeRune c with
  | nil => rw [h] at this; cases this
  | cons _ _ => rfl

theorem tagText_exec {q : Bool} {tt : List Nat} (ht : tag ≠ []) (hd : TagText tag q tt) {f : Nat} (hf : tt.length ≤ f) (hh : Here env s.pos (tt ++ rest)) :
    ∃ f' h, f ≤ f' + tt.length ∧ Tagged env s.pos (s.pos + (utf8 tt).length) tag q h ∧
      findTagEnd s.pos f {} env s = findTagEnd s.pos f' h env { s with pos := s.pos + (utf8 tt).length } := by
  rcases hd with ⟨hc⟩ | ⟨hc⟩
  · obtain ⟨f', g1, g2⟩ := findTagEnd_chars (start := s.pos) (h := {}) hc hf hh
    refine ⟨f', {}, g1, ⟨fun u hu => ?_, rfl, rfl, rfl, rfl, rfl⟩, g2⟩
    unfold HDecl.withTag
    ex
    rw [if_pos (show ([] : GoStr).isEmpty = true from rfl), from_here (s := u) hh hu]
  · obtain ⟨f, rfl⟩ : ∃ g, f = g + 1 := ⟨f - 1, by simp at hf; omega⟩
    have hh : Here env s.pos (c%'"' :: (tag ++ c%'"' :: rest)) := by simpa using hh
    have h1 : Here env (s.pos + 1) (tag ++ c%'"' :: rest) := hh.tail1 (by decide)
    have hlen : 0 < (utf8 tag).length := by
      obtain ⟨c, r, rfl⟩ := List.exists_cons_of_ne_nil ht
      have := encodeRune_length_pos c
      simp only [utf8_cons, List.length_append]; omega
    refine ⟨f, { tag := utf8 tag, quoteStart := some (s.pos + 1) }, by simp <;> omega, ⟨fun u hu => ?_, rfl, rfl, rfl, rfl, rfl⟩, ?_⟩
    · unfold HDecl.withTag
      dsimp only
      rw [if_neg (by rw [utf8_ne ht]; simp)]
      rfl
    · rw [findTagEnd]; ex; rw [peek_here hh]
      dsimp only [headC_cons, width_cons]
      rw [if_neg (by omega), if_neg (by omega), if_neg (by omega), if_neg (by omega), if_pos rfl, enc_len (by omega),
        if_neg (by simp), advWhile_here (s := { s with pos := s.pos + 1 }) h1.fuel h1 (fun w hw => by
          obtain ⟨k1, k2, k3⟩ := hc w hw
          simp [k1, k2, k3]) rfl]
      dsimp only [headC_cons, width_cons]
      rw [if_neg (by omega), if_neg (by omega), from_here (s := { s with pos := s.pos + 1 + (utf8 tag).length }) h1 rfl]
      dsimp only
      rw [show s.pos + 1 + (utf8 tag).length + (encodeRune 34).length = s.pos + (utf8 (34 :: (tag ++ [34]))).length by
        simp [enc_len]; omega]

/-- After the syntax. -/
structure Tagged2 (env : Env) (start p : Nat) (tg : GoStr) (syn : List Nat) (q : Bool) (h : HDecl) : Prop where
  tag : ∀ u : St, u.pos = p → ∀ h' : HDecl, h'.tag = h.tag → h'.withTag start env u = .ok { h' with tag := tg } u
  syn : syn = [] ∧ h.syntaxStart = none ∧ h.syntx = [] ∨
    h.tag = tg ∧ ∃ p0, h.syntaxStart = some p0 ∧ ∀ u : St, u.pos = p → from_ p0 env u = .ok (utf8 syn) u
  esc : h.escapeStart = none
  fl : h.flags = none
  quote : h.quoteStart.isSome = q

theorem withTag_tag {h h' : HDecl} {start : Nat} {u : St} {tg : GoStr} (e : h'.tag = h.tag) (hh : h.withTag start env u = .ok { h with tag := tg } u) :
    h'.withTag start env u = .ok { h' with tag := tg } u := by
  unfold HDecl.withTag at *
  rw [e]
  split at hh
  · next hc =>
    rw [if_pos hc]
    rw [ex_bind] at hh ⊢
    split at hh
    · simp only [ex_pure] at hh ⊢
      injection hh with h1 h2
      have := congrArg HDecl.tag h1
      simp only at this
      rw [this, h2]
    · cases hh
  · next hc =>
    rw [if_neg hc]
    rw [ex_pure] at hh ⊢
    injection hh with h1 h2
    have := congrArg HDecl.tag h1
    simp only at this
    rw [← this, ← e]

theorem syntx_exec {q : Bool} {sy : List Nat} {h : HDecl} {start : Nat} (ht : tag ≠ []) (hsy : PlainChars sy) {f : Nat} (hf : sy.length < f)
    (hh : Here env s.pos (c%':' :: (sy ++ rest))) (hg : Tagged env start s.pos tag q h) :
    ∃ f' h', f ≤ f' + sy.length + 1 ∧ Tagged2 env start (s.pos + 1 + (utf8 sy).length) (utf8 tag) sy q h' ∧
      findTagEnd start f h env s = findTagEnd start f' h' env { s with pos := s.pos + 1 + (utf8 sy).length } := by
  obtain ⟨f, rfl⟩ : ∃ g, f = g + 1 := ⟨f - 1, by omega⟩
  have h1 : Here env (s.pos + 1) (sy ++ rest) := hh.tail1 (by decide)
  rw [findTagEnd]; ex; rw [peek_here hh]
  dsimp only [headC_cons, width_cons]
  rw [if_neg (by omega), if_neg (by omega), if_pos rfl, hg.syn]
  dsimp only
  ex
  rw [hg.tag s rfl]
  dsimp only
  rw [enc_len (by omega)]
  obtain ⟨f', g1, g2⟩ := findTagEnd_chars (start := start) (h := { h with tag := utf8 tag, syntaxStart := some (s.pos + 1) }) (s := { s with pos := s.pos + 1 }) hsy (f := f) (by omega) h1
  refine ⟨f', { h with tag := utf8 tag, syntaxStart := some (s.pos + 1) }, by omega, ⟨fun u hu h' e => ?_, .inr ⟨rfl, s.pos + 1, rfl, fun u hu => from_here (s := u) h1 hu⟩, hg.esc, hg.fl, hg.quote⟩, g2⟩
  unfold HDecl.withTag
  dsimp only at e
  rw [e, if_neg (by rw [utf8_ne ht]; simp), ← e]
  rfl

theorem Tagged.to2 {start p : Nat} {q : Bool} {h : HDecl} (hg : Tagged env start p tag q h) : Tagged2 env start p (utf8 tag) [] q h :=
  ⟨fun u hu _ e => withTag_tag e (hg.tag u hu), .inl ⟨rfl, hg.syn, hg.sy⟩, hg.esc, hg.fl, hg.quote⟩

/-- The bytes of the flags. -/
def flagBytes (fl : List Nat) : GoStr := fl.map fun c => UInt8.ofNat (if c = c%'L' then 10 else c)

theorem extractFlags_exec {fl : List Nat} {p : Nat} (hfl : ∀ c ∈ fl, c ∈ flagLetters) (h : from_ p env s = .ok (utf8 fl) s) :
    extractFlags p env s = .ok (flagBytes fl) s := by
  unfold extractFlags
  ex
  rw [h]
  dsimp only
  have : (utf8 fl).mapM flagByte = some (flagBytes fl) := by
    clear h
    induction fl with
    | nil => rfl
    | cons c fl ih =>
      have hc := hfl c (by simp)
      have : utf8 (c :: fl) = UInt8.ofNat c :: utf8 fl := by
        rw [utf8_cons, encodeRune_ascii (by revert hc; unfold flagLetters; simp; omega)]; rfl
      rw [this, List.mapM_cons, ih fun x hx => hfl x (by simp [hx])]
      simp only [flagLetters, List.mem_cons, List.not_mem_nil, or_false] at hc
      rcases hc with rfl | rfl | rfl | rfl | rfl | rfl | rfl <;> rfl
  rw [this]
  rfl

/-- What the declaration gives. -/
structure Declared (tag syn : List Nat) (q : Bool) (fl : Option (List Nat)) (h : HDecl) : Prop where
  tag : h.tag = utf8 tag
  syn : h.syntx = utf8 syn
  flags : h.flags = fl.map flagBytes
  quote : h.quoteStart.isSome = q

theorem close_exec {q : Bool} {h : HDecl} {start f : Nat} {syn : List Nat}
    (hh : Here env s.pos (c%')' :: rest)) (hg : Tagged2 env start s.pos (utf8 tag) syn q h) :
    ∃ h', Declared tag syn q none h' ∧ findTagEnd start (f + 1) h env s = .ok h' { s with pos := s.pos + 1 } := by
  obtain ⟨tg, sx, es, qs, ss, fg⟩ := h
  have e1 : es = none := hg.esc
  have e2 : fg = none := hg.fl
  subst e1 e2
  rw [findTagEnd]; ex; rw [peek_here hh]
  dsimp only [headC_cons, width_cons]
  rw [if_neg (by omega), if_pos rfl, enc_len (by omega)]
  rcases hg.syn with ⟨rfl, h1, h2⟩ | ⟨h1, p0, h2, h3⟩
  · have h1 : ss = none := h1
    subst h1
    dsimp only
    ex
    rw [hg.tag s rfl _ rfl]
    exact ⟨{ tag := utf8 tag, syntx := sx, quoteStart := qs }, ⟨rfl, h2, rfl, hg.quote⟩, rfl⟩
  · have h2 : ss = some p0 := h2
    subst h2
    dsimp only
    ex
    rw [h3 s rfl]
    dsimp only
    rw [hg.tag s rfl { tag := tg, syntx := utf8 syn, quoteStart := qs, syntaxStart := some p0 } rfl]
    exact ⟨{ tag := utf8 tag, syntx := utf8 syn, quoteStart := qs, syntaxStart := some p0 }, ⟨rfl, rfl, rfl, hg.quote⟩, rfl⟩

theorem flags_exec {q : Bool} {h : HDecl} {start f : Nat} {syn fl : List Nat} (ht : tag ≠ []) (hfl : ∀ c ∈ fl, c ∈ flagLetters) (hf : fl.length + 1 < f)
    (hh : Here env s.pos (c%'/' :: (fl ++ c%')' :: rest))) (hg : Tagged2 env start s.pos (utf8 tag) syn q h) :
    ∃ h', Declared tag syn q (some fl) h' ∧ findTagEnd start f h env s = .ok h' { s with pos := s.pos + 1 + (utf8 fl).length + 1 } := by
  obtain ⟨f, rfl⟩ : ∃ g, f = g + 1 := ⟨f - 1, by omega⟩
  have h1 : Here env (s.pos + 1) (fl ++ c%')' :: rest) := hh.tail1 (by decide)
  have hpl : PlainChars fl := by
    intro c hc
    have := hfl c hc
    simp only [flagLetters, List.mem_cons, List.not_mem_nil, or_false] at this
    omega
  -- after the flags
  have fin : ∀ h1 : HDecl, h1.tag = utf8 tag → h1.syntx = utf8 syn → h1.syntaxStart = none → h1.escapeStart = some (s.pos + 1) → h1.quoteStart.isSome = q →
      ∃ h', Declared tag syn q (some fl) h' ∧ findTagEnd start f h1 env { s with pos := s.pos + 1 } = .ok h' { s with pos := s.pos + 1 + (utf8 fl).length + 1 } := by
    intro d e1 e2 e3 e4 e5
    obtain ⟨tg, sx, es, qs, ss, fg⟩ := d
    dsimp only at e1 e2 e3 e4 e5
    subst e1 e2 e3 e4
    obtain ⟨f', g1, g2⟩ := findTagEnd_chars (start := start) (h := { tag := utf8 tag, syntx := utf8 syn, escapeStart := some (s.pos + 1), quoteStart := qs, flags := fg }) (s := { s with pos := s.pos + 1 }) hpl (f := f) (by omega) h1
    obtain ⟨f', rfl⟩ : ∃ g, f' = g + 1 := ⟨f' - 1, by omega⟩
    have h2 : Here env (s.pos + 1 + (utf8 fl).length) (c%')' :: rest) := h1.append
    rw [g2, findTagEnd]; ex; rw [peek_here (s := { s with pos := s.pos + 1 + (utf8 fl).length }) h2]
    dsimp only [headC_cons, width_cons]
    rw [if_neg (by omega), if_pos rfl]
    rw [extractFlags_exec (s := { s with pos := s.pos + 1 + (utf8 fl).length }) hfl (from_here (s := { s with pos := s.pos + 1 + (utf8 fl).length }) h1 rfl)]
    dsimp only [HDecl.withTag]
    ex
    rw [if_neg (by rw [utf8_ne ht]; simp), enc_len (by omega)]
    exact ⟨_, ⟨rfl, rfl, rfl, e5⟩, rfl⟩
  obtain ⟨tg, sx, es, qs, ss, fg⟩ := h
  have e1 : es = none := hg.esc
  have e2 : fg = none := hg.fl
  subst e1 e2
  rw [findTagEnd]; ex; rw [peek_here hh]
  dsimp only [headC_cons, width_cons]
  rw [if_neg (by omega), if_neg (by omega), if_neg (by omega), if_pos rfl, enc_len (by omega)]
  rcases hg.syn with ⟨rfl, k1, k2⟩ | ⟨k1, p0, k2, k3⟩
  · have k1 : ss = none := k1
    subst k1
    split
    · rw [hg.tag s rfl _ rfl]
      exact fin { tag := utf8 tag, syntx := sx, escapeStart := some (s.pos + 1), quoteStart := qs } rfl k2 rfl rfl hg.quote
    · next hte =>
      have := hg.tag s rfl _ rfl
      unfold HDecl.withTag at this
      rw [if_neg hte] at this
      injection this with e _
      have e := congrArg HDecl.tag e
      exact fin { tag := tg, syntx := sx, escapeStart := some (s.pos + 1), quoteStart := qs } e k2 rfl rfl hg.quote
  · have k1 : tg = utf8 tag := k1
    have k2 : ss = some p0 := k2
    subst k1 k2
    rw [if_neg (by rw [utf8_ne ht]; simp)]
    dsimp only
    ex
    rw [k3 s rfl]
    exact fin { tag := utf8 tag, syntx := utf8 syn, escapeStart := some (s.pos + 1), quoteStart := qs } rfl rfl rfl rfl hg.quote

theorem decl_exec {q : Bool} {syn : List Nat} {fl : Option (List Nat)} (ht : IsTag tag) (hd : Decl tag q syn fl cs) (hh : Here env s.pos (cs ++ c%')' :: rest)) :
    ∃ h, Declared tag syn q fl h ∧ findTagEnd s.pos (charFuel env) {} env s = .ok h { s with pos := s.pos + (utf8 cs).length + 1 } := by
  have hfuel : cs.length + 1 < charFuel env := by
    have := Here.fuel (ws := cs ++ [c%')']) (rs := rest) (by simpa using hh)
    simpa using this
  rcases hd with ⟨htt⟩ | ⟨htt, hsy⟩ | ⟨htt, hfl⟩ | ⟨htt, hsy, hfl⟩
  · obtain ⟨f', h, g1, g2, g3⟩ := tagText_exec (f := charFuel env) ht.ne htt (by omega) hh
    obtain ⟨f', rfl⟩ : ∃ g, f' = g + 1 := ⟨f' - 1, by omega⟩
    obtain ⟨h', k1, k2⟩ := close_exec (f := f') (s := { s with pos := s.pos + (utf8 cs).length }) hh.append g2.to2
    exact ⟨h', k1, by rw [g3, k2]⟩
  · next tt =>
    have hh : Here env s.pos (tt ++ c%':' :: (syn ++ c%')' :: rest)) := by simpa using hh
    simp only [List.length_append, List.length_cons] at hfuel
    obtain ⟨f', h, g1, g2, g3⟩ := tagText_exec (f := charFuel env) ht.ne htt (by omega) hh
    obtain ⟨f2, h2, k1, k2, k3⟩ := syntx_exec (s := { s with pos := s.pos + (utf8 tt).length }) ht.ne hsy (f := f') (by omega) hh.append g2
    obtain ⟨f2, rfl⟩ : ∃ g, f2 = g + 1 := ⟨f2 - 1, by omega⟩
    obtain ⟨h', m1, m2⟩ := close_exec (f := f2) (s := { s with pos := s.pos + (utf8 tt).length + 1 + (utf8 syn).length }) (hh.append.tail1 (by decide)).append k2
    refine ⟨h', m1, ?_⟩
    rw [g3, k3, m2]
    simp [enc_len, Nat.add_assoc]
  · next tt fl =>
    have hh : Here env s.pos (tt ++ c%'/' :: (fl ++ c%')' :: rest)) := by simpa using hh
    simp only [List.length_append, List.length_cons] at hfuel
    obtain ⟨f', h, g1, g2, g3⟩ := tagText_exec (f := charFuel env) ht.ne htt (by omega) hh
    obtain ⟨h', m1, m2⟩ := flags_exec (f := f') (s := { s with pos := s.pos + (utf8 tt).length }) ht.ne hfl (by omega) hh.append g2.to2
    refine ⟨h', m1, ?_⟩
    rw [g3, m2]
    simp [enc_len, Nat.add_assoc]
  · next tt fl =>
    have hh : Here env s.pos (tt ++ c%':' :: (syn ++ c%'/' :: (fl ++ c%')' :: rest))) := by simpa using hh
    simp only [List.length_append, List.length_cons] at hfuel
    obtain ⟨f', h, g1, g2, g3⟩ := tagText_exec (f := charFuel env) ht.ne htt (by omega) hh
    obtain ⟨f2, h2, k1, k2, k3⟩ := syntx_exec (s := { s with pos := s.pos + (utf8 tt).length }) ht.ne hsy (f := f') (by omega) hh.append g2
    obtain ⟨h', m1, m2⟩ := flags_exec (f := f2) (s := { s with pos := s.pos + (utf8 tt).length + 1 + (utf8 syn).length }) ht.ne hfl (by omega)
      (hh.append.tail1 (by decide)).append k2
    refine ⟨h', m1, ?_⟩
    rw [g3, k3, m2]
    simp [enc_len, Nat.add_assoc]

/-- The text starts on the next line, or after the text of the heredoc before. -/
theorem findStart_exec {hs : Nat} (hr : RestOfLine cs) (hh : Here env s.pos (cs ++ c%'\n' :: rest)) {f : Nat} (hf : cs.length < f) :
    findStartOfText hs f (headC (cs ++ c%'\n' :: rest)) (width (cs ++ c%'\n' :: rest)) env s =
      .ok () { s with pos := s.nls.getD (s.pos + (utf8 cs).length + 1), nls := none } := by
  have eol : ∀ {s : St} {f : Nat}, Here env s.pos (10 :: rest) → 0 < f → findStartOfText hs f 10 1 env s =
      .ok () { s with pos := s.nls.getD (s.pos + 1), nls := none } := by
    intro s f _ hf
    obtain ⟨f, rfl⟩ : ∃ g, f = g + 1 := ⟨f - 1, by omega⟩
    rw [findStartOfText]; ex
    simp only [Nat.reduceEqDiff, if_false, if_true]
    cases h : s.nls with
    | none => simp [ex_advance, h]
    | some p => simp [ex_modS]
  induction hr generalizing f s with
  | nil => simpa [enc_len, utf8, width_cons] using eol hh (by omega)
  | @char c cs h1 h2 h3 h4 _ ih =>
    obtain ⟨f, rfl⟩ : ∃ g, f = g + 1 := ⟨f - 1, by omega⟩
    have ht : Here env (s.pos + (encodeRune c).length) (cs ++ c%'\n' :: rest) := hh.tail
    rw [List.cons_append, headC_cons, width_cons, findStartOfText]; ex
    rw [if_neg h1, if_neg h3, if_neg h4, if_neg h2, peek_here (s := { s with pos := s.pos + (encodeRune c).length }) ht]
    dsimp only
    rw [ih (s := { s with pos := s.pos + (encodeRune c).length }) ht (by simp at hf; omega)]
    simp only [utf8_cons, List.length_append, Nat.add_assoc]
  | @slash c d cs h1 h2 h3 h4 h5 hd hd' _ ih =>
    simp only [List.length_cons] at hf
    obtain ⟨f, rfl⟩ : ∃ g, f = g + 1 + 1 := ⟨f - 2, by omega⟩
    have ht1 : Here env (s.pos + 1) (c :: d :: (cs ++ c%'\n' :: rest)) := hh.tail1 (by decide)
    have ht2 : Here env (s.pos + 1 + (encodeRune c).length) (d :: (cs ++ c%'\n' :: rest)) := ht1.tail
    have ht3 : Here env (s.pos + 1 + (encodeRune c).length + 1) (cs ++ c%'\n' :: rest) := ht2.tail1 hd
    rw [List.cons_append, headC_cons, width_cons, findStartOfText]; ex
    simp only [Nat.reduceEqDiff, if_false, if_true, enc_len (show 47 < 128 by omega)]
    rw [next_here (s := { s with pos := s.pos + 1 }) ht1]
    dsimp only [headC_cons, width_cons]
    rw [if_neg h5, findStartOfText]; ex
    rw [if_neg h1, if_neg h3, if_neg h4, if_neg h2, peek_here (s := { s with pos := s.pos + 1 + (encodeRune c).length + 1 }) ht3]
    dsimp only
    rw [ih (s := { s with pos := s.pos + 1 + (encodeRune c).length + 1 }) ht3 (by omega)]
    simp only [utf8_cons, List.length_append, enc_len (show 47 < 128 by omega), enc_len hd, Nat.add_assoc]
  | @comment cs hc =>
    simp only [List.length_cons] at hf
    obtain ⟨f, rfl⟩ : ∃ g, f = g + 1 := ⟨f - 1, by omega⟩
    have ht : Here env (s.pos + 1) (cs ++ c%'\n' :: rest) := hh.tail1 (by decide)
    rw [List.cons_append, headC_cons, width_cons, findStartOfText]; ex
    simp only [Nat.reduceEqDiff, if_false, if_true, enc_len (show 35 < 128 by omega)]
    have key : ∀ (body : List Nat) (k csp : Nat) (s : St), (∀ c ∈ body, c ≠ 0 ∧ c ≠ c%'\n') → body.length < k → Here env s.pos (body ++ c%'\n' :: rest) →
        skipWhiteLoop true k .hash csp env s = .ok (10, s.pos + (utf8 body).length) { s with pos := s.pos + (utf8 body).length } := by
      intro body
      induction body with
      | nil =>
        intro k csp s _ hk hh
        obtain ⟨k, rfl⟩ : ∃ g, k = g + 1 := ⟨k - 1, by omega⟩
        rw [skipWhiteLoop]; ex
        rw [next_here hh]
        simp [utf8, headC_cons]
      | cons c body ih =>
        intro k csp s hb hk hh
        obtain ⟨k, rfl⟩ : ∃ g, k = g + 1 := ⟨k - 1, by omega⟩
        have h1 := hb c (by simp)
        have ih := ih k csp { s with pos := s.pos + (encodeRune c).length } (fun x hx => hb x (by simp [hx])) (by simp at hk; omega) hh.tail
        rw [utf8_cons, List.length_append, ← Nat.add_assoc]
        simp only at ih
        rw [← ih]
        conv => lhs; unfold skipWhiteLoop
        ex
        rw [next_here hh]
        simp only [List.cons_append, headC_cons, width]
        simp only [h1.1, h1.2, if_false, reduceCtorEq]
        repeat' split
        all_goals first | rfl | contradiction
    have hsk : skipWhite true env s = .ok (10, s.pos + 1 + (utf8 cs).length) { s with pos := s.pos + 1 + (utf8 cs).length } := by
      have hfuel := Here.fuel (ws := c%'#' :: cs) hh
      simp only [List.length_cons] at hfuel
      obtain ⟨g, hg⟩ : ∃ g, charFuel env = g + 1 := ⟨charFuel env - 1, by omega⟩
      unfold skipWhite
      ex
      rw [hg, skipWhiteLoop]; ex
      rw [next_here hh]
      simp only [List.cons_append, headC_cons, width, enc_len (show 35 < 128 by omega), Nat.reduceEqDiff, if_false, if_true]
      rw [key cs g s.pos { s with pos := s.pos + 1 } hc (by omega) ht]
    rw [hsk]
    dsimp only
    rw [eol (s := { s with pos := s.pos + 1 + (utf8 cs).length }) ht.append (by omega)]
    simp only [utf8_cons, List.length_append, enc_len (show 35 < 128 by omega), Nat.add_assoc]

/-! ## The lines -/

theorem skipWs_exec {bs r : List Nat} (hb : Ws bs) (hr : ¬ IsWs (headC r)) (hh : Here env s.pos (bs ++ r)) :
    skipWhiteInLiteral env s = .ok (headC r, s.pos + (utf8 bs).length) { s with pos := s.pos + (utf8 bs).length + width r } := by
  have key : ∀ (bs : List Nat) (s : St) (f : Nat), Ws bs → bs.length < f → Here env s.pos (bs ++ r) →
      skipWhiteInLiteralLoop f env s = .ok (headC r, s.pos + (utf8 bs).length) { s with pos := s.pos + (utf8 bs).length + width r } := by
    intro bs
    induction bs with
    | nil =>
      intro s f _ hf hh
      obtain ⟨f, rfl⟩ : ∃ g, f = g + 1 := ⟨f - 1, by omega⟩
      rw [skipWhiteInLiteralLoop]; ex; rw [next_here hh]
      dsimp only [List.nil_append]
      unfold IsWs at hr
      rw [if_neg hr]
      rfl
    | cons b bs ih =>
      intro s f hb hf hh
      obtain ⟨f, rfl⟩ : ∃ g, f = g + 1 := ⟨f - 1, by omega⟩
      rw [skipWhiteInLiteralLoop]; ex; rw [next_here hh]
      dsimp only [List.cons_append, headC_cons, width_cons]
      rw [if_pos (show b = 32 ∨ b = 13 ∨ b = 9 from hb b (by simp)), ih { s with pos := s.pos + (encodeRune b).length } f (fun x hx => hb x (by simp [hx])) (by simp at hf; omega) hh.tail]
      simp only [utf8_cons, List.length_append, Nat.add_assoc]
  unfold skipWhiteInLiteral
  ex
  exact key bs s _ hb hh.fuel hh

/-- The rest of a line that is not the last. -/
theorem scan_line {hs f indent c : Nat} {sup : Bool} {tg : GoStr} (h0 : c ≠ 0) (hn : c ≠ c%'\n') (hl : ∀ x ∈ l, x ≠ 0 ∧ x ≠ c%'\n') (hf : l.length < f)
    (hh : Here env s.pos (l ++ c%'\n' :: rest)) :
    ∃ f', f ≤ f' + l.length + 1 ∧ findEndOfText hs tg f c sup indent env s =
      findEndOfText hs tg f' c%'\n' sup indent env { s with pos := s.pos + (utf8 l).length + 1 } := by
  induction l generalizing f s c with
  | nil =>
    obtain ⟨f, rfl⟩ : ∃ g, f = g + 1 := ⟨f - 1, by omega⟩
    refine ⟨f, by simp, ?_⟩
    rw [findEndOfText]; ex
    rw [if_neg h0, if_neg hn, next_here hh]
    dsimp only [List.nil_append, headC_cons, width_cons]
    simp [enc_len]
  | cons x l ih =>
    obtain ⟨f, rfl⟩ : ∃ g, f = g + 1 := ⟨f - 1, by omega⟩
    obtain ⟨h1, h2⟩ := hl x (by simp)
    obtain ⟨f', g1, g2⟩ := ih (s := { s with pos := s.pos + (encodeRune x).length }) h1 h2 (fun x hx => hl x (by simp [hx])) (f := f) (by simp at hf; omega) hh.tail
    refine ⟨f', by simp; omega, ?_⟩
    rw [findEndOfText]; ex
    rw [if_neg h0, if_neg hn, next_here hh]
    dsimp only [List.cons_append, headC_cons, width_cons]
    rw [g2]
    simp only [utf8_cons, List.length_append, Nat.add_assoc]

theorem split_ws (l : List Nat) : ∃ bs r, l = bs ++ r ∧ Ws bs ∧ (r = [] ∨ ∃ c r', r = c :: r' ∧ ¬ IsWs c) := by
  induction l with
  | nil => exact ⟨[], [], rfl, (by intro c hc; cases hc), .inl rfl⟩
  | cons c l ih =>
    by_cases hc : IsWs c
    · obtain ⟨bs, r, rfl, h1, h2⟩ := ih
      refine ⟨c :: bs, r, rfl, fun x hx => ?_, h2⟩
      rcases List.mem_cons.1 hx with rfl | hx
      · exact hc
      · exact h1 x hx
    · exact ⟨[], c :: l, rfl, (by intro c hc; cases hc), .inr ⟨c, l, rfl, hc⟩⟩

/-- UTF-8 is free of prefixes. -/
theorem utf8_prefix {as bs : List Nat} (ha : ∀ r ∈ as, Rune r) (hb : ∀ r ∈ bs, Rune r) (h : (utf8 bs).take (utf8 as).length = utf8 as) : as <+: bs := by
  induction as generalizing bs with
  | nil => exact List.nil_prefix
  | cons a as ih =>
    have hp := encodeRune_length_pos a
    have h1 : utf8 bs = encodeRune a ++ (utf8 as ++ (utf8 bs).drop (utf8 (a :: as)).length) := by
      conv => lhs; rw [← List.take_append_drop (utf8 (a :: as)).length (utf8 bs), h]
      rw [utf8_cons, List.append_assoc]
    cases bs with
    | nil =>
      have := congrArg List.length h1
      simp at this
      omega
    | cons b bs =>
      have d1 := decode_encode b (utf8 bs) (hb b (by simp)).1
      rw [← utf8_cons, h1, decode_encode a _ (ha a (by simp)).1] at d1
      have : a = b := by injection d1
      subst this
      refine List.prefix_cons_inj a |>.2 (ih (fun r hr => ha r (by simp [hr])) (fun r hr => hb r (by simp [hr])) ?_)
      rw [utf8_cons, List.append_cancel_left_eq] at h1
      rw [h1, List.take_left]

theorem decode_utf8 {c : Nat} {cs : List Nat} (h : Rune c) : (decodeRune (utf8 (c :: cs))).1 = c := by
  rw [utf8_cons, decode_encode c _ h.1]

/-- A line of the text. -/
theorem text_line {hs f indent : Nat} {sup : Bool} (ht : IsTag tag) (hrt : ∀ r ∈ tag, Rune r) (hl : TextLine tag l) (hf : l.length < f)
    (hh : Here env s.pos (l ++ c%'\n' :: rest)) :
    ∃ f', f ≤ f' + l.length + 1 ∧ findEndOfText hs (utf8 tag) f c%'\n' sup indent env s =
      findEndOfText hs (utf8 tag) f' c%'\n' sup indent env { s with pos := s.pos + (utf8 l).length + 1 } := by
  obtain ⟨f, rfl⟩ : ∃ g, f = g + 1 := ⟨f - 1, by omega⟩
  obtain ⟨bs, r, rfl, hb, hr⟩ := split_ws l
  obtain ⟨t0, tag, rfl⟩ := List.exists_cons_of_ne_nil ht.ne
  have htd : (decodeRune (utf8 (t0 :: tag))).1 = t0 := decode_utf8 (hrt t0 (by simp))
  have htc := ht.chars t0 (by simp)
  have hh : Here env s.pos (bs ++ (r ++ c%'\n' :: rest)) := by simpa using hh
  rw [findEndOfText]; ex
  rw [if_neg (by omega), if_pos trivial]
  rcases hr with rfl | ⟨c, r, rfl, hc⟩
  · refine ⟨f, by simp, ?_⟩
    rw [skipWs_exec hb (by simp [IsWs]) hh]
    dsimp only [List.nil_append, headC_cons, width_cons]
    rw [if_neg (by omega)]
    unfold marginOf
    ex
    rw [if_neg (by omega), if_neg (by omega)]
    dsimp only
    rw [htd, if_pos (Ne.symm htc.2)]
    simp [enc_len]
  · rw [skipWs_exec hb (by simpa using hc) hh]
    dsimp only [List.cons_append, headC_cons, width_cons]
    obtain ⟨m1, m2⟩ := hl.mark bs c r rfl hb
    have hcc := hl.chars c (by simp)
    have hrr : ∀ x ∈ r, x ≠ 0 ∧ x ≠ c%'\n' := fun x hx => hl.chars x (by simp [hx])
    rw [if_neg hcc.1]
    unfold marginOf
    ex
    rw [if_neg m1, if_neg m2]
    dsimp only
    have h1 : Here env (s.pos + (utf8 bs).length) (c :: (r ++ c%'\n' :: rest)) := hh.append
    have h2 : Here env (s.pos + (utf8 bs).length + (encodeRune c).length) (r ++ c%'\n' :: rest) := h1.tail
    have hscan : ∃ f', f + 1 ≤ f' + (bs ++ c :: r).length + 1 ∧ findEndOfText hs (utf8 (t0 :: tag)) f c sup indent env
        { s with pos := s.pos + (utf8 bs).length + (encodeRune c).length } =
        findEndOfText hs (utf8 (t0 :: tag)) f' c%'\n' sup indent env { s with pos := s.pos + (utf8 (bs ++ c :: r)).length + 1 } := by
      obtain ⟨f', g1, g2⟩ := scan_line (hs := hs) (indent := indent) (sup := sup) (tg := utf8 (t0 :: tag)) (f := f)
        (s := { s with pos := s.pos + (utf8 bs).length + (encodeRune c).length }) hcc.1 hcc.2 hrr (by simp at hf; omega) h2
      refine ⟨f', by simp; omega, ?_⟩
      rw [g2]
      simp only [utf8_append, utf8_cons, List.length_append, Nat.add_assoc]
    rw [htd]
    by_cases hct : c ≠ t0
    · rw [if_pos hct]
      exact hscan
    · have hct : c = t0 := by omega
      subst hct
      rw [if_neg (by omega)]
      split
      · next hpre =>
        have hpre2 := hpre.2
        rw [h1.drop] at hpre2
        have hpp := utf8_prefix hrt h1.runes hpre2
        obtain ⟨q0, hq0⟩ := hpp
        have hq0 : c :: tag ++ q0 = (c :: r) ++ c%'\n' :: rest := hq0
        have hq : ∃ q, c :: r = c :: tag ++ q := by
          rcases List.append_eq_append_iff.1 hq0 with ⟨q, e, -⟩ | ⟨q, e, e2⟩
          · exact ⟨q, e⟩
          · cases q with
            | nil => exact ⟨[], by simpa using e.symm⟩
            | cons y q =>
              exfalso
              have : c%'\n' = y := by injection e2
              subst this
              exact (ht.chars c%'\n' (by rw [e]; simp)).2 rfl
        obtain ⟨q, hq⟩ := hq
        have hr : r = tag ++ q := by injection hq
        subst hr
        obtain ⟨bs', q', rfl, hb', hq'⟩ := split_ws q
        have h3 : Here env (s.pos + (utf8 bs).length + (utf8 (c :: tag)).length) (bs' ++ (q' ++ c%'\n' :: rest)) := by
          have : Here env (s.pos + (utf8 bs).length) ((c :: tag) ++ (bs' ++ (q' ++ c%'\n' :: rest))) := by simpa using h1
          exact this.append
        rcases hq' with rfl | ⟨d, q', rfl, hd⟩
        · exact absurd (by simp) (hl.notEnd bs bs' hb hb')
        · have hdc := hl.chars d (by simp)
          have h4 : Here env (s.pos + (utf8 bs).length + (utf8 (c :: tag)).length + (utf8 bs').length) (d :: (q' ++ c%'\n' :: rest)) := h3.append
          have h5 : Here env (s.pos + (utf8 bs).length + (utf8 (c :: tag)).length + (utf8 bs').length + (encodeRune d).length) (q' ++ c%'\n' :: rest) := h4.tail
          rw [skipWs_exec (s := { s with pos := s.pos + (utf8 bs).length + (utf8 (c :: tag)).length }) hb' (by simpa using hd) h3]
          dsimp only [List.cons_append, headC_cons, width_cons]
          rw [if_neg (by omega)]
          obtain ⟨f', g1, g2⟩ := scan_line (hs := hs) (indent := indent) (sup := sup) (tg := utf8 (c :: tag)) (f := f)
            (s := { s with pos := s.pos + (utf8 bs).length + (utf8 (c :: tag)).length + (utf8 bs').length + (encodeRune d).length })
            hdc.1 hdc.2 (fun x hx => hl.chars x (by simp [hx])) (by simp at hf; omega) h5
          refine ⟨f', by simp; omega, ?_⟩
          rw [g2]
          simp only [utf8_append, utf8_cons, List.length_append, Nat.add_assoc]
      · exact hscan

theorem unlines_cons {ls : List (List Nat)} : unlines (l :: ls) = l ++ c%'\n' :: unlines ls := by simp [unlines]

/-- The lines of the text. -/
theorem text_lines {hs f indent : Nat} {sup : Bool} {ls : List (List Nat)} (ht : IsTag tag) (hrt : ∀ r ∈ tag, Rune r) (hl : ∀ l ∈ ls, TextLine tag l)
    (hf : (unlines ls).length < f) (hh : Here env s.pos (unlines ls ++ rest)) :
    ∃ f', 1 ≤ f' ∧ findEndOfText hs (utf8 tag) f c%'\n' sup indent env s =
      findEndOfText hs (utf8 tag) f' c%'\n' sup indent env { s with pos := s.pos + (utf8 (unlines ls)).length } := by
  induction ls generalizing f s with
  | nil => exact ⟨f, by omega, by simp [unlines]⟩
  | cons l ls ih =>
    rw [unlines_cons] at hf
    have hh : Here env s.pos (l ++ c%'\n' :: (unlines ls ++ rest)) := by simpa [unlines_cons] using hh
    obtain ⟨f1, g1, g2⟩ := text_line (hs := hs) (indent := indent) (sup := sup) ht hrt (hl l (by simp)) (f := f) (by simp at hf; omega) hh
    have h2 : Here env (s.pos + (utf8 l).length + 1) (unlines ls ++ rest) := hh.append.tail1 (by decide)
    obtain ⟨f', k1, k2⟩ := ih (s := { s with pos := s.pos + (utf8 l).length + 1 }) (fun x hx => hl x (by simp [hx])) (f := f1) (by simp at hf; omega) h2
    refine ⟨f', k1, ?_⟩
    rw [g2, k2]
    simp only [unlines_cons, utf8_append, utf8_cons, List.length_append, Nat.add_assoc, enc_len (show 10 < 128 by omega)]

/-! ## The end -/

/-- What follows the line with the tag. -/
theorem _root_.PP.Spec.AtEol.head (h : AtEol rest) : headC rest = c%'\n' ∨ headC rest = 0 := by
  rcases h with rfl | ⟨r, rfl⟩
  · exact .inr rfl
  · exact .inl rfl

theorem _root_.PP.Spec.AtEol.noWs (h : AtEol rest) : ¬ IsWs (headC rest) := by
  rcases h.head with h | h <;> rw [h] <;> decide

/-- The line with the tag. -/
theorem end_line {hs f : Nat} {bs m bs' : List Nat} {dash : Bool} {margin : Nat} {ce : Int} (ht : IsTag tag) (hrt : ∀ r ∈ tag, Rune r)
    (hb : Ws bs) (hm : Mark bs.length m dash margin) (hb' : Ws bs') (he : AtEol rest)
    (hce : contentEndOf env.text s.pos dash = some ce)
    (hh : Here env s.pos (bs ++ m ++ tag ++ bs' ++ rest)) :
    ∃ t : St, t = { s with pos := t.pos } ∧ findEndOfText hs (utf8 tag) (f + 1) c%'\n' false 0 env s =
      .ok { contentEnd := ce, heredocEnd := s.pos + (utf8 (bs ++ m ++ tag ++ bs')).length, indent := margin } t := by
  obtain ⟨t0, tag, rfl⟩ := List.exists_cons_of_ne_nil ht.ne
  have htd : (decodeRune (utf8 (t0 :: tag))).1 = t0 := decode_utf8 (hrt t0 (by simp))
  obtain ⟨f1, f2, f3⟩ := ht.first
  rw [headC_cons] at f1 f2 f3
  have htc := ht.chars t0 (by simp)
  have asc : ∀ {xs : List Nat}, Ws xs → (utf8 xs).length = xs.length := fun hx => utf8_ascii_length fun w hw => by
    rcases hx w hw with rfl | rfl | rfl <;> decide
  -- the tag itself
  have key : ∀ n (pre : List Nat) (u : St), u = { s with pos := u.pos } → n = s.pos + (utf8 (bs ++ pre)).length →
      Here env s.pos (bs ++ pre ++ (t0 :: tag) ++ bs' ++ rest) →
      ∃ t : St, t = { s with pos := t.pos } ∧
      (if t0 ≠ (decodeRune (utf8 (t0 :: tag))).1 then findEndOfText hs (utf8 (t0 :: tag)) f t0 dash margin
        else if n + (utf8 (t0 :: tag)).length ≤ env.text.length ∧ (env.text.drop n).take (utf8 (t0 :: tag)).length = utf8 (t0 :: tag) then do
          setPos (n + (utf8 (t0 :: tag)).length)
          let (c, n) ← skipWhiteInLiteral
          if c = c%'\n' ∨ c = 0 then
            match contentEndOf env.text s.pos dash with
            | some ce => pure { contentEnd := ce, heredocEnd := n, indent := margin }
            | none => crash .index
          else findEndOfText hs (utf8 (t0 :: tag)) f c dash margin
        else findEndOfText hs (utf8 (t0 :: tag)) f t0 dash margin : P HEnd) env u =
      .ok { contentEnd := ce, heredocEnd := s.pos + (utf8 (bs ++ pre ++ (t0 :: tag) ++ bs')).length, indent := margin } t := by
    intro n pre u hu hn hh
    have h1 : Here env n ((t0 :: tag) ++ (bs' ++ rest)) := by
      rw [hn]
      have : Here env s.pos ((bs ++ pre) ++ ((t0 :: tag) ++ (bs' ++ rest))) := by simpa using hh
      exact this.append
    have h2 : Here env (n + (utf8 (t0 :: tag)).length) (bs' ++ rest) := h1.append
    rw [htd]
    ex
    rw [if_neg (by omega), if_pos ⟨h2.le, h1.take⟩, skipWs_exec (s := { u with pos := n + (utf8 (t0 :: tag)).length }) hb' he.noWs h2]
    dsimp only
    rw [if_pos he.head, hce]
    refine ⟨{ u with pos := n + (utf8 (t0 :: tag)).length + (utf8 bs').length + width rest }, by rw [hu], ?_⟩
    simp only [ex_pure]
    congr 2
    simp only [hn, utf8_append, List.length_append]
    omega
  rw [findEndOfText]; ex
  rw [if_neg (by omega), if_pos trivial]
  cases hm with
  | none =>
    have hh' : Here env s.pos (bs ++ (t0 :: (tag ++ (bs' ++ rest)))) := by simpa using hh
    rw [skipWs_exec hb (by simpa using f1) hh']
    dsimp only [headC_cons, width_cons]
    rw [if_neg htc.1]
    unfold marginOf
    ex
    rw [if_neg f2, if_neg f3]
    dsimp only
    have := key (s.pos + (utf8 bs).length) [] { s with pos := s.pos + (utf8 bs).length + (encodeRune t0).length } rfl (by simp) hh
    simp only [ex_ite, ex_bind, ex_setPos] at this
    exact this
  | @bar b1 hb1 =>
    have hh' : Here env s.pos (bs ++ (c%'|' :: (b1 ++ (t0 :: (tag ++ (bs' ++ rest)))))) := by simpa using hh
    have h2 : Here env (s.pos + (utf8 bs).length + 1) (b1 ++ (t0 :: (tag ++ (bs' ++ rest)))) := hh'.append.tail1 (by decide)
    rw [skipWs_exec hb (by rw [headC_cons]; decide) hh']
    dsimp only [headC_cons, width_cons]
    rw [if_neg (by omega)]
    unfold marginOf
    ex
    rw [if_pos trivial, enc_len (by omega), skipWs_exec (s := { s with pos := s.pos + (utf8 bs).length + 1 }) hb1 (by simpa using f1) h2]
    dsimp only [headC_cons, width_cons]
    rw [if_neg f3]
    dsimp only
    have := key (s.pos + (utf8 bs).length + 1 + (utf8 b1).length) (c%'|' :: b1)
      { s with pos := s.pos + (utf8 bs).length + 1 + (utf8 b1).length + (encodeRune t0).length } rfl
      (by simp [enc_len]; omega) hh
    simp only [ex_ite, ex_bind, ex_setPos] at this
    rw [show s.pos + (utf8 bs).length - s.pos = bs.length by rw [asc hb]; omega]
    exact this
  | @dash b1 hb1 =>
    have hh' : Here env s.pos (bs ++ (c%'-' :: (b1 ++ (t0 :: (tag ++ (bs' ++ rest)))))) := by simpa using hh
    have h2 : Here env (s.pos + (utf8 bs).length + 1) (b1 ++ (t0 :: (tag ++ (bs' ++ rest)))) := hh'.append.tail1 (by decide)
    rw [skipWs_exec hb (by rw [headC_cons]; decide) hh']
    dsimp only [headC_cons, width_cons]
    rw [if_neg (by omega)]
    unfold marginOf
    ex
    rw [if_neg (by omega), if_pos trivial, enc_len (by omega), skipWs_exec (s := { s with pos := s.pos + (utf8 bs).length + 1 }) hb1 (by simpa using f1) h2]
    dsimp only [headC_cons, width_cons]
    have := key (s.pos + (utf8 bs).length + 1 + (utf8 b1).length) (c%'-' :: b1)
      { s with pos := s.pos + (utf8 bs).length + 1 + (utf8 b1).length + (encodeRune t0).length } rfl
      (by simp [enc_len]; omega) hh
    simp only [ex_ite, ex_bind, ex_setPos] at this
    exact this
  | @both b1 b2 hb1 hb2 =>
    have hh' : Here env s.pos (bs ++ (c%'|' :: (b1 ++ (c%'-' :: (b2 ++ (t0 :: (tag ++ (bs' ++ rest)))))))) := by simpa using hh
    have h2 : Here env (s.pos + (utf8 bs).length + 1) (b1 ++ (c%'-' :: (b2 ++ (t0 :: (tag ++ (bs' ++ rest)))))) := hh'.append.tail1 (by decide)
    have h3 : Here env (s.pos + (utf8 bs).length + 1 + (utf8 b1).length + 1) (b2 ++ (t0 :: (tag ++ (bs' ++ rest)))) := h2.append.tail1 (by decide)
    rw [skipWs_exec hb (by rw [headC_cons]; decide) hh']
    dsimp only [headC_cons, width_cons]
    rw [if_neg (by omega)]
    unfold marginOf
    ex
    rw [if_pos trivial, enc_len (by omega), skipWs_exec (s := { s with pos := s.pos + (utf8 bs).length + 1 }) hb1 (by rw [headC_cons]; decide) h2]
    dsimp only [headC_cons, width_cons]
    rw [if_pos rfl, enc_len (by omega), skipWs_exec (s := { s with pos := s.pos + (utf8 bs).length + 1 + (utf8 b1).length + 1 }) hb2 (by simpa using f1) h3]
    dsimp only [headC_cons, width_cons]
    have := key (s.pos + (utf8 bs).length + 1 + (utf8 b1).length + 1 + (utf8 b2).length) (c%'|' :: (b1 ++ c%'-' :: b2))
      { s with pos := s.pos + (utf8 bs).length + 1 + (utf8 b1).length + 1 + (utf8 b2).length + (encodeRune t0).length } rfl
      (by simp [enc_len]; omega) hh
    simp only [ex_ite, ex_bind, ex_setPos] at this
    rw [show s.pos + (utf8 bs).length - s.pos = bs.length by rw [asc hb]; omega]
    exact this

/-! ## The margin -/

/-- `src` is the end of a text: what follows does not begin with a blank, unless `src` is empty or ends a line. -/
def HdTail (src after : List Nat) : Prop := src = [] ∨ src.getLast? = some c%'\n' ∨ headC after = c%'\n' ∨ headC after = c%'\r'

theorem HdTail.tail {c : Nat} {src after : List Nat} (h : HdTail (c :: src) after) : HdTail src after := by
  cases src with
  | nil => exact .inl rfl
  | cons d src =>
    rcases h with h | h | h
    · cases h
    · exact .inr (.inl (by simpa [List.getLast?_cons_cons] using h))
    · exact .inr (.inr h)

theorem HdTail.append {xs src after : List Nat} (h : HdTail (xs ++ src) after) : HdTail src after := by
  induction xs with
  | nil => exact h
  | cons x xs ih => exact ih h.tail

theorem strip_suffix (k : Nat) (l : List Nat) : ∃ x, l = x ++ strip k l := by
  unfold strip
  split
  · exact ⟨l.take k, by simp⟩
  · exact ⟨[], rfl⟩

theorem HdTail.strip {k : Nat} {src after : List Nat} (h : HdTail src after) : HdTail (strip k src) after := by
  obtain ⟨x, e⟩ := strip_suffix k src
  rw [e] at h
  exact h.append

theorem stripLoop_exec {start k : Nat} {src after : List Nat} (hne : src ≠ []) (hfin : HdTail src after) (hh : Here env s.pos (src ++ after)) :
    stripIndentLoop start k env s = .ok () { s with pos :=
      if k ≤ src.length ∧ (∀ c ∈ src.take k, c = c%' ' ∨ c = c%'\t') then s.pos + k else start } := by
  have key : ∀ (k : Nat) (src : List Nat) (s : St), (src = [] → headC after = c%'\n' ∨ headC after = c%'\r') → HdTail src after → Here env s.pos (src ++ after) →
      stripIndentLoop start k env s = .ok () { s with pos :=
        if k ≤ src.length ∧ (∀ c ∈ src.take k, c = c%' ' ∨ c = c%'\t') then s.pos + k else start } := by
    intro k
    induction k with
    | zero => intro src s _ _ _; simp [stripIndentLoop, ex_pure]
    | succ k ih =>
      intro src s hne hfin hh
      rw [stripIndentLoop]; ex; rw [peek_here hh]
      cases src with
      | nil =>
        have := hne rfl
        dsimp only [List.nil_append]
        rw [if_neg (by omega), if_neg (by simp)]
      | cons c src =>
        dsimp only [List.cons_append, headC_cons, width_cons]
        by_cases hc : c = 9 ∨ c = 32
        · rw [if_pos hc, enc_len (by omega), ih src { s with pos := s.pos + 1 } ?_ hfin.tail (hh.tail1 (by omega))]
          · have : (k + 1 ≤ (c :: src).length ∧ ∀ x ∈ (c :: src).take (k + 1), x = c%' ' ∨ x = c%'\t') ↔ (k ≤ src.length ∧ ∀ x ∈ src.take k, x = c%' ' ∨ x = c%'\t') := by
              simp only [List.length_cons, List.take_succ_cons, List.mem_cons, forall_eq_or_imp, Nat.add_le_add_iff_right, or_comm.1 hc, true_and]
            simp only [this, Nat.add_assoc, Nat.add_comm 1 k]
          · rintro rfl
            rcases hfin with h | h | h
            · cases h
            · simp only [List.getLast?_singleton, Option.some.injEq] at h; omega
            · exact h
        · rw [if_neg hc, if_neg]
          rintro ⟨-, h⟩
          exact hc (or_comm.1 (h c (by simp)))
  exact key k src s (fun h => absurd h hne) hfin hh

/-- The margin of a line. -/
theorem strip_exec {k : Nat} {src after : List Nat} (hne : src ≠ []) (hfin : HdTail src after) (hh : Here env s.pos (src ++ after)) :
    ∃ p, stripIndent k env s = .ok () { s with pos := p } ∧ Here env p (strip k src ++ after) ∧
      p + (utf8 (strip k src)).length = s.pos + (utf8 src).length := by
  unfold stripIndent
  ex
  rw [stripLoop_exec hne hfin hh]
  refine ⟨_, rfl, ?_⟩
  unfold strip
  split
  · next h =>
    have e : src = src.take k ++ src.drop k := by simp
    have hk : (utf8 (src.take k)).length = k := by
      rw [utf8_ascii_length fun w hw => by rcases h.2 w hw with rfl | rfl <;> decide, List.length_take]; omega
    constructor
    · rw [e, List.append_assoc] at hh
      have := hh.append
      rw [hk] at this
      exact this
    · conv => rhs; rw [e, utf8_append, List.length_append, hk]
      omega
  · exact ⟨hh, rfl⟩

/-- In front of the line with the tag. -/
theorem strip_any {k : Nat} {rs : List Nat} (hh : Here env s.pos rs) :
    ∃ p rs', stripIndent k env s = .ok () { s with pos := p } ∧ Here env p rs' ∧ s.pos ≤ p := by
  have key : ∀ k start (s : St) rs, Here env s.pos rs → start ≤ s.pos → (∃ rs', Here env start rs') →
      ∃ p rs', stripIndentLoop start k env s = .ok () { s with pos := p } ∧ Here env p rs' ∧ start ≤ p := by
    intro k
    induction k with
    | zero => exact fun start s rs hh h1 _ => ⟨s.pos, rs, by simp [stripIndentLoop, ex_pure], hh, h1⟩
    | succ k ih =>
      intro start s rs hh h1 h2
      rw [stripIndentLoop]; ex; rw [peek_here hh]
      dsimp only
      split
      · cases rs with
        | nil => next h => simp at h
        | cons c rs =>
          obtain ⟨p, rs', g1, g2, g3⟩ := ih start { s with pos := s.pos + width (c :: rs) } rs hh.tail (by dsimp only; omega) h2
          exact ⟨p, rs', g1, g2, g3⟩
      · obtain ⟨rs', h2⟩ := h2
        exact ⟨start, rs', rfl, h2, Nat.le_refl _⟩
  unfold stripIndent
  ex
  exact key k s.pos s rs hh (Nat.le_refl _) ⟨rs, hh⟩

/-! ## What the text means -/

section escapes
variable {end_ : Int} {k : Nat} {buf : GoStr} {fl src after : List Nat} {ip : Bool} {out : GoStr}

theorem flag_contains {c : Nat} (hc : c < 128) (hfl : ∀ x ∈ fl, x ∈ flagLetters) :
    (flagBytes fl).contains (UInt8.ofNat c) = true ↔ c = 10 ∧ c%'L' ∈ fl ∨ c ∈ fl ∧ c ≠ c%'L' := by
  rw [List.contains_iff_mem]
  unfold flagBytes
  rw [List.mem_map]
  have inj : ∀ a b : Nat, a < 128 → b < 128 → UInt8.ofNat a = UInt8.ofNat b → a = b := by
    intro a b ha hb h
    have := congrArg UInt8.toNat h
    rwa [toNat_ofNat (by omega), toNat_ofNat (by omega)] at this
  have hlt : ∀ x ∈ fl, x < 128 ∧ x ≠ 10 := by
    intro x hx
    have := hfl x hx
    simp only [flagLetters, List.mem_cons, List.not_mem_nil, or_false] at this
    omega
  constructor
  · rintro ⟨x, hx, e⟩
    split at e
    · next h =>
      left
      have := inj _ _ (by omega) hc e
      exact ⟨this.symm, h ▸ hx⟩
    · next h =>
      right
      have := inj _ _ (hlt x hx).1 hc e
      subst this
      exact ⟨hx, h⟩
  · rintro (⟨rfl, h⟩ | ⟨h, h2⟩)
    · exact ⟨_, h, rfl⟩
    · exact ⟨c, h, by rw [if_neg h2]⟩

abbrev Esc (env : Env) (end_ : Int) (k : Nat) (fl : List Nat) (ip : Bool) (buf : GoStr) (segs : List Expr) (s : St) (out : GoStr) (t : St) : Prop :=
  EvN env (.escapes end_ k (flagBytes fl) ip buf segs) s (out, segs) t

/-- The loop over the text of a heredoc. -/
theorem means_exec {segs : List Expr} (hfl : ∀ x ∈ fl, x ∈ flagLetters) (hm : Means fl ip k src out) (h0 : ∀ c ∈ src, c ≠ 0) (hfin : HdTail src after)
    (hh : Here env s.pos (src ++ after)) (hend : end_ = s.pos + (utf8 src).length) :
    ∃ t : St, t = { s with pos := t.pos } ∧ Esc env end_ k fl ip buf segs s (buf ++ out) t := by
  -- a state at or behind the end
  have atEnd : ∀ (s : St) (rs : List Nat) (buf : GoStr), Here env s.pos rs → end_ ≤ s.pos →
      ∃ t : St, t = { s with pos := t.pos } ∧ Esc env end_ k fl ip buf segs s buf t := by
    intro s rs buf hh hle
    refine ⟨{ s with pos := s.pos + width rs }, rfl, EvN.def (m := fun self => escapesBody self end_ k (flagBytes fl) ip buf segs) ?_ (fun _ => rfl)⟩
    unfold escapesBody
    refine EvP.prim (next_here hh) ?_
    dsimp only
    exact EvP.pos (.inr (by omega)) EvP.ret
  -- the margin after a newline
  have margin : ∀ (s : St) (src : List Nat) (buf out : GoStr), Means fl ip k (strip k src) out → HdTail src after → Here env s.pos (src ++ after) →
      end_ = s.pos + (utf8 src).length →
      (∀ (s : St) (buf : GoStr), Here env s.pos (strip k src ++ after) → end_ = s.pos + (utf8 (strip k src)).length →
        ∃ t : St, t = { s with pos := t.pos } ∧ Esc env end_ k fl ip buf segs s (buf ++ out) t) →
      ∃ p, stripIndent k env s = .ok () { s with pos := p } ∧ ∃ t : St, t = { s with pos := t.pos } ∧ Esc env end_ k fl ip buf segs { s with pos := p } (buf ++ out) t := by
    intro s src buf out hm hfin hh hend ih
    by_cases hne : src = []
    · subst hne
      have hout : out = [] := by
        have : strip k [] = [] := by unfold strip; split <;> simp
        rw [this] at hm
        cases hm; rfl
      subst hout
      obtain ⟨p, rs', g1, g2, g3⟩ := strip_any (k := k) hh
      obtain ⟨t, e1, e2⟩ := atEnd { s with pos := p } rs' buf g2 (by simp at hend; dsimp only; omega)
      exact ⟨p, g1, t, by rw [e1], by simpa using e2⟩
    · obtain ⟨p, g1, g2, g3⟩ := strip_exec (k := k) hne hfin hh
      obtain ⟨t, e1, e2⟩ := ih { s with pos := p } buf g2 (by rw [hend]; dsimp only; omega)
      exact ⟨p, g1, t, by rw [e1], e2⟩
  induction hm generalizing s buf with
  | nil =>
    obtain ⟨t, h1, h2⟩ := atEnd s after buf (by simpa using hh) (by simp at hend; omega)
    exact ⟨t, h1, by simpa using h2⟩
  | @char c src out hb hn hd _ ih =>
    obtain ⟨t, h1, h2⟩ := ih (s := { s with pos := s.pos + (encodeRune c).length }) (buf := buf ++ encodeRune c) (fun x hx => h0 x (by simp [hx])) hfin.tail hh.tail
      (by rw [hend, utf8_cons, List.length_append]; simp; omega)
    refine ⟨t, by rw [h1], ?_⟩
    have hp := encodeRune_length_pos c
    refine EvN.def (m := fun self => escapesBody self end_ k (flagBytes fl) ip buf segs) ?_ (fun _ => rfl)
    unfold escapesBody
    refine EvP.prim (next_here hh) ?_
    dsimp only [List.cons_append, headC_cons, width_cons]
    refine EvP.neg ?_ (EvP.pos hb (EvP.neg (fun h => by rw [hd h.1] at h; cases h.2) ?_))
    · rintro (h | h)
      · exact h0 c (by simp) h
      · apply h; rw [hend, utf8_cons, List.length_append]; omega
    · simp only [if_neg hn]
      rw [← List.append_assoc]
      exact h2
  | @newline src out hm ih =>
    have hh1 : Here env (s.pos + 1) (src ++ after) := hh.tail1 (by decide)
    have hend1 : end_ = (s.pos + 1 : Nat) + (utf8 src).length := by
      rw [hend, utf8_cons, List.length_append, enc_len (by omega)]; omega
    obtain ⟨p, g1, t, g2, g3⟩ := margin { s with pos := s.pos + 1 } src (buf ++ encodeRune 10) out hm hfin.tail hh1 hend1
      (fun s buf a1 a2 => ih (s := s) (buf := buf) (fun x hx => h0 x (by
        obtain ⟨y, e⟩ := strip_suffix k src
        rw [e]; simp [hx])) hfin.tail.strip a1 a2)
    refine ⟨t, by rw [g2], ?_⟩
    refine EvN.def (m := fun self => escapesBody self end_ k (flagBytes fl) ip buf segs) ?_ (fun _ => rfl)
    unfold escapesBody
    refine EvP.prim (next_here hh) ?_
    dsimp only [List.cons_append, headC_cons, width_cons]
    refine EvP.neg (by rw [hend]; simp [enc_len]; try omega) (EvP.pos (by simp) (EvP.neg (by simp) ?_))
    simp only [if_true, enc_len (show 10 < 128 by omega)]
    refine EvP.prim g1 ?_
    rw [show buf ++ (10 :: out) = buf ++ encodeRune 10 ++ out by simp [encodeRune_ascii]]
    exact g3
  | last =>
    have hh1 : Here env (s.pos + 1) after := hh.tail1 (by decide)
    refine ⟨{ s with pos := s.pos + 1 + width after }, rfl, ?_⟩
    refine EvN.def (m := fun self => escapesBody self end_ k (flagBytes fl) ip buf segs) ?_ (fun _ => rfl)
    unfold escapesBody
    refine EvP.prim (next_here hh) ?_
    dsimp only [List.cons_append, headC_cons, width_cons]
    refine EvP.neg (by rw [hend]; simp [enc_len]; try omega) (EvP.neg (by simp) ?_)
    rw [enc_len (show 92 < 128 by omega)]
    refine EvP.prim (next_here (s := { s with pos := s.pos + 1 }) hh1) ?_
    dsimp only
    exact EvP.pos (by rw [hend]; simp [enc_len]) EvP.ret
  | @noEsc c src out h1 h2 h3 _ ih =>
    have hh1 : Here env (s.pos + 1) (c :: (src ++ after)) := hh.tail1 (by decide)
    have hp := encodeRune_length_pos c
    obtain ⟨t, e1, e2⟩ := ih (s := { s with pos := s.pos + 1 + (encodeRune c).length }) (buf := buf ++ [92] ++ encodeRune c) (fun x hx => h0 x (by simp [hx])) hfin.tail.tail hh1.tail
      (by rw [hend]; simp [enc_len]; omega)
    refine ⟨t, by rw [e1], ?_⟩
    refine EvN.def (m := fun self => escapesBody self end_ k (flagBytes fl) ip buf segs) ?_ (fun _ => rfl)
    unfold escapesBody
    refine EvP.prim (next_here hh) ?_
    dsimp only [List.cons_append, headC_cons, width_cons]
    refine EvP.neg (by rw [hend]; simp [enc_len]; try omega) (EvP.neg (by simp) ?_)
    rw [enc_len (show 92 < 128 by omega)]
    refine EvP.prim (next_here (s := { s with pos := s.pos + 1 }) hh1) ?_
    dsimp only [List.cons_append, headC_cons, width_cons]
    refine EvP.neg (by rw [hend]; simp [enc_len]; try omega) ?_
    refine EvP.pos ?_ (EvP.neg (fun h => by rw [h3 h.1] at h; cases h.2) ?_)
    · rintro ⟨a, b⟩
      rw [flag_contains a hfl] at b
      rcases b with b | b
      · exact h2 b.1
      · rcases h1 with h1 | h1
        · exact h1 b.1
        · exact b.2 h1
    · simp only [if_neg h2]
      rw [show buf ++ (92 :: (encodeRune c ++ out)) = buf ++ [92] ++ encodeRune c ++ out by simp]
      exact e2
  | @noJoin src out h1 hm ih =>
    have hh1 : Here env (s.pos + 1) (c%'\n' :: (src ++ after)) := hh.tail1 (by decide)
    have hh2 : Here env (s.pos + 1 + 1) (src ++ after) := hh1.tail1 (by decide)
    have hend1 : end_ = (s.pos + 1 + 1 : Nat) + (utf8 src).length := by
      rw [hend]; simp [enc_len]; omega
    obtain ⟨p, g1, t, g2, g3⟩ := margin { s with pos := s.pos + 1 + 1 } src (buf ++ [92] ++ encodeRune 10) out hm hfin.tail.tail hh2 hend1
      (fun s buf a1 a2 => ih (s := s) (buf := buf) (fun x hx => h0 x (by
        obtain ⟨y, e⟩ := strip_suffix k src
        rw [e]; simp [hx])) hfin.tail.tail.strip a1 a2)
    refine ⟨t, by rw [g2], ?_⟩
    refine EvN.def (m := fun self => escapesBody self end_ k (flagBytes fl) ip buf segs) ?_ (fun _ => rfl)
    unfold escapesBody
    refine EvP.prim (next_here hh) ?_
    dsimp only [List.cons_append, headC_cons, width_cons]
    refine EvP.neg (by rw [hend]; simp [enc_len]; try omega) (EvP.neg (by simp) ?_)
    rw [enc_len (show 92 < 128 by omega)]
    refine EvP.prim (next_here (s := { s with pos := s.pos + 1 }) hh1) ?_
    dsimp only [List.cons_append, headC_cons, width_cons]
    refine EvP.neg (by rw [hend]; simp [enc_len]; try omega) ?_
    refine EvP.pos ?_ (EvP.neg (by simp) ?_)
    · rintro ⟨a, b⟩
      rw [flag_contains a hfl] at b
      rcases b with b | b
      · exact h1 b.2
      · have := hfl _ b.1
        revert this; decide
    · simp only [if_true, enc_len (show 10 < 128 by omega)]
      refine EvP.prim g1 ?_
      rw [show buf ++ (92 :: 10 :: out) = buf ++ [92] ++ encodeRune 10 ++ out by simp [encodeRune_ascii]]
      exact g3
  | @join src out h1 hm ih =>
    have hh1 : Here env (s.pos + 1) (c%'\n' :: (src ++ after)) := hh.tail1 (by decide)
    have hh2 : Here env (s.pos + 1 + 1) (src ++ after) := hh1.tail1 (by decide)
    have hend1 : end_ = (s.pos + 1 + 1 : Nat) + (utf8 src).length := by
      rw [hend]; simp [enc_len]; omega
    obtain ⟨p, g1, t, g2, g3⟩ := margin { s with pos := s.pos + 1 + 1 } src buf out hm hfin.tail.tail hh2 hend1
      (fun s buf a1 a2 => ih (s := s) (buf := buf) (fun x hx => h0 x (by
        obtain ⟨y, e⟩ := strip_suffix k src
        rw [e]; simp [hx])) hfin.tail.tail.strip a1 a2)
    refine ⟨t, by rw [g2], ?_⟩
    refine EvN.def (m := fun self => escapesBody self end_ k (flagBytes fl) ip buf segs) ?_ (fun _ => rfl)
    unfold escapesBody
    refine EvP.prim (next_here hh) ?_
    dsimp only [List.cons_append, headC_cons, width_cons]
    refine EvP.neg (by rw [hend]; simp [enc_len]; try omega) (EvP.neg (by simp) ?_)
    rw [enc_len (show 92 < 128 by omega)]
    refine EvP.prim (next_here (s := { s with pos := s.pos + 1 }) hh1) ?_
    dsimp only [List.cons_append, headC_cons, width_cons]
    refine EvP.neg (by rw [hend]; simp [enc_len]; try omega) ?_
    refine EvP.neg (fun h => h ⟨by omega, (flag_contains (by omega) hfl).2 (.inl ⟨rfl, h1⟩)⟩) (EvP.pos rfl ?_)
    simp only [enc_len (show 10 < 128 by omega)]
    exact EvP.prim g1 g3
  | @esc c d src out h1 h2 _ ih =>
    have hcl : c < 128 ∧ c ≠ c%'L' ∧ c ≠ 10 := by
      simp only [flagTable, List.mem_cons, List.not_mem_nil, or_false, Prod.mk.injEq] at h2
      omega
    have hh1 : Here env (s.pos + 1) (c :: (src ++ after)) := hh.tail1 (by decide)
    obtain ⟨t, e1, e2⟩ := ih (s := { s with pos := s.pos + 1 + (encodeRune c).length }) (buf := buf ++ encodeRune d) (fun x hx => h0 x (by simp [hx])) hfin.tail.tail hh1.tail
      (by rw [hend]; simp [enc_len]; omega)
    refine ⟨t, by rw [e1], ?_⟩
    have hp := encodeRune_length_pos c
    refine EvN.def (m := fun self => escapesBody self end_ k (flagBytes fl) ip buf segs) ?_ (fun _ => rfl)
    unfold escapesBody
    refine EvP.prim (next_here hh) ?_
    dsimp only [List.cons_append, headC_cons, width_cons]
    refine EvP.neg (by rw [hend]; simp [enc_len]; try omega) (EvP.neg (by simp) ?_)
    rw [enc_len (show 92 < 128 by omega)]
    refine EvP.prim (next_here (s := { s with pos := s.pos + 1 }) hh1) ?_
    dsimp only [List.cons_append, headC_cons, width_cons]
    refine EvP.neg (by rw [hend]; simp [enc_len]; try omega) ?_
    refine EvP.neg (fun h => h ⟨hcl.1, (flag_contains hcl.1 hfl).2 (.inr ⟨h1, hcl.2.1⟩)⟩) (EvP.neg hcl.2.2 ?_)
    rw [← List.append_assoc]
    simp only [flagTable, List.mem_cons, List.not_mem_nil, or_false, Prod.mk.injEq] at h2
    rcases h2 with ⟨rfl, rfl⟩ | ⟨rfl, rfl⟩ | ⟨rfl, rfl⟩ | ⟨rfl, rfl⟩ | ⟨rfl, rfl⟩ <;>
      simp only [Nat.reduceEqDiff, if_false, if_true] <;> exact EvP.prim rfl e2
  | @u4 a b c d src out h1 h2 _ ih =>
    have hh1 : Here env (s.pos + 1) (c%'u' :: a :: b :: c :: d :: (src ++ after)) := hh.tail1 (by decide)
    have hh2 : Here env (s.pos + 1 + 1) (a :: ([b, c, d] ++ (src ++ after))) := hh1.tail1 (by decide)
    have la := hex_ascii (h2 a (by simp))
    have lb := hex_ascii (h2 b (by simp))
    have lc := hex_ascii (h2 c (by simp))
    have ld := hex_ascii (h2 d (by simp))
    have hh3 : Here env (s.pos + 1 + 1 + 4) (src ++ after) := (((hh2.tail1 la).tail1 lb).tail1 lc).tail1 ld
    obtain ⟨t, e1, e2⟩ := ih (s := { s with pos := s.pos + 1 + 1 + 4 }) (buf := buf ++ encodeRune (numeral 16 [a, b, c, d])) (fun x hx => h0 x (by simp [hx]))
      hfin.tail.tail.tail.tail.tail.tail hh3 (by rw [hend]; simp [enc_len, la, lb, lc, ld]; omega)
    refine ⟨t, by rw [e1], ?_⟩
    refine EvN.def (m := fun self => escapesBody self end_ k (flagBytes fl) ip buf segs) ?_ (fun _ => rfl)
    unfold escapesBody
    refine EvP.prim (next_here hh) ?_
    dsimp only [List.cons_append, headC_cons, width_cons]
    refine EvP.neg (by rw [hend]; simp [enc_len]; try omega) (EvP.neg (by simp) ?_)
    rw [enc_len (show 92 < 128 by omega)]
    refine EvP.prim (next_here (s := { s with pos := s.pos + 1 }) hh1) ?_
    dsimp only [List.cons_append, headC_cons, width_cons]
    refine EvP.neg (by rw [hend]; simp [enc_len]; try omega) ?_
    refine EvP.neg (fun h => h ⟨by omega, (flag_contains (by omega) hfl).2 (.inr ⟨h1, by omega⟩)⟩) (EvP.neg (by omega) ?_)
    simp only [Nat.reduceEqDiff, if_false, if_true, enc_len (show 117 < 128 by omega)]
    refine EvP.prim (appendUnicode4 (s := { s with pos := s.pos + 1 + 1 }) (ds := [b, c, d]) h2 rfl hh2) ?_
    rw [← List.append_assoc]
    exact e2
  | @braces hs src out h1 h2 h3 h4 _ ih =>
    have hu : (utf8 hs).length = hs.length := utf8_ascii_length fun w hw => hex_ascii (h2 w hw)
    have hh : Here env s.pos (c%'\\' :: c%'u' :: c%'{' :: (hs ++ c%'}' :: (src ++ after))) := by simpa using hh
    have hh1 : Here env (s.pos + 1) (c%'u' :: c%'{' :: (hs ++ c%'}' :: (src ++ after))) := hh.tail1 (by decide)
    have hh2 : Here env (s.pos + 1 + 1) (c%'{' :: (hs ++ c%'}' :: (src ++ after))) := hh1.tail1 (by decide)
    have hh3 : Here env (s.pos + 1 + 1 + 2 + hs.length) (src ++ after) := by
      have := (hh2.tail1 (by decide)).append.tail1 (by decide)
      rw [hu] at this
      rwa [show s.pos + 1 + 1 + 2 + hs.length = s.pos + 1 + 1 + 1 + hs.length + 1 by omega]
    obtain ⟨t, e1, e2⟩ := ih (s := { s with pos := s.pos + 1 + 1 + 2 + hs.length }) (buf := buf ++ encodeRune (numeral 16 hs)) (fun x hx => h0 x (by simp [hx]))
      hfin.tail.tail.tail.append.tail hh3 (by rw [hend]; simp [enc_len, hu]; omega)
    refine ⟨t, by rw [e1], ?_⟩
    refine EvN.def (m := fun self => escapesBody self end_ k (flagBytes fl) ip buf segs) ?_ (fun _ => rfl)
    unfold escapesBody
    refine EvP.prim (next_here hh) ?_
    dsimp only [List.cons_append, headC_cons, width_cons]
    refine EvP.neg (by rw [hend]; simp [enc_len]; try omega) (EvP.neg (by simp) ?_)
    rw [enc_len (show 92 < 128 by omega)]
    refine EvP.prim (next_here (s := { s with pos := s.pos + 1 }) hh1) ?_
    dsimp only [List.cons_append, headC_cons, width_cons]
    refine EvP.neg (by rw [hend]; simp [enc_len]; try omega) ?_
    refine EvP.neg (fun h => h ⟨by omega, (flag_contains (by omega) hfl).2 (.inr ⟨h1, by omega⟩)⟩) (EvP.neg (by omega) ?_)
    simp only [Nat.reduceEqDiff, if_false, if_true, enc_len (show 117 < 128 by omega)]
    refine EvP.prim (appendUnicodeBraces (s := { s with pos := s.pos + 1 + 1 }) h2 h3 h4 hh2) ?_
    rw [← List.append_assoc]
    exact e2

/-- The text of a heredoc, from its first line. -/
theorem means_start (hfl : ∀ x ∈ fl, x ∈ flagLetters) (hm : Means fl ip k (strip k src) out) (h0 : ∀ c ∈ src, c ≠ 0) (hfin : HdTail src after)
    (hh : Here env s.pos (src ++ after)) (hend : end_ = s.pos + (utf8 src).length) :
    ∃ p, stripIndent k env s = .ok () { s with pos := p } ∧ ∃ t : St, t = { s with pos := t.pos } ∧ Esc env end_ k fl ip [] [] { s with pos := p } out t := by
  by_cases hne : src = []
  · subst hne
    have he : strip k [] = [] := by unfold strip; split <;> simp
    rw [he] at hm
    cases hm
    obtain ⟨p, rs', g1, g2, g3⟩ := strip_any (k := k) hh
    refine ⟨p, g1, { s with pos := p + width rs' }, rfl, EvN.def (m := fun self => escapesBody self end_ k (flagBytes fl) ip [] []) ?_ (fun _ => rfl)⟩
    unfold escapesBody
    refine EvP.prim (next_here (s := { s with pos := p }) g2) ?_
    dsimp only
    exact EvP.pos (.inr (by simp at hend; omega)) EvP.ret
  · obtain ⟨p, g1, g2, g3⟩ := strip_exec (k := k) hne hfin hh
    obtain ⟨t, e1, e2⟩ := means_exec (s := { s with pos := p }) (buf := []) (end_ := end_) hfl hm (fun x hx => h0 x (by
        obtain ⟨y, e⟩ := strip_suffix k src
        rw [e]; simp [hx])) hfin.strip g2 (by rw [hend]; dsimp only; omega)
    exact ⟨p, g1, t, by rw [e1], by simpa using e2⟩

theorem strip_zero (l : List Nat) : strip 0 l = l := by unfold strip; simp

/-- Without flags, quotes and margin every character stands for itself. -/
theorem means_verbatim (hm : Means [] false 0 src out) : out = utf8 src := by
  induction hm with
  | nil => rfl
  | char _ _ _ _ ih => rw [ih, utf8_cons]
  | newline _ ih => rw [ih, strip_zero, utf8_cons]; rfl
  | last => rfl
  | noEsc _ _ _ _ ih => rw [ih, utf8_cons, utf8_cons]; rfl
  | noJoin _ _ ih => rw [ih, strip_zero, utf8_cons, utf8_cons]; rfl
  | join h => cases h
  | esc h => cases h
  | u4 h => cases h
  | braces h => cases h

end escapes

/-! ## All of it -/

theorem unlines_snoc {ls : List (List Nat)} (h : ls ≠ []) : ∃ u, unlines ls = u ++ [c%'\n'] := by
  obtain ⟨ls, l, rfl⟩ := (List.eq_nil_or_concat ls).resolve_left h
  exact ⟨unlines ls ++ l, by simp [unlines]⟩

/-- Where the text ends. -/
theorem contentEnd_exec {T0 : Nat} {dash : Bool} {ls : List (List Nat)} (hne : dash = true → ls ≠ []) (hT : 1 ≤ T0) (hprev : env.text[T0 - 1]? = some 10)
    (hh : Here env T0 (unlines ls ++ rest)) :
    contentEndOf env.text (T0 + (utf8 (unlines ls)).length) dash = some (T0 + (utf8 (body dash ls)).length : Nat) ∧
    ∃ after, unlines ls ++ rest = body dash ls ++ after ∧ HdTail (body dash ls) after := by
  cases dash with
  | false =>
    refine ⟨rfl, rest, rfl, ?_⟩
    by_cases h : ls = []
    · subst h; exact .inl rfl
    · obtain ⟨u, e⟩ := unlines_snoc h
      right; left
      show (unlines ls).getLast? = _
      rw [e]; simp
  | true =>
    obtain ⟨u, e⟩ := unlines_snoc (hne rfl)
    have hlen : (utf8 (unlines ls)).length = (utf8 u).length + 1 := by rw [e]; simp [enc_len]
    have hget : ∀ j, env.text[T0 + j]? = (utf8 (unlines ls ++ rest))[j]? := by
      intro j
      rw [← hh.drop, List.getElem?_drop]
    unfold contentEndOf body
    simp only [if_true]
    rw [if_pos (by omega), hlen]
    have hchomp : chomp (unlines ls) = if u.getLast? = some c%'\r' then u.dropLast else u := by
      unfold chomp; rw [e]; simp
    rw [hchomp]
    rcases List.eq_nil_or_concat u with rfl | ⟨v, x, hv⟩
    · refine ⟨?_, c%'\n' :: rest, by simp [e], .inl rfl⟩
      simp only [utf8_nil, List.length_nil]
      rw [show T0 + (0 + 1) - 2 = T0 - 1 by omega, hprev]
      simp
    · rw [List.concat_eq_append] at hv
      subst hv
      have hp := encodeRune_length_pos x
      have hb : env.text[T0 + ((utf8 (v ++ [x])).length + 1) - 2]? = (encodeRune x)[(encodeRune x).length - 1]? := by
        rw [show T0 + ((utf8 (v ++ [x])).length + 1) - 2 = T0 + ((utf8 v).length + ((encodeRune x).length - 1)) by
          simp; omega, hget, e]
        simp only [utf8_append, utf8_cons, utf8_nil, List.append_nil, List.append_assoc]
        rw [List.getElem?_append_right (by omega), List.getElem?_append_left (by omega)]
        congr 1; omega
      rw [hb, List.getElem?_eq_getElem (by omega)]
      dsimp only
      simp only [List.getLast?_append, List.getLast?_singleton, Option.some_or, List.dropLast_concat]
      by_cases hx : x = 13
      · subst hx
        rw [if_pos rfl]
        refine ⟨?_, c%'\r' :: c%'\n' :: rest, by rw [e]; simp, .inr (.inr (.inr rfl))⟩
        simp [encodeRune_ascii]
        omega
      · have hx' : ¬ (some x = some c%'\r') := by simpa using hx
        have hl : (encodeRune x)[(encodeRune x).length - 1] ≠ 13 := by
          intro h
          have hm := encodeRune_ascii_mem (List.getElem_mem (l := encodeRune x) (n := (encodeRune x).length - 1) (by omega)) (by rw [h]; decide)
          rw [h] at hm
          exact hx (by simpa using hm)
        rw [if_neg (c := some x = _) hx', if_neg]
        · refine ⟨?_, c%'\n' :: rest, by rw [e]; simp, .inr (.inr (.inl rfl))⟩
          simp; omega
        · simpa using hl

end
end PP
