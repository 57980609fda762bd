import Verif.Lemmas.HeredocText
import Verif.Lemmas.Source

/-! # A source that begins with a heredoc with interpolation -/
namespace PP
open PP.Spec

/-- The first token on its line. -/
theorem good_first {env : Env} {ws line : List Nat} {p' b' p : Nat} (hs : Skips 0 0 ws p' b') (h : Here env 0 (ws ++ line)) (hl : NoSkip line) (hp : p' < p) :
    Good env b' p := by
  have e := hs.pos
  rcases hs.line' with rfl | ⟨w1, w2, rfl, h5, h6⟩
  · exact ⟨by omega, .inl (by omega), ws, line, p', _, h, hl, hs, .inl hp, .inl rfl⟩
  · rw [List.append_assoc] at h
    have := h.append
    rw [← h5] at this
    have e2 := h6.pos
    exact ⟨by omega, .inl (by omega), w2, line, p', b', this, hl, h6, .inl hp, .inl rfl⟩

/-- The first token of a source is a heredoc with interpolation. -/
theorem first_textHeredoc {env : Env} {s : St} {ws decl ln text after syn src : List Nat} {nl : Bool} {ps : List Expr}
    (hfac : env.hasFactory = true) (hpos : s.pos = 0) (hnls : s.nls = none) (hb : s.bol = 0)
    (hH : Here env 0 (ws ++ (c%'@' :: c%'(' :: (decl ++ c%')' :: (ln ++ c%'\n' :: (text ++ after))))))
    (hw : White ws nl) (hI : IsTextHeredoc env s.tok syn src ps decl text after) (hex : ∃ e, .un z .text e ∈ ps) (hln : RestOfLine ln) :
    ∃ u start textAt segs, start = (utf8 ws).length ∧ textAt = start + 2 + (utf8 decl).length + 1 + (utf8 ln).length + 1 ∧
      EvN env .nextToken s () u ∧ u.tok = .heredoc ∧
      u.val = .expr (.heredoc ⟨start, (textAt : Int) + (utf8 src).length - (start : Nat)⟩ (utf8 syn) (.concat ⟨textAt, (utf8 src).length⟩ segs)) ∧
      bareL segs = ps ∧ u.pos = start + 2 + (utf8 decl).length + 1 ∧ u.nls = some (textAt + (utf8 text).length + 1) ∧ u.names = s.names := by
  have hns : NoSkip (c%'@' :: c%'(' :: (decl ++ c%')' :: (ln ++ c%'\n' :: (text ++ after)))) := ⟨rfl, by simp, by simp⟩
  have hH' : Here env s.pos (ws ++ (c%'@' :: c%'(' :: (decl ++ c%')' :: (ln ++ c%'\n' :: (text ++ after))))) := by rw [hpos]; exact hH
  obtain ⟨b', -, hsk, -⟩ := white_skips hw 0 0
  have hsk' : Skips s.pos s.bol ws (s.pos + (utf8 ws).length) b' := by rw [hpos, hb, Nat.zero_add]; simpa using hsk
  have hp1 : Here env ((utf8 ws).length + 1) (c%'(' :: (decl ++ c%')' :: (ln ++ c%'\n' :: (text ++ after)))) := by
    have := hH.append
    rw [Nat.zero_add] at this
    exact this.tail1 (by decide)
  have hp2 := hp1.tail1 (by decide)
  have hgood : Good env b' ((utf8 ws).length + 1 + 1) := good_first hsk hH hns (by omega)
  obtain ⟨segs, u, e1, e2, e3, e4, e5, e6⟩ := consume_textHeredoc (env := env)
    (s := { s with pos := (utf8 ws).length + 1 + 1, bol := b', tsp := (utf8 ws).length }) (start := (utf8 ws).length)
    hfac hI hex hln rfl hnls hp2 rfl (.inl rfl) hgood
  refine ⟨u, _, _, segs, rfl, rfl, EvN.step ?_, e3, ?_, e2, e5, e6⟩
  · obtain ⟨k, hk⟩ := e1.ex
    refine ⟨k, fun f hf => ?_⟩
    have := nextToken_of (n := f) (skipWhite_exec hsk' hnls hH' hns)
    show run (f + 1) .nextToken env s = _
    rw [this, hpos, Nat.zero_add]
    show lexChar (run f) 0 64 (utf8 ws).length env _ = _
    unfold lexChar
    ex
    simp only [isUppercaseLetter, isLowercaseLetter]
    simp only [Nat.reduceEqDiff, Nat.reduceLeDiff, decide_true, decide_false, Bool.false_and, Bool.false_eq_true, if_false, if_true, false_and]
    unfold lexAt
    ex
    rw [width_cons, enc_len (show 64 < 128 by omega), peek_here hp1]
    dsimp only [headC_cons, width_cons]
    simp only [Nat.reduceEqDiff, if_false, if_true]
    rw [enc_len (by omega)]
    exact hk f hf
  · exact e4



section
variable {env : Env} {ts : List T} {ss : List Expr} {e : Expr} {syn : List Nat} {ps : List Expr}

/-- The stream ends with the source; the places of tokens are not recorded. -/
@[reducible] def Ending.anywhere (env : Env) : Ending :=
  ⟨.end_, fun s => AtEnd env s.tsp ∧ AtEnd env s.pos, fun _ _ _ h => h, fun _ _ => True, fun _ _ => True, fun _ _ _ _ => trivial, fun _ _ => ⟨trivial, trivial⟩⟩

/-- The line with the heredoc ends behind the heredoc. -/
theorem jump_line {s : St} {cm skipped : List Nat} {q : Nat} (hcm : IsComment cm) (hq : s.nls = some q)
    (h : Here env s.pos (cm ++ 10 :: skipped)) : Jumps env s { s with pos := q, bol := q, nls := none } := by
  refine ⟨⟨s.pos, s.bol, s.nls, rfl⟩, fun v ns ds => ?_⟩
  have hl := h.length
  rw [utf8_append, List.length_append] at hl
  have hu2 := utf8_length_le cm
  have hL : (utf8 (10 :: skipped)).length ≥ 1 := by rw [utf8_cons, List.length_append, enc_len (by omega)]; omega
  unfold skipWhite
  ex
  rcases hcm with rfl | ⟨body, rfl, hbody⟩
  · refine ⟨charFuel env - 1, 0, by unfold charFuel; omega, ?_⟩
    rw [show charFuel env = (charFuel env - 1) + 1 by unfold charFuel; omega]
    conv => lhs; unfold skipWhiteLoop
    ex
    rw [next_here (s := { s with val := v, names := ns, defs := ds }) h]
    simp only [List.nil_append, headC_cons, width, enc_len (show 10 < 128 by omega), newLine, hq]
    simp
  · simp only [List.length_cons] at hu2
    obtain ⟨g2, hg2⟩ : ∃ g2, charFuel env - 1 - body.length = g2 + 1 := ⟨charFuel env - 2 - body.length, by unfold charFuel; omega⟩
    have h5 : Here env (s.pos + 1) (body ++ 10 :: skipped) := h.tail1 (by omega)
    refine ⟨g2, s.pos, by unfold charFuel at hg2; omega, ?_⟩
    rw [show charFuel env = (charFuel env - 1) + 1 by unfold charFuel; omega]
    conv => lhs; unfold skipWhiteLoop
    ex
    rw [next_here (s := { s with val := v, names := ns, defs := ds }) h]
    simp only [List.cons_append, headC_cons, width, enc_len (show 35 < 128 by omega), Nat.reduceEqDiff, if_false, if_true]
    rw [loop_hash (s := { s with pos := s.pos + 1, val := v, names := ns, defs := ds }) hbody (by unfold charFuel; omega) h5, hg2]
    conv => lhs; unfold skipWhiteLoop
    ex
    rw [next_here (s := { s with pos := s.pos + 1 + (utf8 body).length, val := v, names := ns, defs := ds }) h5.append]
    simp only [headC_cons, width, enc_len (show 10 < 128 by omega), newLine, hq]
    simp

theorem _root_.PP.Spec.IsComment.restOfLine {cm : List Nat} (h : IsComment cm) : RestOfLine cm := by
  rcases h with rfl | ⟨body, rfl, hb⟩
  · exact .nil
  · exact .comment fun c hc => ⟨(hb c hc).2, (hb c hc).1⟩

/-- The first token of the source. -/
theorem textSource_ready (hepp : env.epp = false) (hfac : env.hasFactory = true) (h : TextHeredocSource env syn ps ts) (s : St) (hn : s.nls = none) (ht : s.tok = .end_)
    (hp : s.pos = 0) (hb : s.bol = 0) : letI := Ending.anywhere env; Ready env (.heredoc (utf8 syn) (.concat z ps) :: ts) s := by
  letI := Ending.anywhere env
  obtain ⟨ws, nl, decl, cm, text, after, src, h1, h2, hw, hcm, hI, hex, hrest⟩ := h
  have hH : Here env 0 _ := Here.start h1 h2
  have h3 : Here env ((utf8 ws).length + 2 + (utf8 decl).length + 1) (cm ++ c%'\n' :: (text ++ after)) := by
    have := ((hH.append.tail1 (by decide)).tail1 (by decide)).append.tail1 (by decide)
    rw [Nat.zero_add] at this
    exact this
  have h4 := (h3.append.tail1 (by decide)).append
  refine ready_cons (rest := cm ++ c%'\n' :: (text ++ after)) (fun v ns ds => ?_) (by simp) (by simp) ⟨by simp, by simp⟩
  obtain ⟨u, start, textAt, segs, rfl, rfl, k1, k2, k3, k4, k5, k6, k7⟩ := first_textHeredoc (env := env) (s := { s with val := v, names := ns, defs := ds })
    hfac hp hn hb hH hw (by rw [show ({ s with val := v, names := ns, defs := ds } : St).tok = .end_ from ht]; exact hI) hex hcm.restOfLine
  rw [← k5] at h3
  have hj := jump_line hcm k6 h3
  refine ⟨u, k1, k7, ⟨k2, _, _, k3, by simp only [bare, k4]⟩, h3, by simp, ⟨trivial, trivial⟩, ?_⟩
  have hE : EndsAt (Ending.anywhere env) env none := ⟨rfl, fun _ h1 h2 => ⟨h1, h2⟩, fun h => by rw [hepp] at h; cases h⟩
  rcases hrest with ⟨rest, rfl, hl⟩ | ⟨rfl, rfl⟩
  · obtain ⟨i1, c0, p', u', c, i2, i3, i4, i5, i6, i10, i11, i7, i8, i9⟩ := layout_ready hfac hl (Ending.anywhere env) hE
      ⟨fun _ _ _ _ => trivial, fun _ _ => trivial, fun _ _ _ => trivial, fun _ _ _ => trivial⟩ u _ _ hj (by simp) (by simp)
      rfl (.inl k2) (h4.tail1 (by decide)) ⟨by simp, .inl rfl⟩
    refine ⟨i1, c0, p', u', c, i2, i3, i4, i5, i6, i10, i11, i7, fun hd => ?_, i9⟩
    rw [hcm.noDigit] at hd
    cases hd
  · have hL := h4.length
    rw [show utf8 [] = [] from rfl] at hL
    simp only [List.length_nil, Nat.add_zero] at hL
    generalize hQ : (utf8 ws).length + 2 + (utf8 decl).length + 1 + (utf8 cm).length + 1 + (utf8 text).length + 1 = Q at *
    have hQ2 : Q = env.text.length + 1 := by omega
    refine reach_end hE (s := { u with pos := Q, bol := Q, nls := none }) (e := Q) (bol := Q) (.inr hQ2) rfl rfl rfl rfl (fun v ns ds => ?_) hcm.noDigit
    obtain ⟨f, csp, hf, h0⟩ := hj.2 v ns ds
    obtain ⟨g, rfl⟩ : ∃ g, f = g + 1 := ⟨f - 1, by omega⟩
    rw [h0, loop_end (by show env.text.length ≤ Q; omega)]

/-- The program. -/
theorem textProgram_of (hepp : env.epp = false) (hfac : env.hasFactory = true) (hs : TextHeredocSource env syn ps ts)
    (hg : G [] .stmts ss (.heredoc (utf8 syn) (.concat z ps) :: ts)) {s : St} (hcl : Clean s) :
    ∃ p b ds t, EvP env (fun self => parseProgram self false) s (.program p b ds) t ∧ bare b = .block z ss := by
  letI := Ending.anywhere env
  obtain ⟨s1, a1, -, -, h4⟩ := textSource_ready hepp hfac hs { s with pos := 0, defs := [], nls := none } rfl hcl.tok rfl hcl.bol s.val [] []
  have e : ({ s with pos := 0, defs := [], nls := none } : St) = { s with pos := 0, nls := none, names := [], defs := [] } := by rw [← hcl.names]
  replace a1 : EvN env .nextToken { s with pos := 0, defs := [], nls := none } () s1 := by rw [e]; exact a1
  obtain ⟨c, p, u, a4, a3, a5⟩ := h4 (.inr rfl)
  have hd : DoneStmts env [] ss (.heredoc (utf8 syn) (.concat z ps) :: ts) := G_reads hg
  obtain ⟨raw, s2, b1, b2, b3, b4, b5⟩ := hd .end_ [] { u with pos := p } (.inr rfl) rfl (by rw [List.append_nil]; exact a5) a3
  refine ⟨⟨0, s2.pos⟩, .block ⟨p, (s2.pos : Int) - p⟩ (tl raw), s2.defs, s2, ?_, by simp only [bare, b2]⟩
  unfold parseProgram
  ev
  refine EvP.bind (a := .block ⟨p, (s2.pos : Int) - p⟩ (tl raw)) (t := s2) ?_ ?_
  · unfold parseTop
    ev
    refine EvP.neg (by rw [hepp]; simp) (EvP.bind a1 (EvN.step ?_))
    show EvP env (fun self => parseBody self .end_ false) _ _ _
    unfold parseBody
    refine EvP.prim a4 ?_
    dsimp only
    ev
    refine EvP.neg nofun (EvP.bind (at_nil b1) (EvP.prim (transformCalls_of b3) ?_))
    ev
  · refine EvP.neg nofun ?_
    ev

end

end PP
