import Verif.Lemmas.Source
import Verif.Spec.Template

/-! # Templates -/
namespace PP
open PP.Spec
set_option linter.unusedSimpArgs false

/-- The stream ends with the template. -/
@[reducible] def Ending.template (env : Env) : Ending :=
  ⟨.end_, fun s => AtEnd env s.pos, fun _ _ _ h => h, fun _ _ => True, fun _ _ => True, fun _ _ _ _ => trivial, fun _ _ => ⟨trivial, trivial⟩⟩

section
variable {env : Env} {s : St} {ts : List T} {e : Expr} {ss : List Expr}

theorem template_places : Places (Ending.template env) env none :=
  ⟨fun _ _ _ _ => trivial, fun _ _ => trivial, fun _ _ _ => trivial, fun _ _ _ => trivial⟩

theorem template_endsAt : EndsAt (Ending.template env) env none := ⟨rfl, fun _ _ h => h, fun _ _ h => h⟩

theorem noHeredoc_of (h : ¬ b!"@(" <:+: env.text) : NoHeredoc env := by
  intro p r hr
  apply h
  have := hr.drop
  rw [utf8_cons, utf8_cons, encodeRune_ascii (by omega), encodeRune_ascii (by omega)] at this
  refine ⟨env.text.take p, utf8 r, ?_⟩
  have h2 := List.take_append_drop p env.text
  rw [this] at h2
  simpa using h2

theorem header_good {cs : List Nat} (h : Header env cs) (he : env.text = utf8 cs) (hr : ∀ r ∈ cs, Rune r) {p : Nat} (hp : 0 < p) : Good env 0 p := by
  obtain ⟨pre, line, nl, rfl, h1, h2, h3, h4⟩ := h
  obtain ⟨b', -, hs, h5, -⟩ := white_skips h1 0 0
  refine ⟨hp, .inl (by omega), pre, line, _, b', Here.start he hr, h2, hs, .inr h3, ?_⟩
  cases nl with
  | true => exact .inr (noHeredoc_of (h4 rfl))
  | false => exact .inl (h5 rfl)

/-- After the text at the beginning. -/
theorem template_start (hepp : env.epp = true) (hfac : env.hasFactory = true) (h : Template env ts) (hn : s.nls = none) (hp : s.pos = 0) (hb : s.bol = 0) :
    letI := Ending.template env
    ∃ s1, EvP env (fun self => consumeEPP self) s () s1 ∧ s1.names = s.names ∧
      (Feeds env ts s1 ∨ ∃ v ts', v ≠ [] ∧ ts = .render v :: ts' ∧ s1.tok = .renderString ∧ s1.val = .str v ∧ ∃ s2, EvN env .nextToken s1 () s2 ∧ s2.names = s.names ∧ Feeds env ts' s2) := by
  letI := Ending.template env
  obtain ⟨cs, out, o, rest, ts', h1, h2, h3, h4, h5, h6, rfl⟩ := h
  have hh : Here env s.pos (cs ++ rest) := by rw [hp]; exact Here.start h1 h2
  have hutf : ∀ {x : List Nat}, x ≠ [] → utf8 x ≠ [] := by
    intro x hx hu
    have := utf8_nil_iff (cs := x)
    rw [hu] at this
    simp at this
    exact hx this
  cases rest with
  | nil =>
    have ho : o = out := by
      rcases h4 with ⟨⟨r, h⟩, -⟩ | ⟨-, h⟩
      · cases h
      · exact h
    subst ho
    have hts : ts' = [] := by cases h5; rfl
    subst hts
    have hc := fun self => consume_end (self := self) h3 (by simpa using hh)
    by_cases ho : o = []
    · subst ho
      refine ⟨{ s with pos := env.text.length, tok := .end_, val := .nil }, ⟨0, fun f _ => hc _⟩, rfl, .inl ⟨rfl, rfl, .inl rfl⟩⟩
    · refine ⟨{ s with pos := env.text.length, tok := .renderString, val := .str (utf8 o) }, ⟨0, fun f _ => ?_⟩, rfl, .inr ⟨utf8 o, [], hutf ho, by simp [textToken, hutf ho], rfl, rfl,
        { s with pos := env.text.length, tok := .end_, val := .nil, tsp := env.text.length }, ⟨1, fun f hf => ?_⟩, rfl, rfl, rfl, .inl rfl⟩⟩
      · rw [hc, if_neg (by simpa using ho)]
      · obtain ⟨g, rfl⟩ : ∃ g, f = g + 1 := ⟨f - 1, by omega⟩
        show run (g + 1) .nextToken env _ = _
        rw [nextToken_of (atEnd (u := { s with pos := env.text.length, tok := .renderString, val := .str (utf8 o) }) (Nat.le_refl _))]
        rfl
  | cons c rest =>
    have htag : Tag (c :: rest) := (tags_tag h5).resolve_left (by rintro ⟨h, -⟩; cases h)
    obtain ⟨o', e1, e2⟩ := consume_tag (self := fun _ => timeout) h3 htag hh
    have := Shown.unique e1 h4
    subst this
    have hgood := header_good (h6 (by simp)) h1 h2 (p := s.pos + (utf8 cs).length + 2) (by omega)
    obtain ⟨hrd, -⟩ := tags_ready hfac h5 (Ending.template env) template_endsAt template_places { s with pos := s.pos + (utf8 cs).length, tok := .renderString, val := .str (utf8 o') } hepp hh.append hn rfl (by show Good env s.bol _; rw [hb]; exact hgood)
    obtain ⟨s2, r1, r2, r3, -⟩ := hrd (.str (utf8 o')) s.names s.defs
    by_cases ho : o' = []
    · subst ho
      refine ⟨s2, ?_, r2, .inl (by simpa [textToken] using r3)⟩
      obtain ⟨k, r1⟩ := r1.ex
      refine ⟨k, fun f hf => ?_⟩
      obtain ⟨o', e1, e2⟩ := consume_tag (self := run f) h3 htag hh
      have := Shown.unique e1 h4
      subst this
      rw [e2]
      exact r1 f hf
    · refine ⟨{ s with pos := s.pos + (utf8 cs).length, tok := .renderString, val := .str (utf8 o') }, ⟨0, fun f _ => ?_⟩, rfl, .inr ⟨utf8 o', ts', hutf ho, by simp [textToken, hutf ho], rfl, rfl, s2, r1, r2, r3⟩⟩
      clear e2
      obtain ⟨o2, e3, e4⟩ := consume_tag (self := run f) h3 htag hh
      rw [Shown.unique e3 h4] at e4
      rw [e4, if_neg (by simpa using ho)]

/-! ## Phrases -/

section
variable [Ending]

theorem expr_of_atom {e : Expr} {s s' : St} (h : EvN env .atom s e s') (hp : plain e = true) (hs : startsUnary s.tok = false)
    (hc : cExpr s'.tok = false) : EvN env .expression s e s' :=
  expression_of_primary (EvN.step (EvP.bind h (primLoop_stop hp (by simp only [cExpr, cOps, Bool.or_eq_false_iff] at hc; exact hc.1.1.1)))) hs hc

/-- One phrase. -/
def DonePhrase (env : Env) (e : Expr) (te : List T) : Prop := DoneP env [] (fun self => self .expression) (Is e) te (cBin .rel)

theorem done_expr {te : List T} (h : G [] .expr e te) : DonePhrase env e te := by
  have hd : DoneP env [] (fun self => self .expression) (Is e) te cExpr := G_reads h
  exact hd.mono fun t ht => by
    have := cBin_cRes ht
    simp only [cRes, Bool.or_eq_false_iff] at this
    exact this.1

theorem done_typeDef {te : List T} (h : G [] .typeDef e te) : DonePhrase env e te := by
  have hd : DoneType env [] e te := G_reads h
  intro rest s hf hn hr
  obtain ⟨e', s1, a1, a2, a3, a4⟩ := hd rest s hf hn (cBin_cRes hr)
  have ht : FirstTok isTypeDef te := G_first h
  have ht' : s.tok = .kType ∨ s.tok = .renderExpr := by
    have := ht.tok hf rfl
    unfold isTypeDef at this
    split at this <;> simp_all
  have hp : plain e = true := G_plain h
  have h3 := cBin_cRes hr
  simp only [cRes, Bool.or_eq_false_iff] at h3
  exact ⟨e', s1, expr_of_atom a1 (by unfold Is at a2; rw [← plain_bare, a2, hp]) (by rcases ht' with h | h <;> rw [h] <;> rfl) (a3.test h3.1 rfl), a2, a3, a4⟩

theorem name_expr {n : GoStr} {rest : List T} (hf : Feeds env (.name n :: rest) s) (hr : cExpr (hd rest) = false) :
    ∃ p s', EvN env .expression s (.qname p n) s' ∧ Feeds env rest s' ∧ s'.names = s.names := by
  obtain ⟨s1, a1, a2, a3⟩ := Feeds.next hf
  have h1 : EvN env .atom s (.qname ⟨s.tsp, (s.pos : Int) - s.tsp⟩ n) s1 := by
    refine EvN.step ?_
    show EvP env (fun self => atomBody self) _ _ _
    unfold atomBody
    ev
    rw [hf.reads.1]
    dsimp only
    unfold leaf
    exact EvP.prim (tokenString_str hf.reads.2) (EvP.bind a1 EvP.ret)
  exact ⟨_, s1, expr_of_atom h1 rfl (by rw [hf.reads.1]; rfl) (a3.test hr rfl), a3, a2⟩

omit [Ending] in
theorem loop_phrase {s s1 s2 : St} {raw : List Expr} (ht : s.tok ≠ .end_) (h : EvN env .expression s e s1)
    (hx : ∀ acc, EvN env (.eppLoop acc) s1 (acc ++ raw) s2) (acc : List Expr) : EvN env (.eppLoop acc) s (acc ++ e :: raw) s2 := by
  refine EvN.step ?_
  show EvP env (fun self => eppLoopBody self acc) _ _ _
  unfold eppLoopBody
  ev
  refine EvP.neg ht (EvP.bind h ?_)
  have := hx (acc ++ [e])
  rw [List.append_assoc] at this
  exact this

theorem phrases_read (hend : Ending.tok = .end_) (h : Phrases ss ts) : ∀ s, Feeds env ts s → s.names = [] →
    ∃ raw s', (∀ acc, EvN env (.eppLoop acc) s (acc ++ raw) s') ∧ bareL (tl raw) = ss ∧ firstComma (tl raw) = none ∧ Feeds env [] s' ∧ s'.names = [] := by
  have stmt : ∀ {e ss te ts}, DonePhrase env e te → FirstTok opens te → plain e = true → isStatementName e = false → Apart ts →
      (∀ s, Feeds env ts s → s.names = [] →
        ∃ raw s', (∀ acc, EvN env (.eppLoop acc) s (acc ++ raw) s') ∧ bareL (tl raw) = ss ∧ firstComma (tl raw) = none ∧ Feeds env [] s' ∧ s'.names = []) →
      ∀ s, Feeds env (te ++ ts) s → s.names = [] →
        ∃ raw s', (∀ acc, EvN env (.eppLoop acc) s (acc ++ raw) s') ∧ bareL (tl raw) = withRval false e :: ss ∧ firstComma (tl raw) = none ∧ Feeds env [] s' ∧ s'.names = [] := by
    intro e ss te ts hd ht hp hsn hap ih s hf hn
    have hap' := apart_hd (rest := []) hap (close := .end_) hend (.inr rfl)
    rw [List.append_nil] at hap'
    obtain ⟨e', s1, a1, a2, a3, a4⟩ := hd _ s hf hn hap'.1
    obtain ⟨raw, s2, b1, b2, b3, b4, b5⟩ := ih s1 a3 a4
    unfold Is at a2
    have hst : isStatementCall e' = false := by rw [← isStatementCall_bare, a2, hsn]
    have hpl : plain e' = true := by rw [← plain_bare, a2, hp]
    refine ⟨e' :: raw, s2, loop_phrase (ht.ne hf rfl) a1 b1, ?_, ?_, b4, b5⟩
    · rw [tl_stmt raw hst, bareL_cons, bare_setRval, a2, b2]
    · rw [tl_stmt raw hst]
      exact firstComma_cons (plain_setRval hpl _) b3
  induction h with
  | nil =>
    intro s hf hn
    refine ⟨[], s, fun acc => EvN.step ?_, bareL_nil, rfl, hf, hn⟩
    show EvP env (fun self => eppLoopBody self acc) _ _ _
    unfold eppLoopBody
    rw [List.append_nil]
    ev
    exact EvP.pos (hf.1.trans hend) EvP.ret
  | expr hg hsn hap _ ih => exact stmt (done_expr hg) (G_first hg) (G_plain hg) hsn hap ih
  | @typeDef e ss te ts hg hap _ ih =>
    obtain ⟨h1, h2, -⟩ := typeDef_shape hg
    have := stmt (done_typeDef hg) ((G_first hg : FirstTok _ _).imp fun t => by cases t <;> simp [isTypeDef, opens, closer]) (G_plain hg) h2 hap ih
    rw [h1] at this
    exact this
  | @call n e ss te ts hn' hg hap0 hap _ ih =>
    intro s hf hn
    have hd : DonePhrase env e te := hg.elim done_expr done_typeDef
    have hp : plain e = true := hg.elim (fun h => G_plain h) (fun h => G_plain h)
    have ht : FirstTok opens te := hg.elim (fun h => G_first h) fun h => (G_first h : FirstTok _ _).imp fun t => by cases t <;> simp [isTypeDef, opens, closer]
    have hap1 := apart_hd (rest := [y .rc]) hap0 rfl (.inl rfl)
    have hd1 : PP.hd (te ++ ts) = PP.hd te := by obtain ⟨t, r, rfl, -⟩ := ht; rfl
    have hd2 : PP.hd (te ++ [y .rc]) = PP.hd te := by obtain ⟨t, r, rfl, -⟩ := ht; rfl
    rw [hd2, ← hd1] at hap1
    have hap' := apart_hd (rest := []) hap (close := .end_) hend (.inr rfl)
    rw [List.append_nil] at hap'
    obtain ⟨p, s1, a1, a2, a3⟩ := name_expr hf hap1.2.2.2
    obtain ⟨e', s2, b1, b2, b3, b4⟩ := hd _ s1 a2 (by rw [a3, hn]) hap'.1
    obtain ⟨raw, s3, c1, c2, c3, c4, c5⟩ := ih s2 b3 b4
    unfold Is at b2
    have hpl : plain e' = true := by rw [← plain_bare, b2, hp]
    obtain ⟨q, hq⟩ := tl_call (m := .qname p n) (e := e') raw (isStatementCall_of hn')
    refine ⟨.qname p n :: e' :: raw, s3, loop_phrase (by rw [hf.reads.1]; nofun) a1 (loop_phrase (ht.ne a2 rfl) b1 c1), ?_, ?_, c4, c5⟩
    · rw [hq, bareL_statementArgs_one hpl]
      simp only [bareL_cons, bareL_nil, bare, bare_setRval, b2, c2, bareO_none]
    · rw [hq]
      exact c3
  | @name n hn' =>
    intro s hf hn
    have hx : cExpr (PP.hd ([] : List T)) = false := by
      show cExpr Ending.tok = false
      rw [hend]; rfl
    obtain ⟨p, s1, a1, a2, a3⟩ := name_expr hf hx
    refine ⟨[.qname p n], s1, loop_phrase (by rw [hf.reads.1]; nofun) a1 (fun acc => EvN.step ?_), by simp only [tl, transformLoop, setRval, bareL_cons, bareL_nil, bare], rfl, a2, by rw [a3, hn]⟩
    show EvP env (fun self => eppLoopBody self acc) _ _ _
    unfold eppLoopBody
    rw [List.append_nil]
    ev
    exact EvP.pos (a2.1.trans hend) EvP.ret

end

/-! ## The whole template -/

/-- `parseEpp` after the first text. -/
def restOfEpp (text : GoStr) (self : Self) : P Expr := do
  let s ← getS
  if s.tok = .end_ then do
    let p ← here 0
    asEppLambda (.renderString p text)
  else if s.tok = .pipe then
    if text.isEmpty = false then issue .parseIllegalEppParameters
    else do
      let ps ← lambdaParameterList self
      self .nextToken
      let body ← self (.parse .end_ false)
      let p ← here 0
      asEppLambda (mkEpp p ps body)
  else do
    let init := if text.isEmpty then [] else [.renderString ⟨0, s.tsp⟩ text]
    let es ← self (.eppLoop init)
    let es ← transformCalls es
    let p ← here 0
    asEppLambda (.block p es)

theorem parseEpp_text {s1 s2 : St} {v : GoStr} {R : Res Expr → Prop} (h0 : EvP env (fun self => consumeEPP self) s () s1) (ht : s1.tok = .renderString)
    (hv : s1.val = .str v) (h1 : EvN env .nextToken s1 () s2) (h : EvR env (restOfEpp v) s2 R) : EvR env (fun self => parseEpp self) s R := by
  unfold parseEpp
  refine EvP.bind h0 ?_
  ev
  dsimp only
  refine EvP.pos ht (EvP.prim (tokenString_str hv) (EvP.bind h1 ?_))
  exact h

theorem parseEpp_none {s1 : St} {R : Res Expr → Prop} (h0 : EvP env (fun self => consumeEPP self) s () s1) (ht : s1.tok ≠ .renderString)
    (h : EvR env (restOfEpp []) s1 R) : EvR env (fun self => parseEpp self) s R := by
  unfold parseEpp
  refine EvP.bind h0 ?_
  ev
  dsimp only
  refine EvP.neg ht ?_
  exact h

/-- A tree that is an EPP lambda with the meaning `e`. -/
def Yields (env : Env) (e : Expr) (m : Self → P Expr) (s : St) : Prop :=
  ∃ a t, EvP env m s a t ∧ bare a = e ∧ t.tok = .end_ ∧ t.names = []

section
variable [Ending]

theorem rest_text {v : GoStr} (hend : Ending.tok = .end_) (hf : Feeds env [] s) (hn : s.names = []) : Yields env (templateOf [] [.renderString z v]) (restOfEpp v) s := by
  have ht : s.tok = .end_ := hf.1.trans hend
  let p : Pos := ⟨0, (s.pos : Int) - (0 : Nat)⟩
  refine ⟨mkEpp p [] (.block p [.renderString p v]), s, ?_, ?_, ht, hn⟩
  · unfold restOfEpp
    ev
    refine EvP.pos ht ?_
    unfold asEppLambda
    ev
  · simp only [mkEpp, templateOf, bare, bareL_nil, bareL_cons, bareO_none]

theorem rest_parameters {ps : List Expr} {tp : List T} (hend : Ending.tok = .end_) (hp : G [] (.many .param) ps tp) (hg : G [] .stmts ss ts)
    (hf : Feeds env (y .pipe :: (tp ++ y .pipeEnd :: ts)) s) (hn : s.names = []) : Yields env (templateOf ps ss) (restOfEpp []) s := by
  have hpd : DoneMany env [] .param ps tp := G_reads hp
  have hd : DoneStmts env [] ss ts := G_reads hg
  have ht : s.tok = .pipe := hf.reads.1
  obtain ⟨s1, a1, a2, a3⟩ := Feeds.next hf
  obtain ⟨ps', s2, b1, b2, b3, b4⟩ := hpd .pipeEnd rfl _ s1 a3 (by rw [a2, hn]) rfl
  obtain ⟨-, -, h⟩ := b3
  obtain ⟨s3, c1, c2, -, h4, -⟩ := h s2.val s2.names s2.defs
  obtain ⟨c, p, u, c3, c4, c5⟩ := h4 (.inr hend)
  obtain ⟨raw, s4, d1, d2, d3, d4, d5⟩ := hd .end_ [] { u with pos := p } (.inr rfl) hend (by rw [List.append_nil]; exact c5) (by rw [← b4]; exact c4)
  refine ⟨mkEpp ⟨0, (s4.pos : Int) - (0 : Nat)⟩ ps' (.block ⟨p, (s4.pos : Int) - p⟩ (tl raw)), s4, ?_, ?_, d4.1.trans hend, d5⟩
  · unfold restOfEpp
    ev
    refine EvP.neg (by rw [ht]; nofun) (EvP.pos ht ?_)
    refine EvP.neg (by simp) ?_
    unfold lambdaParameterList
    refine EvP.bind (t := s2) (a := ps') (EvP.bind a1 (at_nil b1)) (EvP.bind c1 ?_)
    refine EvP.bind (t := s4) (a := .block ⟨p, (s4.pos : Int) - p⟩ (tl raw)) (EvN.step ?_) ?_
    · show EvP env (fun self => parseBody self .end_ false) _ _ _
      unfold parseBody
      refine EvP.prim c3 ?_
      dsimp only
      ev
      refine EvP.neg nofun (EvP.bind (at_nil d1) (EvP.prim (transformCalls_of d3) ?_))
      ev
    · ev
      unfold asEppLambda mkEpp
      ev
  · simp only [mkEpp, templateOf, bare, b2, d2, bareO_none]

omit [Ending] in
theorem phrases_first (h : Phrases ss ts) (hne : ts ≠ []) : FirstTok opens ts := by
  cases h with
  | nil => exact absurd rfl hne
  | expr hg => exact (G_first hg : FirstTok _ _).append
  | typeDef hg => exact ((G_first hg : FirstTok _ _).imp fun t => by cases t <;> simp [isTypeDef, opens, closer]).append
  | call => exact FirstTok.mk rfl
  | name => exact FirstTok.mk rfl

theorem rest_plain {v : GoStr} (hend : Ending.tok = .end_) (h : Phrases ss ts) (hne : ts ≠ []) (hf : Feeds env ts s) (hn : s.names = []) :
    Yields env (templateOf [] ((if v = [] then [] else [.renderString z v]) ++ ss)) (restOfEpp v) s := by
  have hfst := phrases_first h hne
  have h1 : s.tok ≠ .end_ := hfst.ne (rest := []) (by rw [List.append_nil]; exact hf) rfl
  have h2 : s.tok ≠ .pipe := hfst.ne (rest := []) (by rw [List.append_nil]; exact hf) rfl
  obtain ⟨raw, s1, b1, b2, b3, b4, b5⟩ := phrases_read hend h s hf hn
  have key : ∀ init : List Expr, firstComma (tl (init ++ raw)) = none → init = (if v.isEmpty then [] else [.renderString ⟨0, s.tsp⟩ v]) →
      EvP env (restOfEpp v) s (mkEpp ⟨0, (s1.pos : Int) - (0 : Nat)⟩ [] (.block ⟨0, (s1.pos : Int) - (0 : Nat)⟩ (tl (init ++ raw)))) s1 := by
    intro init hi he
    unfold restOfEpp
    ev
    refine EvP.neg h1 (EvP.neg h2 ?_)
    rw [← he]
    refine EvP.bind (b1 init) (EvP.prim (transformCalls_of hi) ?_)
    ev
    unfold asEppLambda
    ev
  by_cases hv : v = []
  · subst hv
    refine ⟨_, s1, key [] b3 rfl, ?_, b4.1.trans hend, b5⟩
    simp only [mkEpp, templateOf, bare, bareL_nil, bareO_none, List.nil_append, b2, if_true]
  · have e1 : tl ([.renderString ⟨0, s.tsp⟩ v] ++ raw) = .renderString ⟨0, s.tsp⟩ v :: tl raw := tl_stmt raw rfl
    refine ⟨_, s1, key [.renderString ⟨0, s.tsp⟩ v] ?_ ?_, ?_, b4.1.trans hend, b5⟩
    · rw [e1]; exact firstComma_cons rfl b3
    · rw [if_neg (by simpa using hv)]
    · rw [e1]
      simp only [mkEpp, templateOf, bare, bareL_nil, bareL_cons, bareO_none, b2, if_neg hv, List.cons_append, List.nil_append]

end

theorem parseEpp_of (hepp : env.epp = true) (hfac : env.hasFactory = true) (h : Template env ts) (hg : TemplateTree e ts) (hn : s.nls = none) (hp : s.pos = 0)
    (hb : s.bol = 0) (hm : s.names = []) : Yields env e (fun self => parseEpp self) s := by
  letI := Ending.template env
  obtain ⟨s1, a1, a2, a3⟩ := template_start hepp hfac h hn hp hb
  have withText : ∀ {v ts'}, ts = .render v :: ts' → (∀ s2 : St, Feeds env ts' s2 → s2.names = [] → Yields env e (restOfEpp v) s2) →
      Yields env e (fun self => parseEpp self) s := by
    intro v ts' e1 hx
    rcases a3 with a3 | ⟨v', ts2, b1, b2, b3, b4, s2, b5, b6, b7⟩
    · rw [e1] at a3
      obtain ⟨s2, c1, c2, c3⟩ := Feeds.next a3
      obtain ⟨a, t, d1, d2⟩ := hx s2 c3 (by rw [c2, a2, hm])
      exact ⟨a, t, parseEpp_text a1 a3.reads.1 a3.reads.2 c1 d1, d2⟩
    · rw [e1] at b2
      cases b2
      obtain ⟨a, t, d1, d2⟩ := hx s2 b7 (by rw [b6, hm])
      exact ⟨a, t, parseEpp_text a1 b3 b4 b5 d1, d2⟩
  have without : (∀ t ∈ ts.head?, t.tok ≠ .renderString) → (∀ s2 : St, Feeds env ts s2 → s2.names = [] → Yields env e (restOfEpp []) s2) →
      Yields env e (fun self => parseEpp self) s := by
    intro e1 hx
    rcases a3 with a3 | ⟨v', ts2, b1, b2, -⟩
    · obtain ⟨a, t, d1, d2⟩ := hx s1 a3 (by rw [a2, hm])
      refine ⟨a, t, parseEpp_none a1 ?_ d1, d2⟩
      refine a3.ne ?_
      cases ts with
      | nil => nofun
      | cons t r =>
        exact e1 t rfl
    · rw [b2] at e1
      exact absurd rfl (e1 (.render v') rfl)
  cases hg with
  | @text v =>
    by_cases hv : v = []
    · subst hv
      exact without (by simp [textToken]) fun s2 h1 h2 => rest_text rfl (by simpa [textToken] using h1) h2
    · exact withText (v := v) (ts' := []) (by simp [textToken, hv]) fun s2 h1 h2 => rest_text rfl h1 h2
  | parameters h1 h2 => exact without (by simp [y, T.tok]) fun s2 h3 h4 => rest_parameters rfl h1 h2 h3 h4
  | @plain v ss ts' h1 h2 h3 =>
    by_cases hv : v = []
    · subst hv
      exact without (by simpa [textToken] using h3 rfl) fun s2 h4 h5 => rest_plain rfl h1 h2 (by simpa [textToken] using h4) h5
    · exact withText (v := v) (ts' := ts') (by simp [textToken, hv]) fun s2 h4 h5 => rest_plain rfl h1 h2 h4 h5

theorem template_of (hepp : env.epp = true) (hfac : env.hasFactory = true) (hs : Template env ts) (hg : TemplateTree e ts) {s : St} (hcl : Clean s) :
    (∃ p b ds t, EvP env (fun self => parseProgram self false) s (.program p b ds) t ∧ bare b = e ∧ t.tok = .end_ ∧ t.names = []) ∧
    ∃ a t, EvP env (fun self => parseProgram self true) s a t ∧ bare a = e := by
  obtain ⟨a, t, a1, a2, a3, a4⟩ := parseEpp_of (s := { s with pos := 0, defs := [], nls := none }) hepp hfac hs hg rfl rfl hcl.bol hcl.names
  have top : ∀ single, EvP env (fun self => parseTop self single) { s with pos := 0, defs := [], nls := none } a t := by
    intro single
    unfold parseTop
    ev
    exact EvP.pos hepp a1
  constructor
  · refine ⟨⟨0, t.pos⟩, a, t.defs, t, ?_, a2, a3, a4⟩
    unfold parseProgram
    ev
    refine EvP.bind (top false) ?_
    refine EvP.neg nofun ?_
    ev
  · refine ⟨a, t, ?_, a2⟩
    unfold parseProgram
    ev
    refine EvP.bind (top true) ?_
    refine EvP.pos rfl ?_
    ev

end
end PP
