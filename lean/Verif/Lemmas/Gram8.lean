import Verif.Lemmas.Gram7

/-! # Resource bodies, blocks, statements -/
namespace PP
open PP.Spec
set_option linter.unusedSimpArgs false
set_option linter.unusedSectionVars false

section
variable [Ending] {env : Env} {ns : List GoStr}

/-! ## Resource bodies -/

theorem notStar_tok {te rest : List T} {s : St} (h : StartsNot isStar te) (ht : FirstTok opens te) (hf : Feeds env (te ++ rest) s) : s.tok ≠ .multiply := by
  obtain ⟨t, r, rfl, -⟩ := ht
  have h : isStar t = false := h t rfl
  refine hf.ne ?_
  intro h'
  have h' : t.tok = .multiply := h'
  simp [isStar, h'] at h

theorem g_body {e : Expr} {ops : List Expr} {te ta semi : List T} (he : DoneP env ns (fun self => self .expression) (Is e) te cExpr)
    (ht : FirstTok opens te) (hs : StartsNot isStar te) (ha : DoneL env ns (fun acc self => self (.attrOps acc)) ops ta notAttrEnd) (hsm : Semi semi) :
    DoneBodies env ns [.resourceBody z e ops] (te ++ y .colon :: (ta ++ semi)) := by
  intro rest s hf hn
  nf at hf
  obtain ⟨title, s1, a1, a2, a3, a4⟩ := he _ s hf hn rfl
  obtain ⟨s2, b1, b2, b3⟩ := Feeds.next a3
  unfold Is at a2
  have hc := (sym_reads a3.reads).1
  rcases hsm with rfl | rfl
  · nf at b3
    obtain ⟨ops', s3, c1, c2, c3, c4⟩ := ha _ s2 b3 (by rw [b2, a4]) rfl
    refine ⟨title, s1, [.resourceBody ⟨title.off, (s3.pos : Int) - title.off⟩ title ops'], s3, notStar_tok hs ht hf, ht.ne hf rfl, a1, hc,
      fun acc => EvN.step ?_, by simp only [bareL_cons, bareL_nil, bare, a2, c2], c3, c4⟩
    show EvP env (fun self => resourceBodiesBody self title acc) _ _ _
    unfold resourceBodiesBody resourceBody
    ev
    refine EvP.neg (by rw [hc]; nofun) (EvP.bind (t := s3) (a := .resourceBody ⟨title.off, (s3.pos : Int) - title.off⟩ title ops') ?_ ?_)
    · ev
      refine EvP.neg (not_not_intro hc) (EvP.bind b1 (EvP.bind (at_nil c1) ?_))
      ev
    · ev
      exact EvP.pos (by rw [(sym_reads c3.reads).1]; nofun) EvP.ret
  · nf at b3
    obtain ⟨ops', s3, c1, c2, c3, c4⟩ := ha _ s2 b3 (by rw [b2, a4]) rfl
    obtain ⟨s4, d1, d2, d3⟩ := Feeds.next c3
    refine ⟨title, s1, [.resourceBody ⟨title.off, (s3.pos : Int) - title.off⟩ title ops'], s4, notStar_tok hs ht hf, ht.ne hf rfl, a1, hc,
      fun acc => EvN.step ?_, by simp only [bareL_cons, bareL_nil, bare, a2, c2], d3, by rw [d2, c4]⟩
    show EvP env (fun self => resourceBodiesBody self title acc) _ _ _
    unfold resourceBodiesBody resourceBody
    ev
    refine EvP.neg (by rw [hc]; nofun) (EvP.bind (t := s3) (a := .resourceBody ⟨title.off, (s3.pos : Int) - title.off⟩ title ops') ?_ ?_)
    · ev
      refine EvP.neg (not_not_intro hc) (EvP.bind b1 (EvP.bind (at_nil c1) ?_))
      ev
    · ev
      refine EvP.neg (not_not_intro (sym_reads c3.reads).1) (EvP.bind d1 ?_)
      ev
      have hrc := (sym_reads d3.reads).1
      refine EvP.neg (not_not_intro hrc) (EvN.step ?_)
      show EvP env (fun self => resourceBodiesBody self title _) _ _ _
      unfold resourceBodiesBody
      ev
      exact EvP.pos hrc EvP.ret

theorem g_bodies {e : Expr} {ops bs : List Expr} {te ta tb : List T} (he : DoneP env ns (fun self => self .expression) (Is e) te cExpr)
    (ht : FirstTok opens te) (hs : StartsNot isStar te) (ha : DoneL env ns (fun acc self => self (.attrOps acc)) ops ta notAttrEnd)
    (hb : DoneBodies env ns bs tb) :
    DoneBodies env ns (.resourceBody z e ops :: bs) (te ++ y .colon :: (ta ++ y .semicolon :: tb)) := by
  intro rest s hf hn
  nf at hf
  obtain ⟨title, s1, a1, a2, a3, a4⟩ := he _ s hf hn rfl
  obtain ⟨s2, b1, b2, b3⟩ := Feeds.next a3
  unfold Is at a2
  have hc := (sym_reads a3.reads).1
  obtain ⟨ops', s3, c1, c2, c3, c4⟩ := ha _ s2 b3 (by rw [b2, a4]) rfl
  obtain ⟨s4, d1, d2, d3⟩ := Feeds.next c3
  obtain ⟨title', s5, bs', s6, e1, e2, e3, e4, e5, e6, e7, e8⟩ := hb rest s4 d3 (by rw [d2, c4])
  refine ⟨title, s1, .resourceBody ⟨title.off, (s3.pos : Int) - title.off⟩ title ops' :: bs', s6, notStar_tok hs ht hf, ht.ne hf rfl, a1, hc,
    fun acc => EvN.step ?_, by simp only [bareL_cons, bare, a2, c2, e6], e7, e8⟩
  show EvP env (fun self => resourceBodiesBody self title acc) _ _ _
  unfold resourceBodiesBody resourceBody
  ev
  refine EvP.neg (by rw [hc]; nofun) (EvP.bind (t := s3) (a := .resourceBody ⟨title.off, (s3.pos : Int) - title.off⟩ title ops') ?_ ?_)
  · ev
    refine EvP.neg (not_not_intro hc) (EvP.bind b1 (EvP.bind (at_nil c1) ?_))
    ev
  · ev
    refine EvP.neg (not_not_intro (sym_reads c3.reads).1) (EvP.bind d1 ?_)
    ev
    refine EvP.pos e2 (EvP.bind e3 ?_)
    have := e5 (acc ++ [.resourceBody ⟨title.off, (s3.pos : Int) - title.off⟩ title ops'])
    rw [List.append_assoc] at this
    exact this

/-! ## Statements -/

/-- The statements after the calls without parentheses have been put together. -/
def tl : List Expr → List Expr
  | [] => []
  | m :: r => (transformLoop m r).1

theorem tl_stmt {e : Expr} (raw : List Expr) (h : isStatementCall e = false) : tl (e :: raw) = setRval false e :: tl raw := by
  match raw with
  | [] => rfl
  | [m] => simp only [tl, transformLoop, h, Bool.false_eq_true, if_false]
  | m :: m' :: r => simp only [tl, transformLoop, h, Bool.false_eq_true, if_false]

theorem tl_call {m e : Expr} (raw : List Expr) (h : isStatementCall m = true) :
    ∃ p, tl (m :: e :: raw) = .call p .named false m (statementArgs e) none :: tl raw := by
  match raw with
  | [] => exact ⟨_, by simp only [tl, transformLoop, h, if_true]; rfl⟩
  | m' :: r => exact ⟨_, by simp only [tl, transformLoop, h, if_true]; rfl⟩

omit [Ending] in
theorem transformCalls_of {raw : List Expr} {s : St} (h : firstComma (tl raw) = none) : transformCalls raw env s = .ok (tl raw) s := by
  cases raw with
  | nil => rfl
  | cons m r =>
    unfold transformCalls
    dsimp only
    simp only [tl] at h ⊢
    rw [h]
    split <;> rfl

theorem firstComma_cons {e : Expr} {es : List Expr} (h : plain e = true) (hes : firstComma es = none) : firstComma (e :: es) = none := by
  cases e <;> first | exact hes | cases h

theorem plain_setRval {e : Expr} (h : plain e = true) (v : Bool) : plain (setRval v e) = true := by
  cases e <;> try exact h
  rename_i k _ _ _ _
  cases k <;> first | rfl | exact h

/-- Statements up to the closing brace or the end of the text. -/
def DoneStmts (env : Env) (ns : List GoStr) (ss : List Expr) (ts : List T) : Prop :=
  ∀ close rest s, (close = .rc ∨ close = .end_) → hd rest = close → Feeds env (ts ++ rest) s → s.names = ns →
    ∃ raw s', (∀ acc, EvN env (.stmts close acc) s (acc ++ raw) s') ∧ bareL (tl raw) = ss ∧ firstComma (tl raw) = none ∧
      Feeds env rest s' ∧ s'.names = ns

theorem g_noStmt : DoneStmts env ns [] [] := by
  intro close rest s hc hr hf hn
  nf at hf
  refine ⟨[], s, fun acc => EvN.step ?_, bareL_nil, rfl, hf, hn⟩
  show EvP env (fun self => stmtsBody self close acc) _ _ _
  unfold stmtsBody
  rw [List.append_nil]
  ev
  refine EvP.pos ?_ EvP.ret
  rw [hf.tok_eq (by rw [hr]; rcases hc with rfl | rfl <;> nofun), hr]

theorem apart_hd {ts rest : List T} {close : Tok} (h : Apart ts) (hr : hd rest = close) (hc : close = .rc ∨ close = .end_) :
    cBin .rel (hd (ts ++ rest)) = false ∧ hd (ts ++ rest) ≠ .comma ∧ hd (ts ++ rest) ≠ .pipe ∧ cExpr (hd (ts ++ rest)) = false := by
  cases ts with
  | nil => rw [List.nil_append, hr]; rcases hc with rfl | rfl <;> exact ⟨rfl, nofun, nofun, rfl⟩
  | cons t ts =>
    have : continues t.tok = false := h t rfl
    show cBin .rel t.tok = false ∧ t.tok ≠ .comma ∧ t.tok ≠ .pipe ∧ cExpr t.tok = false
    revert this
    cases t.tok <;> intro h <;> first | exact absurd h (by decide) | exact ⟨rfl, nofun, nofun, rfl⟩

theorem commaArgs_stop {acc : List Expr} {s : St} (h : s.tok ≠ .comma) : EvN env (.commaArgs acc) s acc s := by
  refine EvN.step ?_
  show EvP env (fun self => commaArgsBody self acc) _ _ _
  unfold commaArgsBody
  ev
  exact EvP.neg h EvP.ret

theorem statement_of {e : Expr} {s s' : St} (h : EvN env (.binary .rel) s e s') (hc : s'.tok ≠ .comma) :
    EvP env (fun self => syntacticStatement self) s e s' := by
  unfold syntacticStatement
  refine EvP.bind h (EvP.bind (commaArgs_stop hc) ?_)
  ev

/-- One statement and the optional semicolon. -/
theorem stmts_step {e : Expr} {s s1 s2 s3 : St} {close : Tok} {raw : List Expr} (ht : s.tok ≠ close)
    (h : EvP env (fun self => syntacticStatement self) s e s1)
    (hs : (s1.tok = .semicolon ∧ EvN env .nextToken s1 () s2) ∨ (s1.tok ≠ .semicolon ∧ s2 = s1))
    (hx : ∀ acc, EvN env (.stmts close acc) s2 (acc ++ raw) s3) (acc : List Expr) : EvN env (.stmts close acc) s (acc ++ e :: raw) s3 := by
  refine EvN.step ?_
  show EvP env (fun self => stmtsBody self close acc) _ _ _
  unfold stmtsBody
  ev
  refine EvP.neg ht (EvP.bind h ?_)
  ev
  have := hx (acc ++ [e])
  rw [List.append_assoc] at this
  rcases hs with ⟨h1, h2⟩ | ⟨h1, rfl⟩
  · exact EvP.pos h1 (EvP.bind h2 this)
  · exact EvP.neg h1 this

/-- The optional semicolon. -/
theorem semi_of {semi ts rest : List T} {s : St} {close : Tok} (hs : Semi semi) (hf : Feeds env (semi ++ (ts ++ rest)) s) (hn : s.names = ns)
    (hts : ts = [] ∨ hd ts ≠ .semicolon) (hr : hd rest = close) (hc : close = .rc ∨ close = .end_) :
    ∃ s2, Feeds env (ts ++ rest) s2 ∧ s2.names = ns ∧ ((s.tok = .semicolon ∧ EvN env .nextToken s () s2) ∨ (s.tok ≠ .semicolon ∧ s2 = s)) := by
  rcases hs with rfl | rfl
  · refine ⟨s, hf, hn, .inr ⟨?_, rfl⟩⟩
    refine Feeds.ne (ts := ts ++ rest) hf ?_
    rcases hts with rfl | h
    · rw [List.nil_append, hr]; rcases hc with rfl | rfl <;> nofun
    · cases ts with
      | nil => rw [List.nil_append, hr]; rcases hc with rfl | rfl <;> nofun
      | cons t ts => exact h
  · nf at hf
    obtain ⟨s2, a1, a2, a3⟩ := Feeds.next hf
    exact ⟨s2, a3, by rw [a2, hn], .inl ⟨(sym_reads hf.reads).1, a1⟩⟩

theorem notSemi {ts : List T} (h : ts = [] ∨ FirstTok opens ts) : ts = [] ∨ hd ts ≠ .semicolon := by
  refine h.imp id ?_
  rintro ⟨t, r, rfl, ht⟩ h'
  have h' : t.tok = .semicolon := h'
  rw [h'] at ht
  cases ht

theorem opens_ne {te rest : List T} {s : St} {close : Tok} (ht : FirstTok opens te) (hf : Feeds env (te ++ rest) s)
    (hc : close = .rc ∨ close = .end_) : s.tok ≠ close := by
  rcases hc with rfl | rfl <;> exact ht.ne hf rfl

theorem g_stmt {e : Expr} {ss : List Expr} {te semi ts : List T} (he : DoneP env ns (fun self => self (.binary .rel)) (Is e) te (cBin .rel))
    (hp : plain e = true) (ht : FirstTok opens te) (hsn : isStatementName e = false) (hs : Semi semi) (ha : Apart (semi ++ ts))
    (hts : ts = [] ∨ FirstTok opens ts) (h : DoneStmts env ns ss ts) : DoneStmts env ns (withRval false e :: ss) (te ++ (semi ++ ts)) := by
  intro close rest s hc hr hf hn
  nf at hf
  have hap := apart_hd (rest := rest) ha hr hc
  rw [List.append_assoc] at hap
  obtain ⟨e', s1, a1, a2, a3, a4⟩ := he _ s hf hn hap.1
  obtain ⟨s2, b1, b2, b3⟩ := semi_of hs a3 a4 (notSemi hts) hr hc
  obtain ⟨raw, s3, c1, c2, c3, c4, c5⟩ := h close rest s2 hc hr b1 b2
  unfold Is at a2
  have hst : isStatementCall e' = false := by rw [← isStatementCall_bare, a2, hsn]
  have hpl : plain e' = true := by rw [← plain_bare, a2, hp]
  refine ⟨e' :: raw, s3, stmts_step (opens_ne ht hf hc) (statement_of a1 (a3.ne hap.2.1)) b3 c1, ?_, ?_, c4, c5⟩
  · rw [tl_stmt raw hst, bareL_cons, bare_setRval, a2, c2]
  · rw [tl_stmt raw hst]
    exact firstComma_cons (plain_setRval hpl _) c3

/-- Statements start with a token that opens a phrase. -/
theorem G_stmts {ss : List Expr} {ts : List T} (h : G ns .stmts ss ts) : ts = [] ∨ FirstTok opens ts := by
  cases h with
  | noStmt => exact .inl rfl
  | stmt h => exact .inr (FirstTok.append (G_first h))
  | stmtCall => exact .inr (FirstTok.mk rfl)
  | stmtName => exact .inr (FirstTok.mk rfl)
  | typeStmt h => exact .inr (FirstTok.append ((G_first h : FirstTok _ _).imp fun t => by cases t <;> simp [isTypeDef, opens, closer]))

/-! ### Calls without parentheses -/

def DoneCommas (env : Env) (ns : List GoStr) (as : List Expr) (ts : List T) : Prop :=
  ∀ rest s, Feeds env (ts ++ rest) s → s.names = ns → cBin .rel (hd rest) = false → hd rest ≠ .comma →
    ∃ e0 s0 es s', EvN env (.binary .rel) s e0 s0 ∧ (∀ acc, EvN env (.commaArgs acc) s0 (acc ++ es) s') ∧ bareL (e0 :: es) = as ∧ plain e0 = true ∧
      Feeds env rest s' ∧ s'.names = ns

theorem g_comma {e : Expr} {te : List T} (he : DoneP env ns (fun self => self (.binary .rel)) (Is e) te (cBin .rel)) (hp : plain e = true) :
    DoneCommas env ns [e] te := by
  intro rest s hf hn hr hc
  obtain ⟨e', s1, a1, a2, a3, a4⟩ := he _ s hf hn hr
  unfold Is at a2
  refine ⟨e', s1, [], s1, a1, fun acc => ?_, by simp only [bareL_cons, bareL_nil, a2], by rw [← plain_bare, a2, hp], a3, a4⟩
  rw [List.append_nil]
  exact commaArgs_stop (a3.ne hc)

theorem g_commas {e : Expr} {es : List Expr} {te ts : List T} (he : DoneP env ns (fun self => self (.binary .rel)) (Is e) te (cBin .rel))
    (hp : plain e = true) (h : DoneCommas env ns es ts) : DoneCommas env ns (e :: es) (te ++ y .comma :: ts) := by
  intro rest s hf hn hr hc
  nf at hf
  obtain ⟨e', s1, a1, a2, a3, a4⟩ := he _ s hf hn rfl
  obtain ⟨s2, b1, b2, b3⟩ := Feeds.next a3
  obtain ⟨e0, s3, es', s4, c1, c2, c3, c4, c5, c6⟩ := h rest s2 b3 (by rw [b2, a4]) hr hc
  unfold Is at a2
  refine ⟨e', s1, e0 :: es', s4, a1, fun acc => EvN.step ?_, by rw [bareL_cons, c3, a2], by rw [← plain_bare, a2, hp], c5, c6⟩
  show EvP env (fun self => commaArgsBody self acc) _ _ _
  unfold commaArgsBody
  ev
  refine EvP.pos (sym_reads a3.reads).1 (EvP.bind b1 (EvP.bind c1 ?_))
  have := c2 (acc ++ [e0])
  rw [List.append_assoc] at this
  exact this

/-- From an atom to a statement. -/
theorem rel_of_atom {e : Expr} {s s' : St} (h : EvN env .atom s e s') (hw : ∀ p k, e ≠ .qname p (styleName k)) (hp : plain e = true) (hs : startsUnary s.tok = false)
    (hc : cBin .rel s'.tok = false) : EvN env (.binary .rel) s e s' := by
  simp only [cBin, cOpd, cAssign, Bool.or_eq_false_iff] at hc
  have h1 : EvN env .primary s e s' := EvN.step (EvP.bind h (primLoop_stop hp (cRes_cPrim hc.1.1).1))
  have h2 := resource_of_primary h1 hs hc.1.1
  have h3 : EvN env .assignment s e s' := by
    refine EvN.step ?_
    show EvP env (fun self => assignmentBody self) _ _ _
    unfold assignmentBody
    exact EvP.bind (step_of_resource h2 fun _ => hw) (assignLoop_stop hc.1.2)
  refine EvN.step (EvP.bind h3 (EvN.step ?_))
  show EvP env (fun self => binLoopBody self .rel e) _ _ _
  unfold binLoopBody
  ev
  exact EvP.neg (by simp [hc.2]) EvP.ret

theorem statement_noStyle {n : GoStr} {q : Pos} (h : n ∈ statementFunctions) (p : Pos) (k : StepStyle) : Expr.qname q n ≠ .qname p (styleName k) := by
  intro he
  injection he with _ he
  subst he
  revert h
  cases k <;> decide

theorem g_stmtName_head {n : GoStr} (hw : n ∈ statementFunctions) {rest : List T} {s : St} (hf : Feeds env (.name n :: rest) s)
    (hr : cBin .rel (hd rest) = false) (hc : hd rest ≠ .comma) :
    ∃ p s', EvP env (fun self => syntacticStatement self) s (.qname p n) s' ∧ Feeds env rest s' ∧ s'.names = s.names := by
  obtain ⟨s1, a1, a2, a3⟩ := Feeds.next hf
  have h1 : EvN env .atom s (.qname ⟨s.tsp, (s.pos : Int) - s.tsp⟩ n) s1 := by
    refine EvN.step ?_
    show EvP env (fun self => atomBody self) _ _ _
    unfold atomBody
    ev
    rw [hf.reads.1]
    dsimp only
    unfold leaf
    exact EvP.prim (tokenString_str hf.reads.2) (EvP.bind a1 EvP.ret)
  refine ⟨⟨s.tsp, (s.pos : Int) - s.tsp⟩, s1, statement_of (rel_of_atom h1 (statement_noStyle hw) rfl (by rw [hf.reads.1]; rfl) (a3.test hr rfl)) (a3.ne hc), a3, a2⟩

theorem isStatementCall_of {n : GoStr} {p : Pos} (h : n ∈ statementFunctions) : isStatementCall (.qname p n) = true := by
  unfold isStatementCall
  rw [← statementFunctions_eq]
  simpa using h

theorem g_stmtName {n : GoStr} {semi : List T} (hw : n ∈ statementFunctions) (hs : Semi semi) :
    DoneStmts env ns [.qname z n] (.name n :: semi) := by
  intro close rest s hc hr hf hn
  nf at hf
  have hap : cBin .rel (hd (semi ++ rest)) = false ∧ hd (semi ++ rest) ≠ .comma := by
    rcases hs with rfl | rfl
    · rw [List.nil_append, hr]; rcases hc with rfl | rfl <;> exact ⟨rfl, nofun⟩
    · exact ⟨rfl, nofun⟩
  obtain ⟨p, s1, a1, a2, a3⟩ := g_stmtName_head hw hf hap.1 hap.2
  obtain ⟨s2, b1, b2, b3⟩ := semi_of (ts := []) hs a2 (by rw [a3, hn]) (.inl rfl) hr hc
  obtain ⟨raw, s3, c1, c2, c3, c4, c5⟩ := g_noStmt close rest s2 hc hr b1 b2
  have c1' : ∀ acc, EvN env (.stmts close acc) s2 (acc ++ []) s2 := by
    intro acc
    rw [List.append_nil]
    refine EvN.step ?_
    show EvP env (fun self => stmtsBody self close acc) _ _ _
    unfold stmtsBody
    ev
    refine EvP.pos ?_ EvP.ret
    have b1 : Feeds env rest s2 := b1
    rw [b1.tok_eq (by rw [hr]; rcases hc with rfl | rfl <;> nofun), hr]
  exact ⟨[.qname p n], s2, stmts_step (by rw [hf.reads.1]; rcases hc with rfl | rfl <;> nofun) a1 b3 c1', by simp only [tl, transformLoop, setRval, bareL_cons, bareL_nil, bare],
    rfl, b1, b2⟩

theorem bareL_statementArgs_one {e : Expr} (h : plain e = true) : statementArgs e = [setRval true e] := by
  cases e <;> first | rfl | cases h

theorem g_stmtCall {n : GoStr} {as ss : List Expr} {ta semi ts : List T} (hnm : n ∈ statementFunctions)
    (h1 : DoneCommas env ns as ta) (ht : FirstTok opens ta) (hap : Apart ta) (hs : Semi semi) (ha : Apart (semi ++ ts))
    (hts : ts = [] ∨ FirstTok opens ts) (h : DoneStmts env ns ss ts) :
    DoneStmts env ns (.call z .named false (.qname z n) (statementArguments as) none :: ss) (.name n :: (ta ++ (semi ++ ts))) := by
  intro close rest s hc hr hf hn
  nf at hf
  have hap' := apart_hd (rest := rest) ha hr hc
  rw [List.append_assoc] at hap'
  have hd1 : hd (ta ++ (semi ++ (ts ++ rest))) = hd ta := by obtain ⟨t, r, rfl, -⟩ := ht; rfl
  have hap1 := apart_hd (rest := [y .rc]) hap rfl (.inl rfl)
  have hd2 : hd (ta ++ [y .rc]) = hd ta := by obtain ⟨t, r, rfl, -⟩ := ht; rfl
  rw [hd2, ← hd1] at hap1
  obtain ⟨p, s1, a1, a2, a3⟩ := g_stmtName_head hnm hf hap1.1 hap1.2.1
  have a3' : s1.names = ns := by rw [a3, hn]
  obtain ⟨e0, s2, es, s3, b1, b2, b3, b4, b5, b6⟩ := h1 _ s1 a2 a3' hap'.1 hap'.2.1
  obtain ⟨s4, c1, c2, c3⟩ := semi_of hs b5 b6 (notSemi hts) hr hc
  obtain ⟨raw, s5, d1, d2, d3, d4, d5⟩ := h close rest s4 hc hr c1 c2
  -- the arguments are one statement
  obtain ⟨e, he1, he2⟩ : ∃ e, EvP env (fun self => syntacticStatement self) s1 e s3 ∧ bareL (statementArgs e) = statementArguments as := by
    cases es with
    | nil =>
      refine ⟨e0, ?_, ?_⟩
      · unfold syntacticStatement
        refine EvP.bind b1 (EvP.bind (b2 [e0]) ?_)
        exact EvP.ret
      · rw [bareL_statementArgs_one b4, ← b3]
        simp only [bareL_cons, bareL_nil, statementArguments, bare_setRval]
    | cons e1 es =>
      refine ⟨.commaSep ⟨e0.off, (s3.pos : Int) - e0.off⟩ (e0 :: e1 :: es), ?_, ?_⟩
      · unfold syntacticStatement
        refine EvP.bind b1 (EvP.bind (b2 [e0]) ?_)
        exact EvP.prim ex_here EvP.ret
      · rw [← b3]
        simp only [statementArgs, bareL_cons, statementArguments]
  have hsc : isStatementCall (.qname p n) = true := isStatementCall_of hnm
  obtain ⟨q, hq⟩ := tl_call (e := e) raw hsc
  refine ⟨.qname p n :: e :: raw, s5, stmts_step (by rw [hf.reads.1]; rcases hc with rfl | rfl <;> nofun) a1 (.inr ⟨ht.ne a2 rfl, rfl⟩)
    (stmts_step (opens_ne ht a2 hc) he1 c3 d1), ?_, ?_, d4, d5⟩
  · rw [hq]
    simp only [bareL_cons, bare, he2, d2, bareO_none]
  · rw [hq]
    exact d3

/-! ## Blocks -/

theorem g_block {ss : List Expr} {ts : List T} (h : DoneStmts env ns ss ts) : DoneBlock env ns (.block z ss) (y .lc :: (ts ++ [y .rc])) := by
  intro rest s hf hn
  nf at hf
  obtain ⟨s1, c, p, u, a1, a2, a3, a4⟩ := Feeds.nextSkip hf (by simp)
  obtain ⟨raw, s2, b1, b2, b3, b4, b5⟩ := h .rc (y .rc :: rest) _ (.inl rfl) rfl a4 (by show u.names = _; rw [a2, hn])
  refine ⟨.block ⟨p, (s2.pos : Int) - p⟩ (tl raw), s2, ?_, by simp only [bare, b2], b4, b5⟩
  unfold braces
  refine EvP.prim (assertToken_ok (sym_reads hf.reads).1) (EvP.bind a1 (EvN.step ?_))
  show EvP env (fun self => parseBody self .rc false) _ _ _
  unfold parseBody
  refine EvP.prim a3 ?_
  dsimp only
  ev
  refine EvP.neg nofun (EvP.bind (at_nil b1) (EvP.prim (transformCalls_of b3) ?_))
  ev

end
end PP
