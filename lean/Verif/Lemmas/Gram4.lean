import Verif.Lemmas.Gram3

/-! # Collectors, lists, elements, atoms -/
namespace PP
open PP.Spec
set_option linter.unusedSimpArgs false
set_option linter.unusedSectionVars false

section
variable [Ending] {env : Env} {ns : List GoStr}

/-! ## Collectors -/

/-- `collectExpression` after the query. -/
def collectTail (self : Self) (lhs query : Expr) : P Expr := do
  let t ← curTok
  let ops ← if t ≠ .lc then pure []
    else do
      nextTok self
      let ops ← self (.attrOps [])
      assertToken .rc
      nextTok self
      pure ops
  let p ← here lhs.off
  pure (.collect p lhs query ops)

def DoneQuery (env : Env) (ns : List GoStr) (q : Expr) (ts : List T) : Prop :=
  ∀ rest s, Feeds env (ts ++ rest) s → s.names = ns → ∃ q' s', bare q' = q ∧ Feeds env rest s' ∧ s'.names = ns ∧
    ∀ lhs R, EvR env (fun self => collectTail self lhs q') s' R → EvR env (fun self => collectExpression self lhs) s R

theorem g_allVirtual : DoneQuery env ns (.query z false (.nop z)) [y .lcollect, y .rcollect] := by
  intro rest s hf hn
  obtain ⟨s1, h1, h2, h3⟩ := Feeds.next hf
  obtain ⟨s2, h4, h5, h6⟩ := Feeds.next h3
  have t0 := (sym_reads hf.reads).1
  have t1 := (sym_reads h3.reads).1
  refine ⟨.query ⟨s.tsp, (s2.pos : Int) - s.tsp⟩ false (.nop ⟨s1.tsp, 0⟩), s2, by simp only [bare], h6, by rw [h5, h2, hn], fun lhs R hu => ?_⟩
  unfold collectExpression
  ev
  refine EvP.bind h1 ?_
  ev
  simp only [t0, t1, decide_true, if_true]
  ev
  exact EvP.bind h4 (EvP.prim ex_here hu)

theorem g_allExported : DoneQuery env ns (.query z true (.nop z)) [y .llcollect, y .rrcollect] := by
  intro rest s hf hn
  obtain ⟨s1, h1, h2, h3⟩ := Feeds.next hf
  obtain ⟨s2, h4, h5, h6⟩ := Feeds.next h3
  have t0 := (sym_reads hf.reads).1
  have t1 := (sym_reads h3.reads).1
  refine ⟨.query ⟨s.tsp, (s2.pos : Int) - s.tsp⟩ true (.nop ⟨s.tsp, (s1.tsp : Int) - s.tsp⟩), s2, by simp only [bare], h6, by rw [h5, h2, hn], fun lhs R hu => ?_⟩
  unfold collectExpression
  ev
  refine EvP.bind h1 ?_
  ev
  simp only [t0, t1, reduceCtorEq, decide_false, if_false, Bool.false_eq_true, if_true]
  ev
  exact EvP.bind h4 (EvP.prim ex_here hu)

theorem g_someVirtual {e : Expr} {te : List T} (h : DoneP env ns (fun self => self .expression) (Is e) te cExpr) (ht : FirstTok opens te) :
    DoneQuery env ns (.query z false e) (y .lcollect :: (te ++ [y .rcollect])) := by
  intro rest s hf hn
  nf at hf
  obtain ⟨s1, h1, h2, h3⟩ := Feeds.next hf
  obtain ⟨a, s2, h4, h5, h6, h7⟩ := h _ s1 h3 (by rw [h2, hn]) rfl
  obtain ⟨s3, h8, h9, h10⟩ := Feeds.next h6
  have t0 := (sym_reads hf.reads).1
  have t1 : s1.tok ≠ .rcollect := ht.ne h3 rfl
  have t2 := (sym_reads h6.reads).1
  unfold Is at h5
  refine ⟨.query ⟨s.tsp, (s3.pos : Int) - s.tsp⟩ false a, s3, by simp only [bare, h5], h10, by rw [h9, h7], fun lhs R hu => ?_⟩
  unfold collectExpression
  ev
  refine EvP.bind h1 ?_
  ev
  simp only [t0, t1, decide_true, if_true, if_false]
  refine EvP.bind h4 (EvP.prim (assertToken_ok t2) ?_)
  ev
  exact EvP.bind h8 (EvP.prim ex_here hu)

theorem g_someExported {e : Expr} {te : List T} (h : DoneP env ns (fun self => self .expression) (Is e) te cExpr) (ht : FirstTok opens te) :
    DoneQuery env ns (.query z true e) (y .llcollect :: (te ++ [y .rrcollect])) := by
  intro rest s hf hn
  nf at hf
  obtain ⟨s1, h1, h2, h3⟩ := Feeds.next hf
  obtain ⟨a, s2, h4, h5, h6, h7⟩ := h _ s1 h3 (by rw [h2, hn]) rfl
  obtain ⟨s3, h8, h9, h10⟩ := Feeds.next h6
  have t0 := (sym_reads hf.reads).1
  have t1 : s1.tok ≠ .rrcollect := ht.ne h3 rfl
  have t2 := (sym_reads h6.reads).1
  unfold Is at h5
  refine ⟨.query ⟨s.tsp, (s3.pos : Int) - s.tsp⟩ true a, s3, by simp only [bare, h5], h10, by rw [h9, h7], fun lhs R hu => ?_⟩
  unfold collectExpression
  ev
  refine EvP.bind h1 ?_
  ev
  simp only [t0, t1, reduceCtorEq, decide_false, if_false, Bool.false_eq_true]
  refine EvP.bind h4 (EvP.prim (assertToken_ok t2) ?_)
  ev
  exact EvP.bind h8 (EvP.prim ex_here hu)

/-- From a primary expression to one with an optional resource body. -/
theorem expression_of_primary {e : Expr} {s s' : St} (h : EvN env .primary s e s') (hs : startsUnary s.tok = false)
    (hc : cExpr s'.tok = false) : EvN env .expression s e s' := by
  obtain ⟨k, h⟩ := h.ex
  have h : Ev env k .primary s e s' := h
  have h1 : isBinOp s'.tok = false ∧ contExpr s'.tok = false := by
    revert hc
    cases s'.tok <;> intro hc <;> first | exact ⟨rfl, rfl⟩ | exact absurd hc (by decide)
  exact ⟨_, ((h.unary hs).orLevel h1.1).expression h1.2⟩

theorem resource_of_primary {e : Expr} {s s' : St} (h : EvN env .primary s e s') (hs : startsUnary s.tok = false)
    (hc : cRes s'.tok = false) : EvP env (fun self => resource self) s e s' := by
  simp only [cRes, Bool.or_eq_false_iff] at hc
  unfold resource
  refine EvP.bind (expression_of_primary h hs hc.1) ?_
  ev
  exact EvP.neg (by simpa using hc.2) EvP.ret

theorem startsUnary_of {ts rest : List T} {s : St} (h : FirstTok opensPrimary ts) (hf : Feeds env (ts ++ rest) s) : startsUnary s.tok = false := by
  have := h.tok hf rfl
  simp only [opensPrimary, Bool.and_eq_true, Bool.not_eq_true'] at this
  exact this.2

/-- One round of the loop for a collector. -/
theorem primLoop_collect {e f : Expr} {s s1 : St} (ht : isQuery s.tok = true)
    (hc : EvP env (fun self => collectExpression self e) s f s1) {R : Res Expr → Prop} (h : EvR env (fun self => self (.primLoop f)) s1 R) :
    EvR env (fun self => self (.primLoop e)) s R := by
  refine EvN.step (EvP.congr (m' := fun self => collectExpression self e >>= fun e => self (.primLoop e)) (EvP.bind hc h) fun self => ?_)
  show primLoopBody self e env s = _
  unfold primLoopBody
  ex
  revert ht
  cases s.tok <;> intro ht <;> first | contradiction | rfl

theorem isQuery_called {c : Bool} {t : Tok} (h : isQuery t = true) : cCalled c t = false := by
  revert h
  cases t <;> intro h <;> first | contradiction | (cases c <;> rfl)

theorem hd_query {tq rest : List T} (h : FirstTok isQuery tq) : isQuery (hd (tq ++ rest)) = true := by
  obtain ⟨t, r, rfl, h⟩ := h
  exact h

theorem cRes_cPrim {t : Tok} (h : cRes t = false) : cPrim t = false ∧ t ≠ .lc := by
  simp only [cRes, cExpr, cOps, Bool.or_eq_false_iff] at h
  exact ⟨h.1.1.1.1, by simpa using h.2⟩

theorem g_collect {c : Bool} {e q : Expr} {te tq : List T} (h : DonePrim env ns c (Is e) te) (ht : FirstTok opensPrimary te)
    (hq : DoneQuery env ns q tq) (hqt : FirstTok isQuery tq) :
    DoneP env ns (fun self => resource self) (Is (.collect z e q [])) (te ++ tq) cRes := by
  intro rest s hf hn hr
  nf at hf
  obtain ⟨a, s1, h1, h2, h3, h4⟩ := h _ s hf hn (isQuery_called (hd_query hqt))
  obtain ⟨q', s2, h5, h6, h7, h8⟩ := hq rest s1 h2 h3
  have hc : cRes s2.tok = false := h6.test hr rfl
  refine ⟨.collect ⟨a.off, (s2.pos : Int) - a.off⟩ a q' [], s2, ?_, ?_, h6, h7⟩
  · refine resource_of_primary (h4 _ (primLoop_collect (hqt.tok h2 rfl) (h8 _ _ ?_) (primLoop_stop rfl (cRes_cPrim hc).1)))
      (startsUnary_of ht hf) hc
    unfold collectTail
    ev
    try dsimp only
    refine EvP.pos (cRes_cPrim hc).2 ?_
    ev
  · unfold Is at *; simp only [bare, bareL_nil, h1, h5]

/-- Lists of attribute operations. -/
def notAttrEnd : Tok → Bool
  | .rc | .semicolon => false
  | _ => true

theorem g_collectOps {c : Bool} {e q : Expr} {ops : List Expr} {te tq to : List T} (h : DonePrim env ns c (Is e) te) (ht : FirstTok opensPrimary te)
    (hq : DoneQuery env ns q tq) (hqt : FirstTok isQuery tq) (ho : DoneL env ns (fun acc self => self (.attrOps acc)) ops to notAttrEnd) :
    DoneP env ns (fun self => resource self) (Is (.collect z e q ops)) (te ++ (tq ++ y .lc :: (to ++ [y .rc]))) cRes := by
  intro rest s hf hn hr
  nf at hf
  obtain ⟨a, s1, h1, h2, h3, h4⟩ := h _ s hf hn (isQuery_called (hd_query hqt))
  obtain ⟨q', s2, h5, h6, h7, h8⟩ := hq _ s1 h2 h3
  obtain ⟨s3, h9, h10, h11⟩ := Feeds.next h6
  obtain ⟨ops', s4, h12, h13, h14, h15⟩ := ho _ s3 h11 (by rw [h10, h7]) rfl
  obtain ⟨s5, h16, h17, h18⟩ := Feeds.next h14
  have hc : cRes s5.tok = false := h18.test hr rfl
  refine ⟨.collect ⟨a.off, (s5.pos : Int) - a.off⟩ a q' ops', s5, ?_, ?_, h18, by rw [h17, h15]⟩
  · refine resource_of_primary (h4 _ (primLoop_collect (hqt.tok h2 rfl) (h8 _ _ ?_) (primLoop_stop rfl (cRes_cPrim hc).1)))
      (startsUnary_of ht hf) hc
    unfold collectTail
    ev
    try dsimp only
    refine EvP.neg (by rw [(sym_reads h6.reads).1]; simp) ?_
    refine EvP.bind h9 (EvP.bind (at_nil h12) (EvP.prim (assertToken_ok (sym_reads h14.reads).1) (EvP.bind h16 ?_)))
    ev
  · unfold Is at *; simp only [bare, h13, h1, h5]

/-! ## Lists -/

theorem isEnd_facts {k : Tok} (h : isEnd k = true) : closer k = true ∧ k ≠ .comma ∧ k ≠ .farrow ∧ k ≠ .lb ∧ k ≠ .listStart := by
  revert h
  cases k <;> intro h <;> first | contradiction | exact ⟨rfl, nofun, nofun, nofun, nofun⟩

theorem hd_end {rest : List T} {close : Tok} (h : (hd rest != close) = false) : hd rest = close := by simpa using h

theorem g_none {k : Elem} : DoneMany env ns k [] [] := by
  intro close hc rest s hf hn hr
  nf at hf
  have hr := hd_end hr
  have ht : s.tok = close := (hf.tok_eq (by rw [hr]; exact (isEnd_facts hc).2.2.2.2)).trans hr
  refine ⟨[], s, fun acc => EvN.step ?_, bareL_nil, hf, hn⟩
  show EvP env (fun self => exprsBody self close (producer k) acc) _ _ _
  unfold exprsBody
  ev
  rw [List.append_nil]
  exact EvP.pos ht EvP.ret

theorem g_one {k : Elem} {e : Expr} {te : List T} (h : DoneP env ns (fun self => produce self (producer k)) (Is e) te (cElem k))
    (ht : FirstTok opens te) : DoneMany env ns k [e] te := by
  intro close hc rest s hf hn hr
  obtain ⟨c1, c2, c3, c4, c5⟩ := isEnd_facts hc
  have hr := hd_end hr
  obtain ⟨a, s1, h1, h2, h3, h4⟩ := h rest s hf hn (by rw [hr]; exact closer_cElem c1 c3 k)
  have t1 : s1.tok = close := by rw [h3.tok_eq (by rw [hr]; exact c5), hr]
  refine ⟨[a], s1, fun acc => EvN.step ?_, ?_, h3, h4⟩
  · show EvP env (fun self => exprsBody self close (producer k) acc) _ _ _
    unfold exprsBody
    ev
    refine EvP.neg (ht.ne hf (by simp [opens, c1])) (EvP.bind h1 ?_)
    ev
    refine EvP.pos (by rw [t1]; exact c2) (EvP.neg (by simp [t1]) EvP.ret)
  · unfold Is at h2; simp only [bareL_cons, bareL_nil, h2]

theorem g_more {k : Elem} {e : Expr} {es : List Expr} {te ts : List T}
    (h : DoneP env ns (fun self => produce self (producer k)) (Is e) te (cElem k)) (ht : FirstTok opens te) (hes : DoneMany env ns k es ts) :
    DoneMany env ns k (e :: es) (te ++ y .comma :: ts) := by
  intro close hc rest s hf hn hr
  nf at hf
  obtain ⟨c1, c2, c3, c4, c5⟩ := isEnd_facts hc
  obtain ⟨a, s1, h1, h2, h3, h4⟩ := h _ s hf hn (closer_cElem (t := .comma) rfl nofun k)
  obtain ⟨s2, h5, h6, h7⟩ := Feeds.next h3
  obtain ⟨es', s3, h8, h9, h10, h11⟩ := hes close hc rest s2 h7 (by rw [h6, h4]) hr
  refine ⟨a :: es', s3, fun acc => EvN.step ?_, ?_, h10, h11⟩
  · show EvP env (fun self => exprsBody self close (producer k) acc) _ _ _
    unfold exprsBody
    ev
    refine EvP.neg (ht.ne hf (by simp [opens, c1])) (EvP.bind h1 ?_)
    ev
    refine EvP.neg (by simp [(sym_reads h3.reads).1]) (EvP.bind h5 ?_)
    have := h8 (acc ++ [a])
    rw [List.append_assoc] at this
    exact this
  · unfold Is at h2; simp only [bareL_cons, h2, h9]

/-! ## Elements -/

theorem keyOf_reads {t : T} {e : Expr} {s : St} (h : keyOf t = some e) (hr : Reads t s) :
    s.tok ∈ [Tok.kType, .kFunction, .kPlan, .kApplication, .kConsumes, .kProduces, .kSite] ∧
      ∃ n, tokenString env s = .ok n s ∧ e = .qname z n := by
  unfold keyOf at h
  split at h <;> first
    | (cases h; refine ⟨by rw [hr.1]; decide, _, tokenString_str hr.2.1, rfl⟩)
    | cases h

theorem g_keyWord {e : Expr} {t : T} (h : keyOf t = some e) :
    DoneP env ns (fun self => handleKeyword self) (Is e) [t] (cBin .rel) := by
  intro rest s hf hn hr
  obtain ⟨h1, n, h2, rfl⟩ := keyOf_reads (env := env) h hf.reads
  obtain ⟨s1, h3, h4, h5⟩ := Feeds.next hf
  refine ⟨.qname ⟨s.tsp, (s.pos : Int) - s.tsp⟩ n, s1, ?_, by unfold Is; simp only [bare], h5, by rw [h4, hn]⟩
  unfold handleKeyword
  ev
  refine EvP.pos h1 (EvP.prim h2 ?_)
  ev
  refine EvP.bind h3 ?_
  ev
  refine EvP.neg (Feeds.ne (ts := rest) h5 ?_) EvP.ret
  intro h; rw [h] at hr; cases hr

theorem startsNot_tok {q : T → Bool} {ts rest : List T} {s : St} {p : Tok → Bool} (h : StartsNot q ts) (ht : FirstTok p ts)
    (hf : Feeds env (ts ++ rest) s) : ∃ t, q t = false ∧ (s.tok = t.tok ∨ (t = .sym .listStart ∧ s.tok = .lb)) := by
  obtain ⟨t, r, rfl, -⟩ := ht
  exact ⟨t, h t rfl, hf.reads.tok⟩

theorem g_keyRel {e : Expr} {ts : List T} (h : DoneP env ns (fun self => self (.binary .rel)) (Is e) ts (cBin .rel))
    (ht : FirstTok opens ts) (hk : StartsNot isKeyWord ts) :
    DoneP env ns (fun self => handleKeyword self) (Is e) ts (cBin .rel) := by
  intro rest s hf hn hr
  obtain ⟨a, s', h1, h2⟩ := h rest s hf hn hr
  refine ⟨a, s', ?_, h2⟩
  obtain ⟨t, ht1, ht2⟩ := startsNot_tok hk ht hf
  unfold handleKeyword
  ev
  refine EvP.neg ?_ h1
  rcases ht2 with ht2 | ⟨-, ht2⟩
  · rw [ht2]
    unfold isKeyWord at ht1
    revert ht1
    cases t.tok <;> decide
  · rw [ht2]; decide

theorem cElem_arg {t : Tok} (h : cElem .arg t = false) : cBin .rel t = false ∧ t ≠ .farrow := by
  simp only [cElem, Bool.or_eq_false_iff] at h
  exact ⟨h.1, by simpa using h.2⟩

theorem g_arg {e : Expr} {ts : List T} (h : DoneP env ns (fun self => handleKeyword self) (Is e) ts (cBin .rel)) :
    DoneP env ns (fun self => argument self) (Is e) ts (cElem .arg) := by
  intro rest s hf hn hr
  obtain ⟨a, s', h1, h2, h3, h4⟩ := h rest s hf hn (cElem_arg hr).1
  refine ⟨a, s', ?_, h2, h3, h4⟩
  unfold argument
  refine EvP.bind h1 ?_
  ev
  exact EvP.neg (h3.ne (cElem_arg hr).2) EvP.ret

theorem g_argPair {k v : Expr} {tk tv : List T} (hk : DoneP env ns (fun self => handleKeyword self) (Is k) tk (cBin .rel))
    (hv : DoneP env ns (fun self => handleKeyword self) (Is v) tv (cBin .rel)) :
    DoneP env ns (fun self => argument self) (Is (.keyedEntry z k v)) (tk ++ y .farrow :: tv) (cElem .arg) := by
  intro rest s hf hn hr
  nf at hf
  obtain ⟨a, s1, h1, h2, h3, h4⟩ := hk _ s hf hn rfl
  obtain ⟨s2, h5, h6, h7⟩ := Feeds.next h3
  obtain ⟨b, s3, h8, h9, h10, h11⟩ := hv rest s2 h7 (by rw [h6, h4]) (cElem_arg hr).1
  refine ⟨.keyedEntry ⟨a.off, (s3.pos : Int) - a.off⟩ a b, s3, ?_, ?_, h10, h11⟩
  · unfold argument
    refine EvP.bind h1 ?_
    ev
    refine EvP.pos (sym_reads h3.reads).1 (EvP.bind h5 (EvP.bind h8 ?_))
    ev
  · unfold Is at *; simp only [bare, h2, h9]

theorem g_entry {k v : Expr} {tk tv : List T} (hk : DoneP env ns (fun self => handleKeyword self) (Is k) tk (cBin .rel))
    (hv : DoneP env ns (fun self => handleKeyword self) (Is v) tv (cBin .rel)) :
    DoneP env ns (fun self => keyedEntry self) (Is (.keyedEntry z k v)) (tk ++ y .farrow :: tv) (cElem .entry) := by
  intro rest s hf hn hr
  nf at hf
  obtain ⟨a, s1, h1, h2, h3, h4⟩ := hk _ s hf hn rfl
  obtain ⟨s2, h5, h6, h7⟩ := Feeds.next h3
  obtain ⟨b, s3, h8, h9, h10, h11⟩ := hv rest s2 h7 (by rw [h6, h4]) (cElem_arg hr).1
  refine ⟨.keyedEntry ⟨a.off, (s3.pos : Int) - a.off⟩ a b, s3, ?_, ?_, h10, h11⟩
  · unfold keyedEntry
    refine EvP.bind h1 ?_
    ev
    refine EvP.neg (by simp [(sym_reads h3.reads).1]) (EvP.bind h5 (EvP.bind h8 ?_))
    ev
  · unfold Is at *; simp only [bare, h2, h9]

theorem g_selEntry {k v : Expr} {tk tv : List T} (hk : DoneP env ns (fun self => self .expression) (Is k) tk cExpr)
    (hv : DoneP env ns (fun self => self .expression) (Is v) tv cExpr) :
    DoneP env ns (fun self => selectorEntry self) (Is (.selectorEntry z k v)) (tk ++ y .farrow :: tv) cExpr := by
  intro rest s hf hn hr
  nf at hf
  obtain ⟨a, s1, h1, h2, h3, h4⟩ := hk _ s hf hn rfl
  obtain ⟨s2, h5, h6, h7⟩ := Feeds.next h3
  obtain ⟨b, s3, h8, h9, h10, h11⟩ := hv rest s2 h7 (by rw [h6, h4]) hr
  refine ⟨.selectorEntry ⟨s.tsp, (s3.pos : Int) - s.tsp⟩ a b, s3, ?_, ?_, h10, h11⟩
  · unfold selectorEntry
    ev
    refine EvP.bind h1 (EvP.prim (assertToken_ok (sym_reads h3.reads).1) (EvP.bind h5 (EvP.bind h8 ?_)))
    ev
  · unfold Is at *; simp only [bare, h2, h9]

/-! ## Types, parameters, lambdas -/

theorem typeName_of {n : GoStr} {rest : List T} {s : St} (hf : Feeds env (.type n :: rest) s) :
    ∃ p s', EvP env (fun self => typeName self) s (some (.qref p n (toLowerAscii n))) s' ∧ Feeds env rest s' ∧ s'.names = s.names := by
  obtain ⟨s1, h1, h2, h3⟩ := Feeds.next hf
  refine ⟨⟨s.tsp, (s.pos : Int) - s.tsp⟩, s1, ?_, h3, h2⟩
  unfold typeName
  ev
  refine EvP.pos hf.reads.1 (EvP.prim (tokenString_str hf.reads.2) ?_)
  ev
  refine EvP.bind h1 ?_
  ev

theorem g_typ {n : GoStr} : DoneP env ns (fun self => parameterType self) (Is (.qref z n (toLowerAscii n))) [.type n] cPrim := by
  intro rest s hf hn hr
  obtain ⟨p, s1, h1, h2, h3⟩ := typeName_of hf
  have ht : s1.tok ≠ .lb := by
    have := Feeds.test (ts := rest) h2 hr rfl
    intro h; rw [h] at this; cases this
  refine ⟨.qref p n (toLowerAscii n), s1, ?_, by unfold Is; simp only [bare], h2, by rw [h3, hn]⟩
  unfold parameterType
  ev
  refine EvP.bind h1 ?_
  dsimp only
  ev
  exact EvP.neg ht EvP.ret

theorem g_typArgs {n : GoStr} {es : List Expr} {te : List T} (h : DoneMany env ns .arg es te) :
    DoneP env ns (fun self => parameterType self) (Is (.access z (.qref z n (toLowerAscii n)) (gather es)))
      (.type n :: y .lb :: (te ++ [y .rb])) cPrim := by
  intro rest s hf hn hr
  nf at hf
  obtain ⟨p, s1, h1, h2, h3⟩ := typeName_of hf
  obtain ⟨s2, h4, h5, h6⟩ := Feeds.next h2
  obtain ⟨es', s3, h7, h8, h9, h10⟩ := h .rb rfl _ s2 h6 (by rw [h5, h3, hn]) rfl
  obtain ⟨s4, h11, h12, h13⟩ := Feeds.next h9
  refine ⟨.access ⟨s.tsp, (s3.pos : Int) - s.tsp⟩ (.qref p n (toLowerAscii n)) (joinHashEntries es'), s4, ?_, ?_, h13, by rw [h12, h10]⟩
  · unfold parameterType
    ev
    refine EvP.bind h1 ?_
    dsimp only
    ev
    refine EvP.pos (sym_reads h2.reads).1 (EvP.bind h4 ?_)
    unfold arrayExpression
    refine EvP.bind (t := s3) (a := joinHashEntries es') (EvP.bind (at_nil h7) EvP.ret) ?_
    ev
    refine EvP.bind h11 ?_
    ev
  · unfold Is; simp only [bare, bareL_join, h8]

def cRet (t : Tok) : Bool := cPrim t || t == .rshift

theorem g_noRet : DoneP env ns (fun self => optReturnType self) (IsO none) [] cRet := by
  intro rest s hf hn hr
  nf at hf
  simp only [cRet, Bool.or_eq_false_iff] at hr
  refine ⟨none, s, ?_, bareO_none, hf, hn⟩
  unfold optReturnType
  ev
  exact EvP.neg (hf.ne (by simpa using hr.2)) EvP.ret

theorem g_ret {e : Expr} {te : List T} (h : DoneP env ns (fun self => parameterType self) (Is e) te cPrim) :
    DoneP env ns (fun self => optReturnType self) (IsO (some e)) (y .rshift :: te) cRet := by
  intro rest s hf hn hr
  nf at hf
  simp only [cRet, Bool.or_eq_false_iff] at hr
  obtain ⟨s1, h1, h2, h3⟩ := Feeds.next hf
  obtain ⟨a, s2, h4, h5, h6, h7⟩ := h rest s1 h3 (by rw [h2, hn]) hr.1
  unfold Is at h5
  refine ⟨some a, s2, ?_, by unfold IsO; rw [bareO_some, h5], h6, h7⟩
  unfold optReturnType
  ev
  refine EvP.pos (sym_reads hf.reads).1 (EvP.bind h1 (EvP.bind h4 ?_))
  ev

def cTyp (t : Tok) : Bool := cPrim t || t == .typeName
def cDflt (t : Tok) : Bool := cExpr t || t == .assign

/-- The optional type of a parameter. -/
def DoneOptTyp (env : Env) (ns : List GoStr) (ty : Option Expr) (ts : List T) : Prop :=
  ∀ rest s, Feeds env (ts ++ rest) s → s.names = ns → cTyp (hd rest) = false →
    ∃ ty' s', bareO ty' = ty ∧ Feeds env rest s' ∧ s'.names = ns ∧
      ((s.tok = .typeName ∧ ∃ e, ty' = some e ∧ EvP env (fun self => parameterType self) s e s') ∨ (s.tok ≠ .typeName ∧ ty' = none ∧ s' = s))

/-- The optional default of a parameter. -/
def DoneDflt (env : Env) (ns : List GoStr) (d : Option Expr) (ts : List T) : Prop :=
  ∀ rest s, Feeds env (ts ++ rest) s → s.names = ns → cDflt (hd rest) = false →
    ∃ d' s', bareO d' = d ∧ Feeds env rest s' ∧ s'.names = ns ∧
      ((s.tok = .assign ∧ ∃ e s1, d' = some e ∧ EvN env .nextToken s () s1 ∧ EvN env .expression s1 e s') ∨
        (s.tok ≠ .assign ∧ d' = none ∧ s' = s))

theorem g_noTyp : DoneOptTyp env ns none [] := by
  intro rest s hf hn hr
  nf at hf
  simp only [cTyp, Bool.or_eq_false_iff] at hr
  exact ⟨none, s, bareO_none, hf, hn, .inr ⟨hf.ne (by simpa using hr.2), rfl, rfl⟩⟩

theorem g_optTyp {e : Expr} {te : List T} (h : DoneP env ns (fun self => parameterType self) (Is e) te cPrim) (ht : FirstTok (isTok .typeName) te) :
    DoneOptTyp env ns (some e) te := by
  intro rest s hf hn hr
  simp only [cTyp, Bool.or_eq_false_iff] at hr
  obtain ⟨a, s2, h4, h5, h6, h7⟩ := h rest s hf hn hr.1
  unfold Is at h5
  exact ⟨some a, s2, by rw [bareO_some, h5], h6, h7, .inl ⟨by simpa [isTok] using ht.tok hf rfl, a, rfl, h4⟩⟩

theorem g_noDflt : DoneDflt env ns none [] := by
  intro rest s hf hn hr
  nf at hf
  simp only [cDflt, Bool.or_eq_false_iff] at hr
  exact ⟨none, s, bareO_none, hf, hn, .inr ⟨hf.ne (by simpa using hr.2), rfl, rfl⟩⟩

theorem g_dfltVal {e : Expr} {te : List T} (h : DoneP env ns (fun self => self .expression) (Is e) te cExpr) :
    DoneDflt env ns (some e) (y .assign :: te) := by
  intro rest s hf hn hr
  nf at hf
  simp only [cDflt, Bool.or_eq_false_iff] at hr
  obtain ⟨s1, h1, h2, h3⟩ := Feeds.next hf
  obtain ⟨a, s2, h4, h5, h6, h7⟩ := h rest s1 h3 (by rw [h2, hn]) hr.1
  unfold Is at h5
  exact ⟨some a, s2, by rw [bareO_some, h5], h6, h7, .inl ⟨(sym_reads hf.reads).1, a, s1, rfl, h1, h4⟩⟩

theorem cElem_dflt {t : Tok} (h : cElem .param t = false) : cDflt t = false := by
  have h1 := cElem_arg (t := t) h
  have h2 := cExpr_rel h1.1
  simp only [cDflt, h2, Bool.false_or]
  have h3 : cAssign t = false := by
    have := h1.1
    simp only [cBin, cOpd, Bool.or_eq_false_iff] at this
    exact this.1
  simp only [cAssign, Bool.or_eq_false_iff] at h3
  have h4 := h3.2
  revert h4
  cases t <;> intro h4 <;> first | rfl | contradiction

theorem parameterName_of {v : GoStr} {s : St} (h : Reads (.var v) s) : parameterName env s = .ok v s := by
  unfold parameterName
  ex
  rw [if_neg (by simp [h.1]), h.2]
  rfl

theorem g_param {ty d : Option Expr} {tt td : List T} {v : GoStr} (h1 : DoneOptTyp env ns ty tt) (h2 : DoneDflt env ns d td) :
    DoneP env ns (fun self => parameter self) (Is (.parameter z v d ty false)) (tt ++ .var v :: td) (cElem .param) := by
  intro rest s hf hn hr
  nf at hf
  obtain ⟨ty', s1, a1, a2, a3, a4⟩ := h1 _ s hf hn rfl
  obtain ⟨s2, b1, b2, b3⟩ := Feeds.next a2
  obtain ⟨d', s3, c1, c2, c3, c4⟩ := h2 rest s2 b3 (by rw [b2, a3]) (cElem_dflt hr)
  refine ⟨.parameter ⟨s.tsp, (s3.pos : Int) - s.tsp⟩ v d' ty' false, s3, ?_, by unfold Is; simp only [bare, a1, c1], c2, c3⟩
  have hm : s1.tok ≠ .multiply := by rw [a2.reads.1]; nofun
  have hm' : (s1.tok == .multiply) = false := by simpa using hm
  have key : EvP env (fun self => do
      let v ← parameterName
      nextTok self
      let t' ← curTok
      let d ← if t' = .assign then do
          nextTok self
          let e ← self .expression
          pure (some e)
        else pure none
      let p ← here s.tsp
      pure (Expr.parameter p v d ty' false)) s1 (Expr.parameter ⟨s.tsp, (s3.pos : Int) - s.tsp⟩ v d' ty' false) s3 := by
    refine EvP.prim (parameterName_of a2.reads) (EvP.bind b1 ?_)
    ev
    dsimp only
    rcases c4 with ⟨c5, e, s4, rfl, c6, c7⟩ | ⟨c5, rfl, rfl⟩
    · refine EvP.pos c5 (EvP.bind c6 (EvP.bind c7 ?_))
      ev
    · refine EvP.neg c5 ?_
      ev
  unfold parameter
  ev
  dsimp only
  rcases a4 with ⟨a5, e, rfl, a6⟩ | ⟨a5, rfl, rfl⟩
  · refine EvP.pos a5 (EvP.bind a6 ?_)
    ev
    refine EvP.neg hm ?_
    ev
    rw [hm']
    exact key
  · refine EvP.neg a5 ?_
    ev
    refine EvP.neg hm ?_
    ev
    rw [hm']
    exact key

theorem g_paramRest {ty d : Option Expr} {tt td : List T} {v : GoStr} (h1 : DoneOptTyp env ns ty tt) (h2 : DoneDflt env ns d td) :
    DoneP env ns (fun self => parameter self) (Is (.parameter z v d ty true)) (tt ++ y .multiply :: .var v :: td) (cElem .param) := by
  intro rest s hf hn hr
  nf at hf
  obtain ⟨ty', s1, a1, a2, a3, a4⟩ := h1 _ s hf hn rfl
  obtain ⟨s1', f1, f2, f3⟩ := Feeds.next a2
  obtain ⟨s2, b1, b2, b3⟩ := Feeds.next f3
  obtain ⟨d', s3, c1, c2, c3, c4⟩ := h2 rest s2 b3 (by rw [b2, f2, a3]) (cElem_dflt hr)
  refine ⟨.parameter ⟨s.tsp, (s3.pos : Int) - s.tsp⟩ v d' ty' true, s3, ?_, by unfold Is; simp only [bare, a1, c1], c2, c3⟩
  have hm : s1.tok = .multiply := (sym_reads a2.reads).1
  have hm' : (s1.tok == .multiply) = true := by simpa using hm
  have key : EvP env (fun self => do
      let v ← parameterName
      nextTok self
      let t' ← curTok
      let d ← if t' = .assign then do
          nextTok self
          let e ← self .expression
          pure (some e)
        else pure none
      let p ← here s.tsp
      pure (Expr.parameter p v d ty' true)) s1' (Expr.parameter ⟨s.tsp, (s3.pos : Int) - s.tsp⟩ v d' ty' true) s3 := by
    refine EvP.prim (parameterName_of f3.reads) (EvP.bind b1 ?_)
    ev
    dsimp only
    rcases c4 with ⟨c5, e, s4, rfl, c6, c7⟩ | ⟨c5, rfl, rfl⟩
    · refine EvP.pos c5 (EvP.bind c6 (EvP.bind c7 ?_))
      ev
    · refine EvP.neg c5 ?_
      ev
  unfold parameter
  ev
  dsimp only
  rcases a4 with ⟨a5, e, rfl, a6⟩ | ⟨a5, rfl, rfl⟩
  · refine EvP.pos a5 (EvP.bind a6 ?_)
    ev
    refine EvP.pos hm (EvP.bind f1 ?_)
    ev
    rw [hm']
    exact key
  · refine EvP.neg a5 ?_
    ev
    refine EvP.pos hm (EvP.bind f1 ?_)
    ev
    rw [hm']
    exact key

end
end PP
