import Verif.Lemmas.Gram8a

/-! # Steps of workflows -/
namespace PP
open PP.Spec
set_option linter.unusedSimpArgs false
set_option linter.unusedSectionVars false

mutual
theorem bare_toDeferred : ∀ e : Expr, bare (toDeferred e) = deferred (bare e)
  | .list p es => by simp only [toDeferred, bare, deferred, bareL_toDeferred es]
  | .hash p es => by simp only [toDeferred, bare, deferred, bareL_toDeferred es]
  | .keyedEntry p k v => by simp only [toDeferred, bare, deferred, bare_toDeferred k, bare_toDeferred v]
  | .call p k rv f args lam => by
    have ih := bareL_toDeferred args
    cases k with
    | method | function => simp only [toDeferred, bare, deferred]
    | named =>
      cases f <;> simp only [toDeferred, bare, deferred, deferredCall, deferredNew, method, bareL_cons, bareL_nil, bareO_none, ih]
  | .un p k e => by
    cases k with
    | «variable» =>
      cases e <;> simp only [toDeferred, bare, deferred, deferredCall, deferredNew, method, bareL_cons, bareL_nil, bareO_none]
    | _ => simp only [toDeferred, bare, deferred]
  | .access .. | .bin .. | .query .. | .attributeOp .. | .attributesOp .. | .block .. | .capabilityMapping .. | .caseE .. | .caseOption .. | .collect ..
  | .concat .. | .epp .. | .heredoc .. | .ifE .. | .lambda .. | .boolean .. | .dflt .. | .float .. | .integer .. | .string .. | .undef .. | .nop ..
  | .namedDef .. | .function .. | .node .. | .parameter .. | .program .. | .qname .. | .qref .. | .regexp .. | .renderString .. | .reserved ..
  | .resource .. | .resourceBody .. | .resourceDefaults .. | .resourceOverride .. | .selector .. | .selectorEntry .. | .site .. | .typeAlias ..
  | .typeDefinition .. | .typeMapping .. | .step .. | .commaSep .. => by simp only [toDeferred, bare, deferred]
theorem bareL_toDeferred : ∀ es : List Expr, bareL (toDeferredList es) = deferredL (bareL es)
  | [] => by simp only [toDeferredList, bareL_nil, deferredL]
  | e :: es => by simp only [toDeferredList, bareL_cons, deferredL, bare_toDeferred e, bareL_toDeferred es]
end

section
variable [Ending] {env : Env} {ns : List GoStr}

/-- The name of an attribute as an expression. -/
theorem attributeOf_expr {t : T} {name : GoStr} {s s1 : St} (h : attributeOf t = some name) (hr : Reads t s) (hx : EvN env .nextToken s () s1) :
    ∃ q, EvP env (fun self => identifierExpr self) s (some (name, .qname q name)) s1 := by
  refine ⟨⟨s.tsp, (s.tsp : Int) - s.pos⟩, ?_⟩
  unfold identifierExpr
  ev
  unfold attributeOf at h
  split at h
  · cases h
    refine EvP.pos hr.1 (EvP.prim (tokenString_str hr.2) (EvP.bind hx ?_))
    ev
  · cases h
    refine EvP.pos hr.1 (EvP.prim (tokenString_str hr.2) (EvP.bind hx ?_))
    ev
  · cases h
    refine EvP.neg (by rw [hr.1]; nofun) ?_
    rw [hr.1]
    refine EvP.bind hx ?_
    exact EvP.ret
  · rename_i k
    split at h
    · cases h
    · cases h
      obtain ⟨h1, -, h2, h3⟩ := hr
      refine EvP.neg (by rw [h1]; intro h; rw [h] at h2; cases h2) ?_
      rw [h1]
      have : keywordOf k = some (spell k) := by unfold keywordOf; rw [if_pos h2, spell_eq h2 h3]
      rw [this]
      exact EvP.bind hx EvP.ret
  · cases h

/-- `attributeAlias`. -/
theorem aliasName_of {t : T} {n : GoStr} {rest : List T} {s : St} (ht : attributeOf t = some n) (hf : Feeds env (t :: rest) s) :
    ∃ q s', EvP env (fun self => attributeAlias self) s (.string q n) s' ∧ Feeds env rest s' ∧ s'.names = s.names := by
  obtain ⟨s1, a1, a2, a3⟩ := Feeds.next hf
  obtain ⟨-, -, -, d4⟩ := attributeOf_reads ht hf.reads a1
  refine ⟨⟨s.tsp, n.length⟩, s1, ?_, a3, a2⟩
  unfold attributeAlias
  ev
  exact EvP.bind d4 EvP.ret

theorem g_alias {t : T} {n : GoStr} (ht : attributeOf t = some n) :
    DoneP env ns (fun self => attributeAlias self) (Is (.string z n)) [t] (cElem .alias) := by
  intro rest s hf hn _
  obtain ⟨q, s1, a1, a2, a3⟩ := aliasName_of ht hf
  exact ⟨_, s1, a1, by unfold Is; simp only [bare], a2, by rw [a3, hn]⟩

/-- Where a step finds a value that it returns. -/
def sourceTail (k : Option Expr → P Expr) (self : Self) : P Expr := do
  let t ← curTok
  if t = .lp ∨ t = .wslp then do
    let ps ← tokStart
    nextTok self
    let es ← expressions self .rp .attributeAlias
    let p ← getPos
    nextTok self
    let d ← pure (some (.list ⟨ps, (ps : Int) - p⟩ es))
    k d
  else do
    let e ← attributeAlias self
    let d ← pure (some e)
    k d

def DoneSource (env : Env) (ns : List GoStr) (d : Option Expr) (ts : List T) : Prop :=
  ∀ rest s, Feeds env (ts ++ rest) s → s.names = ns → hd rest ≠ .assign →
    ∃ d' s', bareO d' = d ∧ Feeds env rest s' ∧ s'.names = ns ∧
      ((s.tok = .assign ∧ ∃ s1, EvN env .nextToken s () s1 ∧ ∀ k R, EvR env (fun _ => k d') s' R → EvR env (sourceTail k) s1 R) ∨
        (s.tok ≠ .assign ∧ d' = none ∧ s' = s))

theorem g_noSource : DoneSource env ns none [] := by
  intro rest s hf hn hr
  nf at hf
  exact ⟨none, s, bareO_none, hf, hn, .inr ⟨hf.ne hr, rfl, rfl⟩⟩

theorem attributeOf_noParen {t : T} {n : GoStr} {s : St} (ht : attributeOf t = some n) (hr : Reads t s) : ¬ (s.tok = .lp ∨ s.tok = .wslp) := by
  unfold attributeOf at ht
  split at ht
  · rw [hr.1]; simp
  · rw [hr.1]; simp
  · rw [hr.1]; simp
  · obtain ⟨h1, -, h2, h3⟩ := hr
    rw [h1]
    rintro (h | h) <;> (rw [h] at h2; cases h2)
  · cases ht

theorem g_source {t : T} {n : GoStr} (ht : attributeOf t = some n) : DoneSource env ns (some (.string z n)) [y .assign, t] := by
  intro rest s hf hn _
  nf at hf
  obtain ⟨s1, a1, a2, a3⟩ := Feeds.next hf
  obtain ⟨q, s2, b1, b2, b3⟩ := aliasName_of ht a3
  refine ⟨some (.string q n), s2, by simp only [bareO_some, bare], b2, by rw [b3, a2, hn], .inl ⟨(sym_reads hf.reads).1, s1, a1, fun k R hk => ?_⟩⟩
  unfold sourceTail
  ev
  exact EvP.neg (attributeOf_noParen ht a3.reads) (EvP.bind b1 (EvP.prim ex_pure hk))

theorem g_sources {p : T} {es : List Expr} {te : List T} (hp : isParen p = true) (he : DoneMany env ns .alias es te) :
    DoneSource env ns (some (.list z es)) (y .assign :: p :: (te ++ [y .rp])) := by
  intro rest s hf hn _
  nf at hf
  obtain ⟨s1, a1, a2, a3⟩ := Feeds.next hf
  obtain ⟨s2, b1, b2, b3⟩ := Feeds.next a3
  obtain ⟨es', s3, c1, c2, c3, c4⟩ := he .rp rfl _ s2 b3 (by rw [b2, a2, hn]) rfl
  obtain ⟨s4, d1, d2, d3⟩ := Feeds.next c3
  refine ⟨some (.list ⟨s1.tsp, (s1.tsp : Int) - s3.pos⟩ es'), s4, by simp only [bareO_some, bare, c2], d3, by rw [d2, c4], .inl ⟨(sym_reads hf.reads).1, s1, a1, fun k R hk => ?_⟩⟩
  unfold sourceTail
  ev
  refine EvP.pos (isParen_reads hp a3.reads) ?_
  ev
  refine EvP.bind b1 (EvP.bind (at_nil c1) ?_)
  ev
  refine EvP.bind d1 ?_
  exact EvP.prim ex_pure hk

theorem g_output {ty d : Option Expr} {tt td : List T} {v : GoStr} (h1 : DoneOptTyp env ns ty tt) (h2 : DoneSource env ns d td) :
    DoneP env ns (fun self => returnParameter self) (Is (.parameter z v d ty false)) (tt ++ .var v :: td) (cElem .output) := by
  intro rest s hf hn hr
  nf at hf
  obtain ⟨ty', s1, a1, a2, a3, a4⟩ := h1 _ s hf hn rfl
  obtain ⟨s2, b1, b2, b3⟩ := Feeds.next a2
  obtain ⟨d', s3, c1, c2, c3, c4⟩ := h2 rest s2 b3 (by rw [b2, a3]) (by intro h; rw [h] at hr; cases hr)
  refine ⟨.parameter ⟨s.tsp, (s3.pos : Int) - s.tsp⟩ v d' ty' false, s3, ?_, by unfold Is; simp only [bare, a1, c1], c2, c3⟩
  have key : EvP env (fun self => do
      let v ← parameterName
      nextTok self
      let t ← curTok
      if t = .assign then do
          nextTok self
          sourceTail (fun d => do
            let p ← here s.tsp
            pure (Expr.parameter p v d ty' false)) self
        else do
          let d ← pure none
          let p ← here s.tsp
          pure (Expr.parameter p v d ty' false)) s1 (Expr.parameter ⟨s.tsp, (s3.pos : Int) - s.tsp⟩ v d' ty' false) s3 := by
    refine EvP.prim (parameterName_of a2.reads) (EvP.bind b1 ?_)
    ev
    rcases c4 with ⟨c5, s4, c6, c7⟩ | ⟨c5, rfl, rfl⟩
    · refine EvP.pos c5 (EvP.bind c6 (c7 _ _ ?_))
      ev
    · refine EvP.neg c5 ?_
      ev
  unfold returnParameter
  ev
  dsimp only
  rcases a4 with ⟨a5, e, rfl, a6⟩ | ⟨a5, rfl, rfl⟩
  · refine EvP.pos a5 (EvP.bind a6 ?_)
    ev
    exact key
  · refine EvP.neg a5 ?_
    ev
    exact key

/-! ## Properties and states -/

theorem cElem_rel {k : Elem} {t : Tok} (hk : k = .prop ∨ k = .state) (h : cElem k t = false) : cBin .rel t = false := by
  rcases hk with rfl | rfl <;> (simp only [cElem, Bool.or_eq_false_iff] at h; exact h.1)

theorem g_prop {t : T} {n : GoStr} {v : Expr} {tv : List T} (ht : attributeOf t = some n) (h1 : n ≠ b!"parameters") (h2 : n ≠ b!"returns")
    (hv : DoneP env ns (fun self => handleKeyword self) (Is v) tv (cBin .rel)) :
    DoneP env ns (fun self => stepProperty self) (Is (.keyedEntry z (.qname z n) v)) (t :: y .farrow :: tv) (cElem .prop) := by
  intro rest s hf hn hr
  nf at hf
  obtain ⟨s1, a1, a2, a3⟩ := Feeds.next hf
  obtain ⟨s2, b1, b2, b3⟩ := Feeds.next a3
  obtain ⟨v', s3, c1, c2, c3, c4⟩ := hv rest s2 b3 (by rw [b2, a2, hn]) (cElem_rel (.inl rfl) hr)
  obtain ⟨q, d1⟩ := attributeOf_expr ht hf.reads a1
  refine ⟨.keyedEntry ⟨s.pos, (s3.pos : Int) - s.pos⟩ (.qname q n) v', s3, ?_, ?_, c3, c4⟩
  · unfold stepProperty
    ev
    refine EvP.bind d1 ?_
    dsimp only
    ev
    refine EvP.neg (by simp [(sym_reads a3.reads).1]) (EvP.bind b1 ?_)
    ev
    refine EvP.neg h1 (EvP.neg h2 (EvP.bind c1 ?_))
    ev
  · unfold Is at *; simp only [bare, c2]

theorem g_propParameters {p : T} {ps : List Expr} {tp : List T} (hp : isParen p = true) (h : DoneMany env ns .param ps tp) :
    DoneP env ns (fun self => stepProperty self) (Is (.keyedEntry z (.qname z b!"parameters") (.list z ps)))
      (.name b!"parameters" :: y .farrow :: p :: (tp ++ [y .rp])) (cElem .prop) := by
  intro rest s hf hn hr
  nf at hf
  obtain ⟨s1, a1, a2, a3⟩ := Feeds.next hf
  obtain ⟨s2, b1, b2, b3⟩ := Feeds.next a3
  obtain ⟨s3, c1, c2, c3⟩ := Feeds.next b3
  obtain ⟨ps', s4, d1, d2, d3, d4⟩ := h .rp rfl _ s3 c3 (by rw [c2, b2, a2, hn]) rfl
  obtain ⟨s5, e1, e2, e3⟩ := Feeds.next d3
  obtain ⟨q, f1⟩ := attributeOf_expr (name := b!"parameters") rfl hf.reads a1
  refine ⟨.keyedEntry ⟨s.pos, (s5.pos : Int) - s.pos⟩ (.qname q b!"parameters") (.list ⟨s2.pos, (s4.pos : Int) - s2.pos⟩ ps'), s5, ?_, ?_, e3, by rw [e2, d4]⟩
  · unfold stepProperty
    ev
    refine EvP.bind f1 ?_
    dsimp only
    ev
    refine EvP.neg (by simp [(sym_reads a3.reads).1]) (EvP.bind b1 ?_)
    ev
    refine EvP.pos rfl ?_
    unfold parameterList
    refine EvP.bind (t := s4) (a := ps') ?_ ?_
    · ev
      exact EvP.pos (isParen_reads hp b3.reads) (EvP.bind c1 (at_nil d1))
    · ev
      refine EvP.bind e1 ?_
      ev
  · unfold Is at *; simp only [bare, d2]

theorem g_propReturns {p : T} {ps : List Expr} {tp : List T} (hp : isParen p = true) (h : DoneMany env ns .output ps tp) :
    DoneP env ns (fun self => stepProperty self) (Is (.keyedEntry z (.qname z b!"returns") (.list z ps)))
      (.name b!"returns" :: y .farrow :: p :: (tp ++ [y .rp])) (cElem .prop) := by
  intro rest s hf hn hr
  nf at hf
  obtain ⟨s1, a1, a2, a3⟩ := Feeds.next hf
  obtain ⟨s2, b1, b2, b3⟩ := Feeds.next a3
  obtain ⟨s3, c1, c2, c3⟩ := Feeds.next b3
  obtain ⟨ps', s4, d1, d2, d3, d4⟩ := h .rp rfl _ s3 c3 (by rw [c2, b2, a2, hn]) rfl
  obtain ⟨s5, e1, e2, e3⟩ := Feeds.next d3
  obtain ⟨q, f1⟩ := attributeOf_expr (name := b!"returns") rfl hf.reads a1
  refine ⟨.keyedEntry ⟨s.pos, (s5.pos : Int) - s.pos⟩ (.qname q b!"returns") (.list ⟨s2.pos, (s4.pos : Int) - s2.pos⟩ ps'), s5, ?_, ?_, e3, by rw [e2, d4]⟩
  · unfold stepProperty
    ev
    refine EvP.bind f1 ?_
    dsimp only
    ev
    refine EvP.neg (by simp [(sym_reads a3.reads).1]) (EvP.bind b1 ?_)
    ev
    refine EvP.neg (by decide) (EvP.pos rfl ?_)
    ev
    refine EvP.pos (isParen_reads hp b3.reads) (EvP.bind c1 (EvP.bind (at_nil d1) ?_))
    ev
    refine EvP.bind e1 ?_
    ev
  · unfold Is at *; simp only [bare, d2]

theorem g_state {t : T} {n : GoStr} {v : Expr} {tv : List T} (ht : attributeOf t = some n)
    (hv : DoneP env ns (fun self => self .expression) (Is v) tv cExpr) :
    DoneP env ns (fun self => stateAttribute self) (Is (.keyedEntry z (.qname z n) v)) (t :: y .farrow :: tv) (cElem .state) := by
  intro rest s hf hn hr
  nf at hf
  obtain ⟨s1, a1, a2, a3⟩ := Feeds.next hf
  obtain ⟨s2, b1, b2, b3⟩ := Feeds.next a3
  obtain ⟨v', s3, c1, c2, c3, c4⟩ := hv rest s2 b3 (by rw [b2, a2, hn]) (cExpr_rel (cElem_rel (.inr rfl) hr))
  obtain ⟨q, d1⟩ := attributeOf_expr ht hf.reads a1
  refine ⟨.keyedEntry ⟨s.tsp, (s3.pos : Int) - s.tsp⟩ (.qname q n) v', s3, ?_, ?_, c3, c4⟩
  · unfold stateAttribute
    ev
    refine EvP.bind d1 ?_
    dsimp only
    ev
    refine EvP.pos (sym_reads a3.reads).1 (EvP.bind b1 (EvP.bind c1 ?_))
    ev
  · unfold Is at *; simp only [bare, c2]

/-! ## Iterations -/

/-- Tokens that begin an iteration. -/
def cIter : Tok → Bool
  | .identifier | .variable => true
  | _ => false

theorem g_noIteration {n : GoStr} : DoneP env ns (fun self => stepIteration self n) (IsL []) [] cIter := by
  intro rest s hf hn hr
  nf at hf
  have h1 : s.tok ≠ .variable := hf.ne (by intro h; rw [h] at hr; cases hr)
  have h2 : s.tok ≠ .identifier := hf.ne (by intro h; rw [h] at hr; cases hr)
  refine ⟨[], s, ?_, bareL_nil, hf, hn⟩
  unfold stepIteration
  ev
  dsimp only
  refine EvP.neg h1 ?_
  ev
  exact EvP.neg h2 EvP.ret

theorem iterator_cases {f : GoStr} (h : isIterator f = true) : f = b!"times" ∨ f = b!"range" ∨ f = b!"each" := by
  unfold isIterator at h
  simpa using h

/-- The code of `stepIteration` from the name of the function on. -/
def iterTail (iterName : GoStr) (self : Self) : P (List Expr) := do
  let t ← curTok
  if t = .identifier then do
    let f ← tokenString
    if f = b!"times" ∨ f = b!"range" ∨ f = b!"each" then do
      let nl := f.length
      let fs ← tokStart
      let ps ← getPos
      nextTok self
      let iterParams ← parameterList self
      nextTok self
      let vs ← getPos
      let pl := (ps : Int) - vs
      let iterVars ← lambdaParameterList self
      nextTok self
      let e ← getPos
      let vl := (e : Int) - vs
      let fn := (e : Int) - fs
      let iter := Expr.hash ⟨fs, fn⟩
        [.keyedEntry ⟨fs, nl⟩ (.qname ⟨fs, 0⟩ b!"name") (.qname ⟨fs, nl⟩ iterName),
         .keyedEntry ⟨fs, nl⟩ (.qname ⟨fs, 0⟩ b!"function") (.qname ⟨fs, nl⟩ f),
         .keyedEntry ⟨ps, pl⟩ (.qname ⟨ps, 0⟩ b!"params") (.list ⟨ps, pl⟩ iterParams),
         .keyedEntry ⟨vs, vl⟩ (.qname ⟨vs, 0⟩ b!"vars") (.list ⟨vs, vl⟩ iterVars)]
      pure [.keyedEntry ⟨fs, fn⟩ (.qname ⟨fs, 0⟩ b!"iteration") iter]
    else issue .parseExpectedIteratorStyle
  else pure []

theorem iterTail_of {m f : GoStr} {p : T} {ps vs : List Expr} {tp tv rest : List T} {s : St} (hi : isIterator f = true) (hp : isParen p = true)
    (h : DoneMany env ns .param ps tp) (hv : DoneMany env ns .param vs tv)
    (hf : Feeds env (.name f :: p :: (tp ++ y .rp :: y .pipe :: (tv ++ y .pipeEnd :: rest))) s) (hn : s.names = ns) :
    ∃ es s', EvP env (iterTail m) s es s' ∧ bareL es = [iterationProperty m f ps vs] ∧ Feeds env rest s' ∧ s'.names = ns := by
  obtain ⟨s1, a1, a2, a3⟩ := Feeds.next hf
  obtain ⟨s2, b1, b2, b3⟩ := Feeds.next a3
  obtain ⟨ps', s3, c1, c2, c3, c4⟩ := h .rp rfl _ s2 b3 (by rw [b2, a2, hn]) rfl
  obtain ⟨s4, d1, d2, d3⟩ := Feeds.next c3
  obtain ⟨s5, e1, e2, e3⟩ := Feeds.next d3
  obtain ⟨vs', s6, f1, f2, f3, f4⟩ := hv .pipeEnd rfl _ s5 e3 (by rw [e2, d2, c4]) rfl
  obtain ⟨s7, g1, g2, g3⟩ := Feeds.next f3
  refine ⟨?es, s7, ?h1, ?h2, g3, by rw [g2, f4]⟩
  case h1 =>
    unfold iterTail
    ev
    refine EvP.pos hf.reads.1 (EvP.prim (tokenString_str hf.reads.2) ?_)
    refine EvP.pos (iterator_cases hi) ?_
    dsimp only
    ev
    refine EvP.bind a1 ?_
    unfold parameterList lambdaParameterList
    refine EvP.bind (t := s3) (a := ps') ?_ ?_
    · ev
      exact EvP.pos (isParen_reads hp a3.reads) (EvP.bind b1 (at_nil c1))
    refine EvP.bind d1 ?_
    ev
    refine EvP.bind (t := s6) (a := vs') (EvP.bind e1 (at_nil f1)) (EvP.bind g1 ?_)
    ev
  case h2 => simp only [bareL_cons, bareL_nil, bare, c2, f2, iterationProperty]

theorem g_iteration {n f : GoStr} {p : T} {ps vs : List Expr} {tp tv : List T} (hi : isIterator f = true) (hp : isParen p = true)
    (h : DoneMany env ns .param ps tp) (hv : DoneMany env ns .param vs tv) :
    DoneP env ns (fun self => stepIteration self n) (IsL [iterationProperty n f ps vs])
      (.name f :: p :: (tp ++ y .rp :: y .pipe :: (tv ++ [y .pipeEnd]))) cIter := by
  intro rest s hf hn hr
  nf at hf
  obtain ⟨es, s1, a1, a2, a3, a4⟩ := iterTail_of (m := n) hi hp h hv hf hn
  refine ⟨es, s1, ?_, a2, a3, a4⟩
  unfold stepIteration
  ev
  dsimp only
  refine EvP.neg (by rw [hf.reads.1]; nofun) ?_
  ev1
  exact a1

theorem g_namedIteration {n m f : GoStr} {p : T} {ps vs : List Expr} {tp tv : List T} (hi : isIterator f = true) (hp : isParen p = true)
    (h : DoneMany env ns .param ps tp) (hv : DoneMany env ns .param vs tv) :
    DoneP env ns (fun self => stepIteration self n) (IsL [iterationProperty m f ps vs])
      (.var m :: y .assign :: .name f :: p :: (tp ++ y .rp :: y .pipe :: (tv ++ [y .pipeEnd]))) cIter := by
  intro rest s hf hn hr
  nf at hf
  obtain ⟨s1, a1, a2, a3⟩ := Feeds.next hf
  obtain ⟨s2, b1, b2, b3⟩ := Feeds.next a3
  obtain ⟨es, s3, c1, c2, c3, c4⟩ := iterTail_of (m := m) hi hp h hv b3 (by rw [b2, a2, hn])
  refine ⟨es, s3, ?_, c2, c3, c4⟩
  unfold stepIteration
  ev
  dsimp only
  refine EvP.pos hf.reads.1 (EvP.prim (tokenString_str hf.reads.2) (EvP.bind a1 (EvP.prim (assertToken_ok (sym_reads a3.reads).1)
    (EvP.bind b1 (EvP.prim (assertToken_ok b3.reads.1) ?_)))))
  ev1
  exact c1

/-! ## Heads and bodies -/

/-- The properties of a step. -/
def DoneHead (env : Env) (ns : List GoStr) (n : GoStr) (ps : List Expr) (ts : List T) : Prop :=
  ∀ rest s, Feeds env (ts ++ rest) s → s.names = ns → cIter (hd rest) = false →
    ∃ s1 props s2 s3 iter s4, s.tok = .lc ∧ EvN env .nextToken s () s1 ∧ EvN env (.exprs .rc .stepProperty []) s1 props s2 ∧
      EvN env .nextToken s2 () s3 ∧ EvP env (fun self => stepIteration self n) s3 iter s4 ∧ bareL (props ++ iter) = ps ∧
      Feeds env rest s4 ∧ s4.names = ns

theorem g_stepHead {n : GoStr} {ps is : List Expr} {tp ti : List T} (hp : DoneMany env ns .prop ps tp)
    (hi : DoneP env ns (fun self => stepIteration self n) (IsL is) ti cIter) : DoneHead env ns n (ps ++ is) (y .lc :: (tp ++ y .rc :: ti)) := by
  intro rest s hf hn hr
  nf at hf
  obtain ⟨s1, a1, a2, a3⟩ := Feeds.next hf
  obtain ⟨ps', s2, b1, b2, b3, b4⟩ := hp .rc rfl _ s1 a3 (by rw [a2, hn]) rfl
  obtain ⟨s3, c1, c2, c3⟩ := Feeds.next b3
  obtain ⟨is', s4, d1, d2, d3, d4⟩ := hi rest s3 c3 (by rw [c2, b4]) hr
  exact ⟨s1, ps', s2, s3, is', s4, (sym_reads hf.reads).1, a1, at_nil b1, c1, d1, by unfold IsL at d2; rw [bareL_append, b2, d2], d3, d4⟩

/-- The definition part of a step; for a workflow, its name is removed. -/
def DoneBody (env : Env) (ns : List GoStr) (k : StepStyle) (b : Option Expr) (ts : List T) (cont : Tok → Bool) : Prop :=
  ∀ start rest s, Feeds env (ts ++ rest) s → s.names = ns → cont (hd rest) = false →
    ∃ b' s', EvP env (fun self => stepBlock self start k) s b' s' ∧ bareO b' = b ∧ Feeds env rest s' ∧
      s'.names = (if k = .workflow then ns.dropLast else ns)

theorem g_workflowBody {as : List Expr} {ta : List T} (ha : DoneL env ns (fun acc self => self (.activities acc)) as ta notRcOnly) :
    DoneBody env ns .workflow (if as.isEmpty then none else some (.block z as)) (y .lc :: (ta ++ [y .rc])) (fun _ => false) := by
  intro start rest s hf hn _
  nf at hf
  obtain ⟨s1, a1, a2, a3⟩ := Feeds.next hf
  obtain ⟨as', s2, b1, b2, b3, b4⟩ := ha _ s1 a3 (by rw [a2, hn]) rfl
  obtain ⟨s3, c1, c2, c3⟩ := Feeds.next b3
  refine ⟨if as'.isEmpty then none else some (.block ⟨s.tsp, (s3.pos : Int) - s.tsp⟩ as'), { s3 with names := s3.names.dropLast }, ?_, ?_,
    c3.with _ s3.defs, by rw [if_pos rfl, c2, b4]⟩
  · unfold stepBlock
    ev
    dsimp only
    refine EvP.pos (sym_reads hf.reads).1 ?_
    ev
    refine EvP.bind a1 (EvP.bind (at_nil b1) (EvP.bind c1 ?_))
    ev
    unfold popName
    ev
  · rw [← b2]
    cases as' <;> simp [bare]

theorem g_resourceBody {es : List Expr} {te : List T} (he : DoneMany env ns .state es te) :
    DoneBody env ns .resource (asHash (deferredL es)) (y .lc :: (te ++ [y .rc])) (fun _ => false) := by
  intro start rest s hf hn _
  nf at hf
  obtain ⟨s1, a1, a2, a3⟩ := Feeds.next hf
  obtain ⟨es', s2, b1, b2, b3, b4⟩ := he .rc rfl _ s1 a3 (by rw [a2, hn]) rfl
  obtain ⟨s3, c1, c2, c3⟩ := Feeds.next b3
  refine ⟨if es'.isEmpty then none else some (.hash ⟨start, (s2.pos : Int) - start⟩ (toDeferredList es')), s3, ?_, ?_,
    c3, by rw [if_neg nofun, c2, b4]⟩
  · unfold stepBlock
    ev
    dsimp only
    refine EvP.pos (sym_reads hf.reads).1 (EvP.bind a1 (EvP.bind (at_nil b1) ?_))
    ev
    refine EvP.bind c1 ?_
    ev
  · rw [← b2]
    unfold asHash
    cases es' with
    | nil => simp [deferredL]
    | cons e es => simp [bare, bareL_toDeferred, deferredL]

theorem g_actionBody {k : StepStyle} {b : Expr} {tb : List T} (hk : k = .action ∨ k = .stateHandler) (hb : DoneBlock env ns b tb) :
    DoneBody env ns k (some b) tb (fun _ => false) := by
  intro start rest s hf hn _
  obtain ⟨b', s1, a1, a2, a3, a4⟩ := hb rest s hf hn
  obtain ⟨s2, b1, b2, b3⟩ := Feeds.next a3
  refine ⟨some b', s2, ?_, by rw [bareO_some, a2], b3, ?_⟩
  · unfold stepBlock
    ev
    rcases hk with rfl | rfl <;> exact EvP.bind a1 (EvP.bind b1 EvP.ret)
  · rcases hk with rfl | rfl <;> rw [if_neg nofun, b2, a4]

theorem g_noBody {k : StepStyle} (hk : k = .workflow ∨ k = .resource) : DoneBody env ns k none [] (isTok .lc) := by
  intro start rest s hf hn hr
  nf at hf
  have h1 : s.tok ≠ .lc := hf.ne (by intro h; rw [h] at hr; cases hr)
  rcases hk with rfl | rfl
  · refine ⟨none, { s with names := s.names.dropLast }, ?_, bareO_none, hf.with _ s.defs, by rw [if_pos rfl, hn]⟩
    unfold stepBlock
    ev
    dsimp only
    refine EvP.neg h1 ?_
    ev
    unfold popName
    ev
  · refine ⟨none, s, ?_, bareO_none, hf, by rw [if_neg nofun, hn]⟩
    unfold stepBlock
    ev
    exact EvP.neg h1 EvP.ret

/-! ## Steps -/

theorem stepDeclaration_of {k : StepStyle} {n : GoStr} {ps : List Expr} {b : Option Expr} {tp tb rest : List T} {s : St} {c : Tok → Bool}
    (hp : DoneHead env (inside ns k n) n ps tp) (hb : DoneBody env (inside ns k n) k b tb c)
    (hi : cIter (hd (tb ++ rest)) = false) (hc : c (hd rest) = false)
    (hf : Feeds env (tp ++ (tb ++ rest)) s) (hn : s.names = ns) (start : Nat) (atTop : Bool) :
    ∃ e s', EvP env (fun self => stepDeclaration self start k n atTop) s e s' ∧ bare e = .step z (qualified (ns ++ [n])) k (asHash ps) b ∧
      Feeds env rest s' ∧ s'.names = ns := by
  have h0 : Feeds env (tp ++ (tb ++ rest)) { s with names := inside ns k n } := hf.with _ s.defs
  obtain ⟨s1, props, s2, s3, iter, s4, a0, a1, a2, a3, a4, a5, a6, a7⟩ := hp _ _ h0 rfl hi
  obtain ⟨b', s5, b1, b2, b3, b4⟩ := hb start rest s4 a6 a7 hc
  have hn5 : s5.names = ns := by
    rw [b4]
    unfold inside
    by_cases hk : k = .workflow
    · simp [hk]
    · simp [hk]
  let props' : Option Expr := if (props ++ iter).isEmpty then none else some (.hash ⟨s.tsp, (s2.pos : Int) - s.tsp⟩ (props ++ iter))
  let e' : Expr := .step ⟨start, (s5.pos : Int) - start⟩ (joinStr b!"::" (s5.names ++ [n])) k props' b'
  have hbare : bare e' = .step z (qualified (ns ++ [n])) k (asHash ps) b := by
    simp only [e', bare, b2, hn5, qualified_eq]
    congr 1
    rw [← a5]
    unfold asHash
    simp only [props']
    cases props ++ iter <;> simp [bare]
  have key : EvP env (fun self => do
      let hstart ← tokStart
      assertToken .lc
      nextTok self
      let props ← expressions self .rc .stepProperty
      let hEnd ← getPos
      nextTok self
      let iter ← stepIteration self n
      let props := props ++ iter
      let properties := if props.isEmpty then none else some (.hash ⟨hstart, (hEnd : Int) - hstart⟩ props)
      let block ← stepBlock self start k
      let qn ← qualifiedName n
      let p ← here start
      let e := Expr.step p qn k properties block
      if atTop then addDefinition e else pure e) { s with names := inside ns k n } e'
        (if atTop then { s5 with defs := s5.defs ++ [e'] } else s5) := by
    ev
    refine EvP.prim (assertToken_ok a0) (EvP.bind a1 (EvP.bind a2 ?_))
    ev
    refine EvP.bind a3 (EvP.bind a4 ?_)
    dsimp only
    refine EvP.bind b1 (EvP.prim (a := joinStr b!"::" (s5.names ++ [n])) rfl ?_)
    ev
    cases atTop with
    | true =>
      refine EvP.pos rfl ?_
      unfold addDefinition
      ev
      exact EvP.of rfl
    | false => exact EvP.neg nofun EvP.ret
  refine ⟨e', if atTop then { s5 with defs := s5.defs ++ [e'] } else s5, ?_, hbare, ?_, ?_⟩
  · unfold stepDeclaration
    dsimp only
    by_cases hk : k = .workflow
    · refine EvP.pos hk ?_
      unfold pushName
      have : inside ns k n = s.names ++ [n] := by unfold inside; rw [if_pos hk, hn]
      rw [this] at key
      ev1
      exact key
    · refine EvP.neg hk ?_
      have : inside ns k n = s.names := by unfold inside; rw [if_neg hk, hn]
      rw [this] at key
      exact key
  · cases atTop
    · exact b3
    · exact b3.with s5.names _
  · cases atTop <;> exact hn5

theorem styleExpr {k : StepStyle} : DoneP env ns (fun self => resource self) (Is (.qname z (styleName k))) [.style k] cRes := by
  intro rest s hf hn hr
  have h1 : DonePrim env ns false (Is (.qname z (styleName k))) [.style k] := g_atom (g_leaf rfl)
  obtain ⟨e, s1, a1, a2, a3, a4⟩ := g_prim h1 rfl rest s hf hn (cRes_cPrim hr).1
  exact ⟨e, s1, resource_of_primary a1 (by rw [hf.reads.1]; rfl) (a3.test hr rfl), a2, a3, a4⟩

theorem continues_cRes {t : Tok} (h : continues t = false) : cRes t = false := by
  revert h; cases t <;> intro h <;> first | rfl | cases h

theorem g_step {k : StepStyle} {t : T} {n : GoStr} {ps : List Expr} {b : Option Expr} {tp tb : List T} (ht : attributeOf t = some n)
    (hc : continues t.tok = false) (hp : DoneHead env (inside ns k n) n ps tp) (hb : DoneBody env (inside ns k n) k b tb (fun _ => false))
    (hbt : FirstTok (isTok .lc) tb) :
    DoneP env ns (fun self => stepOrResource self) (Is (.step z (qualified (ns ++ [n])) k (asHash ps) b)) (.style k :: t :: (tp ++ tb)) cRes := by
  intro rest s hf hn hr
  nf at hf
  obtain ⟨e, s1, a1, a2, a3, a4⟩ := styleExpr (k := k) (t :: (tp ++ (tb ++ rest))) s hf hn (continues_cRes hc)
  obtain ⟨s2, b1, b2, b3⟩ := Feeds.next a3
  obtain ⟨-, -, -, d4⟩ := attributeOf_reads ht a3.reads b1
  obtain ⟨e', s3, c1, c2, c3, c4⟩ := stepDeclaration_of hp hb (by rw [hd_of_lc hbt]; rfl) rfl b3 (by rw [b2, a4]) s.pos true
  have hw : env.workflow = true := hf.2.1.name.style k rfl
  obtain ⟨q, rfl⟩ : ∃ q, e = .qname q (styleName k) := by
    unfold Is at a2
    cases e <;> simp only [bare] at a2 <;> cases a2
    exact ⟨_, rfl⟩
  refine ⟨e', s3, ?_, c2, c3, c4⟩
  unfold stepOrResource
  ev
  refine EvP.bind a1 (EvP.pos hw ?_)
  dsimp only
  rw [lookup_styleName]
  exact EvP.bind d4 c1

/-! ## Activities -/

theorem g_noActivity : DoneL env ns (fun acc self => self (.activities acc)) [] [] notRcOnly := by
  intro rest s hf hn hr
  nf at hf
  have hr : hd rest = .rc := by simpa [notRcOnly] using hr
  refine ⟨[], s, fun acc => EvN.step ?_, bareL_nil, hf, hn⟩
  show EvP env (fun self => activitiesBody self acc) _ _ _
  unfold activitiesBody
  ev
  rw [List.append_nil]
  exact EvP.pos (by rw [hf.tok_eq (by rw [hr]; nofun), hr]) EvP.ret

theorem stepStyle_of {k : StepStyle} {s s1 : St} (hr : Reads (.style k) s) (hx : EvN env .nextToken s () s1) :
    EvP env (fun self => stepStyle self) s k s1 := by
  unfold stepStyle
  ev
  refine EvP.pos hr.1 (EvP.prim (tokenString_str hr.2) ?_)
  rw [lookup_styleName]
  exact EvP.bind hx EvP.ret

theorem activity_of {k : StepStyle} {t : T} {n : GoStr} {ps : List Expr} {b : Option Expr} {tp tb rest : List T} {s : St} {c : Tok → Bool}
    (ht : attributeOf t = some n) (hp : DoneHead env (inside ns k n) n ps tp) (hb : DoneBody env (inside ns k n) k b tb c)
    (hi : cIter (hd (tb ++ rest)) = false) (hc : c (hd rest) = false)
    (hf : Feeds env (.style k :: t :: (tp ++ (tb ++ rest))) s) (hn : s.names = ns) :
    ∃ e s', EvP env (fun self => stepExpression self) s e s' ∧ bare e = .step z (qualified (ns ++ [n])) k (asHash ps) b ∧
      Feeds env rest s' ∧ s'.names = ns := by
  obtain ⟨s1, a1, a2, a3⟩ := Feeds.next hf
  obtain ⟨s2, b1, b2, b3⟩ := Feeds.next a3
  obtain ⟨-, -, -, d4⟩ := attributeOf_reads ht a3.reads b1
  obtain ⟨e', s3, c1, c2, c3, c4⟩ := stepDeclaration_of hp hb hi hc b3 (by rw [b2, a2, hn]) s.pos false
  refine ⟨e', s3, ?_, c2, c3, c4⟩
  unfold stepExpression
  ev
  refine EvP.neg (by rw [hf.reads.1]; nofun) (EvP.bind (stepStyle_of hf.reads a1) (EvP.bind (t := s2) (a := n) ?_ c1))
  unfold stepName
  exact EvP.bind d4 EvP.ret

theorem activities_step {e : Expr} {es : List Expr} {s s1 s' : St} (hs : s.tok ≠ .rc) (h : EvP env (fun self => stepExpression self) s e s1)
    (hes : ∀ acc, EvN env (.activities acc) s1 (acc ++ es) s') (acc : List Expr) : EvN env (.activities acc) s (acc ++ e :: es) s' := by
  refine EvN.step ?_
  show EvP env (fun self => activitiesBody self acc) _ _ _
  unfold activitiesBody
  ev
  refine EvP.neg hs (EvP.bind h ?_)
  have := hes (acc ++ [e])
  rw [List.append_assoc] at this
  exact this

theorem g_activity {k : StepStyle} {t : T} {n : GoStr} {ps as : List Expr} {b : Option Expr} {tp tb ta : List T} (ht : attributeOf t = some n)
    (hp : DoneHead env (inside ns k n) n ps tp) (hb : DoneBody env (inside ns k n) k b tb (fun _ => false)) (hbt : FirstTok (isTok .lc) tb)
    (ha : DoneL env ns (fun acc self => self (.activities acc)) as ta notRcOnly) :
    DoneL env ns (fun acc self => self (.activities acc)) (.step z (qualified (ns ++ [n])) k (asHash ps) b :: as)
      (.style k :: t :: (tp ++ (tb ++ ta))) notRcOnly := by
  intro rest s hf hn hr
  nf at hf
  obtain ⟨e, s1, a1, a2, a3, a4⟩ := activity_of ht hp hb (by rw [hd_of_lc hbt]; rfl) rfl hf hn
  obtain ⟨es, s2, b1, b2, b3, b4⟩ := ha rest s1 a3 a4 hr
  exact ⟨e :: es, s2, activities_step (by rw [hf.reads.1]; nofun) a1 b1, by rw [bareL_cons, a2, b2], b3, b4⟩

theorem g_lastActivity {k : StepStyle} {t : T} {n : GoStr} {ps : List Expr} {tp : List T} (hk : k = .workflow ∨ k = .resource) (ht : attributeOf t = some n)
    (hp : DoneHead env (inside ns k n) n ps tp) :
    DoneL env ns (fun acc self => self (.activities acc)) [.step z (qualified (ns ++ [n])) k (asHash ps) none]
      (.style k :: t :: tp) notRcOnly := by
  intro rest s hf hn hr
  nf at hf
  have hr' : hd rest = .rc := by simpa [notRcOnly] using hr
  obtain ⟨e, s1, a1, a2, a3, a4⟩ := activity_of (tb := []) ht hp (g_noBody hk) (by rw [List.nil_append, hr']; rfl) (by rw [hr']; rfl) hf hn
  obtain ⟨es, s2, b1, b2, b3, b4⟩ := g_noActivity rest s1 a3 a4 hr
  exact ⟨e :: es, s2, activities_step (by rw [hf.reads.1]; nofun) a1 b1, by rw [bareL_cons, a2, b2], b3, b4⟩

theorem function_of_atom {e : Expr} {s s' : St} (h : EvN env .atom s e s') (ht : s.tok = .kFunction) :
    EvP env (fun self => functionDefinition self false) s e s' := by
  obtain ⟨k, h⟩ := h.ex
  refine ⟨k, fun f hf => ?_⟩
  have h1 := h (f + 1) (by omega)
  have h2 : atomBody (run f) env s = .ok e s' := h1
  have h3 : atomBody (run f) env s = functionDefinition (run f) false env s := by
    unfold atomBody
    ex
    rw [ht]
  rw [← h3]
  exact h2

theorem g_helper {e : Expr} {as : List Expr} {te ta : List T} (he : DoneP env ns (fun self => self .atom) (Is e) (w .kFunction :: te) cAtom)
    (ha : DoneL env ns (fun acc self => self (.activities acc)) as ta notRcOnly) (hta : ∀ rest, hd rest = .rc → cAtom (hd (ta ++ rest)) = false) :
    DoneL env ns (fun acc self => self (.activities acc)) (e :: as) (w .kFunction :: (te ++ ta)) notRcOnly := by
  intro rest s hf hn hr
  have hr' : hd rest = .rc := by simpa [notRcOnly] using hr
  have hf' : Feeds env ((w .kFunction :: te) ++ (ta ++ rest)) s := by simpa using hf
  obtain ⟨e', s1, a1, a2, a3, a4⟩ := he _ s hf' hn (hta rest hr')
  obtain ⟨es, s2, b1, b2, b3, b4⟩ := ha rest s1 a3 a4 hr
  have ht : s.tok = .kFunction := hf'.reads.1
  refine ⟨e' :: es, s2, activities_step (by rw [ht]; nofun) ?_ b1, by unfold Is at a2; rw [bareL_cons, a2, b2], b3, b4⟩
  unfold stepExpression
  ev
  exact EvP.pos ht (function_of_atom a1 ht)

end
end PP
