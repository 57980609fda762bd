import Verif.Lemmas.Err1

/-! # Wrong phrases: unary operators, calls, collectors, elements -/
namespace PP
open PP.Spec
set_option linter.unusedSimpArgs false
set_option linter.unusedSectionVars false

section
variable [Ending] {env : Env} {ns : List GoStr} {rest : List T} {c : Code} {p : Where}

/-! ## Unary operators -/

theorem b_primary {ts : List T} (h : BadP env ns rest c p (fun self => self .primary) ts) (ht : startsUnary (hd (ts ++ rest)) = false) :
    BadP env ns rest c p (fun self => self .unary) ts := by
  intro s hf hn
  refine EvN.step (EvP.congr (h s hf hn) fun self => ?_)
  have hs := hf.test ht rfl
  show unaryBody self env s = _
  unfold unaryBody
  ex
  revert hs
  cases s.tok <;> intro hs <;> first | rfl | exact absurd hs (by decide)

theorem b_not {ts : List T} (h : BadP env ns rest c p (fun self => self .unary) ts) :
    BadP env ns rest c p (fun self => self .unary) (y .not :: ts) := by
  intro s hf hn
  obtain ⟨s1, h1, h2, h3⟩ := Feeds.next hf
  refine EvN.step ?_
  show EvR env (fun self => unaryBody self) _ _
  unfold unaryBody
  ev
  rw [(sym_reads hf.reads).1]
  exact EvP.bind h1 (EvF.bind (h s1 h3 (by rw [h2, hn])))

theorem b_splat {ts : List T} (h : BadP env ns rest c p (fun self => self .unary) ts) :
    BadP env ns rest c p (fun self => self .unary) (y .multiply :: ts) := by
  intro s hf hn
  obtain ⟨s1, h1, h2, h3⟩ := Feeds.next hf
  refine EvN.step ?_
  show EvR env (fun self => unaryBody self) _ _
  unfold unaryBody
  ev
  rw [(sym_reads hf.reads).1]
  exact EvP.bind h1 (EvF.bind (h s1 h3 (by rw [h2, hn])))

theorem b_minus {ts : List T} (h : BadP env ns rest c p (fun self => self .primary) ts) (hi : StartsNot isNumber (ts ++ rest)) :
    BadP env ns rest c p (fun self => self .unary) (y .subtract :: ts) := by
  intro s hf hn
  nf at hf
  obtain ⟨s1, h1, h2, h3⟩ := Feeds.next hf
  obtain ⟨d, w, hp, hc⟩ := hf.2.1.minus (.inl rfl) hi
  refine EvN.step ?_
  show EvR env (fun self => unaryBody self) _ _
  unfold unaryBody
  ev
  rw [(sym_reads hf.reads).1]
  dsimp only
  refine EvP.prim (hp s rfl) ?_
  dsimp only
  exact EvP.neg (by simp [hc]) (EvP.bind h1 (EvF.bind (h s1 h3 (by rw [h2, hn]))))

theorem b_plus {r : List T} (hi : StartsNot isNumber r) : BadP env ns (y .add :: r) .lexUnexpectedToken .after (fun self => self .unary) [] := by
  intro s hf hn
  nf at hf
  obtain ⟨d, w, hp, hc⟩ := hf.2.1.minus (.inr rfl) hi
  refine EvN.step ?_
  show EvR env (fun self => unaryBody self) _ _
  unfold unaryBody
  ev
  rw [(sym_reads hf.reads).1]
  dsimp only
  refine EvP.prim (hp s rfl) ?_
  dsimp only
  exact EvP.neg (by simp [hc]) (EvF.after hf)

/-- After `@` and `@@`. -/
theorem hidden_after {t : T} {f : Form} {ts : List T} {s : St} {R : Res Expr → Prop} (ht : hiddenForm t = some f) (hf : Feeds env (t :: ts) s) :
    ∃ s1, Feeds env ts s1 ∧ s1.names = s.names ∧
      (EvR env (fun self => do
        let e ← self .primary
        assertToken .lc
        self (.resourceExpr s.tsp e f)) s1 R → EvR env (fun self => self .unary) s R) := by
  obtain ⟨s1, h1, h2, h3⟩ := Feeds.next hf
  refine ⟨s1, h3, h2, fun h => EvN.step ?_⟩
  show EvR env (fun self => unaryBody self) _ _
  unfold unaryBody
  ev
  have hr := hf.reads
  unfold hiddenForm at ht
  split at ht
  · cases ht; rw [(sym_reads hr).1]; exact EvP.bind h1 h
  · cases ht; rw [(sym_reads hr).1]; exact EvP.bind h1 h
  · cases ht

theorem b_hiddenType {t : T} {f : Form} {ts : List T} (ht : hiddenForm t = some f) (h : BadP env ns rest c p (fun self => self .primary) ts) :
    BadP env ns rest c p (fun self => self .unary) (t :: ts) := by
  intro s hf hn
  obtain ⟨s1, h1, h2, h3⟩ := hidden_after (R := Fails rest c p) ht hf
  exact h3 (EvF.bind (h s1 h1 (by rw [h2, hn])))

theorem b_hiddenBrace {t : T} {f : Form} {e : Expr} {te : List T} (ht : hiddenForm t = some f)
    (h : DoneP env ns (fun self => self .primary) (Is e) te cPrim) (h1 : cPrim (hd rest) = false) (h2 : hd rest ≠ .lc) :
    BadP env ns rest .parseExpectedToken .start (fun self => self .unary) (t :: te) := by
  intro s hf hn
  obtain ⟨s1, a1, a2, a3⟩ := hidden_after (R := Fails rest .parseExpectedToken .start) ht hf
  obtain ⟨a, s2, b1, b2, b3, b4⟩ := h _ s1 a1 (by rw [a2, hn]) h1
  exact a3 (EvP.bind b1 (EvF.bind (EvF.assert b3 (b3.ne h2))))

/-! ## Calls and access -/

theorem b_atom {ts : List T} (h : BadP env ns rest c p (fun self => self .atom) ts) : BadP env ns rest c p (fun self => self .primary) ts :=
  fun s hf hn => EvN.step (EvF.bind (h s hf hn))

/-- A call fails. -/
theorem primLoop_failCall {e : Expr} {s : St} (ht : s.tok = .lp ∨ s.tok = .pipe)
    (hc : EvR env (fun self => callFunctionExpression self e) s (Fails rest c p)) : EvR env (fun self => self (.primLoop e)) s (Fails rest c p) := by
  refine EvN.step ?_
  show EvR env (fun self => primLoopBody self e) _ _
  unfold primLoopBody
  ev
  rcases ht with ht | ht <;> rw [ht] <;> exact EvF.bind hc

theorem b_args {d : Bool} {ok : Expr → Prop} {tf ta : List T} (hf : DoneCallee env ns d ok tf)
    (ha : ∀ acc, BadP env ns rest c p (fun self => self (.exprs .rp .argument acc)) ta) :
    BadP env ns rest c p (fun self => self .primary) (tf ++ y .lp :: ta) := by
  intro s hfd hn
  nf at hfd
  obtain ⟨f, s1, h1, h2, h3, h4⟩ := hf _ s hfd hn cCalled_lp
  obtain ⟨s2, h5, h6, h7⟩ := Feeds.next h2
  refine h4 _ (primLoop_failCall (.inl (sym_reads h2.reads).1) ?_)
  unfold callFunctionExpression
  ev
  try dsimp only
  refine EvP.pos (by rw [(sym_reads h2.reads).1]; nofun) ?_
  exact EvP.bind h5 (EvF.bind (ha [] s2 h7 (by rw [h6, h3])))

theorem b_argsLambda {d : Bool} {ok : Expr → Prop} {as : List Expr} {tf ta tl : List T} (hf : DoneCallee env ns d ok tf)
    (ha : DoneMany env ns .arg as ta) (hl : BadP env ns rest c p (fun self => lambda self) tl) (hp : FirstTok (isTok .pipe) tl) :
    BadP env ns rest c p (fun self => self .primary) (tf ++ y .lp :: (ta ++ y .rp :: tl)) := by
  intro s hfd hn
  nf at hfd
  obtain ⟨f, s0, x1, x2, x3, x4⟩ := hf _ s hfd hn cCalled_lp
  obtain ⟨s1, h1, h2, h3⟩ := Feeds.next x2
  obtain ⟨es, s2, h4, h5, h6, h7⟩ := ha .rp rfl _ s1 h3 (by rw [h2, x3]) rfl
  obtain ⟨s3, h8, h9, h10⟩ := Feeds.next h6
  refine x4 _ (primLoop_failCall (.inl (sym_reads x2.reads).1) ?_)
  unfold callFunctionExpression
  ev
  try dsimp only
  refine EvP.pos (by rw [(sym_reads x2.reads).1]; nofun) ?_
  refine EvP.bind h1 (EvP.bind (at_nil h4) ?_)
  ev
  refine EvP.bind h8 ?_
  ev
  try dsimp only
  ev
  try dsimp only
  refine EvP.pos (by simpa [isTok] using hp.tok h10 rfl) ?_
  exact EvF.bind (hl s3 h10 (by rw [h9, h7]))

theorem b_callLambda {ok : Expr → Prop} {tf tl : List T} (hf : DoneCallee env ns false ok tf)
    (hl : BadP env ns rest c p (fun self => lambda self) tl) (hp : FirstTok (isTok .pipe) tl) :
    BadP env ns rest c p (fun self => self .primary) (tf ++ tl) := by
  intro s hfd hn
  nf at hfd
  obtain ⟨f, s1, h1, h2, h3, h4⟩ := hf _ s hfd hn (by
    obtain ⟨t, r, rfl, hp⟩ := hp
    have : t.tok = .pipe := by simpa [isTok] using hp
    show (cCalled false t.tok || t.tok == .typeName) = false
    rw [this]; rfl)
  have ht : s1.tok = .pipe := by simpa [isTok] using hp.tok h2 rfl
  refine h4 _ (primLoop_failCall (.inr ht) ?_)
  unfold callFunctionExpression
  ev
  try dsimp only
  refine EvP.neg (by simp [ht]) ?_
  ev
  try dsimp only
  ev
  try dsimp only
  refine EvP.pos ht ?_
  exact EvF.bind (hl s1 h2 h3)

theorem b_access {d : Bool} {ok : Expr → Prop} {te tk : List T} (h : DoneCallee env ns d ok te)
    (hk : ∀ acc, BadP env ns rest c p (fun self => self (.exprs .rb .argument acc)) tk) :
    BadP env ns rest c p (fun self => self .primary) (te ++ y .lb :: tk) := by
  intro s hfd hn
  nf at hfd
  obtain ⟨a, s1, h1, h2, h3, h4⟩ := h _ s hfd hn (by cases d <;> rfl)
  obtain ⟨s2, h5, h6, h7⟩ := Feeds.next h2
  refine h4 _ (EvN.step ?_)
  show EvR env (fun self => primLoopBody self a) _ _
  unfold primLoopBody
  ev
  rw [(sym_reads h2.reads).1]
  dsimp only
  refine EvP.bind h5 ?_
  unfold arrayExpression
  exact EvF.bind (EvF.bind (hk [] s2 h7 (by rw [h6, h3])))

theorem b_dot {d : Bool} {ok : Expr → Prop} {te ts : List T} (h : DoneCallee env ns d ok te)
    (ha : BadP env ns rest c p (fun self => self .atom) ts) (ht : hd (ts ++ rest) ≠ .kType) :
    BadP env ns rest c p (fun self => self .primary) (te ++ y .dot :: ts) := by
  intro s hfd hn
  nf at hfd
  obtain ⟨a, s1, h1, h2, h3, h4⟩ := h _ s hfd hn cCalled_dot
  obtain ⟨s2, h5, h6, h7⟩ := Feeds.next h2
  refine h4 _ (EvN.step ?_)
  show EvR env (fun self => primLoopBody self a) _ _
  unfold primLoopBody
  ev
  rw [(sym_reads h2.reads).1]
  dsimp only
  refine EvP.bind h5 ?_
  ev
  exact EvP.neg (h7.ne ht) (EvF.bind (ha s2 h7 (by rw [h6, h3])))

/-! ## Collectors -/

/-- A collector fails. -/
theorem primLoop_failCollect {e : Expr} {s : St} (ht : isQuery s.tok = true)
    (hc : EvR env (fun self => collectExpression self e) s (Fails rest c p)) : EvR env (fun self => self (.primLoop e)) s (Fails rest c p) := by
  refine EvN.step (EvP.congr (m' := fun self => collectExpression self e >>= fun e => self (.primLoop e)) (EvF.bind hc) fun self => ?_)
  show primLoopBody self e env s = _
  unfold primLoopBody
  ex
  revert ht
  cases s.tok <;> intro ht <;> first | contradiction | rfl

theorem closes_reads {t : T} {close : Tok} {s : St} (h : closes t = some close) (hr : Reads t s) :
    isQuery s.tok = true ∧ (if s.tok = .lcollect then Tok.rcollect else .rrcollect) = close ∧ close ≠ .lb := by
  unfold closes at h
  split at h
  · cases h; rw [(sym_reads hr).1]; exact ⟨rfl, rfl, nofun⟩
  · cases h; rw [(sym_reads hr).1]; exact ⟨rfl, rfl, nofun⟩
  · cases h

theorem closes_called {t : T} {close : Tok} {d : Bool} (h : closes t = some close) : (cCalled d t.tok || t.tok == .typeName) = false := by
  unfold closes at h
  split at h <;> first | (cases d <;> rfl) | cases h

theorem b_query {d : Bool} {ok : Expr → Prop} {t : T} {close : Tok} {te tq : List T} (h : DoneCallee env ns d ok te)
    (hc : closes t = some close) (hq : BadP env ns rest c p (fun self => self .expression) tq) (hne : hd (tq ++ rest) ≠ close) :
    BadP env ns rest c p (fun self => self .primary) (te ++ t :: tq) := by
  intro s hfd hn
  nf at hfd
  obtain ⟨a, s1, h1, h2, h3, h4⟩ := h _ s hfd hn (closes_called hc)
  obtain ⟨s2, h5, h6, h7⟩ := Feeds.next h2
  obtain ⟨c1, c2, c3⟩ := closes_reads hc h2.reads
  refine h4 _ (primLoop_failCollect c1 ?_)
  unfold collectExpression
  ev
  refine EvP.bind h5 ?_
  ev
  simp only [decide_eq_true_eq, c2]
  exact EvP.neg (h7.ne hne c3) (EvF.bind (hq s2 h7 (by rw [h6, h3])))

theorem b_queryEnd {d : Bool} {ok : Expr → Prop} {t : T} {close : Tok} {e : Expr} {te tq : List T} (h : DoneCallee env ns d ok te)
    (hc : closes t = some close) (hq : DoneP env ns (fun self => self .expression) (Is e) tq cExpr) (ht : FirstTok opens tq)
    (h1 : cExpr (hd rest) = false) (h2 : hd rest ≠ close) :
    BadP env ns rest .parseExpectedToken .start (fun self => self .primary) (te ++ t :: tq) := by
  intro s hfd hn
  nf at hfd
  obtain ⟨a, s1, a1, a2, a3, a4⟩ := h _ s hfd hn (closes_called hc)
  obtain ⟨s2, h5, h6, h7⟩ := Feeds.next a2
  obtain ⟨c1, c2, c3⟩ := closes_reads hc a2.reads
  obtain ⟨q, s3, b1, b2, b3, b4⟩ := hq _ s2 h7 (by rw [h6, a3]) h1
  refine a4 _ (primLoop_failCollect c1 ?_)
  unfold collectExpression
  ev
  refine EvP.bind h5 ?_
  ev
  simp only [decide_eq_true_eq, c2]
  refine EvP.neg (ht.ne h7 ?_) (EvP.bind b1 (EvF.bind (EvF.assert b3 (b3.ne h2 c3))))
  unfold closes at hc
  split at hc <;> first | (cases hc; rfl) | cases hc

theorem b_queryAttrs {d : Bool} {ok : Expr → Prop} {q : Expr} {te tq to : List T} (h : DoneCallee env ns d ok te)
    (hq : DoneQuery env ns q tq) (hqt : FirstTok isQuery tq)
    (ho : ∀ s, Feeds env (to ++ rest) s → s.names = ns → Ends env rest c p (fun t => t == .rc) (fun self => self (.attrOps [])) s) :
    BadP env ns rest c p (fun self => self .primary) (te ++ (tq ++ y .lc :: to)) := by
  intro s hf hn
  nf at hf
  obtain ⟨a, s1, h1, h2, h3, h4⟩ := h _ s hf hn (by
    obtain ⟨t, r, rfl, hp⟩ := hqt
    show (cCalled d t.tok || t.tok == .typeName) = false
    revert hp
    cases t.tok <;> intro hp <;> first | contradiction | (cases d <;> rfl))
  obtain ⟨q', s2, h5, h6, h7, h8⟩ := hq _ s1 h2 h3
  obtain ⟨s3, h9, h10, h11⟩ := Feeds.next h6
  refine h4 _ (primLoop_failCollect (hqt.tok h2 rfl) (h8 _ _ ?_))
  unfold collectTail
  ev
  try dsimp only
  refine EvP.neg (by rw [(sym_reads h6.reads).1]; simp) ?_
  refine EvP.bind h9 ((ho s3 h11 (by rw [h10, h7])).bind fun ops s' hf' hr => ?_)
  exact EvF.bind (EvF.assert hf' (hf'.ne (by simpa using hr)))

/-! ## Types, parameters, lambdas -/

theorem b_typArgs {n : GoStr} {te : List T} (h : ∀ acc, BadP env ns rest c p (fun self => self (.exprs .rb .argument acc)) te) :
    BadP env ns rest c p (fun self => parameterType self) (.type n :: y .lb :: te) := by
  intro s hf hn
  nf at hf
  obtain ⟨q, s1, h1, h2, h3⟩ := typeName_of hf
  obtain ⟨s2, h4, h5, h6⟩ := Feeds.next h2
  unfold parameterType
  ev
  refine EvP.bind h1 ?_
  dsimp only
  ev
  refine EvP.pos (sym_reads h2.reads).1 (EvP.bind h4 ?_)
  unfold arrayExpression
  exact EvF.bind (EvF.bind (h [] s2 h6 (by rw [h5, h3, hn])))

theorem b_typName (hr : hd rest ≠ .typeName) : BadP env ns rest .parseExpectedTypeName .after (fun self => parameterType self) [] := by
  intro s hf hn
  nf at hf
  unfold parameterType
  ev
  refine EvP.bind (t := s) (a := none) ?_ (EvF.after hf)
  unfold typeName
  ev
  exact EvP.neg (hf.ne hr) EvP.ret

theorem b_ret {te : List T} (h : BadP env ns rest c p (fun self => parameterType self) te) :
    BadP env ns rest c p (fun self => optReturnType self) (y .rshift :: te) := by
  intro s hf hn
  nf at hf
  obtain ⟨s1, h1, h2, h3⟩ := Feeds.next hf
  unfold optReturnType
  ev
  exact EvP.pos (sym_reads hf.reads).1 (EvP.bind h1 (EvF.bind (h s1 h3 (by rw [h2, hn]))))

theorem b_paramType {ts : List T} (h : BadP env ns rest c p (fun self => parameterType self) ts) (ht : hd (ts ++ rest) = .typeName) :
    BadP env ns rest c p (fun self => parameter self) ts := by
  intro s hf hn
  unfold parameter
  ev
  dsimp only
  exact EvP.pos (by rw [hf.tok_eq (by rw [ht]; nofun), ht]) (EvF.bind (h s hf hn))

/-- After the type of a parameter. -/
theorem param_after {ty : Option Expr} {tt r : List T} {s : St} (h : DoneOptTyp env ns ty tt) (hf : Feeds env (tt ++ r) s) (hn : s.names = ns)
    (hr : cTyp (hd r) = false) : ∃ ty' s1, Feeds env r s1 ∧ s1.names = ns ∧ ∀ R, EvR env (fun self => do
      let t ← curTok
      if t = .multiply then nextTok self
      let v ← parameterName
      nextTok self
      let t' ← curTok
      let d ← if t' = .assign then do
          nextTok self
          let e ← self .expression
          pure (some e)
        else pure none
      let p ← here s.tsp
      pure (Expr.parameter p v d ty' (t == .multiply))) s1 R → EvR env (fun self => parameter self) s R := by
  obtain ⟨ty', s1, a1, a2, a3, a4⟩ := h r s hf hn hr
  refine ⟨ty', s1, a2, a3, fun R hx => ?_⟩
  unfold parameter
  ev
  dsimp only
  rcases a4 with ⟨a5, e, rfl, a6⟩ | ⟨a5, rfl, rfl⟩
  · refine EvP.pos a5 (EvP.bind a6 ?_)
    ev1
    exact hx
  · refine EvP.neg a5 ?_
    ev1
    exact hx

theorem parameterName_fails {s : St} (hf : Feeds env rest s) (hr : hd rest ≠ .variable) :
    EvR env (fun _ => parameterName) s (Fails rest .parseExpectedVariable .after) := by
  unfold parameterName
  ev
  exact EvP.pos (hf.ne hr) (EvF.after hf)

theorem b_variable {ty : Option Expr} {tt : List T} (h : DoneOptTyp env ns ty tt) (hr : cTyp (hd rest) = false)
    (h1 : hd rest ≠ .variable) (h2 : hd rest ≠ .multiply) :
    BadP env ns rest .parseExpectedVariable .after (fun self => parameter self) tt := by
  intro s hf hn
  obtain ⟨ty', s1, a1, a2, a3⟩ := param_after h hf hn hr
  refine a3 _ ?_
  ev
  dsimp only
  refine EvP.neg (a1.ne h2) ?_
  ev
  exact EvF.bind (parameterName_fails a1 h1)

theorem b_variableRest {ty : Option Expr} {tt : List T} (h : DoneOptTyp env ns ty tt) (h1 : hd rest ≠ .variable) :
    BadP env ns rest .parseExpectedVariable .after (fun self => parameter self) (tt ++ [y .multiply]) := by
  intro s hf hn
  nf at hf
  obtain ⟨ty', s1, a1, a2, a3⟩ := param_after h hf hn rfl
  obtain ⟨s2, b1, b2, b3⟩ := Feeds.next a1
  refine a3 _ ?_
  ev
  dsimp only
  refine EvP.pos (sym_reads a1.reads).1 (EvP.bind b1 ?_)
  ev
  exact EvF.bind (parameterName_fails b3 h1)

theorem b_paramDefault {ty : Option Expr} {tt te : List T} {v : GoStr} (h : DoneOptTyp env ns ty tt)
    (he : BadP env ns rest c p (fun self => self .expression) te) :
    BadP env ns rest c p (fun self => parameter self) (tt ++ .var v :: y .assign :: te) := by
  intro s hf hn
  nf at hf
  obtain ⟨ty', s1, a1, a2, a3⟩ := param_after h hf hn rfl
  obtain ⟨s2, b1, b2, b3⟩ := Feeds.next a1
  obtain ⟨s3, c1, c2, c3⟩ := Feeds.next b3
  refine a3 _ ?_
  ev
  dsimp only
  refine EvP.neg (by rw [a1.reads.1]; nofun) ?_
  ev
  refine EvP.prim (parameterName_of a1.reads) (EvP.bind b1 ?_)
  ev
  exact EvP.pos (sym_reads b3.reads).1 (EvP.bind c1 (EvF.bind (he s3 c3 (by rw [c2, b2, a2]))))

theorem b_paramRestDefault {ty : Option Expr} {tt te : List T} {v : GoStr} (h : DoneOptTyp env ns ty tt)
    (he : BadP env ns rest c p (fun self => self .expression) te) :
    BadP env ns rest c p (fun self => parameter self) (tt ++ y .multiply :: .var v :: y .assign :: te) := by
  intro s hf hn
  nf at hf
  obtain ⟨ty', s1, a1, a2, a3⟩ := param_after h hf hn rfl
  obtain ⟨s1', f1, f2, f3⟩ := Feeds.next a1
  obtain ⟨s2, b1, b2, b3⟩ := Feeds.next f3
  obtain ⟨s3, c1, c2, c3⟩ := Feeds.next b3
  refine a3 _ ?_
  ev
  dsimp only
  refine EvP.pos (sym_reads a1.reads).1 (EvP.bind f1 ?_)
  ev
  refine EvP.prim (parameterName_of f3.reads) (EvP.bind b1 ?_)
  ev
  exact EvP.pos (sym_reads b3.reads).1 (EvP.bind c1 (EvF.bind (he s3 c3 (by rw [c2, b2, f2, a2]))))

theorem b_lambdaParams {ts : List T} (h : ∀ acc, BadP env ns rest c p (fun self => self (.exprs .pipeEnd .parameter acc)) ts) :
    BadP env ns rest c p (fun self => lambda self) (y .pipe :: ts) := by
  intro s hf hn
  nf at hf
  obtain ⟨s1, a1, a2, a3⟩ := Feeds.next hf
  unfold lambda lambdaParameterList
  ev
  exact EvF.bind (EvP.bind a1 (h [] s1 a3 (by rw [a2, hn])))

theorem b_lambdaRet {ps : List Expr} {tp ts : List T} (hp : DoneMany env ns .param ps tp)
    (h : BadP env ns rest c p (fun self => optReturnType self) ts) :
    BadP env ns rest c p (fun self => lambda self) (y .pipe :: (tp ++ y .pipeEnd :: ts)) := by
  intro s hf hn
  nf at hf
  obtain ⟨s1, a1, a2, a3⟩ := Feeds.next hf
  obtain ⟨ps', s2, b1, b2, b3, b4⟩ := hp .pipeEnd rfl _ s1 a3 (by rw [a2, hn]) rfl
  obtain ⟨s3, c1, c2, c3⟩ := Feeds.next b3
  unfold lambda lambdaParameterList
  ev
  refine EvP.bind (t := s2) (a := ps') (EvP.bind a1 (at_nil b1)) (EvP.bind c1 (EvF.bind (h s3 c3 (by rw [c2, b4]))))

theorem b_lambdaBlock {ps : List Expr} {r : Option Expr} {tp tr tb : List T} (hp : DoneMany env ns .param ps tp)
    (hr : DoneP env ns (fun self => optReturnType self) (IsO r) tr cRet) (hb : BadP env ns rest c p (fun self => braces self) tb)
    (hc : cRet (hd (tb ++ rest)) = false) :
    BadP env ns rest c p (fun self => lambda self) (y .pipe :: (tp ++ y .pipeEnd :: (tr ++ tb))) := by
  intro s hf hn
  nf at hf
  obtain ⟨s1, a1, a2, a3⟩ := Feeds.next hf
  obtain ⟨ps', s2, b1, b2, b3, b4⟩ := hp .pipeEnd rfl _ s1 a3 (by rw [a2, hn]) rfl
  obtain ⟨s3, c1, c2, c3⟩ := Feeds.next b3
  obtain ⟨r', s4, d1, d2, d3, d4⟩ := hr _ s3 c3 (by rw [c2, b4]) hc
  unfold lambda lambdaParameterList
  ev
  refine EvP.bind (t := s2) (a := ps') (EvP.bind a1 (at_nil b1)) (EvP.bind c1 (EvP.bind d1 (EvF.bind (hb s4 d3 d4))))

theorem b_params {t : T} {ts : List T} (ht : isParen t = true) (h : ∀ acc, BadP env ns rest c p (fun self => self (.exprs .rp .parameter acc)) ts) :
    BadP env ns rest c p (fun self => optParameterList self) (t :: ts) := by
  intro s hf hn
  nf at hf
  obtain ⟨s1, a1, a2, a3⟩ := Feeds.next hf
  have h0 := isParen_reads ht hf.reads
  unfold optParameterList parameterList
  ev
  refine EvP.pos h0 (EvF.bind ?_)
  ev
  exact EvP.pos h0 (EvP.bind a1 (h [] s1 a3 (by rw [a2, hn])))

/-! ## Atoms -/

theorem b_paren {t : T} {ts : List T} (ht : isParen t = true) (h : BadP env ns rest c p (fun self => self (.binary .rel)) ts) :
    BadP env ns rest c p (fun self => self .atom) (t :: ts) := by
  intro s hf hn
  nf at hf
  obtain ⟨s1, a1, a2, a3⟩ := Feeds.next hf
  refine EvN.step ?_
  show EvR env (fun self => atomBody self) _ _
  unfold atomBody
  ev
  rcases isParen_reads ht hf.reads with h0 | h0 <;> rw [h0] <;> exact EvP.bind a1 (EvF.bind (h s1 a3 (by rw [a2, hn])))

theorem b_parenEnd {t : T} {e : Expr} {ts : List T} (ht : isParen t = true)
    (h : DoneP env ns (fun self => self (.binary .rel)) (Is e) ts (cBin .rel)) (h1 : cBin .rel (hd rest) = false) (h2 : hd rest ≠ .rp) :
    BadP env ns rest .parseExpectedToken .start (fun self => self .atom) (t :: ts) := by
  intro s hf hn
  nf at hf
  obtain ⟨s1, a1, a2, a3⟩ := Feeds.next hf
  obtain ⟨e', s2, b1, b2, b3, b4⟩ := h _ s1 a3 (by rw [a2, hn]) h1
  refine EvN.step ?_
  show EvR env (fun self => atomBody self) _ _
  unfold atomBody
  ev
  have key : EvR env (fun self => do
      nextTok self
      let e ← relationship self
      let p ← here s.tsp
      assertToken .rp
      nextTok self
      pure (Expr.un p .paren e)) s (Fails rest .parseExpectedToken .start) := by
    refine EvP.bind a1 (EvP.bind b1 ?_)
    ev
    exact EvF.bind (EvF.assert b3 (b3.ne h2))
  rcases isParen_reads ht hf.reads with h0 | h0 <;> rw [h0] <;> exact key

theorem b_list {t : T} {ts : List T} (ht : isBracket t = true) (h : ∀ acc, BadP env ns rest c p (fun self => self (.exprs .rb .argument acc)) ts) :
    BadP env ns rest c p (fun self => self .atom) (t :: ts) := by
  intro s hf hn
  nf at hf
  obtain ⟨s1, a1, a2, a3⟩ := Feeds.next hf
  refine EvN.step ?_
  show EvR env (fun self => atomBody self) _ _
  unfold atomBody
  ev
  rcases isBracket_reads ht hf.reads with h0 | h0 <;> rw [h0] <;> unfold arrayExpression <;>
    exact EvP.bind a1 (EvF.bind (EvF.bind (h [] s1 a3 (by rw [a2, hn]))))

theorem b_hash {ts : List T} (h : ∀ acc, BadP env ns rest c p (fun self => self (.exprs .rc .keyedEntry acc)) ts) :
    BadP env ns rest c p (fun self => self .atom) (y .lc :: ts) := by
  intro s hf hn
  nf at hf
  obtain ⟨s1, a1, a2, a3⟩ := Feeds.next hf
  refine EvN.step ?_
  show EvR env (fun self => atomBody self) _ _
  unfold atomBody
  ev
  rw [(sym_reads hf.reads).1]
  exact EvP.bind a1 (EvF.bind (h [] s1 a3 (by rw [a2, hn])))

theorem b_start (hr : cannotStart (hd rest) = true) : BadP env ns rest .lexUnexpectedToken .start (fun self => self .atom) [] := by
  intro s hf hn
  nf at hf
  have ht : cannotStart s.tok = true := by
    have := hf.test (q := fun t => !cannotStart t) (by simp [hr]) rfl
    simpa using this
  refine EvN.step (EvP.congr (EvF.start hf) fun self => ?_)
  show atomBody self env s = _
  unfold atomBody
  ex
  revert ht
  cases s.tok <;> intro ht <;> first | contradiction | rfl

end
end PP
