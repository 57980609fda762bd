import Verif.Lemmas.Parse7

/-! # The functions of the parser: resources and steps; all recursive functions -/
namespace PP

section
variable {env : Env} {s t u : St} {self : Self} {m : Nat}

/-- Reading a token again from an earlier position. -/
theorem HSelf.again (H : HSelf env self m) (hm : B env s + 2 < m) (h : Inv env s) (hne : s.tok ≠ .end_) (h1 : Mv env s t) :
    wp env (self .nextToken) (fun _ u => Mv env s u ∧ ∀ d ∈ t.defs, d ∈ u.defs) (EOK env) { t with pos := s.pos } := by
  have hr := h1.adv.r.reset
  have hb : Base env { t with pos := s.pos } := ⟨h.pos, h1.inv.tsp, h1.inv.nls, h1.inv.nls2, h1.inv.defs⟩
  have hpsi := psi_le_of (env := env) hr.1 h.pos hb.pos
  have hML := ML_mono hpsi
  have hMB := ML_le_B (env := env) s
  refine wp_imp (H .nextToken _ hb (by show ML env _ + 2 < m; omega)) ?_
  intro _ t2 h2
  change Nx env _ t2 at h2
  have hadv : Adv env s { t with pos := s.pos } := ⟨h1.adv.names, h1.adv.defs, hr⟩
  refine ⟨⟨hadv.trans h2.adv, h2.inv, hr.trans h2.bk, ?_⟩, h2.adv.mem⟩
  have h3 := h2.psi_le hb
  have h4 := rTok_lt hne
  unfold phi
  by_cases ht : t2.tok = .end_
  · have h5 : rTok t2.tok = 2 := by rw [ht]; rfl
    omega
  · have := h2.lt ht; omega

theorem wp_resourceExprBody (start : Nat) (first : Expr) (form : Form) (H : HSelf env self (M env (.resourceExpr start first form) s))
    (hpre : Pre env (.resourceExpr start first form) s) :
    wp env (resourceExprBody self start first form) (Post env (.resourceExpr start first form) s) (EOK env) s := by
  obtain ⟨h, htok, hst, hf, hsf⟩ := hpre
  change HSelf env self (B env s + 5) at H
  have hne : s.tok ≠ .end_ := by rw [htok]; decide
  have hsf' : ∀ p : Pos, p.off = start → StartsForm env.text p form first := by
    rintro ⟨p, l⟩ hp
    cases hp
    exact hsf
  have hcl : Leads env.text ⟨start, 0⟩ first ∨ ReadsAt env.text start b!"@" := by
    cases form with
    | regular => exact .inl (.inl hsf)
    | virtual => exact .inr hsf
    | exported => exact .inr (List.IsPrefix.trans ⟨b!"@", rfl⟩ hsf)
  -- operations in braces
  have ops : ∀ (t : St) (mk : Pos → List Expr → Expr), Mv env s t → (∀ p os, (mk p os).pos = p) → (∀ p os, (mk p os).isName = false) →
      (∀ p os D, okPos env p → p.off = start → (∀ d ∈ s.defs, d ∈ D) → AllN env D .attr os → Node env D .value (mk p os)) → wp env (do
      setPos s.pos
      nextTok self
      let ops ← self (.attrOps [])
      let p ← here start
      assertToken .rc
      nextTok self
      pure (mk p ops)) (Post env (.resourceExpr start first form) s) (EOK env) t := by
    intro t mk h1 hpos hq hn
    rw [wp_bind, wp_setPos, wp_bind]
    refine wp_imp (H.again (by omega) h hne h1) ?_
    rintro _ t2 ⟨h2, g2⟩
    rw [wp_bind]
    refine wp_imp (H.attrs (by omega) h2.lt) ?_
    rintro os t3 ⟨h3, g3, n3⟩
    rw [wp_bind, wp_here, wp_bind]
    refine wp_assert h3.inv fun _ => ?_
    rw [wp_bind]
    refine wp_imp (H.next (by omega) h3) ?_
    rintro _ t4 ⟨h4, g4⟩
    exact wp_pure.mpr ⟨h4, ⟨hn _ _ _ hst rfl h4.adv.mem (n3.mono g4), endHere (hpos _ _) h3.inv.pos⟩, hq _ _⟩
  have rest : ∀ (t : St) (title : Option Expr), Mv env s t → (∀ e, title = some e → Val env t.defs e) →
      (title = none → t.tok ≠ .colon) → wp env (do
      let t ← curTok
      if t ≠ .colon then
        match resourceShape first with
        | .resource =>
          if statementCalls.contains (qnameOf first) then do
            setPos s.pos
            nextTok self
            let es ← expressions self .rc .keyedEntry
            let hp ← here s.pos
            let p ← here start
            nextTok self
            pure (.call p .named true first [.hash hp es] none)
          else issueAt start .parseResourceWithoutTitle
        | .defaults => do
          setPos s.pos
          nextTok self
          let ops ← self (.attrOps [])
          let p ← here start
          assertToken .rc
          nextTok self
          pure (.resourceDefaults p form first ops)
        | .override => do
          setPos s.pos
          nextTok self
          let ops ← self (.attrOps [])
          let p ← here start
          assertToken .rc
          nextTok self
          pure (.resourceOverride p form first ops)
        | .error => issueAt first.off .parseInvalidResource
      else
        match title with
        | some title => do
          let bodies ← self (.resourceBodies title [])
          let p ← here start
          assertToken .rc
          nextTok self
          pure (.resource p form first bodies)
        | none => crash .exprAssertion) (Post env (.resourceExpr start first form) s) (EOK env) t := by
    intro t title h1 htitle hnone
    rw [wp_bind, wp_curTok]
    refine ite_wp (fun ht => ?_) fun ht => ?_
    · split
      · refine ite_wp (fun hc => ?_) fun hc => ?_
        · rw [wp_bind, wp_setPos, wp_bind]
          refine wp_imp (H.again (by omega) h hne h1) ?_
          rintro _ t2 ⟨h2, g2⟩
          rw [wp_bind]
          refine wp_imp (H.exprs (by omega) h2.lt .rc .keyedEntry) ?_
          rintro es t3 ⟨h3, g3, -, n3⟩
          rw [wp_bind, wp_here, wp_bind, wp_here, wp_bind]
          refine wp_imp (H.next (by omega) h3) ?_
          rintro _ t4 ⟨h4, g4⟩
          refine wp_pure.mpr ⟨h4, ⟨.call hst hcl (hf.1.mono h4.adv.mem) ?_ (fun l hl => nomatch hl), endHere rfl h3.inv.pos⟩, rfl⟩
          intro a ha
          rw [List.mem_singleton] at ha
          subst ha
          exact .hash h.pos fun e he => Node.mono (n3 e he) g4
        · exact hst
      · exact ops t (fun p os => .resourceDefaults p form first os) h1 (fun _ _ => rfl) (fun _ _ => rfl)
          fun p os D hp hps hD ho => .resourceDefaults hp (hsf' _ hps) (hf.1.mono hD) ho
      · exact ops t (fun p os => .resourceOverride p form first os) h1 (fun _ _ => rfl) (fun _ _ => rfl)
          fun p os D hp hps hD ho => .resourceOverride hp (hsf' _ hps) (hf.1.mono hD) ho
      · exact hf.1.off_le
    · cases title with
      | none => exact absurd (Decidable.not_not.mp ht) (hnone rfl)
      | some title =>
        dsimp only
        have b1 := h1.B
        rw [wp_bind]
        refine wp_imp (H (.resourceBodies title []) t ⟨h1.inv, htitle _ rfl, AllN.nil⟩ (by show B env t + 5 < _; omega)) ?_
        rintro bs t2 ⟨h2, n2⟩
        have h2' := h1.lt.trans_le h2
        rw [wp_bind, wp_here, wp_bind]
        refine wp_assert h2.inv fun _ => ?_
        rw [wp_bind]
        refine wp_imp (H.next (by omega) h2') ?_
        rintro _ t3 ⟨h3, g3⟩
        exact wp_pure.mpr ⟨h3, ⟨.resource hst hsf (hf.1.mono h3.adv.mem) (n2.mono g3), endHere rfl h2.inv.pos⟩, rfl⟩
  unfold resourceExprBody
  rw [wp_bind, wp_getPos, wp_bind]
  refine wp_imp (H.first (by omega) h hne) ?_
  rintro _ t1 ⟨h1, g1⟩
  rw [wp_bind, wp_curTok]
  refine ite_wp (fun ht => ?_) fun ht => ?_
  · rw [wp_bind]
    refine wp_imp (H.expr (by omega) h1.lt) ?_
    rintro e t2 ⟨h2, g2, n2⟩
    rw [wp_bind, wp_pure]
    exact rest t2 (some e) h2 (fun e' he => by cases he; exact n2) (fun hx => nomatch hx)
  · rw [wp_bind, wp_pure]
    exact rest t1 none h1 (fun e' he => nomatch he) (fun _ => by rw [Decidable.not_not.mp ht]; decide)

theorem wp_resourceBodiesBody (title : Expr) (acc : List Expr) (H : HSelf env self (M env (.resourceBodies title acc) s))
    (hpre : Pre env (.resourceBodies title acc) s) :
    wp env (resourceBodiesBody self title acc) (Post env (.resourceBodies title acc) s) (EOK env) s := by
  obtain ⟨h, hti, hacc⟩ := hpre
  change HSelf env self (B env s + 5) at H
  unfold resourceBodiesBody resourceBody
  rw [wp_bind, wp_curTok]
  refine ite_wp (fun ht => ?_) fun ht => ?_
  · exact wp_pure.mpr ⟨.refl h, hacc⟩
  rw [wp_bind, wp_bind, wp_curTok]
  refine ite_wp (fun hc => ?_) fun hc => ?_
  · exact hti.1.off_le
  have hne : s.tok ≠ .end_ := by rw [Decidable.not_not.mp hc]; decide
  wpr
  refine wp_imp (H.first (by omega) h hne) ?_
  rintro _ t1 ⟨h1, g1⟩
  refine wp_imp (H.attrs (by omega) h1.lt) ?_
  rintro os t2 ⟨h2, g2, n2⟩
  have ha := (hacc.mono fun d hd => g2 d (g1 d hd)).snoc (Node.resourceBody (env := env) (p := ⟨title.off, (t2.pos : Int) - title.off⟩)
    hti.1.off_le rfl (hti.1.mono h2.adv.mem) n2)
  refine ite_wp (fun hs => ?_) fun hs => ?_
  · exact wp_pure.mpr ⟨h2.le, ha⟩
  rw [wp_bind]
  refine wp_imp (H.next (by omega) h2) ?_
  rintro _ t3 ⟨h3, g3⟩
  have go : ∀ (t : St) (title' : Expr), Mv env s t → (∀ d ∈ t3.defs, d ∈ t.defs) → Val env t.defs title' →
      wp env (self (.resourceBodies title' (acc ++ [.resourceBody ⟨title.off, (t2.pos : Int) - title.off⟩ title os])))
        (Post env (.resourceBodies title acc) s) (EOK env) t := by
    intro t ti h4 g4 n4
    have b4 := h4.B
    refine wp_imp (H (.resourceBodies ti _) t ⟨h4.inv, n4, ha.mono fun d hd => g4 d (g3 d hd)⟩ (by show B env t + 5 < _; omega)) ?_
    exact fun es u hu => ⟨h4.trans_le hu.1, hu.2⟩
  rw [wp_bind, wp_curTok]
  refine ite_wp (fun hs => ?_) fun hs => ?_
  · rw [wp_bind]
    refine wp_imp (H.expr (by omega) h3.lt) ?_
    rintro e t4 ⟨h4, g4, n4⟩
    exact go t4 e h4 g4 n4
  · exact go t3 title h3 (fun _ h => h) (hti.mono h3.adv.mem)

theorem wp_stepName (H : HSelf env self m) (hm : B env s + 2 < m) (h : Inv env s) :
    wp env (stepName self) (fun _ u => Mv env s u) (EOK env) s := by
  unfold stepName
  rw [wp_bind]
  refine wp_imp (wp_identifier H hm h) ?_
  rintro i t1 ⟨h1, h2⟩
  cases i with
  | none => obtain ⟨rfl, -⟩ := h2 rfl; exact h.tsp
  | some n => exact wp_pure.mpr (h1 n rfl)

theorem wp_stepStyle (H : HSelf env self m) (hm : B env s + 2 < m) (h : Inv env s) :
    wp env (stepStyle self) (fun _ u => Mv env s u) (EOK env) s := by
  unfold stepStyle
  rw [wp_bind, wp_curTok]
  refine ite_wp (fun ht => ?_) fun ht => ?_
  · rw [wp_bind]
    refine wp_imp (h.str (by rw [ht]; decide)) ?_
    rintro w _ rfl
    split
    · wpr
      exact wp_imp (H.first hm h (by rw [ht]; decide)) fun _ u hu => hu.1
    · exact h.pos
  · exact h.pos

/-- `tokenString` in workflow mode. -/
theorem wp_tokenStringW (hw : env.workflow = true) : wp env tokenString (fun _ s' => s' = s) (EOK env) s := by
  unfold wp tokenString
  split
  · next a s' heq => split at heq <;> cases heq <;> rfl
  · next e s' heq => split at heq <;> cases heq; exact .inr (.inr ⟨rfl, hw⟩)

theorem wp_stepIteration (H : HSelf env self m) (hm : B env s ≤ m) (h : Mv env s t) (hw : env.workflow = true) (name : GoStr) :
    wp env (stepIteration self name) (fun es u => Mv env s u ∧ (∀ d ∈ t.defs, d ∈ u.defs) ∧ AllN env u.defs .prop es) (EOK env) t := by
  have rest : ∀ (t1 : St) (iterName : GoStr), Mv env s t1 → (∀ d ∈ t.defs, d ∈ t1.defs) → wp env (do
    let t ← curTok
    if t = .identifier then do
      let f ← tokenString
      if f = b!"times" ∨ f = b!"range" ∨ f = b!"each" then do
        let nl := f.length
        let fs ← tokStart
        let ps ← getPos
        nextTok self
        let iterParams ← parameterList self
        nextTok self
        let vs ← getPos
        let pl := (ps : Int) - vs
        let iterVars ← lambdaParameterList self
        nextTok self
        let e ← getPos
        let vl := (e : Int) - vs
        let fn := (e : Int) - fs
        let iter := Expr.hash ⟨fs, fn⟩
          [.keyedEntry ⟨fs, nl⟩ (.qname ⟨fs, 0⟩ b!"name") (.qname ⟨fs, nl⟩ iterName),
           .keyedEntry ⟨fs, nl⟩ (.qname ⟨fs, 0⟩ b!"function") (.qname ⟨fs, nl⟩ f),
           .keyedEntry ⟨ps, pl⟩ (.qname ⟨ps, 0⟩ b!"params") (.list ⟨ps, pl⟩ iterParams),
           .keyedEntry ⟨vs, vl⟩ (.qname ⟨vs, 0⟩ b!"vars") (.list ⟨vs, vl⟩ iterVars)]
        pure [.keyedEntry ⟨fs, fn⟩ (.qname ⟨fs, 0⟩ b!"iteration") iter]
      else issue .parseExpectedIteratorStyle
    else pure []) (fun es u => Mv env s u ∧ (∀ d ∈ t.defs, d ∈ u.defs) ∧ AllN env u.defs .prop es) (EOK env) t1 := by
    intro t1 iterName h1 g1
    rw [wp_bind, wp_curTok]
    refine ite_wp (fun ht => ?_) fun ht => ?_
    · rw [wp_bind]
      refine wp_imp (wp_tokenStringW hw) ?_
      rintro f _ rfl
      refine ite_wp (fun hf => ?_) fun hf => ?_
      · dsimp only
        rw [wp_bind, wp_tokStart, wp_bind, wp_getPos, wp_bind]
        refine wp_imp (H.next hm h1.lt) ?_
        rintro _ t2 ⟨h2, g2⟩
        have b2 := h2.B
        rw [wp_bind]
        refine wp_imp (wp_parameterList H (by omega) h2.inv) ?_
        intro ps t3 h3
        have h3' : Lt env s t3 ∧ (∀ d ∈ t2.defs, d ∈ t3.defs) ∧ AllN env t3.defs .param ps := by
          rcases h3 with ⟨rfl, rfl⟩ | ⟨h5, h6, h7, h8⟩
          · exact ⟨h2.lt, fun _ h => h, AllN.nil⟩
          · exact ⟨h2.lt.trans_le h5.le, h6, h8⟩
        obtain ⟨h4, g4, n4⟩ := h3'
        rw [wp_bind]
        refine wp_imp (H.next hm h4) ?_
        rintro _ t5 ⟨h5, g5⟩
        rw [wp_bind, wp_getPos, wp_bind]
        refine wp_imp (wp_lambdaParameterList H hm h5.lt) ?_
        rintro vs t6 ⟨h6, g6, -, n6⟩
        rw [wp_bind]
        refine wp_imp (H.next hm h6) ?_
        rintro _ t7 ⟨h7, g7⟩
        rw [wp_bind, wp_getPos]
        refine wp_pure.mpr ⟨h7, fun d hd => g7 d (g6 d (g5 d (g4 d (g2 d (g1 d hd))))), ?_⟩
        have k1 := h1.inv.tsp
        have k2 := h1.inv.pos
        have k3 := h5.inv.pos
        have hps : ∀ e ∈ ps, Node env t7.defs .param e := fun e he => (n4 e he).mono fun d hd => g7 d (g6 d (g5 d hd))
        have hvs : ∀ e ∈ vs, Node env t7.defs .param e := fun e he => (n6 e he).mono g7
        intro e he
        rw [List.mem_singleton] at he
        subst he
        refine .propHash hw k1 (.qname k1) k1 ?_
        intro e he
        simp only [List.mem_cons, List.not_mem_nil, or_false] at he
        rcases he with rfl | rfl | rfl | rfl
        · exact .prop hw k1 (.qname k1) (.qname k1)
        · exact .prop hw k1 (.qname k1) (.qname k1)
        · exact .propList hw k2 (.qname k2) k2 hps
        · exact .propList hw k3 (.qname k3) k3 hvs
      · exact h1.inv.pos
    · exact wp_pure.mpr ⟨h1, g1, AllN.nil⟩
  unfold stepIteration
  rw [wp_bind, wp_curTok]
  refine ite_wp (fun ht => ?_) fun ht => ?_
  · rw [wp_bind]
    refine wp_imp (wp_tokenStringW hw) ?_
    rintro n _ rfl
    rw [wp_bind]
    refine wp_imp (H.next hm h.lt) ?_
    rintro _ t2 ⟨h2, g2⟩
    rw [wp_bind]
    refine wp_assert h2.inv fun _ => ?_
    rw [wp_bind]
    refine wp_imp (H.next hm h2.lt) ?_
    rintro _ t3 ⟨h3, g3⟩
    rw [wp_bind]
    refine wp_assert h3.inv fun _ => ?_
    rw [wp_bind, wp_pure]
    exact rest t3 n h3 fun d hd => g3 d (g2 d hd)
  · rw [wp_bind, wp_pure]
    exact rest t name h fun _ h => h

/-- The definition of a step. -/
structure StepDef (env : Env) (D : List Expr) (st : StepStyle) (d : Option Expr) : Prop where
  blk : ∀ e, d = some e → st ≠ .workflow → st ≠ .resource → Node env D .block e
  val : ∀ e, d = some e → st = .resource → Node env D .value e
  wf : ∀ e, d = some e → st = .workflow → ∃ r acts, e = .block r acts
  wfPos : ∀ r acts, d = some (.block r acts) → st = .workflow → okPos env r
  wfActs : ∀ r acts, d = some (.block r acts) → st = .workflow → ∀ a ∈ acts, Node env D .activity a

theorem StepDef.none {D : List Expr} {st : StepStyle} : StepDef env D st none :=
  ⟨fun _ h => (nomatch h), fun _ h => (nomatch h), fun _ h => (nomatch h), fun _ _ h => (nomatch h), fun _ _ h => (nomatch h)⟩

theorem StepDef.mono {D D' : List Expr} {st : StepStyle} {d : Option Expr} (h : StepDef env D st d) (hD : ∀ x ∈ D, x ∈ D') :
    StepDef env D' st d :=
  ⟨fun e h1 h2 h3 => (h.blk e h1 h2 h3).mono hD, fun e h1 h2 => (h.val e h1 h2).mono hD, h.wf, h.wfPos,
   fun r acts h1 h2 a ha => (h.wfActs r acts h1 h2 a ha).mono hD⟩

theorem wp_stepBlock (H : HSelf env self m) (hm : B env s ≤ m) {start : Nat} (hst : start ≤ env.text.length + 1)
    (hw : env.workflow = true) (style : StepStyle) {n : GoStr}
    (h : Mv env (if style = .workflow then { s with names := s.names ++ [n] } else s) t) :
    wp env (stepBlock self start style)
      (fun d u => Mv env s u ∧ (∀ d ∈ t.defs, d ∈ u.defs) ∧ StepDef env u.defs style d) (EOK env) t := by
  have hother : style ≠ .workflow → style ≠ .resource → Mv env s t → wp env (do
      let b ← braces self
      nextTok self
      pure (some b)) (fun d u => Mv env s u ∧ (∀ d ∈ t.defs, d ∈ u.defs) ∧ StepDef env u.defs style d) (EOK env) t := by
    intro h1 h2 h
    refine wp_bracesNext H hm h.lt fun b t2 h3 g3 n3 => ?_
    refine wp_pure.mpr ⟨h3, g3, fun e he _ _ => ?_, fun _ _ hx => absurd hx h2, fun _ _ hx => absurd hx h1,
      fun _ _ _ hx => absurd hx h1, fun _ _ _ hx => absurd hx h1⟩
    cases he; exact n3
  unfold stepBlock
  rw [wp_bind, wp_curTok]
  cases style with
  | workflow =>
    rw [if_pos rfl] at h
    dsimp only
    have hB : B env { s with names := s.names ++ [n] } ≤ m := hm
    have fin : ∀ (t2 : St) (b : Option Expr), Mv env { s with names := s.names ++ [n] } t2 → (∀ d ∈ t.defs, d ∈ t2.defs) →
        StepDef env t2.defs .workflow b → wp env (do popName; pure b)
        (fun d u => Mv env s u ∧ (∀ d ∈ t.defs, d ∈ u.defs) ∧ StepDef env u.defs .workflow d) (EOK env) t2 := by
      intro t2 b h2 g2 n2
      rw [wp_bind, wp_popName]
      exact wp_pure.mpr ⟨h2.pop, g2, n2⟩
    refine ite_wp (fun ht => ?_) fun ht => ?_
    · rw [wp_bind, wp_tokStart, wp_bind]
      refine wp_imp (H.next hB h.lt) ?_
      rintro _ t1 ⟨h1, g1⟩
      have b1 := h1.B
      rw [wp_bind]
      refine wp_imp (H (.activities []) t1 ⟨h1.inv, hw, AllN.nil⟩ (by show B env t1 + 5 < _; omega)) ?_
      rintro acts t2 ⟨h2, -, n2⟩
      rw [wp_bind]
      refine wp_imp (H.next hB (h1.lt.trans_le h2)) ?_
      rintro _ t3 ⟨h3, g3⟩
      rw [wp_bind, wp_here, wp_bind, wp_pure]
      refine fin t3 _ h3 (fun d hd => g3 d (h2.adv.mem d (g1 d hd))) ?_
      cases hacts : acts.isEmpty with
      | true => exact .none
      | false =>
        refine ⟨fun _ _ hx => absurd rfl hx, fun _ _ hx => (nomatch hx), ?_, ?_, ?_⟩
        · intro e he _; cases he; exact ⟨_, _, rfl⟩
        · intro r a he _; cases he; exact h.inv.tsp
        · intro r a he _; cases he; exact fun x hx => (n2 x hx).mono g3
    · rw [wp_bind, wp_pure]
      exact fin t none h (fun _ h => h) .none
  | resource =>
    rw [if_neg (by decide)] at h
    dsimp only
    refine ite_wp (fun ht => ?_) fun ht => ?_
    · rw [wp_bind]
      refine wp_imp (H.next hm h.lt) ?_
      rintro _ t1 ⟨h1, g1⟩
      rw [wp_bind]
      refine wp_imp (H.exprs hm h1.lt .rc .stateAttribute) ?_
      rintro es t2 ⟨h2, g2, -, n2⟩
      rw [wp_bind, wp_here, wp_bind]
      refine wp_imp (H.next hm h2) ?_
      rintro _ t3 ⟨h3, g3⟩
      refine wp_pure.mpr ⟨h3, fun d hd => g3 d (g2 d (g1 d hd)), ?_⟩
      cases hes : es.isEmpty with
      | true => exact .none
      | false =>
        refine ⟨fun _ _ _ hx => absurd rfl hx, ?_, fun _ _ hx => (nomatch hx), fun _ _ _ hx => (nomatch hx), fun _ _ _ hx => (nomatch hx)⟩
        intro e he _
        cases he
        refine .hash hst ?_
        rw [toDeferredList_eq]
        intro e he
        rw [List.mem_map] at he
        obtain ⟨x, hx, rfl⟩ := he
        exact (Node.mono (n2 x hx) g3).toDeferred (.inr rfl) hw
    · exact wp_pure.mpr ⟨h, fun _ h => h, .none⟩
  | stateHandler =>
    rw [if_neg (by decide)] at h
    exact hother (by decide) (by decide) h
  | action =>
    rw [if_neg (by decide)] at h
    exact hother (by decide) (by decide) h

/-- What a step declaration gives. -/
def StepV (env : Env) (top : Bool) (D : List Expr) (e : Expr) : Prop :=
  Node env D .activity e ∧ endOk env e ∧ e.isName = false ∧ (top = true → Node env D .value e)

theorem wp_stepDeclaration (H : HSelf env self m) (hm : B env s ≤ m) {start : Nat} (hst : start ≤ env.text.length + 1)
    (hw : env.workflow = true) (style : StepStyle) (name : GoStr) (top : Bool) (h : Mv env s t) :
    wp env (stepDeclaration self start style name top) (After env s s (StepV env top)) (EOK env) t := by
  have rest : ∀ t0, Mv env (if style = .workflow then { s with names := s.names ++ [name] } else s) t0 → wp env (do
      let hstart ← tokStart
      assertToken .lc
      nextTok self
      let props ← expressions self .rc .stepProperty
      let hEnd ← getPos
      nextTok self
      let iter ← stepIteration self name
      let props := props ++ iter
      let properties := if props.isEmpty then none else some (.hash ⟨hstart, (hEnd : Int) - hstart⟩ props)
      let block ← stepBlock self start style
      let qn ← qualifiedName name
      let p ← here start
      let e := Expr.step p qn style properties block
      if top then addDefinition e else pure e) (After env s s (StepV env top)) (EOK env) t0 := by
    intro t0 h0
    have hB : B env (if style = .workflow then { s with names := s.names ++ [name] } else s) ≤ m := by
      split <;> exact hm
    rw [wp_bind, wp_tokStart, wp_bind]
    refine wp_assert h0.inv fun _ => ?_
    rw [wp_bind]
    refine wp_imp (H.next hB h0.lt) ?_
    rintro _ t1 ⟨h1, g1⟩
    rw [wp_bind]
    refine wp_imp (H.exprs hB h1.lt .rc .stepProperty) ?_
    rintro ps t2 ⟨h2, g2, -, n2⟩
    rw [wp_bind, wp_getPos, wp_bind]
    refine wp_imp (H.next hB h2) ?_
    rintro _ t3 ⟨h3, g3⟩
    rw [wp_bind]
    refine wp_imp (wp_stepIteration H hB h3 hw name) ?_
    rintro iter t4 ⟨h4, g4, n4⟩
    dsimp only
    rw [wp_bind]
    refine wp_imp (wp_stepBlock H hm hst hw style h4) ?_
    rintro d t5 ⟨h5, g5, n5⟩
    rw [wp_bind, wp_qualifiedName, wp_bind, wp_here]
    have hprops : ∀ e ∈ ps ++ iter, Node env t5.defs .prop e := by
      intro e he
      rcases List.mem_append.1 he with he | he
      · exact Node.mono (n2 e he hw) fun d hd => g5 d (g4 d (g3 d hd))
      · exact (n4 e he).mono g5
    have hact : ∀ D, (∀ d ∈ t5.defs, d ∈ D) → ∀ p qn, okPos env p →
        Node env D .activity (.step p qn style (if (ps ++ iter).isEmpty then none else some (.hash ⟨t0.tsp, (t2.pos : Int) - t0.tsp⟩ (ps ++ iter))) d) := by
      intro D hD p qn hp
      have n5' := n5.mono hD
      exact .activityStep hp h0.inv.tsp hw (fun e he => (hprops e he).mono hD) n5'.blk n5'.val n5'.wf n5'.wfPos n5'.wfActs
    refine ite_wp (fun htop => ?_) fun htop => ?_
    · refine wp_addDef h5 rfl ?_ fun h6 => ?_
      · exact .step hw (by simp) (hact _ h5.sub _ _ hst)
      · exact ⟨h6, h6.adv.mem, hact _ h5.sub _ _ hst, endHere rfl h5.inv.pos, rfl, fun _ => .step hw (by simp) (hact _ h5.sub _ _ hst)⟩
    · exact wp_pure.mpr ⟨h5, h5.adv.mem, hact _ (fun _ h => h) _ _ hst, endHere rfl h5.inv.pos, rfl, fun hx => absurd hx htop⟩
  unfold stepDeclaration
  refine ite_wp (fun hs => ?_) fun hs => ?_
  · rw [wp_bind, wp_pushName]
    exact rest _ (by rw [if_pos hs]; exact h.push name)
  · exact rest t (by rw [if_neg hs]; exact h)

theorem wp_stepOrResource (H : HSelf env self m) (hm : B env s + 28 < m) (h : Inv env s) :
    wp env (stepOrResource self) (VPost env s) (EOK env) s := by
  unfold stepOrResource
  rw [wp_bind, wp_getEnv, wp_bind, wp_getPos, wp_bind]
  refine wp_imp (wp_resource H hm h) ?_
  intro e t1 h1
  refine ite_wp (fun hw => ?_) fun hw => ?_
  · split
    · split
      · have b1 := h1.mv.B
        rw [wp_bind]
        refine wp_imp (wp_identifier H (by omega) h1.mv.inv) ?_
        rintro i t2 ⟨h2, h3⟩
        cases i with
        | some n =>
          refine wp_imp (wp_stepDeclaration H (by omega) h.pos hw _ n true (h1.mv.trans (h2 n rfl))) ?_
          rintro e3 t3 ⟨h4, g4, n4, e4, q4, v4⟩
          exact ⟨h4, ⟨v4 rfl, e4⟩, fun hx => by rw [q4] at hx; cases hx⟩
        | none =>
          obtain ⟨rfl, hr⟩ := h3 rfl
          have hq := (h1.qn rfl).1 rfl
          have hi := h1.mv.inv
          refine wp_pure.mpr ⟨⟨⟨h1.mv.adv.names, h1.mv.adv.defs, h1.mv.bk⟩, ⟨⟨hi.tsp, hi.tsp, hi.nls, hi.nls2, hi.defs⟩, hi.tok, fun he => ⟨fun hx => (hi.fin he).2 (hx.resolve_right (by rw [hw]; decide)), (hi.fin he).2⟩, hi.sp⟩,
            h1.mv.bk, ?_⟩, h1.val, h1.qn⟩
          have := psi_le_of (env := env) h1.mv.bk.1 h.pos hi.tsp
          show 3 * psi env s + rTok s.tok < 3 * psi env (back t1) + rTok t1.tok
          omega
      · exact wp_pure.mpr h1
    · exact wp_pure.mpr h1
  · exact wp_pure.mpr h1

theorem wp_assignmentBody (H : HSelf env self (M env .assignment s)) (h : Pre env .assignment s) :
    wp env (assignmentBody self) (Post env .assignment s) (EOK env) s := by
  change Inv env s at h
  change HSelf env self (B env s + 30) at H
  unfold assignmentBody
  rw [wp_bind]
  refine wp_imp (wp_stepOrResource H (by omega) h) ?_
  intro e t1 h1
  have b1 := h1.mv.B
  refine wp_imp (H (.assignLoop e) t1 ⟨h1.mv.inv, h1.val⟩ (by show B env t1 + 5 < _; omega)) ?_
  intro e2 t2 h2
  change LPost env t1 e e2 t2 at h2
  exact ⟨h1.mv.trans_ml h2.ml, h2.val, h2.name h1.qn⟩

theorem wp_stepExpression (H : HSelf env self m) (hm : B env s + 2 < m) (h : Inv env s) (hw : env.workflow = true) :
    wp env (stepExpression self) (After env s s (fun D e => Node env D .activity e)) (EOK env) s := by
  unfold stepExpression
  rw [wp_bind, wp_getPos, wp_bind, wp_curTok]
  refine ite_wp (fun ht => ?_) fun ht => ?_
  · refine wp_imp (wp_functionDefinition H hm h false (by rw [ht]; decide) fun hx => nomatch hx) ?_
    rintro e u ⟨h1, g1, n1, p, n, ps, b, rt, rfl⟩
    exact ⟨h1, g1, .activityFunction n1.1.1⟩
  · rw [wp_bind]
    refine wp_imp (wp_stepStyle H hm h) ?_
    intro st t1 h1
    have b1 := h1.B
    rw [wp_bind]
    refine wp_imp (wp_stepName H (by omega) h1.inv) ?_
    intro n t2 h2
    refine wp_imp (wp_stepDeclaration H (by omega) h.pos hw st n false (h1.trans h2)) ?_
    rintro e u ⟨h3, g3, n3, -⟩
    exact ⟨h3, g3, n3⟩

theorem wp_activitiesBody (acc : List Expr) (H : HSelf env self (M env (.activities acc) s)) (hpre : Pre env (.activities acc) s) :
    wp env (activitiesBody self acc) (Post env (.activities acc) s) (EOK env) s := by
  obtain ⟨h, hw, hacc⟩ := hpre
  change HSelf env self (B env s + 5) at H
  unfold activitiesBody
  rw [wp_bind, wp_curTok]
  refine ite_wp (fun ht => ?_) fun ht => ?_
  · exact wp_pure.mpr ⟨.refl h, ht, hacc⟩
  rw [wp_bind]
  refine wp_imp (wp_stepExpression H (by omega) h hw) ?_
  rintro e t1 ⟨h1, g1, n1⟩
  have b1 := h1.B
  refine wp_imp (H (.activities (acc ++ [e])) t1 ⟨h1.inv, hw, (hacc.mono g1).snoc n1⟩ (by show B env t1 + 5 < _; omega)) ?_
  exact fun es u hu => ⟨h1.trans_le hu.1, hu.2⟩

theorem wp_eppLoopBody (acc : List Expr) (H : HSelf env self (M env (.eppLoop acc) s)) (hpre : Pre env (.eppLoop acc) s) :
    wp env (eppLoopBody self acc) (Post env (.eppLoop acc) s) (EOK env) s := by
  obtain ⟨h, hacc⟩ := hpre
  change HSelf env self (B env s + 40) at H
  unfold eppLoopBody
  rw [wp_bind, wp_curTok]
  refine ite_wp (fun ht => ?_) fun ht => ?_
  · exact wp_pure.mpr ⟨.refl h, ht, hacc⟩
  rw [wp_bind]
  refine wp_imp (H .expression s h (by show B env s + 28 < _; omega)) ?_
  intro e t1 h1
  change VPost env s e t1 at h1
  have b1 := h1.mv.B
  refine wp_imp (H (.eppLoop (acc ++ [e])) t1 ⟨h1.mv.inv, mem_snoc (fun x hx => (hacc x hx).mono h1.mv.adv.mem) ⟨h1.val.2, .inl h1.val.1⟩⟩ (by show B env t1 + 40 < _; omega)) ?_
  exact fun es u hu => ⟨h1.mv.le.trans hu.1, hu.2⟩

/-- One unfolding. -/
theorem wp_step (n : NT) (s : St) (H : HSelf env self (M env n s)) (h : Pre env n s) :
    wp env (step self n) (Post env n s) (EOK env) s := by
  cases n with
  | nextToken => exact wp_nextTokenBody H h
  | delim d ds i hd buf ec start segs =>
    exact wp_imp (wp_delimBody d ds i hd buf ec start segs H h) fun _ _ hu => ⟨hu.1.adv, hu.1.base, hu.1.bk, hu.2⟩
  | escapes e i fl ip buf segs =>
    exact wp_imp (wp_escapesBody e i fl ip buf segs H h) fun _ _ hu => ⟨hu.1.adv, hu.1.base, hu.1.bk, hu.2⟩
  | parse k single => exact wp_parseBody k single H h
  | stmts k acc => exact wp_stmtsBody k acc H h
  | commaArgs acc => exact wp_commaArgsBody acc H h
  | exprs k p acc => exact wp_exprsBody k p acc H h
  | assignment => exact wp_assignmentBody H h
  | assignLoop e => exact wp_assignLoopBody e H h
  | expression => exact wp_expressionBody H h
  | selLoop e => exact wp_selLoopBody e H h
  | binary l => exact wp_binaryBody l H h
  | binLoop l e => exact wp_binLoopBody l e H h
  | unary => exact wp_unaryBody H h
  | primary => exact wp_primaryBody H h
  | primLoop e => exact wp_primLoopBody e H h
  | atom => exact wp_atomBody H h
  | ifExpr u => exact wp_ifBody u H h
  | caseOptions acc => exact wp_caseOptionsBody acc H h
  | resourceExpr a b c => exact wp_resourceExprBody a b c H h
  | resourceBodies a b => exact wp_resourceBodiesBody a b H h
  | attrOps acc => exact wp_attrOpsBody acc H h
  | hostnames acc => exact wp_hostnamesBody acc H h
  | dottedName a b => exact wp_dottedNameBody a b H h
  | activities acc => exact wp_activitiesBody acc H h
  | eppLoop acc => exact wp_eppLoopBody acc H h

/-- All recursive functions meet their specification when the recursion depth is at least the
measure. -/
theorem wp_run (f : Nat) : HSelf env (run f) f := by
  induction f with
  | zero => intro n s _ hm; omega
  | succ f ih =>
    intro n s h hm
    exact wp_step n s (fun n' s' h' hm' => ih n' s' h' (by omega)) h

end
end PP
