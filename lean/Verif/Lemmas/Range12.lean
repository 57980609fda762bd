import Verif.Lemmas.Range11

/-! # Byte ranges of nodes: the recursion -/
namespace PP.Rg
open PP

section
variable {env : Env} {s t : St} {b m l0 : Nat} {self : Self} {e : Expr} {Q : Expr → St → Prop}

theorem leaf' (H : HS env self) (hi : In env b m s) (he : InR env true e) (h1 : b ≤ e.pos.off) (h2 : e.pos.off ≤ s.pos) (h3 : (m : Int) ≤ fin e)
    (h4 : fin e ≤ s.pos) : wp env (leaf self e) (V env b m s) tt s := by
  unfold leaf
  wpr
  refine H.tok' hi fun t ht j1 j2 j3 => ?_
  vdone ht

/-- A node that covers the current token. -/
theorem tokLeaf (H : HS env self) (hi : In env b m s) (he : e.pos = ⟨s.tsp, (s.pos : Int) - s.tsp⟩) (hk : e.kids = []) :
    wp env (leaf self e) (V env b m s) tt s := by
  have g1 := hi.lo; have g2 := hi.tsp; have g3 := hi.le; have g4 := hi.mle
  refine leaf' H hi (.leaf ?_ ?_ hk) ?_ ?_ ?_ ?_ <;> simp only [fin, he] <;> omega

theorem V.up {s' : St} {b' m' : Nat} (h : V env b' m' s' e t) (h1 : b ≤ b') (h2 : m ≤ m') (h3 : s.pos ≤ s'.pos) : V env b m s e t := by
  obtain ⟨k1, k2, k3, k4, n, k5, k6, k7⟩ := h
  exact ⟨k1, by omega, by omega, k4, n, by omega, k6, k7⟩

theorem atomBody' (H : HS env self) (HT : HT env self) (hi : In env b m s) : wp env (atomBody self) (V env b m s) tt s := by
  have g1 := hi.lo; have g2 := hi.tsp; have g3 := hi.le; have g4 := hi.mle
  have par : wp env (do
      nextTok self
      let e ← relationship self
      let p ← here s.tsp
      assertToken .rp
      nextTok self
      pure (.un p .paren e)) (V env b m s) tt s := by
    wpr
    refine H.tok' hi fun t ht j1 j2 j3 => ?_
    refine H.binary ht fun e u n he k1 k2 k3 k4 hu k5 k6 k7 => ?_
    refine assertToken' ?_
    refine H.tok' hu fun v hv q1 q2 q3 => ?_
    vdone hv
  have lst : wp env (do
      nextTok self
      let es ← arrayExpression self
      let p ← here s.tsp
      nextTok self
      pure (.list p es)) (V env b m s) tt s := by
    wpr
    refine H.tok' hi fun t ht j1 j2 j3 => ?_
    refine arrayExpression' H ht fun es u k1 k2 k3 k4 k5 k6 => ?_
    refine H.tok' k3 fun v hv q1 q2 q3 => ?_
    vdone hv
  have val : ∀ e, s.val = .expr e → wp env (leaf self e) (V env b m s) tt s := by
    intro e he
    obtain ⟨h1, h2, h3, h4, h5⟩ := hi.val e he
    have := h1.len
    refine leaf' H hi h1 h2 ?_ h3 h4
    pm
  have str : ∀ f : GoStr → Expr, (∀ v, (f v).pos = ⟨s.tsp, (s.pos : Int) - s.tsp⟩ ∧ (f v).kids = []) →
      wp env (do let v ← tokenString; leaf self (f v)) (V env b m s) tt s := by
    intro f hf
    wpr
    exact tokenString' fun v => tokLeaf H hi (hf v).1 (hf v).2
  unfold atomBody
  rw [wp_bind, wp_getS]
  dsimp only
  split
  · exact par
  · exact par
  · exact lst
  · exact lst
  · wpr
    refine H.tok' hi fun t ht j1 j2 j3 => ?_
    refine H.exprs rfl ht fun es u k1 k2 k3 k4 k5 k6 => ?_
    refine H.tok' k3 fun v hv q1 q2 q3 => ?_
    vdone hv
  · split
    · exact tokLeaf H hi rfl rfl
    · exact trivial
  · split
    · exact tokLeaf H hi rfl rfl
    · exact trivial
  · split
    · exact tokLeaf H hi rfl rfl
    · exact trivial
  · exact str _ fun v => ⟨rfl, rfl⟩
  · exact str _ fun v => ⟨rfl, rfl⟩
  · exact str _ fun v => ⟨rfl, rfl⟩
  · exact tokLeaf H hi rfl rfl
  · split
    · next e he => exact val e he
    · exact trivial
  · split
    · next e he => exact val e he
    · exact trivial
  · exact str _ fun v => ⟨rfl, rfl⟩
  · exact tokLeaf H hi rfl rfl
  · exact str _ fun v => ⟨rfl, rfl⟩
  · exact str _ fun v => ⟨rfl, rfl⟩
  · next hv =>
    obtain ⟨k1, k2⟩ := hi.var hv
    wpr
    refine H.tok' hi fun t ht j1 j2 j3 => ?_
    split
    · next v hval =>
      have k3 := k2 v hval
      have hq : InR env true (.qname ⟨s.tsp + 1, v.length⟩ v) := .leaf (by pm) (by pm) rfl
      vdone ht
    · next v hval =>
      have hq : InR env true (.integer ⟨s.tsp + 1, (t.pos : Int) - s.tsp - 1⟩ 10 v) := .leaf (by pm) (by pm) rfl
      vdone ht
    · exact trivial
  · exact caseExpression' H hi
  · exact H (.ifExpr false) b m 0 s hi
  · exact H (.ifExpr true) b m 0 s hi
  · wpr
    refine tokenString' fun v => ?_
    refine H.tok' hi fun t ht j1 j2 j3 => ?_
    split
    · wpr
      vdone ht
    · refine wp_imp (classExpression' H (start := s.tsp) ht (by omega)) fun x u ⟨r1, r2, r3, r4, r5⟩ => ?_
      vdone r5
  · wpr
    refine tokenString' fun v => ?_
    refine H.tok' hi fun t ht j1 j2 j3 => ?_
    split
    · exact wp_imp (typeAliasOrDefinition' H HT ht) fun x u hx => V.up hx (by omega) (by omega) (by omega)
    · wpr
      vdone ht
  · exact functionDefinition' H hi
  · exact functionDefinition' H hi
  · exact nodeDefinition' H hi
  · exact resourceDefinition' H hi
  · exact resourceDefinition' H hi
  · exact siteDefinition' H hi
  · exact str _ fun v => ⟨rfl, rfl⟩
  · wpr
    refine H.tok' hi fun t ht j1 j2 j3 => ?_
    refine H.expr ht fun e u n he k1 k2 k3 k4 hu k5 k6 k7 => ?_
    vdone hu
  · exact trivial

theorem resourceBody' (H : HS env self) (hi : In env b s.pos s) (he : InR env true e) (h1 : e.pos.off ≤ b) (h2 : fin e ≤ s.pos) :
    wp env (resourceBody self e) (fun x t => InR env true x ∧ x.pos.off = e.pos.off ∧ fin x ≤ t.pos ∧ s.pos ≤ t.pos ∧ In env s.pos t.pos t) tt s := by
  have g1 := hi.lo; have g2 := hi.tsp; have g3 := hi.le; have g4 := he.len
  unfold resourceBody
  wpr
  split
  · exact trivial
  · wpr
    refine H.tok' hi fun t ht j1 j2 j3 => ?_
    refine H.attrOps ht fun es u k1 k2 k3 k4 k5 k6 => ?_
    refine ⟨?_, rfl, ?_, ?_, k3⟩
    · inr
    all_goals pm

theorem resourceBodiesBody' (H : HS env self) {acc : List Expr} (hi : In env b s.pos s) (he : InR env true e) (h1 : e.pos.off ≤ b) (h2 : fin e ≤ s.pos)
    (h3 : l0 ≤ e.pos.off) (ha : ∀ x ∈ acc, InR env true x ∧ l0 ≤ x.pos.off ∧ fin x ≤ s.pos) :
    wp env (resourceBodiesBody self e acc) (Post env (.resourceBodies e acc) b m l0 s) tt s := by
  have g1 := hi.lo; have g2 := hi.tsp; have g3 := hi.le; have g4 := he.len
  unfold resourceBodiesBody
  wpr
  split
  · exact ⟨ha, Nat.le_refl _, hi⟩
  · wpr
    refine wp_imp (resourceBody' H hi he h1 h2) fun x t ⟨r1, r2, r3, r4, r5⟩ => ?_
    have ha' : ∀ y ∈ acc ++ [x], InR env true y ∧ l0 ≤ y.pos.off ∧ fin y ≤ t.pos := by
      intro y hy
      rcases List.mem_append.1 hy with hy | hy
      · obtain ⟨q1, q2, q3⟩ := ha y hy
        exact ⟨q1, q2, by omega⟩
      · cases List.mem_singleton.1 hy
        exact ⟨r1, by omega, r3⟩
    split
    · exact ⟨ha', r4, r5.mono (by omega) (Nat.le_refl _)⟩
    · wpr
      refine H.tok' r5 fun u hu j1 j2 j3 => ?_
      split
      · wpr
        refine H.expr hu fun y v n hy k1 k2 k3 k4 hv k5 k6 k7 => ?_
        refine wp_imp (H (.resourceBodies y (acc ++ [x])) n 0 l0 v ⟨hv, hy, k2, k4, by omega, ?_⟩) fun z w ⟨z1, z2, z3⟩ => ⟨z1, by omega, z3.mono (by omega) (Nat.le_refl _)⟩
        intro y hy
        obtain ⟨q1, q2, q3⟩ := ha' y hy
        exact ⟨q1, q2, by omega⟩
      · refine wp_imp (H (.resourceBodies e (acc ++ [x])) t.pos 0 l0 u ⟨hu, he, by omega, by omega, h3, ?_⟩) fun z w ⟨z1, z2, z3⟩ => ⟨z1, by omega, z3.mono (by omega) (Nat.le_refl _)⟩
        intro y hy
        obtain ⟨q1, q2, q3⟩ := ha' y hy
        exact ⟨q1, q2, by omega⟩

theorem resourceExprBody' (H : HS env self) {start : Nat} {form : Form} (hi : In env b s.pos s) (he : InR env true e) (h1 : start ≤ e.pos.off)
    (h0 : start ≤ b) (h2 : fin e ≤ s.pos) :
    wp env (resourceExprBody self start e form) (Post env (.resourceExpr start e form) b m l0 s) tt s := by
  have g1 := hi.lo; have g2 := hi.tsp; have g3 := hi.le; have g4 := he.len
  have rest : ∀ (title : Option Expr) (t : St) (n : Nat), In env n t.pos t → s.pos ≤ n → (∀ x, title = some x → InR env true x ∧ s.pos ≤ x.pos.off ∧ x.pos.off ≤ n ∧ fin x ≤ t.pos) →
      wp env (do
        let t ← curTok
        if t ≠ .colon then
          match resourceShape e with
          | .resource =>
            if statementCalls.contains (qnameOf e) then do
              setPos s.pos
              nextTok self
              let es ← expressions self .rc .keyedEntry
              let hp ← here s.pos
              let p ← here start
              nextTok self
              pure (.call p .named true e [.hash hp es] none)
            else issueAt start .parseResourceWithoutTitle
          | .defaults => do
            setPos s.pos
            nextTok self
            let ops ← self (.attrOps [])
            let p ← here start
            assertToken .rc
            nextTok self
            pure (.resourceDefaults p form e ops)
          | .override => do
            setPos s.pos
            nextTok self
            let ops ← self (.attrOps [])
            let p ← here start
            assertToken .rc
            nextTok self
            pure (.resourceOverride p form e ops)
          | .error => issueAt e.off .parseInvalidResource
        else
          match title with
          | some title => do
            let bodies ← self (.resourceBodies title [])
            let p ← here start
            assertToken .rc
            nextTok self
            pure (.resource p form e bodies)
          | none => crash .exprAssertion) (Post env (.resourceExpr start e form) b m l0 s) tt t := by
    intro title t n ht hn htt
    have k1 := ht.lo; have k2 := ht.tsp; have k3 := ht.le
    wpr
    split
    · split
      · split
        · wpr
          refine H.tok (s := { t with pos := s.pos }) ⟨ht.nls, g3⟩ ht.defs fun u hu j1 j2 j3 => ?_
          have j1' : s.pos ≤ u.tsp := j1
          refine H.exprs (b := s.pos) rfl hu fun es v q1 q2 q3 q4 q5 q6 => ?_
          refine H.tok' q3 fun w hw r1 r2 r3 => ?_
          have hh : InR env true (.hash ⟨s.pos, (v.pos : Int) - s.pos⟩ es) := by inr
          refine ⟨?_, rfl, ?_, ?_, hw.mono ?_ (Nat.le_refl _)⟩
          · inr
          all_goals pm
        · exact trivial
      · wpr
        refine H.tok (s := { t with pos := s.pos }) ⟨ht.nls, g3⟩ ht.defs fun u hu j1 j2 j3 => ?_
        have j1' : s.pos ≤ u.tsp := j1
        refine H.attrOps (b := s.pos) hu fun es v q1 q2 q3 q4 q5 q6 => ?_
        refine assertToken' ?_
        refine H.tok' q3 fun w hw r1 r2 r3 => ?_
        refine ⟨?_, rfl, ?_, ?_, hw.mono ?_ (Nat.le_refl _)⟩
        · inr
        all_goals pm
      · wpr
        refine H.tok (s := { t with pos := s.pos }) ⟨ht.nls, g3⟩ ht.defs fun u hu j1 j2 j3 => ?_
        have j1' : s.pos ≤ u.tsp := j1
        refine H.attrOps (b := s.pos) hu fun es v q1 q2 q3 q4 q5 q6 => ?_
        refine assertToken' ?_
        refine H.tok' q3 fun w hw r1 r2 r3 => ?_
        refine ⟨?_, rfl, ?_, ?_, hw.mono ?_ (Nat.le_refl _)⟩
        · inr
        all_goals pm
      · exact trivial
    · split
      · next x =>
        obtain ⟨x1, x2, x3, x4⟩ := htt x rfl
        wpr
        refine wp_imp (H (.resourceBodies x []) n 0 s.pos t ⟨ht, x1, x3, x4, x2, fun _ h => nomatch h⟩) fun bs v ⟨z1, z2, z3⟩ => ?_
        refine assertToken' ?_
        have z4 := z3.le
        refine H.tok' z3 fun w hw r1 r2 r3 => ?_
        refine ⟨?_, rfl, ?_, ?_, hw.mono ?_ (Nat.le_refl _)⟩
        · refine .node ?_ ?_ rfl ?_
          · pm
          · pm
          · simp only [Expr.kids, List.forall_mem_cons]
            refine ⟨⟨he, by pm, fun _ => by pm⟩, fun k hk => ?_⟩
            obtain ⟨q1, q2, q3⟩ := z1 k hk
            exact ⟨q1, by pm, fun _ => by pm⟩
        all_goals pm
      · exact trivial
  unfold resourceExprBody
  rw [wp_bind, wp_getPos, wp_bind]
  refine H.tok' hi fun t ht j1 j2 j3 => ?_
  rw [wp_bind, wp_curTok]
  extract_lets jp
  by_cases hm : t.tok ≠ .multiply
  · rw [if_pos hm, wp_bind]
    refine H.expr ht fun x u n hx k1 k2 k3 k4 hu k5 k6 k7 => ?_
    rw [wp_bind, wp_pure]
    exact rest (some x) u n hu (by omega) (fun y hy => by cases hy; exact ⟨hx, k1, k2, k4⟩)
  · rw [if_neg hm, wp_bind, wp_pure]
    exact rest none t s.pos ht (Nat.le_refl _) (fun y hy => by cases hy)

theorem eppLoopBody' (H : HS env self) {acc : List Expr} (hi : In env b s.pos s)
    (hl : l0 ≤ b) (ha : Lst env l0 b s.pos acc) : wp env (eppLoopBody self acc) (L env l0 b s) tt s := by
  have g1 := hi.lo; have g2 := hi.tsp; have g3 := hi.le
  unfold eppLoopBody
  wpr
  split
  · exact ⟨ha.mono (Nat.le_refl _) (by omega) (Int.le_refl _), Nat.le_refl _, hi⟩
  · wpr
    refine H.expr hi fun e t n he h1 h2 h3 h4 ht h5 h6 h7 => ?_
    refine wp_imp (H (.eppLoop (acc ++ [e])) n 0 l0 t ⟨ht, by omega, ?_⟩) fun es v hv => L.up hv (by omega) (by omega)
    exact ha.snoc he hl h1 (by omega) h3 (by omega)

theorem step_HS (hno : ¬ b!"@(" <:+: env.text) (hw : env.workflow = false) (H : HS env self) (HT : HT env self) : HS env (step self) := by
  intro n b m l0 s hp
  cases n with
  | nextToken => exact nextTokenBody' H hno hp
  | delim d ds i h buf ec start segs => exact delimBody' H d ds i h buf ec start segs hp
  | escapes => exact hp.elim
  | parse x y => exact parseBody' H hp
  | stmts => exact stmtsBody' H hp.1 hp.2.1 hp.2.2
  | commaArgs => exact commaArgsBody' H hp.1 hp.2.1 hp.2.2
  | exprs => exact exprsBody' H hp.1 hp.2.1 hp.2.2.1 hp.2.2.2
  | assignment => exact assignmentBody' H hw hp
  | assignLoop => exact assignLoopBody' H hp.1 hp.2.1 hp.2.2.1 hp.2.2.2
  | expression => exact expressionBody' H hp
  | selLoop => exact selLoopBody' H hp.1 hp.2.1 hp.2.2.1 hp.2.2.2
  | binary => exact binaryBody' H hp
  | binLoop => exact binLoopBody' H hp.1 hp.2.1 hp.2.2.1 hp.2.2.2
  | unary => exact unaryBody' H hp
  | primary => exact primaryBody' H hp
  | primLoop => exact primLoopBody' H hp.1 hp.2.1 hp.2.2.1 hp.2.2.2
  | atom => exact atomBody' H HT hp
  | ifExpr => exact ifBody' H hp
  | caseOptions => exact caseOptionsBody' H hp.1 hp.2.1 hp.2.2
  | resourceExpr => exact resourceExprBody' H hp.1 hp.2.1 hp.2.2.1 hp.2.2.2.1 hp.2.2.2.2
  | resourceBodies => exact resourceBodiesBody' H hp.1 hp.2.1 hp.2.2.1 hp.2.2.2.1 hp.2.2.2.2.1 hp.2.2.2.2.2
  | attrOps => exact attrOpsBody' H hp.1 hp.2.1 hp.2.2
  | hostnames => exact hostnamesBody' H hp.1 hp.2.1 hp.2.2
  | dottedName => exact dottedNameBody' H hp.1 hp.2
  | activities => exact hp.elim
  | eppLoop => exact eppLoopBody' H hp.1 hp.2.1 hp.2.2

theorem run_HS (hno : ¬ b!"@(" <:+: env.text) (hw : env.workflow = false) (f : Nat) : HS env (run f) := by
  induction f with
  | zero => intro n b m l0 s _; exact trivial
  | succ f ih => exact step_HS hno hw ih (run_T f)

end
end PP.Rg
