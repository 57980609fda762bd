import Verif.Lemmas.Range8

/-! # Byte ranges of nodes: expressions -/
namespace PP.Rg
open PP

section
variable {env : Env} {s t : St} {b m l0 : Nat} {self : Self} {e : Expr} {Q : Expr → St → Prop}

theorem className' (H : HS env self) {Q : GoStr → St → Prop} (hi : In env b m s)
    (k : ∀ v t, In env s.pos t.pos t → s.pos ≤ t.tsp → t.tsp ≤ t.pos → t.pos ≤ env.text.length → Q v t) :
    wp env (className self) Q tt s := by
  unfold className
  wpr
  split
  · wpr
    refine tokenString' fun v => ?_
    exact H.tok' hi fun t ht h1 h2 h3 => k _ t ht h1 h2 h3
  · split
    · exact trivial
    · split <;> exact trivial

theorem attributeOperation' (H : HS env self) (hi : In env b m s) : wp env (attributeOperation self) (V env b s.pos s) tt s := by
  have g1 := hi.lo; have g2 := hi.tsp; have g3 := hi.le
  unfold attributeOperation
  wpr
  split
  · wpr
    refine H.tok' hi fun t ht h1 h2 h3 => ?_
    refine assertToken' ?_
    refine H.tok' ht fun u hu j1 j2 j3 => ?_
    refine H.expr hu fun e v n he k1 k2 k3 k4 hv k5 k6 k7 => ?_
    vdone hv
  · wpr
    refine identifier' H hi (fun nm t ht h1 h2 h3 => ?_) (fun t => trivial)
    dsimp only
    wpr
    split
    · wpr
      refine tokenString' fun op => ?_
      refine H.tok' ht fun u hu j1 j2 j3 => ?_
      refine H.expr hu fun e v n he k1 k2 k3 k4 hv k5 k6 k7 => ?_
      vdone hv
    · exact trivial

theorem attrOpsBody' (H : HS env self) {acc : List Expr} (hi : In env b s.pos s)
    (hl : l0 ≤ b) (ha : Lst env l0 b s.pos acc) : wp env (attrOpsBody self acc) (L env l0 b s) tt s := by
  have g1 := hi.lo; have g2 := hi.tsp; have g3 := hi.le
  unfold attrOpsBody
  wpr
  split
  · exact ⟨ha.mono (Nat.le_refl _) (by omega) (Int.le_refl _), Nat.le_refl _, hi⟩
  · wpr
    refine V.cps (attributeOperation' H hi) fun e t n he h1 h2 h3 h4 ht h5 h6 h7 => ?_
    split
    · exact ⟨ha.snoc he hl h1 (by omega) h3 h4, by omega, ht.mono (by omega) (Nat.le_refl _)⟩
    · wpr
      refine H.tok' ht fun u hu j1 j2 j3 => ?_
      refine wp_imp (H (.attrOps (acc ++ [e])) t.pos 0 l0 u ⟨hu, by omega, ?_⟩) fun es v hv => L.up hv (by omega) (by omega)
      exact ha.snoc he hl h1 (by omega) h3 (by omega)

/-- What a capability mapping guarantees: it starts at the keyword. -/
theorem capabilityMapping' (H : HS env self) {kind : GoStr} (hi : In env b s.pos s) (he : InR env true e) (h2 : fin e ≤ s.pos) :
    wp env (capabilityMapping self e kind) (fun x t => InR env true x ∧ x.pos.off = s.tsp ∧ fin x = t.pos ∧ s.pos ≤ t.pos ∧ In env s.pos t.pos t) tt s := by
  have g1 := hi.lo; have g2 := hi.tsp; have g3 := hi.le
  unfold capabilityMapping
  wpr
  refine H.tok' hi fun t ht j1 j2 j3 => ?_
  refine className' H ht fun nm u hu k1 k2 k3 => ?_
  refine assertToken' ?_
  refine H.tok' hu fun v hv l1 l2 l3 => ?_
  refine H.attrOps hv fun ms w q1 q2 q3 q4 q5 q6 => ?_
  refine assertToken' ?_
  refine H.tok' q3 fun x hx r1 r2 r3 => ?_
  have fin' : ∀ (c : Expr) (q : GoStr), InR env true c → fin c ≤ s.pos →
      InR env true (.capabilityMapping ⟨s.tsp, (x.pos : Int) - s.tsp⟩ kind q c ms) := by
    intro c q hc hf
    refine .looseNode rfl ?_ ?_ ?_
    · pm
    · pm
    · simp only [Expr.kids, List.forall_mem_cons]
      refine ⟨⟨hc, ?_⟩, fun k hk => ⟨q1.inr k hk, ?_⟩⟩
      · pm
      · have := q1.hi k hk
        pm
  split
  · next p w d =>
    wpr
    have hq : InR env true (.qname p (joinStr b!"::" (x.names ++ [w]))) := .leaf he.len he.le rfl
    have hn := fin' (.qname p (joinStr b!"::" (x.names ++ [w]))) (joinStr b!"::" (x.names ++ [nm])) hq h2
    exact ⟨hn, rfl, by pm, by pm, (In.addDef hx hn).mono (by pm) (Nat.le_refl _)⟩
  · wpr
    have hn := fin' e (joinStr b!"::" (x.names ++ [nm])) he h2
    exact ⟨hn, rfl, by pm, by pm, (In.addDef hx hn).mono (by pm) (Nat.le_refl _)⟩

theorem expressionBody' (H : HS env self) (hi : In env b m s) : wp env (expressionBody self) (V env b m s) tt s := by
  have g1 := hi.lo; have g2 := hi.tsp; have g3 := hi.le; have g4 := hi.mle
  unfold expressionBody
  wpr
  refine H.binary hi fun e t n he h1 h2 h3 h4 ht h5 h6 h7 => ?_
  refine W.cps (H (.selLoop e) n 0 0 t ⟨ht, he, h2, h4⟩) fun x u hx k1 k2 k3 k4 hu k5 k6 k7 => ?_
  split
  · wpr
    refine tokenString' fun cap => ?_
    split
    · refine wp_imp (capabilityMapping' H hu hx k3) fun y v ⟨r1, r2, r3, r4, r5⟩ => ?_
      vdone r5
    · vdone hu
  · vdone hu

theorem selectorsExpression' (H : HS env self) (hi : In env b s.pos s) (he : InR env true e) (h1 : e.pos.off ≤ b) (h2 : fin e ≤ s.pos) :
    wp env (selectorsExpression self e) (W env b s e) tt s := by
  have g1 := hi.lo; have g2 := hi.tsp; have g3 := hi.le; have g4 := he.len
  unfold selectorsExpression
  wpr
  refine H.tok' hi fun t ht j1 j2 j3 => ?_
  split
  · wpr
    refine H.tok' ht fun u hu k1 k2 k3 => ?_
    refine H.exprs (b := s.pos) rfl (hu.mono (by omega) (Nat.le_refl _)) fun es v q1 q2 q3 q4 q5 q6 => ?_
    refine H.tok' q3 fun w hw r1 r2 r3 => ?_
    refine ⟨?_, rfl, ?_, ?_, ?_, hw.mono ?_ (Nat.le_refl _)⟩
    · inr
    all_goals pm
  · wpr
    refine V.cps (selectorEntry' H ht) fun x u n hx q1 q2 q3 q4 hu q5 q6 q7 => ?_
    refine ⟨?_, rfl, ?_, ?_, ?_, hu.mono ?_ (Nat.le_refl _)⟩
    · inr
    all_goals pm

theorem W.up {s' : St} {b' : Nat} {x y : Expr} (h : W env b' s' x y t) (h1 : b ≤ b') (h2 : s.pos ≤ s'.pos) (h3 : x.pos.off = e.pos.off) (h4 : fin e ≤ fin x) :
    W env b s e y t :=
  ⟨h.inr, h.off.trans h3, Int.le_trans h4 h.m, h.hi, Nat.le_trans h2 h.mono, h.st.mono h1 (Nat.le_refl _)⟩

theorem selLoopBody' (H : HS env self) (hi : In env b s.pos s) (he : InR env true e) (h1 : e.pos.off ≤ b) (h2 : fin e ≤ s.pos) :
    wp env (selLoopBody self e) (W env b s e) tt s := by
  unfold selLoopBody
  wpr
  split
  · wpr
    refine W.cps (selectorsExpression' H hi he h1 h2) fun x u hx k1 k2 k3 k4 hu k5 k6 k7 => ?_
    exact wp_imp (H (.selLoop x) b 0 0 u ⟨hu, hx, by omega, k3⟩) fun y v hv => W.up hv (Nat.le_refl _) k4 k1 k2
  · exact ⟨he, rfl, Int.le_refl _, h2, Nat.le_refl _, hi⟩

theorem resource' (H : HS env self) (hi : In env b m s) : wp env (resource self) (V env b m s) tt s := by
  have g1 := hi.lo; have g2 := hi.tsp; have g3 := hi.le; have g4 := hi.mle
  unfold resource
  wpr
  refine H.expr hi fun e t n he h1 h2 h3 h4 ht h5 h6 h7 => ?_
  split
  · refine wp_imp (H (.resourceExpr e.pos.off e .regular) n 0 0 t ⟨ht, he, Nat.le_refl _, h2, h4⟩) fun x u ⟨r1, r2, r3, r4, r5⟩ => ?_
    vdone r5
  · vdone ht

theorem stepOrResource' (H : HS env self) (hw : env.workflow = false) (hi : In env b m s) : wp env (stepOrResource self) (V env b m s) tt s := by
  unfold stepOrResource
  wpr
  refine wp_imp (resource' H hi) fun e t h => ?_
  simp only [hw]
  exact h

theorem assignmentBody' (H : HS env self) (hw : env.workflow = false) (hi : In env b m s) : wp env (assignmentBody self) (V env b m s) tt s := by
  unfold assignmentBody
  wpr
  refine V.cps (stepOrResource' H hw hi) fun e t n he h1 h2 h3 h4 ht h5 h6 h7 => ?_
  refine W.cps (H (.assignLoop e) n 0 0 t ⟨ht, he, h2, h4⟩) fun x u hx k1 k2 k3 k4 hu k5 k6 k7 => ?_
  vdone hu

theorem assignLoopBody' (H : HS env self) (hi : In env b s.pos s) (he : InR env true e) (h1 : e.pos.off ≤ b) (h2 : fin e ≤ s.pos) :
    wp env (assignLoopBody self e) (W env b s e) tt s := by
  have g1 := hi.lo; have g2 := hi.tsp; have g3 := hi.le; have g4 := he.len
  unfold assignLoopBody
  wpr
  split
  · wpr
    refine tokenString' fun op => ?_
    refine H.tok' hi fun t ht j1 j2 j3 => ?_
    refine H.assignment ht fun r u n hr k1 k2 k3 k4 hu k5 k6 k7 => ?_
    have hb : InR env true (.bin ⟨e.off, (u.pos : Int) - e.off⟩ (.assignment op) e r) := by inr
    refine wp_imp (H (.assignLoop _) n 0 0 u ⟨hu, hb, ?_, ?_⟩) fun y v hv => W.up hv ?_ ?_ rfl ?_
    all_goals pm
  · exact ⟨he, rfl, Int.le_refl _, h2, Nat.le_refl _, hi⟩

theorem operand' (H : HS env self) {l : Lvl} (hi : In env b m s) : wp env (operand self l) (V env b m s) tt s := by
  cases l
  · exact H .assignment b m 0 s hi
  all_goals first | exact H (.binary _) b m 0 s hi | exact H .unary b m 0 s hi

theorem binaryBody' (H : HS env self) {l : Lvl} (hi : In env b m s) : wp env (binaryBody self l) (V env b m s) tt s := by
  unfold binaryBody
  wpr
  refine V.cps (operand' H hi) fun e t n he h1 h2 h3 h4 ht h5 h6 h7 => ?_
  refine W.cps (H (.binLoop l e) n 0 0 t ⟨ht, he, h2, h4⟩) fun x u hx k1 k2 k3 k4 hu k5 k6 k7 => ?_
  vdone hu

theorem binLoopBody' (H : HS env self) {l : Lvl} (hi : In env b s.pos s) (he : InR env true e) (h1 : e.pos.off ≤ b) (h2 : fin e ≤ s.pos) :
    wp env (binLoopBody self l e) (W env b s e) tt s := by
  have g1 := hi.lo; have g2 := hi.tsp; have g3 := hi.le; have g4 := he.len
  unfold binLoopBody
  wpr
  split
  · wpr
    refine tokenString' fun op => ?_
    refine H.tok' hi fun t ht j1 j2 j3 => ?_
    refine V.cps (operand' H ht) fun r u n hr k1 k2 k3 k4 hu k5 k6 k7 => ?_
    have hb : InR env true (.bin ⟨e.off, (u.pos : Int) - e.off⟩ (l.kind op) e r) := by inr
    refine wp_imp (H (.binLoop l _) n 0 0 u ⟨hu, hb, ?_, ?_⟩) fun y v hv => W.up hv ?_ ?_ rfl ?_
    all_goals pm
  · exact ⟨he, rfl, Int.le_refl _, h2, Nat.le_refl _, hi⟩

theorem In.setVal {v : TokVal} (h : In env b m s) (h1 : ∀ e, v ≠ .expr e) (h2 : ∀ w, v ≠ .str w) : In env b m { s with tok := s.tok, val := v } :=
  ⟨h.nls, h.defs, h.lo, h.tsp, h.le, h.mle, fun e he => absurd he (h1 e), fun ht => ⟨(h.var ht).1, fun w hw => absurd hw (h2 w)⟩⟩

theorem unaryBody' (H : HS env self) (hi : In env b m s) : wp env (unaryBody self) (V env b m s) tt s := by
  have g1 := hi.lo; have g2 := hi.tsp; have g3 := hi.le; have g4 := hi.mle
  have grow : ∀ (t : St), In env s.pos t.pos t → s.pos ≤ t.tsp → t.tsp ≤ t.pos → wp env (do
      let e ← self .primary
      let p ← here s.tsp
      pure (e.setPos p)) (V env b m s) tt t := by
    intro t ht h1 h2
    wpr
    refine H.primary ht fun e u n he k1 k2 k3 k4 hu k5 k6 k7 => ?_
    refine ⟨he.setPos ?_ ?_ ?_, ?_, ?_, ?_, n, ?_, ?_, hu⟩ <;> (try simp only [fin, setPos_pos]) <;> pm
  unfold unaryBody
  wpr
  split
  · wpr
    refine peek' hi.rd fun c n hc hn => ?_
    split
    · wpr
      refine H.tok' hi fun t ht h1 h2 h3 => ?_
      split
      · split
        · next v _ =>
          wpr
          have := grow { t with tok := t.tok, val := .int (negInt64 v) } (ht.setVal (v := .int (negInt64 v)) (fun _ h => nomatch h) (fun _ h => nomatch h)) h1 h2
          simpa only [wp_bind, wp_here, wp_pure] using this
        · exact trivial
      · split
        · next v _ =>
          wpr
          have := grow { t with tok := t.tok, val := .flt { v with neg := !v.neg } } (ht.setVal (v := .flt { v with neg := !v.neg }) (fun _ h => nomatch h) (fun _ h => nomatch h)) h1 h2
          simpa only [wp_bind, wp_here, wp_pure] using this
        · exact trivial
    · wpr
      refine H.tok' hi fun t ht h1 h2 h3 => ?_
      refine H.primary ht fun e u n he k1 k2 k3 k4 hu k5 k6 k7 => ?_
      vdone hu
  · wpr
    refine peek' hi.rd fun c n hc hn => ?_
    split
    · wpr
      refine H.tok' hi fun t ht h1 h2 h3 => ?_
      have := grow t ht h1 h2
      simpa only [wp_bind, wp_here, wp_pure] using this
    · exact trivial
  · wpr
    refine H.tok' hi fun t ht h1 h2 h3 => ?_
    refine H.unary ht fun e u n he k1 k2 k3 k4 hu k5 k6 k7 => ?_
    vdone hu
  · wpr
    refine H.tok' hi fun t ht h1 h2 h3 => ?_
    refine H.unary ht fun e u n he k1 k2 k3 k4 hu k5 k6 k7 => ?_
    vdone hu
  · wpr
    refine H.tok' hi fun t ht h1 h2 h3 => ?_
    refine H.primary ht fun e u n he k1 k2 k3 k4 hu k5 k6 k7 => ?_
    refine assertToken' ?_
    refine wp_imp (H (.resourceExpr s.tsp e .virtual) n 0 0 u ⟨hu, he, by omega, by omega, k4⟩) fun x u ⟨r1, r2, r3, r4, r5⟩ => ?_
    vdone r5
  · wpr
    refine H.tok' hi fun t ht h1 h2 h3 => ?_
    refine H.primary ht fun e u n he k1 k2 k3 k4 hu k5 k6 k7 => ?_
    refine assertToken' ?_
    refine wp_imp (H (.resourceExpr s.tsp e .exported) n 0 0 u ⟨hu, he, by omega, by omega, k4⟩) fun x u ⟨r1, r2, r3, r4, r5⟩ => ?_
    vdone r5
  · exact H .primary b m 0 s hi
end
end PP.Rg
