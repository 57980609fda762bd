import Verif.Lemmas.Range10

/-! # Byte ranges of nodes: definitions and control structures -/
namespace PP.Rg
open PP

section
variable {env : Env} {s t : St} {b m l0 : Nat} {self : Self} {e : Expr} {Q : Expr → St → Prop}

theorem dottedNameBody' (H : HS env self) {start : Nat} {ns : List GoStr} (hi : In env b m s) (h : start ≤ s.tsp) :
    wp env (dottedNameBody self start ns) (Post env (.dottedName start ns) b m l0 s) tt s := by
  have g1 := hi.lo; have g2 := hi.tsp; have g3 := hi.le
  unfold dottedNameBody
  wpr
  have seg : ∀ {Q : GoStr → St → Prop}, (∀ v, Q v s) → wp env dottedSegment Q tt s := by
    intro Q hQ
    unfold dottedSegment
    wpr
    repeat' first
      | exact trivial
      | exact tokenString' hQ
      | exact hQ _
      | split
  refine seg fun v => ?_
  refine H.tok' hi fun t ht j1 j2 j3 => ?_
  split
  · wpr
    refine ⟨?_, rfl, ?_, ?_, ht⟩
    · inr
    all_goals pm
  · wpr
    refine H.tok' ht fun u hu k1 k2 k3 => ?_
    refine wp_imp (H (.dottedName start _) t.pos u.pos 0 u ⟨hu, by omega⟩) fun x w ⟨r1, r2, r3, r4, r5⟩ => ?_
    exact ⟨r1, r2, by omega, r4, r5.mono (by omega) (Nat.le_refl _)⟩

theorem hostname' (H : HS env self) (hi : In env b m s) : wp env (hostname self) (V env b m s) tt s := by
  have g1 := hi.lo; have g2 := hi.tsp; have g3 := hi.le; have g4 := hi.mle
  have dot : wp env (self (.dottedName s.tsp [])) (V env b m s) tt s := by
    refine wp_imp (H (.dottedName s.tsp []) b m 0 s ⟨hi, Nat.le_refl _⟩) fun x t ⟨r1, r2, r3, r4, r5⟩ => ?_
    vdone r5
  unfold hostname
  wpr
  split
  · exact dot
  · exact dot
  · exact dot
  · exact dot
  · wpr
    refine tokenString' fun v => ?_
    refine H.tok' hi fun t ht j1 j2 j3 => ?_
    vdone ht
  · wpr
    refine tokenString' fun v => ?_
    refine H.tok' hi fun t ht j1 j2 j3 => ?_
    vdone ht
  · wpr
    refine H.tok' hi fun t ht j1 j2 j3 => ?_
    vdone ht
  · split
    · next e he =>
      wpr
      refine H.tok' hi fun t ht j1 j2 j3 => ?_
      obtain ⟨h1, h2, h3, h4, h5⟩ := hi.val e he
      have := h1.len
      vdone ht
    · exact trivial
  · split
    · next e he =>
      wpr
      refine H.tok' hi fun t ht j1 j2 j3 => ?_
      obtain ⟨h1, h2, h3, h4, h5⟩ := hi.val e he
      have := h1.len
      vdone ht
    · exact trivial
  · exact trivial

theorem hostnamesBody' (H : HS env self) {acc : List Expr} (hi : In env b s.pos s)
    (hl : l0 ≤ b) (ha : Lst env l0 b s.pos acc) : wp env (hostnamesBody self acc) (L env l0 b s) tt s := by
  have g1 := hi.lo; have g2 := hi.tsp; have g3 := hi.le
  unfold hostnamesBody
  wpr
  refine V.cps (hostname' H hi) fun e t n he h1 h2 h3 h4 ht h5 h6 h7 => ?_
  split
  · exact ⟨ha.snoc he hl h1 (by omega) h3 h4, by omega, ht.mono (by omega) (Nat.le_refl _)⟩
  · wpr
    refine H.tok' ht fun u hu j1 j2 j3 => ?_
    split
    · exact ⟨ha.snoc he hl h1 (by omega) h3 (by omega), by omega, hu.mono (by omega) (Nat.le_refl _)⟩
    · refine wp_imp (H (.hostnames (acc ++ [e])) t.pos 0 l0 u ⟨hu, by omega, ?_⟩) fun es v hv => L.up hv (by omega) (by omega)
      exact ha.snoc he hl h1 (by omega) h3 (by omega)

theorem nodeDefinition' (H : HS env self) (hi : In env b m s) : wp env (nodeDefinition self) (V env b m s) tt s := by
  have g1 := hi.lo; have g2 := hi.tsp; have g3 := hi.le; have g4 := hi.mle
  unfold nodeDefinition
  wpr
  refine H.tok' hi fun t ht j1 j2 j3 => ?_
  refine H.hostnames ht fun hs u q1 q2 q3 q4 q5 q6 => ?_
  split
  · wpr
    refine H.tok' q3 fun v hv k1 k2 k3 => ?_
    refine V.cps (hostname' H hv) fun p w n hp h1 h2 h3 h4 hw h5 h6 h7 => ?_
    refine braces' H hw fun blk x i1 i2 i3 i4 i5 i6 i7 i8 => ?_
    refine H.tok' i5 fun y hy r1 r2 r3 => ?_
    ddone hy
  · wpr
    refine braces' H q3 fun blk x i1 i2 i3 i4 i5 i6 i7 i8 => ?_
    refine H.tok' i5 fun y hy r1 r2 r3 => ?_
    ddone hy

theorem siteDefinition' (H : HS env self) (hi : In env b m s) : wp env (siteDefinition self) (V env b m s) tt s := by
  have g1 := hi.lo; have g2 := hi.tsp; have g3 := hi.le; have g4 := hi.mle
  unfold siteDefinition
  wpr
  refine H.tok' hi fun t ht j1 j2 j3 => ?_
  refine braces' H ht fun blk x i1 i2 i3 i4 i5 i6 i7 i8 => ?_
  refine H.tok' i5 fun y hy r1 r2 r3 => ?_
  ddone hy

theorem resourceDefinition' (H : HS env self) {a : Bool} (hi : In env b m s) : wp env (resourceDefinition self a) (V env b m s) tt s := by
  have g1 := hi.lo; have g2 := hi.tsp; have g3 := hi.le; have g4 := hi.mle
  unfold resourceDefinition
  wpr
  refine H.tok' hi fun t ht j1 j2 j3 => ?_
  refine className' H ht fun nm u hu k1 k2 k3 => ?_
  refine optParameterList' H hu fun ps x q1 q2 q3 q4 q5 q6 => ?_
  refine braces' H q3 fun blk x i1 i2 i3 i4 i5 i6 i7 i8 => ?_
  refine H.tok' i5 fun y hy r1 r2 r3 => ?_
  ddone hy

theorem classExpression' (H : HS env self) {start : Nat} (hi : In env b m s) (h : start ≤ b) :
    wp env (classExpression self start) (fun e t => InR env true e ∧ e.pos.off = start ∧ fin e = t.pos ∧ s.pos ≤ t.pos ∧ In env s.pos t.pos t) tt s := by
  have g1 := hi.lo; have g2 := hi.tsp; have g3 := hi.le; have g4 := hi.mle
  have rest : ∀ (nm parent : GoStr) (ps : List Expr) (t u : St), Lst env s.pos u.pos u.pos ps → In env s.pos t.pos t → u.pos ≤ t.pos → s.pos ≤ u.pos →
      wp env (do
        let body ← braces self
        nextTok self
        popName
        let qn ← qualifiedName nm
        let p ← here start
        addDefinition (.namedDef p (.hostClass parent) qn ps body))
      (fun e t => InR env true e ∧ e.pos.off = start ∧ fin e = t.pos ∧ s.pos ≤ t.pos ∧ In env s.pos t.pos t) tt t := by
    intro nm parent ps t u hps ht h1 h2
    wpr
    refine braces' H ht fun blk x i1 i2 i3 i4 i5 i6 i7 i8 => ?_
    refine H.tok' i5 fun y hy r1 r2 r3 => ?_
    refine ⟨?_, rfl, ?_, ?_, (In.addDef hy.popName ?_).mono ?_ (Nat.le_refl _)⟩
    · inr
    · pm
    · pm
    · inr
    · pm
  unfold classExpression
  wpr
  refine className' H hi fun cn t ht j1 j2 j3 => ?_
  refine optParameterList' H ht.names fun ps u q1 q2 q3 q4 q5 q6 => ?_
  have q2' : t.pos ≤ u.pos := q2
  split
  · wpr
    refine H.tok' q3 fun v hv k1 k2 k3 => ?_
    split
    · wpr
      refine H.tok' hv fun w hw l1 l2 l3 => ?_
      have := rest (trimPrefix b!"::" cn) b!"default" ps w u q1 (hw.mono (by omega) (Nat.le_refl _)) (by omega) (by omega)
      simpa only [wp_bind, wp_here, wp_popName, wp_qualifiedName, wp_addDefinition] using this
    · wpr
      refine className' H hv fun pn w hw l1 l2 l3 => ?_
      have := rest (trimPrefix b!"::" cn) pn ps w u q1 (hw.mono (by omega) (Nat.le_refl _)) (by omega) (by omega)
      simpa only [wp_bind, wp_here, wp_popName, wp_qualifiedName, wp_addDefinition] using this
  · wpr
    have := rest (trimPrefix b!"::" cn) [] ps u u q1 q3 (Nat.le_refl _) (by omega)
    simpa only [wp_bind, wp_here, wp_popName, wp_qualifiedName, wp_addDefinition] using this

theorem typeAliasBody' (H : HS env self) (HT : HT env self) (hi : In env b m s) : wp env (typeAliasBody self) (V env b m s) tt s := by
  have g1 := hi.lo; have g2 := hi.tsp; have g3 := hi.le; have g4 := hi.mle
  unfold typeAliasBody
  wpr
  refine wp_imp (wp_and (H .expression b m 0 s hi) (HT .expression s hi.noLit)) fun e t ⟨v, tg⟩ => ?_
  obtain ⟨he, h1, h3, h4, n, h5, h2, ht⟩ := v
  have h6 := ht.lo; have h7 := ht.tsp; have h8 := ht.le; have h9 := he.len
  have ho : InR env true (objectRef s.tsp) := .leaf (by unfold objectRef; pm) (by unfold objectRef; pm) rfl
  have ho1 : (objectRef s.tsp).pos.off = s.tsp := rfl
  have ho2 : fin (objectRef s.tsp) = s.tsp := by unfold objectRef; pm
  split
  · next q nm d _ =>
    have tg' := tg rfl
    have h10 := he.le
    wpr
    split
    · wpr
      refine H.expr ht fun x u n hx k1 k2 k3 k4 hu k5 k6 k7 => ?_
      split
      · next hp entries =>
        wpr
        split
        · wpr
          vdone hu
        · wpr
          have kl := hx.lo
          have kh := hx.hi rfl
          have hs : InR env true (.string q b!"parent") := .leaf h9 h10 rfl
          have hk : InR env true (.keyedEntry q (.string q b!"parent") (.qref q nm d)) := by inr
          have hh : InR env true (.hash ⟨s.tsp, (u.pos : Int) - s.tsp⟩ (.keyedEntry q (.string q b!"parent") (.qref q nm d) :: entries)) := by
            refine .node ?_ ?_ rfl ?_
            · pm
            · pm
            · simp only [Expr.kids, List.forall_mem_cons]
              refine ⟨⟨hk, by pm, fun _ => by pm⟩, fun k hk' => ⟨hx.kid hk' rfl, ?_, fun _ => ?_⟩⟩
              · have := kl k hk' rfl
                pm
              · have := kh k hk'
                pm
          vdone hu
      · exact trivial
    · vdone ht
  · next q es =>
    have tg' := tg rfl
    split
    · next x =>
      wpr
      have hx := he.kid (k := x) (by simp [Expr.kids]) rfl
      have k1 := he.lo x (by simp [Expr.kids]) rfl
      have k2 := he.hi rfl x (by simp [Expr.kids])
      vdone ht
    · vdone ht
  · next q es =>
    have tg' := tg rfl
    wpr
    vdone ht
  · vdone ht

theorem typeDefinitionBody' (H : HS env self) {start : Nat} {nm pa : GoStr} (hi : In env b m s) (h : start ≤ s.tsp) :
    wp env (typeDefinitionBody self start nm pa) (fun e t => InR env true e ∧ e.pos.off = start ∧ fin e = t.pos ∧ s.pos ≤ t.pos ∧ In env s.pos t.pos t) tt s := by
  have g1 := hi.lo; have g2 := hi.tsp; have g3 := hi.le; have g4 := hi.mle
  unfold typeDefinitionBody
  wpr
  refine H.tok' hi fun t ht j1 j2 j3 => ?_
  refine H.parse (b := s.pos) ht fun e u he j1 j2 j3 hu j4 j5 j6 => ?_
  refine H.tok' hu fun v hv k1 k2 k3 => ?_
  refine ⟨?_, rfl, ?_, ?_, (In.addDef hv ?_).mono ?_ (Nat.le_refl _)⟩
  · inr
  · pm
  · pm
  · inr
  · pm

theorem typeAliasOrDefinition' (H : HS env self) (HT : HT env self) (hi : In env b m s) : wp env (typeAliasOrDefinition self) (V env b m s) tt s := by
  have g1 := hi.lo; have g2 := hi.tsp; have g3 := hi.le; have g4 := hi.mle
  unfold typeAliasOrDefinition
  wpr
  refine parameterType'' H hi fun e t n he j1 j2 j3 j4 ht j5 j6 j7 => ?_
  split
  · split
    · wpr
      refine H.tok' ht fun u hu k1 k2 k3 => ?_
      refine V.cps (typeAliasBody' H HT hu) fun x v n hx q1 q2 q3 q4 hv q5 q6 q7 => ?_
      ddone hv
    · split
      · wpr
        refine H.tok' ht fun u hu k1 k2 k3 => ?_
        refine typeName' H hu (fun x v hx q1 q2 hv q3 q4 q5 => ?_) trivial
        split
        · wpr
          refine assertToken' ?_
          refine wp_imp (typeDefinitionBody' H hv (by omega)) fun y w ⟨r1, r2, r3, r4, r5⟩ => ?_
          vdone r5
        · exact trivial
        · exact trivial
      · split
        · refine wp_imp (typeDefinitionBody' H ht (by omega)) fun y w ⟨r1, r2, r3, r4, r5⟩ => ?_
          vdone r5
        · exact trivial
  · split
    · wpr
      refine H.tok' ht fun u hu k1 k2 k3 => ?_
      refine H.expr hu fun x v n hx q1 q2 q3 q4 hv q5 q6 q7 => ?_
      ddone hv
    · exact trivial
  · exact trivial

/-! ## Control structures -/

theorem caseOption' (H : HS env self) (hi : In env b s.pos s) : wp env (caseOption self) (V env b s.pos s) tt s := by
  have g1 := hi.lo; have g2 := hi.tsp; have g3 := hi.le
  unfold caseOption
  wpr
  refine H.exprs rfl hi fun vs u q1 q2 q3 q4 q5 q6 => ?_
  refine H.tok' q3 fun v hv k1 k2 k3 => ?_
  refine braces' H hv fun blk x i1 i2 i3 i4 i5 i6 i7 i8 => ?_
  refine H.tok' i5 fun y hy r1 r2 r3 => ?_
  have hn : InR env true (.caseOption ⟨s.tsp, (y.pos : Int) - s.tsp⟩ vs blk) := by
    refine .looseNode rfl ?_ ?_ ?_
    · pm
    · pm
    · simp only [Expr.kids, List.forall_mem_append, List.forall_mem_cons]
      refine ⟨fun k hk => ⟨q1.inr k hk, ?_⟩, ⟨i1, ?_⟩, fun _ h => nomatch h⟩
      · have := q1.hi k hk
        pm
      · pm
  vdone hy

theorem caseOptionsBody' (H : HS env self) {acc : List Expr} (hi : In env b s.pos s)
    (hl : l0 ≤ b) (ha : Lst env l0 b s.pos acc) : wp env (caseOptionsBody self acc) (L env l0 b s) tt s := by
  have g1 := hi.lo; have g2 := hi.tsp; have g3 := hi.le
  unfold caseOptionsBody
  wpr
  refine V.cps (caseOption' H hi) fun e t n he h1 h2 h3 h4 ht h5 h6 h7 => ?_
  split
  · exact ⟨ha.snoc he hl h1 (by omega) h3 h4, by omega, ht.mono (by omega) (Nat.le_refl _)⟩
  · refine wp_imp (H (.caseOptions (acc ++ [e])) n 0 l0 t ⟨ht, by omega, ?_⟩) fun es v hv => L.up hv (by omega) (by omega)
    exact ha.snoc he hl h1 (by omega) h3 (by omega)

theorem caseExpression' (H : HS env self) (hi : In env b m s) : wp env (caseExpression self) (V env b m s) tt s := by
  have g1 := hi.lo; have g2 := hi.tsp; have g3 := hi.le; have g4 := hi.mle
  unfold caseExpression
  wpr
  refine H.tok' hi fun t ht j1 j2 j3 => ?_
  refine H.expr ht fun x v n hx q1 q2 q3 q4 hv q5 q6 q7 => ?_
  refine assertToken' ?_
  refine H.tok' hv fun u hu k1 k2 k3 => ?_
  refine H.caseOptions hu fun os w r1 r2 r3 r4 r5 r6 => ?_
  refine H.tok' r3 fun y hy k1 k2 k3 => ?_
  vdone hy

theorem ifBody' (H : HS env self) {u : Bool} (hi : In env b m s) : wp env (ifBody self u) (V env b m s) tt s := by
  have g1 := hi.lo; have g2 := hi.tsp; have g3 := hi.le; have g4 := hi.mle
  unfold ifBody
  wpr
  refine H.tok' hi fun t ht j1 j2 j3 => ?_
  refine H.binary ht fun c v n hc q1 q2 q3 q4 hv q5 q6 q7 => ?_
  refine braces' H hv fun blk x i1 i2 i3 i4 i5 i6 i7 i8 => ?_
  refine H.tok' i5 fun y hy r1 r2 r3 => ?_
  split
  · wpr
    refine H.tok' hy fun z hz k1 k2 k3 => ?_
    refine braces' H hz fun blk2 x2 l1 l2 l3 l4 l5 l6 l7 l8 => ?_
    refine H.tok' l5 fun w hw r1 r2 r3 => ?_
    vdone hw
  · split
    · exact trivial
    · wpr
      refine H.ifE hy fun c2 v2 n hc q1 q2 q3 q4 hv q5 q6 q7 => ?_
      vdone hv
  · wpr
    have hn : InR env true (.nop ⟨y.tsp, 0⟩) := .leaf (by pm) (by pm) rfl
    vdone hy
end
end PP.Rg
