import Verif.Lemmas.Range9

/-! # Byte ranges of nodes: primary expressions and definitions -/
namespace PP.Rg
open PP

section
variable {env : Env} {s t : St} {b m l0 : Nat} {self : Self} {e : Expr} {Q : Expr → St → Prop}

theorem collectExpression' (H : HS env self) (hi : In env b s.pos s) (he : InR env true e) (h1 : e.pos.off ≤ b) (h2 : fin e ≤ s.pos) :
    wp env (collectExpression self e) (W env b s e) tt s := by
  have g1 := hi.lo; have g2 := hi.tsp; have g3 := hi.le; have g4 := he.len
  have rest : ∀ (t : St) (q : Expr) (v : Bool), In env s.tsp t.pos t → s.pos ≤ t.pos → InR env true q → s.tsp ≤ q.pos.off → fin q ≤ t.pos →
      wp env (do
        nextTok self
        let p ← here s.tsp
        let query := Expr.query p v q
        let t ← curTok
        let ops ← if t ≠ .lc then pure []
          else do
            nextTok self
            let ops ← self (.attrOps [])
            assertToken .rc
            nextTok self
            pure ops
        let p ← here e.off
        pure (.collect p e query ops)) (W env b s e) tt t := by
    intro t q v ht k0 hq k1 k2
    wpr
    refine H.tok' ht fun u hu j1 j2 j3 => ?_
    have hn : InR env true (.query ⟨s.tsp, (u.pos : Int) - s.tsp⟩ v q) := by inr
    split
    · wpr
      refine ⟨?_, rfl, ?_, ?_, ?_, hu.mono ?_ (Nat.le_refl _)⟩
      · inr
      all_goals pm
    · wpr
      refine H.tok' hu fun w hw k1 k2 k3 => ?_
      refine H.attrOps hw fun ops x q1 q2 q3 q4 q5 q6 => ?_
      refine assertToken' ?_
      refine H.tok' q3 fun y hy r1 r2 r3 => ?_
      refine ⟨?_, rfl, ?_, ?_, ?_, hy.mono ?_ (Nat.le_refl _)⟩
      · inr
      all_goals pm
  unfold collectExpression
  wpr
  refine H.tok' hi fun t ht j1 j2 j3 => ?_
  have hn : ∀ c : Bool, InR env true (.nop (if c = true then ⟨t.tsp, 0⟩ else ⟨s.tsp, (t.tsp : Int) - s.tsp⟩)) ∧
      s.tsp ≤ (Expr.nop (if c = true then ⟨t.tsp, 0⟩ else ⟨s.tsp, (t.tsp : Int) - s.tsp⟩)).pos.off ∧
      fin (Expr.nop (if c = true then ⟨t.tsp, 0⟩ else ⟨s.tsp, (t.tsp : Int) - s.tsp⟩)) ≤ t.pos := by
    intro c
    cases c
    all_goals (refine ⟨.leaf ?_ ?_ rfl, ?_, ?_⟩ <;> simp only [pos_nop, fin, if_true, Bool.false_eq_true, if_false] <;> omega)
  generalize (if s.tok = Tok.lcollect then Tok.rcollect else Tok.rrcollect) = close
  split
  · have := rest t _ (!decide (s.tok = .lcollect)) (ht.mono (by omega) (Nat.le_refl _)) (by omega) (hn (decide (s.tok = .lcollect))).1 (hn (decide (s.tok = .lcollect))).2.1 (hn (decide (s.tok = .lcollect))).2.2
    wpr
    simpa only [wp_bind, wp_here, wp_pure, wp_curTok, decide_eq_true_eq] using this
  · wpr
    refine H.expr ht fun q u n hq k1 k2 k3 k4 hu k5 k6 k7 => ?_
    refine assertToken' ?_
    have := rest u q (!decide (s.tok = .lcollect)) (hu.mono (by omega) (Nat.le_refl _)) (by omega) hq (by omega) k4
    simpa only [wp_bind, wp_here, wp_pure, wp_curTok] using this

theorem primaryBody' (H : HS env self) (hi : In env b m s) : wp env (primaryBody self) (V env b m s) tt s := by
  unfold primaryBody
  wpr
  refine H.atom hi fun e t n he h1 h2 h3 h4 ht h5 h6 h7 => ?_
  refine W.cps (H (.primLoop e) n 0 0 t ⟨ht, he, h2, h4⟩) fun x u hx k1 k2 k3 k4 hu k5 k6 k7 => ?_
  vdone hu

theorem primLoopBody' (H : HS env self) (hi : In env b s.pos s) (he : InR env true e) (h1 : e.pos.off ≤ b) (h2 : fin e ≤ s.pos) :
    wp env (primLoopBody self e) (W env b s e) tt s := by
  have g1 := hi.lo; have g2 := hi.tsp; have g3 := hi.le; have g4 := he.len
  have again : ∀ (x : Expr) (u : St), InR env true x → x.pos.off = e.pos.off → fin e ≤ fin x → fin x ≤ u.pos → s.pos ≤ u.pos →
      In env b u.pos u → wp env (self (.primLoop x)) (W env b s e) tt u := by
    intro x u hx k1 k2 k3 k4 hu
    exact wp_imp (H (.primLoop x) b 0 0 u ⟨hu, hx, by omega, k3⟩) fun y v hv => W.up hv (Nat.le_refl _) k4 k1 k2
  unfold primLoopBody
  wpr
  split
  · wpr
    exact W.cps (callFunctionExpression' H e hi he h1 h2) fun x u hx k1 k2 k3 k4 hu k5 k6 k7 => again x u hx k1 k2 k3 k4 hu
  · wpr
    exact W.cps (callFunctionExpression' H e hi he h1 h2) fun x u hx k1 k2 k3 k4 hu k5 k6 k7 => again x u hx k1 k2 k3 k4 hu
  · wpr
    exact W.cps (collectExpression' H hi he h1 h2) fun x u hx k1 k2 k3 k4 hu k5 k6 k7 => again x u hx k1 k2 k3 k4 hu
  · wpr
    exact W.cps (collectExpression' H hi he h1 h2) fun x u hx k1 k2 k3 k4 hu k5 k6 k7 => again x u hx k1 k2 k3 k4 hu
  · wpr
    refine H.tok' hi fun t ht j1 j2 j3 => ?_
    refine arrayExpression' H ht fun es u k1 k2 k3 k4 k5 k6 => ?_
    refine H.tok' k3 fun v hv q1 q2 q3 => ?_
    have hl : InR env true (.list ⟨e.off, (u.pos : Int) - e.off⟩ es) := by inr
    refine again _ v ?_ ?_ ?_ ?_ ?_ (hv.mono ?_ (Nat.le_refl _))
    · split <;> inr
    · split <;> rfl
    · split <;> pm
    · split <;> pm
    all_goals pm
  · wpr
    refine H.tok' hi fun t ht j1 j2 j3 => ?_
    split
    · wpr
      refine tokenString' fun v => ?_
      refine H.tok' ht fun u hu k1 k2 k3 => ?_
      have hq : InR env true (.qname ⟨t.tsp, (t.pos : Int) - t.tsp⟩ v) := by inr
      refine again _ u ?_ rfl ?_ ?_ ?_ (hu.mono ?_ (Nat.le_refl _))
      · inr
      all_goals pm
    · wpr
      refine H.atom ht fun r u n hr k1 k2 k3 k4 hu k5 k6 k7 => ?_
      refine again _ u ?_ rfl ?_ ?_ ?_ (hu.mono ?_ (Nat.le_refl _))
      · inr
      all_goals pm
  · split
    · next p l r =>
      refine ⟨?_, rfl, ?_, ?_, Nat.le_refl _, hi⟩
      · refine convertLhsToCall_inr (lo := p.off) (lo' := p.off) (b := 0) (hi := 0) (hi' := 0) he .nil .none rfl (Nat.le_refl _) (Nat.le_refl _) (Int.le_refl _) (.inl rfl) (.inl rfl) ?_
        pm
      · exact Int.le_refl _
      · exact h2
    · exact ⟨he, rfl, Int.le_refl _, h2, Nat.le_refl _, hi⟩

/-! ## Definitions -/

/-- Close the post condition of a definition. -/
macro "ddone" h:term : tactic => `(tactic| (
  refine ⟨?_, ?_, ?_, ?_, ?_⟩ <;> first
    | (exact ⟨_, by pm, by pm, In.addDef $h (by inr)⟩)
    | inr
    | pm))

theorem In.popName (h : In env b m s) : In env b m { s with names := s.names.dropLast } := h.names

theorem functionDefinition' (H : HS env self) {plan : Bool} (hi : In env b m s) : wp env (functionDefinition self plan) (V env b m s) tt s := by
  have g1 := hi.lo; have g2 := hi.tsp; have g3 := hi.le; have g4 := hi.mle
  unfold functionDefinition
  wpr
  refine H.tok' hi fun t ht j1 j2 j3 => ?_
  split
  · exact trivial
  wpr
  refine tokenString' fun v => ?_
  refine H.tok' ht fun u hu k1 k2 k3 => ?_
  split
  · wpr
    refine optParameterList' H hu.names fun ps x q1 q2 q3 q4 q5 q6 => ?_
    refine optReturnType' H q3 fun o y r1 r2 r3 r4 r5 r6 => ?_
    refine braces' H r3 fun blk w i1 i2 i3 i4 i5 i6 i7 i8 => ?_
    refine H.tok' i5 fun z hz l1 l2 l3 => ?_
    ddone hz.popName
  · wpr
    refine optParameterList' H hu fun ps x q1 q2 q3 q4 q5 q6 => ?_
    refine optReturnType' H q3 fun o y r1 r2 r3 r4 r5 r6 => ?_
    refine braces' H r3 fun blk w i1 i2 i3 i4 i5 i6 i7 i8 => ?_
    refine H.tok' i5 fun z hz l1 l2 l3 => ?_
    ddone hz
end
end PP.Rg
