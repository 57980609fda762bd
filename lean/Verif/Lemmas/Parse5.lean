import Verif.Lemmas.Parse4

/-! # The functions of the parser: unary and primary expressions -/
namespace PP

section
variable {env : Env} {s t u : St} {self : Self} {m : Nat}

theorem setPos_pos (e : Expr) (p : Pos) : (e.setPos p).pos = p := by cases e <;> rfl
theorem setPos_isName (e : Expr) (p : Pos) : (e.setPos p).isName = e.isName := by cases e <;> rfl

/-- A number after a sign. -/
theorem wp_signed (H : HSelf env self m) (hm : B env s + 14 < m) (h : Inv env s)
    (ht : s.tok = .integer ∨ s.tok = .float) {start : Nat} (hst : start ≤ env.text.length + 1)
    (hsg : ReadsAt env.text start b!"-" ∨ ReadsAt env.text start b!"+") :
    wp env (do
      let e ← self .primary
      let p ← here start
      pure (e.setPos p)) (fun e u => Mv env s u ∧ Val env u.defs e ∧ e.isName = false) (EOK env) s := by
  wpr
  refine wp_imp (H .primary s h (by show B env s + 14 < _; omega)) ?_
  intro e t1 h1
  change PPost env s e t1 at h1
  refine ⟨h1.mv, ⟨h1.val.1.setPos h1.bin (h1.num ht) hsg hst, endHere (setPos_pos _ _) h1.mv.inv.pos⟩, ?_⟩
  rw [setPos_isName]
  cases hq : e.isName with
  | false => rfl
  | true =>
    have := h1.num ht
    cases e <;> first
      | cases hq; done
      | cases this

theorem Inv.num (h : Inv env s) {v : TokVal} (hv : ValOK env s.defs s.tsp s.tok v)
    (ht : s.tok = .integer ∨ s.tok = .float) : Inv env { s with tok := s.tok, val := v } :=
  ⟨⟨h.pos, h.tsp, h.nls, h.nls2, h.defs⟩, hv, h.fin, by
    show SpeltAt env s.tsp s.tok v
    rcases ht with ht | ht <;> rw [ht] <;> exact True.intro⟩

theorem wp_unaryBody (H : HSelf env self (M env .unary s)) (h : Pre env .unary s) :
    wp env (unaryBody self) (Post env .unary s) (EOK env) s := by
  change Inv env s at h
  change HSelf env self (B env s + 16) at H
  have hres : ∀ (f : Form) (hne : s.tok ≠ .end_) (hsf : ∀ x, StartsForm env.text ⟨s.tsp, 0⟩ f x), wp env (do
      nextTok self
      let e ← self .primary
      assertToken .lc
      self (.resourceExpr s.tsp e f)) (VPost env s) (EOK env) s := by
    intro f hne hsf
    rw [wp_bind]
    refine wp_imp (H.first (by omega) h hne) ?_
    rintro _ t1 ⟨h1, g1⟩
    rw [wp_bind]
    refine wp_imp (H.value (by omega) h1.lt (n := .primary) (.inr (.inr (.inr (.inl rfl))))) ?_
    rintro e t2 ⟨h2, g2, n2⟩
    have b2 := h2.B
    rw [wp_bind]
    refine wp_assert h2.inv fun ht => ?_
    refine wp_imp (H (.resourceExpr s.tsp e f) t2 ⟨h2.inv, ht, h.tsp, n2, hsf e⟩ (by show B env t2 + 5 < _; omega)) ?_
    rintro e3 t3 ⟨h3, n3, q3⟩
    exact ⟨h2.trans h3, n3, fun hx => by rw [q3] at hx; cases hx⟩
  have hun : ∀ (k : UnKind) (hk : k = .not ∨ k = .unfold) (hne : s.tok ≠ .end_) (hsy : ReadsAt env.text s.tsp k.symbol), wp env (do
      nextTok self
      let e ← self .unary
      let p ← here s.tsp
      pure (.un p k e)) (VPost env s) (EOK env) s := by
    intro k hk hne hsy
    wpr
    refine wp_imp (H.first (by omega) h hne) ?_
    rintro _ t1 ⟨h1, g1⟩
    refine wp_imp (H.value (by omega) h1.lt (n := .unary) (.inr (.inr (.inl rfl)))) ?_
    rintro e t2 ⟨h2, g2, n2⟩
    refine ⟨h2, ⟨.un h.tsp hsy ?_ n2.1, endHere rfl h2.inv.pos⟩, fun hx => nomatch hx⟩
    rcases hk with rfl | rfl <;> simp
  unfold unaryBody
  rw [wp_bind, wp_getS]
  dsimp only
  split
  · next ht =>
    have hne : s.tok ≠ .end_ := by rw [ht]; decide
    rw [wp_bind]
    refine wp_peek (fun c n hs => ?_) h.pos
    dsimp only
    refine ite_wp (fun hd => ?_) fun hd => ?_
    · rw [wp_bind]
      refine wp_imp (wp_nextTok H h.toBase (by omega)) ?_
      intro _ t1 h1
      have hdig := h1.digit c n hs hd
      have hmv := h1.mv h.toBase hne
      have b1 := hmv.B
      rw [wp_bind, wp_getS]
      have key : ∀ v, ValOK env t1.defs t1.tsp t1.tok v → wp env (do
          let e ← self .primary
          let p ← here s.tsp
          pure (e.setPos p)) (VPost env s) (EOK env) { t1 with tok := t1.tok, val := v } := by
        intro v hv
        have hmv' : Mv env s { t1 with tok := t1.tok, val := v } := ⟨⟨hmv.adv.names, hmv.adv.defs, hmv.adv.r⟩, hmv.inv.num hv hdig, hmv.bk, hmv.phi⟩
        have b1' := hmv'.B
        refine wp_imp (wp_signed H (by omega) hmv'.inv hdig h.tsp (.inl (h.here ht))) ?_
        rintro e t2 ⟨h2, n2, q2⟩
        exact ⟨hmv'.trans h2, n2, fun hx => by rw [q2] at hx; cases hx⟩
      refine ite_wp (fun hi => ?_) fun hi => ?_
      · have hv := h1.inv.tok
        rw [hi] at hv
        obtain ⟨i, hv⟩ := hv
        rw [hv]
        dsimp only
        rw [wp_bind, wp_setTokenValue]
        refine key _ ?_
        rw [hi]; exact ⟨_, rfl⟩
      · have hf := hdig.resolve_left hi
        have hv := h1.inv.tok
        rw [hf] at hv
        obtain ⟨i, hv⟩ := hv
        rw [hv]
        dsimp only
        rw [wp_bind, wp_setTokenValue]
        refine key _ ?_
        rw [hf]; exact ⟨_, rfl⟩
    · wpr
      refine wp_imp (H.first (by omega) h hne) ?_
      rintro _ t1 ⟨h1, g1⟩
      refine wp_imp (H.value (by omega) h1.lt (n := .primary) (.inr (.inr (.inr (.inl rfl))))) ?_
      rintro e t2 ⟨h2, g2, n2⟩
      exact ⟨h2, ⟨.un h.tsp (h.here ht) (by simp) n2.1, endHere rfl h2.inv.pos⟩, fun hx => nomatch hx⟩
  · next ht =>
    have hne : s.tok ≠ .end_ := by rw [ht]; decide
    rw [wp_bind]
    refine wp_peek (fun c n hs => ?_) h.pos
    dsimp only
    refine ite_wp (fun hd => ?_) fun hd => ?_
    · rw [wp_bind]
      refine wp_imp (wp_nextTok H h.toBase (by omega)) ?_
      intro _ t1 h1
      have hdig := h1.digit c n hs hd
      have hmv := h1.mv h.toBase hne
      have b1 := hmv.B
      refine wp_imp (wp_signed H (by omega) hmv.inv hdig h.tsp (.inr (h.here ht))) ?_
      rintro e t2 ⟨h2, n2, q2⟩
      exact ⟨hmv.trans h2, n2, fun hx => by rw [q2] at hx; cases hx⟩
    · wpr; exact h.pos
  · next ht => exact hun .not (.inl rfl) (by rw [ht]; decide) (h.here ht)
  · next ht => exact hun .unfold (.inr rfl) (by rw [ht]; decide) (h.here ht)
  · next ht => exact hres .virtual (by rw [ht]; decide) fun _ => h.here ht
  · next ht => exact hres .exported (by rw [ht]; decide) fun _ => h.here ht
  · refine wp_imp (H .primary s h (by show B env s + 14 < _; omega)) ?_
    exact fun e u hu => hu.toVPost

theorem wp_collectExpression (H : HSelf env self m) (hm : B env s + 2 < m) (h : Inv env s) {e : Expr}
    (he : Prim env s.defs e) (hc : s.tok = .lcollect ∨ s.tok = .llcollect) :
    wp env (collectExpression self e) (After env s s (fun D x => CallV env D x ∧ innermost x = innermost e)) (EOK env) s := by
  have hne : s.tok ≠ .end_ := by rcases hc with hc | hc <;> rw [hc] <;> decide
  have hsy : ReadsAt env.text s.tsp (if (!(decide (s.tok = .lcollect))) = true then b!"<<|" else b!"<|") := by
    rcases hc with hc | hc
    · rw [if_neg (by simp [hc])]; exact h.here hc
    · rw [if_pos (by simp [hc])]; exact h.here hc
  -- after the query
  have rest : ∀ (t : St) (q : Expr) (vi : Prop) [Decidable vi], Lt env s t →
      (∀ p, okPos env p → p.off = s.tsp → Node env t.defs .query (.query p (!(decide vi)) q)) →
      wp env (do
        nextTok self
        let p ← here s.tsp
        let query := Expr.query p (!(decide vi)) q
        let t ← curTok
        let ops ← if t ≠ .lc then pure []
          else do
            nextTok self
            let ops ← self (.attrOps [])
            assertToken .rc
            nextTok self
            pure ops
        let p ← here e.off
        pure (.collect p e query ops)) (After env s s (fun D x => CallV env D x ∧ innermost x = innermost e)) (EOK env) t := by
    intro t q vi _ h1 hq
    rw [wp_bind]
    refine wp_imp (H.next (by omega) h1) ?_
    rintro _ t2 ⟨h2, g2⟩
    rw [wp_bind, wp_here]
    dsimp only
    rw [wp_bind, wp_curTok]
    refine ite_wp (fun ht => ?_) fun ht => ?_
    · rw [wp_bind, wp_pure]
      wpr
      refine ⟨h2, h2.adv.mem, ⟨⟨.collect he.okPos (.inl rfl) (he.mono h2.adv.mem) ((hq ⟨s.tsp, (t2.pos : Int) - s.tsp⟩ h.tsp rfl).mono g2) (by intro o ho; cases ho),
        endHere rfl h2.inv.pos⟩, rfl, rfl, rfl⟩, rfl⟩
    · wpr
      refine wp_imp (H.next (by omega) h2.lt) ?_
      rintro _ t3 ⟨h3, g3⟩
      refine wp_imp (H.attrs (by omega) h3.lt) ?_
      rintro ops t4 ⟨h4, g4, n4⟩
      refine wp_assert h4.inv fun _ => ?_
      refine wp_imp (H.next (by omega) h4) ?_
      rintro _ t5 ⟨h5, g5⟩
      refine ⟨h5, h5.adv.mem, ⟨⟨.collect he.okPos (.inl rfl) (he.mono h5.adv.mem) ((hq ⟨s.tsp, (t2.pos : Int) - s.tsp⟩ h.tsp rfl).mono fun d hd => g5 d (g4 d (g3 d (g2 d hd))))
        (fun o ho => (n4 o ho).mono g5), endHere rfl h5.inv.pos⟩, rfl, rfl, rfl⟩, rfl⟩
  unfold collectExpression
  rw [wp_bind, wp_getS]
  dsimp only
  rw [wp_bind]
  refine wp_imp (H.first hm h hne) ?_
  rintro _ t1 ⟨h1, g1⟩
  rw [wp_bind, wp_getS]
  refine ite_wp (fun ht => ?_) fun ht => ?_
  · rw [wp_bind, wp_pure]
    refine rest t1 _ (s.tok = .lcollect) h1.lt ?_
    intro p hp hps
    refine .queryNop hp (by rw [Stt, Starts, hps]; exact hsy) ?_
    split
    · exact h1.inv.tsp
    · exact h.tsp
  · rw [wp_bind]
    refine wp_imp (H.expr (by omega) h1.lt) ?_
    rintro q t2 ⟨h2, g2, n2⟩
    rw [wp_bind]
    refine wp_assert h2.inv fun _ => ?_
    rw [wp_bind, wp_pure]
    exact rest t2 q (s.tok = .lcollect) h2.lt fun p hp hps => .query hp (by rw [Stt, Starts, hps]; exact hsy) n2.1

theorem wp_primaryBody (H : HSelf env self (M env .primary s)) (h : Pre env .primary s) :
    wp env (primaryBody self) (Post env .primary s) (EOK env) s := by
  change Inv env s at h
  change HSelf env self (B env s + 14) at H
  unfold primaryBody
  rw [wp_bind]
  refine wp_imp (H .atom s h (by show B env s + 10 < _; omega)) ?_
  intro e t1 h1
  change PPost env s e t1 at h1
  have b1 := h1.mv.B
  refine wp_imp (H (.primLoop e) t1 ⟨h1.mv.inv, h1.val.prim, h1.val.2, fun hx => by rw [h1.bin] at hx; cases hx⟩
    (by show B env t1 + 5 < _; omega)) ?_
  rintro e2 t2 ⟨h2, hb, hd⟩
  exact ⟨⟨h1.mv.trans_ml h2.ml, h2.val, h2.name h1.qn⟩, hb, fun ht => by rw [hd]; exact h1.num ht⟩

theorem isStatementCall_node {e : Expr} {D : List Expr} (h : Prim env D e) (hs : isStatementCall e = true) :
    Node env D .value e := by
  cases h with
  | operand h => exact h
  | rawAccess => cases hs

theorem wp_primLoopBody (e : Expr) (H : HSelf env self (M env (.primLoop e) s)) (hpre : Pre env (.primLoop e) s) :
    wp env (primLoopBody self e) (Post env (.primLoop e) s) (EOK env) s := by
  obtain ⟨h, he, hend, hbin⟩ := hpre
  change HSelf env self (B env s + 5) at H
  -- one more round with a new expression
  have go : ∀ (t : St) (e1 : Expr), Mv env s t → Prim env t.defs e1 → endOk env e1 → e1.isName = false →
      innermost e1 = innermost e → (e1.isBin = true → ∃ p l r, e1 = .bin p .namedAccess l r) →
      wp env (self (.primLoop e1)) (Post env (.primLoop e) s) (EOK env) t := by
    intro t e1 h1 n1 d1 q1 f1 b1
    have := h1.B
    refine wp_imp (H (.primLoop e1) t ⟨h1.inv, n1, d1, b1⟩ (by show B env t + 5 < _; omega)) ?_
    rintro e2 t2 ⟨h2, hb2, hd2⟩
    refine ⟨⟨.inr (h1.trans_ml h2.ml), h2.val, fun hx => ?_⟩, hb2, hd2.trans f1⟩
    have := h2.qn hx
    rw [this, q1] at hx; cases hx
  have hcall : s.tok = .lp ∨ s.tok = .pipe → wp env (do
      let e ← callFunctionExpression self e
      self (.primLoop e)) (Post env (.primLoop e) s) (EOK env) s := by
    intro ht
    rw [wp_bind]
    refine wp_imp (wp_callFunction H (by omega) h ht he hend) ?_
    rintro e1 t1 ⟨h1, g1, ⟨n1, b1, q1, -⟩, d1⟩
    exact go t1 e1 h1 n1.prim n1.2 q1 d1 fun hx => by rw [b1] at hx; cases hx
  have hcol : s.tok = .lcollect ∨ s.tok = .llcollect → wp env (do
      let e ← collectExpression self e
      self (.primLoop e)) (Post env (.primLoop e) s) (EOK env) s := by
    intro ht
    rw [wp_bind]
    refine wp_imp (wp_collectExpression H (by omega) h he ht) ?_
    rintro e1 t1 ⟨h1, g1, ⟨n1, b1, q1, -⟩, d1⟩
    exact go t1 e1 h1 n1.prim n1.2 q1 d1 fun hx => by rw [b1] at hx; cases hx
  unfold primLoopBody
  rw [wp_bind, wp_curTok]
  split
  · next ht => exact hcall (.inl ht)
  · next ht => exact hcall (.inr ht)
  · next ht => exact hcol (by simp [ht])
  · next ht => exact hcol (by simp [ht])
  · next ht =>
    rw [wp_bind]
    refine wp_imp (H.first (by omega) h (by rw [ht]; decide)) ?_
    rintro _ t1 ⟨h1, g1⟩
    rw [wp_bind]
    refine wp_imp (wp_arrayExpression H (by omega) h1.lt) ?_
    rintro es t2 ⟨h2, g2, -, n2⟩
    rw [wp_bind, wp_here]
    dsimp only
    rw [wp_bind]
    refine wp_imp (H.next (by omega) h2) ?_
    rintro _ t3 ⟨h3, g3⟩
    have hk := fun k hk => (n2 k hk).mono g3
    cases hs : isStatementCall e with
    | true =>
      rw [if_pos rfl]
      refine go t3 _ h3 (.operand (.call he.okPos (.inl (.inl rfl)) ((isStatementCall_node he hs).mono h3.adv.mem) ?_ (fun l hl => nomatch hl)))
        (endHere rfl h2.inv.pos) rfl rfl (fun hx => nomatch hx)
      intro a ha
      rw [List.mem_singleton] at ha
      subst ha
      exact .list he.okPos hk
    | false =>
      rw [if_neg (by simp)]
      exact go t3 _ h3 (.operand (.access he.okPos (.inl rfl) (he.mono h3.adv.mem) hk))
        (endHere rfl h2.inv.pos) rfl rfl (fun hx => nomatch hx)
  · next ht =>
    rw [wp_bind]
    refine wp_imp (H.first (by omega) h (by rw [ht]; decide)) ?_
    rintro _ t1 ⟨h1, g1⟩
    have fin : ∀ (t : St) (r : Expr), Mv env s t → Node env t.defs .value r → wp env (do
        let p ← here e.off
        self (.primLoop (.bin p .namedAccess e r))) (Post env (.primLoop e) s) (EOK env) t := by
      intro t r h2 n2
      rw [wp_bind, wp_here]
      exact go t _ h2 (.rawAccess he.okPos (he.mono h2.adv.mem) n2) (endHere rfl h2.inv.pos) rfl rfl fun _ => ⟨_, _, _, rfl⟩
    rw [wp_bind, wp_getS]
    refine ite_wp (fun hk => ?_) fun hk => ?_
    · rw [wp_bind]
      refine wp_imp (h1.inv.str (by rw [hk]; decide)) ?_
      rintro n _ rfl
      rw [wp_bind, wp_here, wp_bind]
      refine wp_imp (H.next (by omega) h1.lt) ?_
      rintro _ t2 ⟨h2, g2⟩
      rw [wp_bind, wp_pure]
      exact fin t2 _ h2 (.qname h1.inv.tsp)
    · rw [wp_bind]
      refine wp_imp (H.value (by omega) h1.lt (n := .atom) (.inr (.inr (.inr (.inr (.inl rfl)))))) ?_
      rintro r t2 ⟨h2, g2, n2⟩
      exact fin t2 r h2 n2.1
  · cases he with
    | operand hv =>
      have hnb : e.isBin = false := by
        cases hb : e.isBin with
        | false => rfl
        | true =>
          obtain ⟨p, l, r, rfl⟩ := hbin hb
          cases hv; rename_i hk _ _ _ _; exact absurd rfl hk
      split
      · cases hnb
      · exact wp_pure.mpr ⟨⟨.inl rfl, ⟨hv, hend⟩, fun _ => rfl⟩, hnb, rfl⟩
    | rawAccess hp hl hr =>
      dsimp only
      refine wp_pure.mpr ⟨⟨.inl rfl, ⟨node_convertLhsToCall hp hp rfl hl hr (by intro a ha; cases ha) (fun l hl => nomatch hl), hend⟩, fun hx => nomatch hx⟩, rfl, innermost_convertLhs _⟩

end
end PP
