import Verif.Lemmas.Parse3

/-! # The functions of the parser: operators and primary expressions -/
namespace PP

section
variable {env : Env} {s t u : St} {self : Self} {m : Nat}

theorem wp_expressionBody (H : HSelf env self (M env .expression s)) (h : Pre env .expression s) :
    wp env (expressionBody self) (Post env .expression s) (EOK env) s := by
  change Inv env s at h
  change HSelf env self (B env s + 28) at H
  unfold expressionBody
  rw [wp_bind]
  refine wp_imp (H (.binary .or) s h (by show B env s + 26 < _; omega)) ?_
  intro e t1 h1
  change VPost env s e t1 at h1
  have b1 := h1.mv.B
  rw [wp_bind]
  refine wp_imp (H (.selLoop e) t1 ⟨h1.mv.inv, h1.val⟩ (by show B env t1 + 5 < _; omega)) ?_
  intro e' t2 h2
  change LPost env t1 e e' t2 at h2
  have h12 := h1.mv.trans_ml h2.ml
  have hq := h2.name h1.qn
  rw [wp_bind, wp_curTok]
  refine ite_wp (fun ht => ?_) fun ht => ?_
  · rw [wp_bind]
    refine wp_imp (h12.inv.op (by rcases ht with ht | ht <;> rw [ht] <;> decide)) ?_
    rintro n _ ⟨rfl, hop⟩
    have hop : n = b!"produces" ∨ n = b!"consumes" := by
      rcases ht with ht | ht <;> rw [ht] at hop <;> simp [hop rfl, Tok.str]
    refine ite_wp (fun hc => ?_) fun hc => ?_
    · have b2 := h12.B
      refine wp_imp (wp_capabilityMapping H (by omega) h12.inv n h2.val.1 (by rcases ht with ht | ht <;> rw [ht] <;> decide) hop) ?_
      rintro e3 t3 ⟨h3, g3, n3, q3⟩
      exact ⟨h12.trans h3, n3, fun hx => by rw [q3] at hx; cases hx⟩
    · exact wp_pure.mpr ⟨h12, h2.val, hq⟩
  · exact wp_pure.mpr ⟨h12, h2.val, hq⟩

theorem wp_selectorsExpression (H : HSelf env self m) (hm : B env s + 2 < m) (h : Inv env s) {e : Expr}
    (he : Val env s.defs e) (hne : s.tok ≠ .end_) :
    wp env (selectorsExpression self e) (After env s s (fun D e => Val env D e ∧ e.isName = false)) (EOK env) s := by
  unfold selectorsExpression
  wpr
  refine wp_imp (H.first hm h hne) ?_
  rintro _ t1 ⟨h1, g1⟩
  have b1 := h1.B
  refine ite_wp (fun ht => ?_) fun ht => ?_
  · wpr
    refine wp_imp (H.next (by omega) h1.lt) ?_
    rintro _ t2 ⟨h2, g2⟩
    refine wp_imp (H.exprs (by omega) h2.lt .rc .selectorEntry) ?_
    rintro es t3 ⟨h3, g3, -, n3⟩
    refine wp_imp (H.next (by omega) h3) ?_
    rintro _ t4 ⟨h4, g4⟩
    exact ⟨h4, h4.adv.mem, ⟨.selector he.1.off_le rfl (he.1.mono h4.adv.mem) fun x hx => Node.mono (n3 x hx) g4,
      endHere rfl h3.inv.pos⟩, rfl⟩
  · wpr
    refine wp_imp (wp_selectorEntry H (by omega) h1.inv) ?_
    rintro x t2 ⟨h2, g2, n2⟩
    have h12 := h1.trans h2
    refine ⟨h12, h12.adv.mem, ⟨.selector he.1.off_le rfl (he.1.mono h12.adv.mem) ?_, endHere rfl h2.inv.pos⟩, rfl⟩
    intro y hy; rw [List.mem_singleton] at hy; subst hy; exact n2

theorem wp_selLoopBody (e : Expr) (H : HSelf env self (M env (.selLoop e) s)) (hpre : Pre env (.selLoop e) s) :
    wp env (selLoopBody self e) (Post env (.selLoop e) s) (EOK env) s := by
  obtain ⟨h, he⟩ := hpre
  change HSelf env self (B env s + 5) at H
  unfold selLoopBody
  rw [wp_bind, wp_curTok]
  refine ite_wp (fun ht => ?_) fun ht => ?_
  · rw [wp_bind]
    refine wp_imp (wp_selectorsExpression H (by omega) h he (by rw [ht]; decide)) ?_
    rintro e1 t1 ⟨h1, g1, n1, q1⟩
    have b1 := h1.B
    refine wp_imp (H (.selLoop e1) t1 ⟨h1.inv, n1⟩ (by show B env t1 + 5 < _; omega)) ?_
    intro e2 t2 h2
    change LPost env t1 e1 e2 t2 at h2
    refine ⟨.inr (h1.trans_ml h2.ml), h2.val, fun hx => ?_⟩
    have := h2.qn hx
    rw [this, q1] at hx; cases hx
  · exact wp_pure.mpr ⟨.inl rfl, he, fun _ => rfl⟩

theorem wp_resource (H : HSelf env self m) (hm : B env s + 28 < m) (h : Inv env s) :
    wp env (resource self) (VPost env s) (EOK env) s := by
  unfold resource
  rw [wp_bind]
  refine wp_imp (H .expression s h (by show B env s + 28 < _; omega)) ?_
  intro e t1 h1
  change VPost env s e t1 at h1
  have b1 := h1.mv.B
  rw [wp_bind, wp_curTok]
  refine ite_wp (fun ht => ?_) fun ht => ?_
  · refine wp_imp (H (.resourceExpr e.off e .regular) t1 ⟨h1.mv.inv, ht, h1.val.1.off_le, h1.val, rfl⟩ (by show B env t1 + 5 < _; omega)) ?_
    rintro e2 t2 ⟨h2, n2, q2⟩
    exact ⟨h1.mv.trans h2, n2, fun hx => by rw [q2] at hx; cases hx⟩
  · exact wp_pure.mpr h1

theorem wp_assignLoopBody (e : Expr) (H : HSelf env self (M env (.assignLoop e) s)) (hpre : Pre env (.assignLoop e) s) :
    wp env (assignLoopBody self e) (Post env (.assignLoop e) s) (EOK env) s := by
  obtain ⟨h, he⟩ := hpre
  change HSelf env self (B env s + 5) at H
  unfold assignLoopBody
  rw [wp_bind, wp_curTok]
  refine ite_wp (fun ht => ?_) fun ht => ?_
  · rw [wp_bind]
    refine wp_imp (h.op (by rcases ht with ht | ht | ht <;> rw [ht] <;> decide)) ?_
    rintro op _ ⟨rfl, hop⟩
    have hop : ∃ o, (o, BinKind.assignment op) ∈ Spec.operators := by
      rcases ht with ht | ht | ht <;> rw [ht] at hop <;> rw [hop rfl]
      · exact ⟨b!"=", by decide⟩
      · exact ⟨b!"+=", by decide⟩
      · exact ⟨b!"-=", by decide⟩
    rw [wp_bind]
    refine wp_imp (H.first (by omega) h (by rcases ht with ht | ht | ht <;> rw [ht] <;> decide)) ?_
    rintro _ t1 ⟨h1, g1⟩
    rw [wp_bind]
    refine wp_imp (H.value (by omega) h1.lt (n := .assignment) (.inr (.inl rfl))) ?_
    rintro r t2 ⟨h2, g2, n2⟩
    rw [wp_bind, wp_here]
    have b2 := h2.B
    have hv : Val env t2.defs (.bin ⟨e.off, (t2.pos : Int) - e.off⟩ (.assignment op) e r) :=
      ⟨.bin he.1.off_le (by simp) (fun _ => rfl) (he.1.mono h2.adv.mem) n2.1 hop, endHere rfl h2.inv.pos⟩
    refine wp_imp (H (.assignLoop _) t2 ⟨h2.inv, hv⟩ (by show B env t2 + 5 < _; omega)) ?_
    intro e3 t3 h3
    change LPost env t2 _ e3 t3 at h3
    refine ⟨.inr (h2.trans_ml h3.ml), h3.val, fun hx => ?_⟩
    have := h3.qn hx
    rw [this] at hx; cases hx
  · exact wp_pure.mpr ⟨.inl rfl, he, fun _ => rfl⟩

theorem wp_operand (H : HSelf env self m) (l : Lvl) (hm : B env s + l.rank ≤ m) (h : Inv env s) :
    wp env (operand self l) (VPost env s) (EOK env) s := by
  cases l
  · exact H .assignment s h (by change B env s + 32 ≤ m at hm; show B env s + 30 < _; omega)
  · exact H (.binary _) s h (by change B env s + 26 ≤ m at hm; show B env s + 25 < _; omega)
  · exact H (.binary _) s h (by change B env s + 25 ≤ m at hm; show B env s + 24 < _; omega)
  · exact H (.binary _) s h (by change B env s + 24 ≤ m at hm; show B env s + 23 < _; omega)
  · exact H (.binary _) s h (by change B env s + 23 ≤ m at hm; show B env s + 22 < _; omega)
  · exact H (.binary _) s h (by change B env s + 22 ≤ m at hm; show B env s + 21 < _; omega)
  · exact H (.binary _) s h (by change B env s + 21 ≤ m at hm; show B env s + 20 < _; omega)
  · exact H (.binary _) s h (by change B env s + 20 ≤ m at hm; show B env s + 19 < _; omega)
  · exact H (.binary _) s h (by change B env s + 19 ≤ m at hm; show B env s + 18 < _; omega)
  · exact H .unary s h (by change B env s + 18 ≤ m at hm; show B env s + 16 < _; omega)

theorem wp_binaryBody (l : Lvl) (H : HSelf env self (M env (.binary l) s)) (h : Pre env (.binary l) s) :
    wp env (binaryBody self l) (Post env (.binary l) s) (EOK env) s := by
  change Inv env s at h
  change HSelf env self (B env s + l.rank) at H
  unfold binaryBody
  rw [wp_bind]
  refine wp_imp (wp_operand H l (Nat.le_refl _) h) ?_
  intro e t1 h1
  have b1 := h1.mv.B
  refine wp_imp (H (.binLoop l e) t1 ⟨h1.mv.inv, h1.val⟩ (by show B env t1 + 5 < _; omega)) ?_
  intro e2 t2 h2
  change LPost env t1 e e2 t2 at h2
  exact ⟨h1.mv.trans_ml h2.ml, h2.val, h2.name h1.qn⟩

theorem Lvl.isOp_ok {l : Lvl} {k : Tok} (h : l.isOp k = true) : k.hasStr = true ∧ k ≠ .end_ := by
  cases l <;> cases k <;> first | exact ⟨rfl, by decide⟩ | (exact absurd h (by decide))

theorem Lvl.kind_ne (l : Lvl) (op : GoStr) : l.kind op ≠ .namedAccess := by
  cases l <;> (intro h; cases h)

theorem Lvl.known {l : Lvl} {k : Tok} (h : l.isOp k = true) {op : GoStr} (ho : k.fixed = true → op = k.str) :
    ∃ o, (o, l.kind op) ∈ Spec.operators := by
  refine ⟨k.str, ?_⟩
  cases l <;> cases k <;> first
    | exact absurd h (by decide)
    | (rw [ho rfl]; decide)
    | (show (b!"or", BinKind.or) ∈ _; decide)
    | (show (b!"and", BinKind.and) ∈ _; decide)
    | (show (b!"in", BinKind.in) ∈ _; decide)

theorem wp_binLoopBody (l : Lvl) (e : Expr) (H : HSelf env self (M env (.binLoop l e) s))
    (hpre : Pre env (.binLoop l e) s) :
    wp env (binLoopBody self l e) (Post env (.binLoop l e) s) (EOK env) s := by
  obtain ⟨h, he⟩ := hpre
  change HSelf env self (B env s + 5) at H
  unfold binLoopBody
  rw [wp_bind, wp_curTok]
  refine ite_wp (fun ht => ?_) fun ht => ?_
  · obtain ⟨k1, k2⟩ := Lvl.isOp_ok ht
    rw [wp_bind]
    refine wp_imp (h.op k1) ?_
    rintro op _ ⟨rfl, hop⟩
    have hop := Lvl.known ht hop
    rw [wp_bind]
    refine wp_imp (H.first (by omega) h k2) ?_
    rintro _ t1 ⟨h1, g1⟩
    have b1 := h1.B
    rw [wp_bind]
    have hr : l.rank ≤ 32 := by cases l <;> decide
    refine wp_imp (wp_operand H l (by omega) h1.inv) ?_
    intro r t2 h2
    have h12 := h1.trans h2.mv
    rw [wp_bind, wp_here]
    have b2 := h12.B
    have hv : Val env t2.defs (.bin ⟨e.off, (t2.pos : Int) - e.off⟩ (l.kind op) e r) :=
      ⟨.bin he.1.off_le (l.kind_ne op) (fun _ => rfl) (he.1.mono h12.adv.mem) h2.val.1 hop, endHere rfl h12.inv.pos⟩
    refine wp_imp (H (.binLoop l _) t2 ⟨h12.inv, hv⟩ (by show B env t2 + 5 < _; omega)) ?_
    intro e3 t3 h3
    change LPost env t2 _ e3 t3 at h3
    refine ⟨.inr (h12.trans_ml h3.ml), h3.val, fun hx => ?_⟩
    have := h3.qn hx
    rw [this] at hx; cases hx
  · exact wp_pure.mpr ⟨.inl rfl, he, fun _ => rfl⟩

end
end PP
