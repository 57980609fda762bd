import Verif.Lemmas.Parse6

/-! # The functions of the parser: types, control structures and atoms -/
namespace PP

section
variable {env : Env} {s t u : St} {self : Self} {m : Nat}

theorem node_objectRef {D : List Expr} {start : Nat} (h : start ≤ env.text.length + 1) : Node env D .value (objectRef start) :=
  Node.qref (n := b!"Object") h (.inr (.inl rfl))

theorem wp_typeAliasBody (H : HSelf env self m) (hm : B env s ≤ m) (h : Lt env s t) (hty : b!"type" <:+: env.text) :
    wp env (typeAliasBody self) (After env s t (fun D e => Node env D .value e)) (EOK env) t := by
  have hst := h.inv.tsp
  unfold typeAliasBody
  rw [wp_bind, wp_tokStart, wp_bind]
  have hB := h.B
  refine wp_imp (H .expression t h.inv (by show B env t + 28 < m; omega)) ?_
  intro body t1 hv1
  change VPost env t body t1 at hv1
  have h1 := h.trans_mv hv1.mv
  have g1 := hv1.mv.adv.mem
  have n1 := hv1.val
  have one : ∀ (D : List Expr) (e : Expr) (p : Pos), Node env D .value e → okPos env p → p.off = t.tsp → Node env D .value (.access p (objectRef t.tsp) [e]) := by
    intro D e p he hp hps
    refine .access hp (.inl hps) (.operand (node_objectRef hst)) ?_
    intro k hk; rw [List.mem_singleton] at hk; subst hk; exact he
  split
  · next q n d =>
    rw [wp_bind, wp_curTok]
    refine ite_wp (fun ht => ?_) fun ht => ?_
    · rw [wp_bind]
      refine wp_imp (H.expr hm h1.lt) ?_
      rintro hsh t2 ⟨h2, g2, n2⟩
      have n1' := n1.1.mono g2
      have g12 : ∀ d ∈ t.defs, d ∈ t2.defs := fun d hd => g2 d (g1 d hd)
      split
      · next hp es =>
        rw [wp_bind, wp_here]
        refine ite_wp (fun hn => ?_) fun hn => ?_
        · refine wp_pure.mpr ⟨h2, g12, .access hst (.inl (hv1.qn rfl).2.symm) (.operand n1') ?_⟩
          intro k hk; rw [List.mem_singleton] at hk; subst hk; exact n2.1
        · refine wp_pure.mpr ⟨h2, g12, one _ _ _ ?_ hst rfl⟩
          have n2' := n2.1
          cases n2' with
          | hash h3 h4 =>
            refine .hash hst ?_
            intro e he
            rcases List.mem_cons.1 he with rfl | he
            · exact .keyedEntry n1'.okPos (fun _ => rfl) (.string n1'.okPos) n1'
            · exact h4 e he
      · rw [wp_crash]; exact .inr (.inl ⟨rfl, hty⟩)
    · exact wp_pure.mpr ⟨h1, g1, n1.1⟩
  · next q es =>
    split
    · next e =>
      rw [wp_bind, wp_here]
      refine wp_pure.mpr ⟨h1, g1, one _ _ _ ?_ hst rfl⟩
      have n1' := n1.1
      cases n1' with
      | list h3 h4 => exact h4 e (by simp)
    · exact wp_pure.mpr ⟨h1, g1, n1.1⟩
  · rw [wp_bind, wp_here]
    exact wp_pure.mpr ⟨h1, g1, one _ _ _ n1.1 hst rfl⟩
  · exact wp_pure.mpr ⟨h1, g1, n1.1⟩

theorem wp_typeDefinitionBody (H : HSelf env self m) (hm : B env s ≤ m) (h : Lt env s t) {start : Nat}
    (hst : start ≤ env.text.length + 1) (name parent : GoStr) :
    wp env (typeDefinitionBody self start name parent) (After env s s (DefV env)) (EOK env) t := by
  unfold typeDefinitionBody
  rw [wp_bind]
  refine wp_imp (H.next hm h) ?_
  rintro _ t1 ⟨h1, g1⟩
  rw [wp_bind]
  refine wp_imp (H.block hm h1.lt .rc) ?_
  rintro b t2 ⟨h2, g2, -, n2⟩
  rw [wp_bind]
  refine wp_imp (H.next hm h2) ?_
  rintro _ t3 ⟨h3, g3⟩
  exact wp_define (mk := fun p => .typeDefinition p name parent b) h3 hst (fun _ => rfl) (fun _ => rfl) (fun _ => rfl) (fun _ => rfl)
    fun p D hp _ hD hmem => .typeDefinition hp (n2.mono fun d hd => hD d (g3 d hd)) hmem

theorem wp_typeAliasOrDefinition (H : HSelf env self m) (hm : B env s + 2 < m) (h : Inv env s) (hty : b!"type" <:+: env.text) :
    wp env (typeAliasOrDefinition self) (After env s s (DefV env)) (EOK env) s := by
  unfold typeAliasOrDefinition
  rw [wp_bind, wp_tokStart, wp_bind]
  refine wp_imp (wp_parameterType H hm h) ?_
  rintro te t1 ⟨h1, g1, n1, -⟩
  have b1 := h1.B
  rw [wp_bind, wp_curTok]
  split
  · refine ite_wp (fun ht => ?_) fun ht => ?_
    · rw [wp_bind]
      refine wp_imp (H.next (by omega) h1.lt) ?_
      rintro _ t2 ⟨h2, g2⟩
      rw [wp_bind]
      refine wp_imp (wp_typeAliasBody H (by omega) h2.lt hty) ?_
      rintro b t3 ⟨h3, g3, n3⟩
      exact wp_define (mk := fun p => .typeAlias p _ b) h3 h.tsp (fun _ => rfl) (fun _ => rfl) (fun _ => rfl) (fun _ => rfl)
        fun p D hp _ hD hmem => .typeAlias hp (n3.mono hD) hmem
    refine ite_wp (fun ht => ?_) fun ht => ?_
    · rw [wp_bind]
      refine wp_imp (H.next (by omega) h1.lt) ?_
      rintro _ t2 ⟨h2, g2⟩
      have b2 := h2.B
      rw [wp_bind]
      refine wp_imp (wp_typeName H (by omega) h2.inv) ?_
      rintro i t3 ⟨h3, h4⟩
      cases i with
      | none => have := h3 rfl; subst this; wpr; exact h2.inv.pos
      | some e =>
        obtain ⟨h5, p, n, rfl, -, h6⟩ := h4 e rfl
        dsimp only
        rw [wp_bind]
        refine wp_assert h5.inv fun _ => ?_
        exact wp_typeDefinitionBody H (by omega) (h2.trans h5).lt h.tsp _ _
    refine ite_wp (fun ht => ?_) fun ht => ?_
    · exact wp_typeDefinitionBody H (by omega) h1.lt h.tsp _ _
    · wpr; exact h1.inv.pos
  · refine ite_wp (fun ht => ?_) fun ht => ?_
    · rw [wp_bind]
      refine wp_imp (H.next (by omega) h1.lt) ?_
      rintro _ t2 ⟨h2, g2⟩
      rw [wp_bind]
      refine wp_imp (H.expr (by omega) h2.lt) ?_
      rintro b t3 ⟨h3, g3, n3⟩
      exact wp_define (mk := fun p => .typeMapping p _ b) h3 h.tsp (fun _ => rfl) (fun _ => rfl) (fun _ => rfl) (fun _ => rfl)
        fun p D hp _ hD hmem => .typeMapping hp (n1.1.mono fun d hd => hD d (g3 d (g2 d hd))) (n3.1.mono hD) hmem
    · wpr; exact h1.inv.pos
  · wpr; exact h1.inv.pos

theorem wp_caseOption (H : HSelf env self m) (hm : B env s + 40 < m) (h : Inv env s) :
    wp env (caseOption self) (After env s s (fun D e => Node env D .option e)) (EOK env) s := by
  unfold caseOption
  rw [wp_bind, wp_tokStart, wp_bind]
  refine wp_imp (H (.exprs .colon .expression []) s ⟨h, by intro e he; cases he⟩ (by show B env s + 40 < m; omega)) ?_
  rintro es t1 ⟨h1, h2, h3⟩
  have b1 := h1.B
  rw [wp_bind]
  refine wp_imp (wp_nextTok H h1.inv.toBase (by omega)) ?_
  intro _ t2 h4
  have h5 := h1.trans_mv (h4.mv h1.inv.toBase (by rw [h2]; decide))
  refine wp_bracesNext H (by omega) h5.lt fun b t3 h6 g6 n6 => ?_
  wpr
  exact ⟨h6, h6.adv.mem, .caseOption h.tsp (fun v hv => Node.mono (h3 v hv) fun d hd => g6 d (h4.adv.mem d hd)) n6⟩

theorem wp_caseOptionsBody (acc : List Expr) (H : HSelf env self (M env (.caseOptions acc) s))
    (hpre : Pre env (.caseOptions acc) s) :
    wp env (caseOptionsBody self acc) (Post env (.caseOptions acc) s) (EOK env) s := by
  obtain ⟨h, hacc⟩ := hpre
  change HSelf env self (B env s + 41) at H
  unfold caseOptionsBody
  rw [wp_bind]
  refine wp_imp (wp_caseOption H (by omega) h) ?_
  rintro e t1 ⟨h1, g1, n1⟩
  have ha := (hacc.mono g1).snoc n1
  rw [wp_bind, wp_curTok]
  refine ite_wp (fun ht => ?_) fun ht => ?_
  · exact wp_pure.mpr ⟨h1.le, ht, ha⟩
  · have b1 := h1.B
    refine wp_imp (H (.caseOptions (acc ++ [e])) t1 ⟨h1.inv, ha⟩ (by show B env t1 + 41 < _; omega)) ?_
    exact fun es u hu => ⟨h1.trans_le hu.1, hu.2⟩

theorem wp_caseExpression (H : HSelf env self m) (hm : B env s + 2 < m) (h : Inv env s) (hw : s.tok = .kCase) :
    wp env (caseExpression self) (After env s s (CallV env)) (EOK env) s := by
  unfold caseExpression
  rw [wp_bind, wp_tokStart, wp_bind]
  refine wp_imp (H.first hm h (by rw [hw]; decide)) ?_
  rintro _ t1 ⟨h1, g1⟩
  rw [wp_bind]
  refine wp_imp (H.expr (by omega) h1.lt) ?_
  rintro e t2 ⟨h2, g2, n2⟩
  rw [wp_bind]
  refine wp_assert h2.inv fun _ => ?_
  rw [wp_bind]
  refine wp_imp (H.next (by omega) h2.lt) ?_
  rintro _ t3 ⟨h3, g3⟩
  have b3 := h3.B
  rw [wp_bind]
  refine wp_imp (H (.caseOptions []) t3 ⟨h3.inv, AllN.nil⟩ (by show B env t3 + 41 < _; omega)) ?_
  rintro os t4 ⟨h4, -, n4⟩
  have h4' := h3.lt.trans_le h4
  wpr
  refine wp_imp (H.next (by omega) h4') ?_
  rintro _ t5 ⟨h5, g5⟩
  exact ⟨h5, h5.adv.mem, ⟨.caseE h.tsp (h.here hw) (n2.1.mono fun d hd => g5 d (h4.adv.mem d (g3 d hd))) (n4.mono g5), endHere rfl h4'.inv.pos⟩, rfl, rfl, rfl⟩

theorem wp_ifBody (un : Bool) (H : HSelf env self (M env (.ifExpr un) s)) (hpre : Pre env (.ifExpr un) s) :
    wp env (ifBody self un) (Post env (.ifExpr un) s) (EOK env) s := by
  obtain ⟨h, hne, hw⟩ := hpre
  have hsp : Stt env (.ifE ⟨s.tsp, 0⟩ un (.nop ⟨0, 0⟩) (.nop ⟨0, 0⟩) (.nop ⟨0, 0⟩)) := by
    cases un
    · have hw : s.tok = .kIf ∨ s.tok = .kElsif := hw
      rcases hw with hw | hw
      · exact .inl (h.here hw)
      · exact .inr (h.here hw)
    · exact h.here hw
  change HSelf env self (B env s + 9) at H
  unfold ifBody
  rw [wp_bind, wp_tokStart, wp_bind]
  refine wp_imp (H.first (by omega) h hne) ?_
  rintro _ t1 ⟨h1, g1⟩
  rw [wp_bind]
  refine wp_imp (H.value (by omega) h1.lt (n := .binary .or) (.inr (.inr (.inr (.inr (.inr ⟨_, rfl⟩)))))) ?_
  rintro c t2 ⟨h2, g2, n2⟩
  refine wp_bracesNext H (by omega) h2.lt fun b t3 h3 g3 n3 => ?_
  have fin : ∀ (t : St) (e : Expr), Mv env s t → (∀ d ∈ t3.defs, d ∈ t.defs) → Node env t.defs .else_ e → wp env (do
      let p ← here s.tsp
      pure (.ifE p un c b e)) (Post env (.ifExpr un) s) (EOK env) t := by
    intro t e h4 g4 n4
    wpr
    exact ⟨h4, ⟨.ifE h.tsp hsp (n2.1.mono fun d hd => g4 d (g3 d hd)) (n3.mono g4) n4, endHere rfl h4.inv.pos⟩, rfl, rfl, rfl, _, _, _, _, rfl⟩
  rw [wp_bind, wp_getS]
  split
  · rw [wp_bind]
    refine wp_imp (H.next (by omega) h3.lt) ?_
    rintro _ t4 ⟨h4, g4⟩
    refine wp_bracesNext H (by omega) h4.lt fun b2 t5 h5 g5 n5 => ?_
    rw [wp_bind, wp_pure]
    exact fin t5 b2 h5 (fun d hd => g5 d (g4 d hd)) (.elseBlock n5)
  · next ht =>
    refine ite_wp (fun hu => ?_) fun hu => ?_
    · rw [wp_bind]; exact h3.inv.pos
    · rw [wp_bind]
      have b3 := h3.B
      refine wp_imp (H (.ifExpr false) t3 ⟨h3.inv, by rw [ht]; decide, .inr ht⟩ (by show B env t3 + 9 < _; omega)) ?_
      rintro _ t4 ⟨h4, n4, -, -, -, _, _, _, _, rfl⟩
      exact fin t4 _ (h3.trans h4) h4.adv.mem (.elseIf n4.1)
  · rw [wp_bind, wp_pure]
    exact fin t3 _ h3 (fun _ h => h) (.elseNop h3.inv.tsp)

theorem After.ppost {e : Expr} (h : After env s s (DefV env) e u) (ht : s.tok ≠ .integer) (hf : s.tok ≠ .float) : PPost env s e u :=
  ⟨⟨h.1, h.2.2.1, fun hx => by rw [h.2.2.2.2] at hx; cases hx⟩, h.2.2.2.1, fun hx => by rcases hx with hx | hx <;> contradiction⟩

theorem notNum {P : Prop} {k : Tok} (ht : s.tok = k) (hk : k ≠ .integer ∧ k ≠ .float := by decide)
    (hx : s.tok = .integer ∨ s.tok = .float) : P := by
  rw [ht] at hx
  rcases hx with hx | hx
  · exact absurd hx hk.1
  · exact absurd hx hk.2

theorem wp_atomBody (H : HSelf env self (M env .atom s)) (h : Pre env .atom s) :
    wp env (atomBody self) (Post env .atom s) (EOK env) s := by
  change Inv env s at h
  change HSelf env self (B env s + 10) at H
  have hstr : ∀ {k : Tok}, s.tok = k → k.hasStr = true → wp env tokenString (fun _ s' => s' = s) (EOK env) s :=
    fun hk hs => h.str (by rw [hk]; exact hs)
  -- a node made of the current token
  have lf : ∀ {k : Tok} (e : Expr), s.tok = k → k ≠ .end_ → Val env s.defs e → e.isBin = false →
      ((s.tok = .integer ∨ s.tok = .float) → isNumberLit (innermost e) = true) →
      (e.isName = true → (e.isQName = true → rTok s.tok = 0) ∧ e.off = s.tsp) → wp env (leaf self e) (PPost env s) (EOK env) s := by
    intro k e hk hne hv hb hd hq
    unfold leaf
    wpr
    refine wp_imp (H.first (by omega) h (by rw [hk]; exact hne)) ?_
    rintro _ t1 ⟨h1, g1⟩
    exact ⟨⟨h1, hv.mono g1, hq⟩, hb, hd⟩
  have endTp : ∀ {e : Expr}, e.pos = ⟨s.tsp, (s.pos : Int) - s.tsp⟩ → endOk env e := fun he => endHere he h.pos
  have hpar : s.tok = .lp ∨ s.tok = .wslp → wp env (do
      nextTok self
      let e ← relationship self
      let p ← here s.tsp
      assertToken .rp
      nextTok self
      pure (.un p .paren e)) (PPost env s) (EOK env) s := by
    intro ht
    have hsy : ReadsAt env.text s.tsp b!"(" := by rcases ht with ht | ht <;> exact h.here ht
    have hnn : ¬ (s.tok = .integer ∨ s.tok = .float) := by rcases ht with ht | ht <;> rw [ht] <;> decide
    wpr
    refine wp_imp (H.first (by omega) h (by rcases ht with ht | ht <;> rw [ht] <;> decide)) ?_
    rintro _ t1 ⟨h1, g1⟩
    refine wp_imp (H.rel (by omega) h1.lt) ?_
    rintro e t2 ⟨h2, g2, n2⟩
    refine wp_assert h2.inv fun _ => ?_
    refine wp_imp (H.next (by omega) h2.lt) ?_
    rintro _ t3 ⟨h3, g3⟩
    exact ⟨⟨h3, ⟨.un h.tsp hsy (by simp) (n2.1.mono g3), endHere rfl h2.inv.pos⟩, fun hx => nomatch hx⟩, rfl, fun hx => absurd hx hnn⟩
  have hlist : s.tok ≠ .end_ → ¬ (s.tok = .integer ∨ s.tok = .float) → wp env (do
      nextTok self
      let es ← arrayExpression self
      let p ← here s.tsp
      nextTok self
      pure (.list p es)) (PPost env s) (EOK env) s := by
    intro hne hnn
    wpr
    refine wp_imp (H.first (by omega) h hne) ?_
    rintro _ t1 ⟨h1, g1⟩
    refine wp_imp (wp_arrayExpression H (by omega) h1.lt) ?_
    rintro es t2 ⟨h2, g2, -, n2⟩
    refine wp_imp (H.next (by omega) h2) ?_
    rintro _ t3 ⟨h3, g3⟩
    exact ⟨⟨h3, ⟨.list h.tsp fun e he => (n2 e he).mono g3, endHere rfl h2.inv.pos⟩, fun hx => nomatch hx⟩, rfl, fun hx => absurd hx hnn⟩
  have hres : s.tok = .kAttr ∨ s.tok = .kPrivate → wp env (do
      let v ← tokenString
      leaf self (.reserved ⟨s.tsp, (s.pos : Int) - s.tsp⟩ v false)) (PPost env s) (EOK env) s := by
    intro ht
    rw [wp_bind]
    refine wp_imp (h.word (.inr ht)) ?_
    rintro v _ ⟨rfl, hw⟩
    exact lf _ rfl (by rcases ht with ht | ht <;> rw [ht] <;> decide) ⟨.reserved h.tsp hw, endTp rfl⟩ rfl
      (fun hx => by rcases ht with ht | ht <;> exact notNum ht (by decide) hx) (fun hx => nomatch hx)
  have hex : s.tok = .heredoc ∨ s.tok = .concatenatedString → wp env (match s.val with
      | .expr e => leaf self e
      | _ => crash .valueAssertion) (PPost env s) (EOK env) s := by
    intro ht
    have hv : ∃ e, s.val = .expr e ∧ Val env s.defs e ∧ e.isBin = false ∧ e.isDefinition = false ∧ e.isName = false := by
      have hv := h.tok
      rcases ht with ht | ht <;> rw [ht] at hv <;> exact hv
    obtain ⟨e, h1, h2, h3, h4, h5⟩ := hv
    rw [h1]
    exact lf (k := s.tok) _ rfl (by rcases ht with ht | ht <;> rw [ht] <;> decide) h2 h3
      (fun hx => by rcases ht with ht | ht <;> exact notNum ht (by decide) hx) (fun hx => by rw [h5] at hx; cases hx)
  have hif : ∀ un, (if un then s.tok = .kUnless else s.tok = .kIf) → wp env (self (.ifExpr un)) (PPost env s) (EOK env) s := by
    intro un ht
    have ht2 : (s.tok = .kIf ∨ s.tok = .kUnless) ∧ if un then s.tok = .kUnless else s.tok = .kIf ∨ s.tok = .kElsif := by
      cases un
      · exact ⟨.inl ht, .inl ht⟩
      · exact ⟨.inr ht, ht⟩
    refine wp_imp (H (.ifExpr un) s ⟨h, by rcases ht2.1 with ht | ht <;> rw [ht] <;> decide, ht2.2⟩ (by show B env s + 9 < _; omega)) ?_
    rintro e u ⟨h1, h2, h3, h4, h5⟩
    exact ⟨⟨h1, h2, fun hx => by rw [h4] at hx; cases hx⟩, h3, fun hx => by rcases ht2.1 with ht | ht <;> exact notNum ht (by decide) hx⟩
  unfold atomBody
  rw [wp_bind, wp_getS]
  dsimp only
  split
  · next ht => exact hpar (by simp [ht])
  · next ht => exact hpar (by simp [ht])
  · next ht => exact hlist (by rw [ht]; decide) (by rw [ht]; decide)
  · next ht => exact hlist (by rw [ht]; decide) (by rw [ht]; decide)
  · next ht =>
    wpr
    refine wp_imp (H.first (by omega) h (by rw [ht]; decide)) ?_
    rintro _ t1 ⟨h1, g1⟩
    refine wp_imp (H.exprs (by omega) h1.lt .rc .keyedEntry) ?_
    rintro es t2 ⟨h2, g2, -, n2⟩
    refine wp_imp (H.next (by omega) h2) ?_
    rintro _ t3 ⟨h3, g3⟩
    exact ⟨⟨h3, ⟨.hash h.tsp fun e he => Node.mono (n2 e he) g3, endHere rfl h2.inv.pos⟩, fun hx => nomatch hx⟩, rfl, notNum ht⟩
  · next ht =>
    have hv := h.tok; rw [ht] at hv; obtain ⟨i, hv⟩ := hv; rw [hv]
    have hb := h.here ht i hv
    exact lf _ ht (by decide) ⟨.boolean h.tsp hb, endTp rfl⟩ rfl (notNum ht) (fun hx => nomatch hx)
  · next ht =>
    have hv := h.tok; rw [ht] at hv; obtain ⟨i, hv⟩ := hv; rw [hv]
    exact lf _ ht (by decide) ⟨.integer h.tsp, endTp rfl⟩ rfl (fun _ => rfl) (fun hx => nomatch hx)
  · next ht =>
    have hv := h.tok; rw [ht] at hv; obtain ⟨i, hv⟩ := hv; rw [hv]
    exact lf _ ht (by decide) ⟨.float h.tsp, endTp rfl⟩ rfl (fun _ => rfl) (fun hx => nomatch hx)
  · next ht =>
    rw [wp_bind]
    refine wp_imp (hstr ht rfl) ?_
    rintro v _ rfl
    exact lf _ ht (by decide) ⟨.string h.tsp, endTp rfl⟩ rfl (notNum ht) (fun hx => nomatch hx)
  · next ht => exact hres (.inl ht)
  · next ht => exact hres (.inr ht)
  · next ht => exact lf _ ht (by decide) ⟨.dflt h.tsp (h.here ht), endTp rfl⟩ rfl (notNum ht) (fun hx => nomatch hx)
  · next ht => exact hex (.inl ht)
  · next ht => exact hex (.inr ht)
  · next ht =>
    rw [wp_bind]
    refine wp_imp (hstr ht rfl) ?_
    rintro v _ rfl
    exact lf _ ht (by decide) ⟨.regexp h.tsp, endTp rfl⟩ rfl (notNum ht) (fun hx => nomatch hx)
  · next ht => exact lf _ ht (by decide) ⟨.undef h.tsp, endTp rfl⟩ rfl (notNum ht) (fun hx => nomatch hx)
  · next ht =>
    rw [wp_bind]
    refine wp_imp (h.word (.inl ht)) ?_
    rintro v _ ⟨rfl, hw⟩
    exact lf _ ht (by decide) ⟨.qref h.tsp (.inl hw), endTp rfl⟩ rfl (notNum ht) (fun _ => ⟨fun hx => (nomatch hx), rfl⟩)
  · next ht =>
    rw [wp_bind]
    refine wp_imp (hstr ht rfl) ?_
    rintro v _ rfl
    exact lf _ ht (by decide) ⟨.qname h.tsp, endTp rfl⟩ rfl (notNum ht) (fun _ => ⟨fun _ => by rw [ht]; rfl, rfl⟩)
  · next ht =>
    have hv := h.tok
    rw [ht] at hv
    obtain ⟨hlt, hv⟩ := hv
    have hst : s.tsp + 1 ≤ env.text.length + 1 := by omega
    wpr
    refine wp_imp (H.first (by omega) h (by rw [ht]; decide)) ?_
    rintro _ t1 ⟨h1, g1⟩
    rcases hv with ⟨w, hv⟩ | ⟨i, hv⟩
    · rw [hv]
      exact wp_pure.mpr ⟨⟨h1, ⟨.namedVar h.tsp hst, endHere rfl h1.inv.pos⟩, fun hx => nomatch hx⟩, rfl, notNum ht⟩
    · rw [hv]
      exact wp_pure.mpr ⟨⟨h1, ⟨.numVar h.tsp hst, endHere rfl h1.inv.pos⟩, fun hx => nomatch hx⟩, rfl, notNum ht⟩
  · next ht =>
    refine wp_imp (wp_caseExpression H (by omega) h ht) ?_
    rintro e u ⟨h1, g1, n1, b1, q1, d1⟩
    exact ⟨⟨h1, n1, fun hx => by rw [q1] at hx; cases hx⟩, b1, notNum ht⟩
  · next ht => exact hif false ht
  · next ht => exact hif true ht
  · next ht =>
    rw [wp_bind]
    refine wp_imp (hstr ht rfl) ?_
    rintro v _ rfl
    rw [wp_bind]
    refine wp_imp (H.first (by omega) h (by rw [ht]; decide)) ?_
    rintro _ t1 ⟨h1, g1⟩
    rw [wp_bind, wp_curTok]
    refine ite_wp (fun hl => ?_) fun hl => ?_
    · wpr
      exact ⟨⟨h1, ⟨.qname h.tsp, endHere rfl h1.inv.pos⟩, fun _ => ⟨fun _ => by rw [ht]; rfl, rfl⟩⟩, rfl, notNum ht⟩
    · have b1 := h1.B
      refine wp_imp (wp_classExpression H (by omega) h1.inv h.tsp (h.here ht)) ?_
      rintro e u ⟨h2, g2, n2⟩
      exact After.ppost ⟨h1.trans h2, fun d hd => g2 d (g1 d hd), n2⟩ (by rw [ht]; decide) (by rw [ht]; decide)
  · next ht =>
    rw [wp_bind]
    refine wp_imp (hstr ht rfl) ?_
    rintro v _ rfl
    rw [wp_bind]
    refine wp_imp (H.first (by omega) h (by rw [ht]; decide)) ?_
    rintro _ t1 ⟨h1, g1⟩
    rw [wp_bind, wp_curTok]
    refine ite_wp (fun hl => ?_) fun hl => ?_
    · have b1 := h1.B
      have hv := h.tok
      rw [ht] at hv
      refine wp_imp (wp_typeAliasOrDefinition H (by omega) h1.inv hv.2) ?_
      rintro e u ⟨h2, g2, n2⟩
      exact After.ppost ⟨h1.trans h2, fun d hd => g2 d (g1 d hd), n2⟩ (by rw [ht]; decide) (by rw [ht]; decide)
    · wpr
      exact ⟨⟨h1, ⟨.qname h.tsp, endHere rfl h1.inv.pos⟩, fun _ => ⟨fun _ => by rw [ht]; rfl, rfl⟩⟩, rfl, notNum ht⟩
  · next ht =>
    have hv := h.tok
    rw [ht] at hv
    refine wp_imp (wp_functionDefinition H (by omega) h true ht fun _ => hv.1) ?_
    rintro e u ⟨h1, g1, n1, -⟩
    exact After.ppost ⟨h1, g1, n1⟩ (by rw [ht]; decide) (by rw [ht]; decide)
  · next ht =>
    refine wp_imp (wp_functionDefinition H (by omega) h false ht fun hx => nomatch hx) ?_
    rintro e u ⟨h1, g1, n1, -⟩
    exact After.ppost ⟨h1, g1, n1⟩ (by rw [ht]; decide) (by rw [ht]; decide)
  · next ht =>
    exact wp_imp (wp_nodeDefinition H (by omega) h ht) fun e u hu => hu.ppost (by rw [ht]; decide) (by rw [ht]; decide)
  · next ht =>
    exact wp_imp (wp_resourceDefinition H (by omega) h false ht) fun e u hu => hu.ppost (by rw [ht]; decide) (by rw [ht]; decide)
  · next ht =>
    exact wp_imp (wp_resourceDefinition H (by omega) h true ht) fun e u hu => hu.ppost (by rw [ht]; decide) (by rw [ht]; decide)
  · next ht =>
    exact wp_imp (wp_siteDefinition H (by omega) h ht) fun e u hu => hu.ppost (by rw [ht]; decide) (by rw [ht]; decide)
  · next ht =>
    have hv := h.tok
    rw [ht] at hv
    rw [wp_bind]
    refine wp_imp (hstr ht rfl) ?_
    rintro v _ rfl
    exact lf _ ht (by decide) ⟨.renderString h.tsp hv.1, endTp rfl⟩ rfl (notNum ht) (fun hx => nomatch hx)
  · next ht =>
    have hv := h.tok
    rw [ht] at hv
    wpr
    refine wp_imp (H.first (by omega) h (by rw [ht]; decide)) ?_
    rintro _ t1 ⟨h1, g1⟩
    refine wp_imp (H.expr (by omega) h1.lt) ?_
    rintro e t2 ⟨h2, g2, n2⟩
    exact ⟨⟨h2, ⟨.un h.tsp (h.here ht) (by simp [hv.1]) n2.1, endHere rfl h2.inv.pos⟩, fun hx => nomatch hx⟩, rfl, notNum ht⟩
  · wpr; exact h.tsp

end
end PP
