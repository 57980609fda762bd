import Verif.Lemmas.Parse1

/-! # The functions of the parser: elements of lists -/
namespace PP

section
variable {env : Env} {s t u : St} {self : Self} {m : Nat}

theorem Val.prim {D : List Expr} {e : Expr} (h : Val env D e) : Prim env D e := .operand h.1

theorem wp_handleKeyword (H : HSelf env self m) (hm : B env s + 32 < m) (h : Inv env s) :
    wp env (handleKeyword self) (After env s s (Val env)) (EOK env) s := by
  unfold handleKeyword
  wpr
  refine ite_wp (fun ht => ?_) fun ht => ?_
  · have hstr : s.tok.hasStr = true ∧ s.tok ≠ .end_ := by
      simp only [List.mem_cons, List.not_mem_nil, or_false] at ht
      rcases ht with ht | ht | ht | ht | ht | ht | ht <;> rw [ht] <;> exact ⟨by decide, by decide⟩
    wpr
    refine wp_imp (h.str hstr.1) ?_
    rintro n _ rfl
    refine wp_imp (H.first (by omega) h hstr.2) ?_
    rintro _ t1 ⟨h1, g1⟩
    have b1 := h1.B
    have hq : Val env t1.defs (.qname ⟨_, _⟩ n) := ⟨.qname h.tsp, endHere rfl h.pos⟩
    refine ite_wp (fun hl => ?_) fun hl => ?_
    · refine wp_imp (wp_callFunction H (by omega) h1.inv (.inl hl) hq.prim hq.2) ?_
      rintro e t2 ⟨h2, g2, n2, -⟩
      exact ⟨h1.trans h2, fun d hd => g2 d (g1 d hd), n2.1⟩
    · exact wp_pure.mpr ⟨h1, g1, hq⟩
  · refine wp_imp (H (.binary .rel) s h (by show B env s + 32 < m; omega)) ?_
    exact fun e u hu => ⟨hu.mv, hu.mv.adv.mem, hu.val⟩

/-- `handleKeyword` later on. -/
theorem HSelf.kw (H : HSelf env self m) (hm : B env s ≤ m) (h : Lt env s t) :
    wp env (handleKeyword self) (After env s t (Val env)) (EOK env) t := by
  have := h.B
  exact wp_imp (wp_handleKeyword H (by omega) h.inv) fun e u hu => ⟨h.trans_mv hu.1, hu.2.1, hu.2.2⟩

theorem wp_argument (H : HSelf env self m) (hm : B env s + 32 < m) (h : Inv env s) :
    wp env (argument self) (After env s s (ArgV env)) (EOK env) s := by
  unfold argument
  wpr
  refine wp_imp (wp_handleKeyword H hm h) ?_
  rintro e t1 ⟨h1, g1, n1⟩
  refine ite_wp (fun hl => ?_) fun hl => ?_
  · wpr
    refine wp_imp (H.next (by omega) h1.lt) ?_
    rintro _ t2 ⟨h2, g2⟩
    refine wp_imp (H.kw (by omega) h2.lt) ?_
    rintro v t3 ⟨h3, g3, n3⟩
    exact ⟨h3, h3.adv.mem, .inr (.keyedEntry n1.1.off_le (fun _ => rfl) (n1.1.mono fun d hd => g3 d (g2 d hd)) n3.1)⟩
  · exact wp_pure.mpr ⟨h1, g1, .inl n1.1⟩

theorem wp_keyedEntry (H : HSelf env self m) (hm : B env s + 32 < m) (h : Inv env s) :
    wp env (keyedEntry self) (After env s s (fun D e => Node env D .entry e)) (EOK env) s := by
  unfold keyedEntry
  wpr
  refine wp_imp (wp_handleKeyword H hm h) ?_
  rintro e t1 ⟨h1, g1, n1⟩
  refine ite_wp (fun hl => ?_) fun hl => ?_
  · wpr; exact h1.inv.pos
  · wpr
    refine wp_imp (H.next (by omega) h1.lt) ?_
    rintro _ t2 ⟨h2, g2⟩
    refine wp_imp (H.kw (by omega) h2.lt) ?_
    rintro v t3 ⟨h3, g3, n3⟩
    exact ⟨h3, h3.adv.mem, .keyedEntry n1.1.off_le (fun _ => rfl) (n1.1.mono fun d hd => g3 d (g2 d hd)) n3.1⟩

theorem wp_selectorEntry (H : HSelf env self m) (hm : B env s + 28 < m) (h : Inv env s) :
    wp env (selectorEntry self) (After env s s (fun D e => Node env D .selEntry e)) (EOK env) s := by
  unfold selectorEntry
  wpr
  refine wp_imp (H .expression s h hm) ?_
  intro l t1 h1
  change VPost env s l t1 at h1
  refine wp_assert h1.mv.inv fun ht => ?_
  refine wp_imp (H.next (by omega) h1.mv.lt) ?_
  rintro _ t2 ⟨h2, g2⟩
  refine wp_imp (H.expr (by omega) h2.lt) ?_
  rintro v t3 ⟨h3, g3, n3⟩
  exact ⟨h3, h3.adv.mem, .selectorEntry h.tsp (h1.val.1.mono fun d hd => g3 d (g2 d hd)) n3.1⟩

theorem wp_parameterName (h : Inv env s) :
    wp env parameterName (fun _ u => u = s ∧ s.tok = .variable) (EOK env) s := by
  unfold parameterName
  wpr
  refine ite_wp (fun hl => ?_) fun hl => ?_
  · wpr; exact h.pos
  · split
    · exact wp_pure.mpr ⟨rfl, Decidable.not_not.mp hl⟩
    · wpr; exact h.pos

/-- An optional type. -/
theorem wp_optType (H : HSelf env self m) (hm : B env s + 2 < m) (h : Inv env s) :
    wp env (do
      let t ← curTok
      if t = .typeName then do
        let e ← parameterType self
        pure (some e)
      else pure none) (fun ty u => Ml env s u ∧ ∀ e, ty = some e → Node env u.defs .value e) (EOK env) s := by
  wpr
  refine ite_wp (fun hl => ?_) fun hl => ?_
  · wpr
    refine wp_imp (wp_parameterType H hm h) ?_
    rintro e t1 ⟨h1, g1, n1, -⟩
    refine ⟨.inr h1, fun e' he => ?_⟩
    cases he; exact n1.1
  · exact wp_pure.mpr ⟨.inl rfl, fun e he => nomatch he⟩

/-- After at most one thing. -/
theorem Ml.next (H : HSelf env self m) (hm : PP.B env s + 2 < m) (h : Inv env s) (h1 : Ml env s t) (he : t.tok ≠ .end_) :
    wp env (self .nextToken) (fun _ u => Mv env s u ∧ ∀ d ∈ t.defs, d ∈ u.defs) (EOK env) t := by
  rcases h1 with rfl | h1
  · exact H.first hm h he
  · exact H.next (by omega) h1.lt

theorem wp_parameter (H : HSelf env self m) (hm : B env s + 2 < m) (h : Inv env s) :
    wp env (parameter self) (After env s s (fun D e => Node env D .param e)) (EOK env) s := by
  -- from the name on
  have rest : ∀ (t : St) (ty : Option Expr) (b : Bool), Ml env s t → (∀ e, ty = some e → Node env t.defs .value e) →
      wp env (do
        let v ← parameterName
        nextTok self
        let t' ← curTok
        let d ← if t' = .assign then do
            nextTok self
            let e ← self .expression
            pure (some e)
          else pure none
        let p ← here s.tsp
        pure (.parameter p v d ty b)) (After env s s (fun D e => Node env D .param e)) (EOK env) t := by
    intro t ty b h1 hty
    have hti := (h1.le h).inv
    wpr
    refine wp_imp (wp_parameterName hti) ?_
    rintro v _ ⟨rfl, hv⟩
    refine wp_imp (h1.next H hm h (by rw [hv]; decide)) ?_
    rintro _ t2 ⟨h2, g2⟩
    refine ite_wp (fun hl => ?_) fun hl => ?_
    · wpr
      refine wp_imp (H.next (by omega) h2.lt) ?_
      rintro _ t3 ⟨h3, g3⟩
      refine wp_imp (H.expr (by omega) h3.lt) ?_
      rintro e t4 ⟨h4, g4, n4⟩
      refine ⟨h4, h4.adv.mem, .parameter h.tsp ?_ ?_⟩
      · intro e' he; cases he; exact n4.1
      · intro e' he; exact (hty e' he).mono fun d hd => g4 d (g3 d (g2 d hd))
    · wpr
      exact ⟨h2, h2.adv.mem, .parameter h.tsp (fun e he => nomatch he) fun e' he => (hty e' he).mono g2⟩
  have mult : ∀ (t : St) (ty : Option Expr), Ml env s t → (∀ e, ty = some e → Node env t.defs .value e) →
      wp env (do
        let t ← curTok
        if t = .multiply then nextTok self
        let v ← parameterName
        nextTok self
        let t' ← curTok
        let d ← if t' = .assign then do
            nextTok self
            let e ← self .expression
            pure (some e)
          else pure none
        let p ← here s.tsp
        pure (.parameter p v d ty (t == .multiply))) (After env s s (fun D e => Node env D .param e)) (EOK env) t := by
    intro t ty h1 hty
    rw [wp_bind, wp_curTok]
    refine ite_wp (fun hl => ?_) fun hl => ?_
    · rw [wp_bind]
      refine wp_imp (h1.next H hm h (by rw [hl]; decide)) ?_
      rintro _ t2 ⟨h2, g2⟩
      exact rest t2 ty _ (.inr h2) fun e he => (hty e he).mono g2
    · exact rest t ty _ h1 hty
  unfold parameter
  rw [wp_bind, wp_tokStart, wp_bind, wp_curTok]
  refine ite_wp (fun hl => ?_) fun hl => ?_
  · rw [wp_bind]
    refine wp_imp (wp_parameterType H hm h) ?_
    rintro e t1 ⟨h1, g1, n1, -⟩
    rw [wp_bind, wp_pure]
    refine mult t1 (some e) (.inr h1) ?_
    intro e' he; cases he; exact n1.1
  · rw [wp_bind, wp_pure]
    exact mult s none (.inl rfl) fun e he => nomatch he

theorem wp_attributeAlias (H : HSelf env self m) (hm : B env s + 2 < m) (h : Inv env s) :
    wp env (attributeAlias self) (After env s s (fun D e => Node env D .value e)) (EOK env) s := by
  unfold attributeAlias
  wpr
  refine wp_imp (wp_identifier H hm h) ?_
  rintro i t1 ⟨h1, h2⟩
  cases i with
  | none =>
    obtain ⟨rfl, -⟩ := h2 rfl
    wpr; exact h.tsp
  | some n =>
    have := h1 n rfl
    exact wp_pure.mpr ⟨this, this.adv.mem, .string h.tsp⟩

theorem wp_returnParameter (H : HSelf env self m) (hm : B env s + 2 < m) (h : Inv env s) :
    wp env (returnParameter self) (After env s s (fun D e => Node env D .param e)) (EOK env) s := by
  have fin : ∀ (t : St) (v : GoStr) (ty d : Option Expr), Mv env s t → (∀ e, ty = some e → Node env t.defs .value e) →
      (∀ e, d = some e → Node env t.defs .value e) →
      wp env (do
        let p ← here s.tsp
        pure (.parameter p v d ty false)) (After env s s (fun D e => Node env D .param e)) (EOK env) t := by
    intro t v ty d h1 hty hd
    wpr
    exact ⟨h1, h1.adv.mem, .parameter h.tsp hd hty⟩
  -- from the name on
  have rest : ∀ (t : St) (ty : Option Expr), Ml env s t → (∀ e, ty = some e → Node env t.defs .value e) →
      wp env (do
        let v ← parameterName
        nextTok self
        let t ← curTok
        let d ← if t = .assign then do
            nextTok self
            let t ← curTok
            if t = .lp ∨ t = .wslp then do
              let ps ← tokStart
              nextTok self
              let es ← expressions self .rp .attributeAlias
              let p ← getPos
              nextTok self
              pure (some (.list ⟨ps, (ps : Int) - p⟩ es))
            else do
              let e ← attributeAlias self
              pure (some e)
          else pure none
        let p ← here s.tsp
        pure (.parameter p v d ty false)) (After env s s (fun D e => Node env D .param e)) (EOK env) t := by
    intro t ty h1 hty
    have hti := (h1.le h).inv
    rw [wp_bind]
    refine wp_imp (wp_parameterName hti) ?_
    rintro v _ ⟨rfl, hv⟩
    rw [wp_bind]
    refine wp_imp (h1.next H hm h (by rw [hv]; decide)) ?_
    rintro _ t2 ⟨h2, g2⟩
    rw [wp_bind, wp_curTok]
    refine ite_wp (fun hl => ?_) fun hl => ?_
    · rw [wp_bind]
      refine wp_imp (H.next (by omega) h2.lt) ?_
      rintro _ t3 ⟨h3, g3⟩
      rw [wp_bind, wp_curTok]
      refine ite_wp (fun hl => ?_) fun hl => ?_
      · rw [wp_bind, wp_tokStart, wp_bind]
        refine wp_imp (H.next (by omega) h3.lt) ?_
        rintro _ t4 ⟨h4, g4⟩
        rw [wp_bind]
        refine wp_imp (H.exprs (by omega) h4.lt .rp .attributeAlias) ?_
        rintro es t5 ⟨h5, g5, -, n5⟩
        rw [wp_bind, wp_getPos, wp_bind]
        refine wp_imp (H.next (by omega) h5) ?_
        rintro _ t6 ⟨h6, g6⟩
        rw [wp_bind, wp_pure]
        refine fin t6 v ty _ h6 ?_ ?_
        · exact fun e' he => (hty e' he).mono fun d hd => g6 d (g5 d (g4 d (g3 d (g2 d hd))))
        · intro e' he
          cases he
          exact .list h3.inv.tsp fun e he => (n5 e he).mono g6
      · rw [wp_bind]
        have b3 := h3.B
        refine wp_imp (wp_attributeAlias H (by omega) h3.inv) ?_
        rintro e t4 ⟨h4, g4, n4⟩
        rw [wp_bind, wp_pure]
        refine fin t4 v ty _ (h3.trans h4) ?_ ?_
        · exact fun e' he => (hty e' he).mono fun d hd => g4 d (g3 d (g2 d hd))
        · intro e' he; cases he; exact n4
    · rw [wp_bind, wp_pure]
      exact fin t2 v ty none h2 (fun e' he => (hty e' he).mono g2) fun e he => nomatch he
  unfold returnParameter
  rw [wp_bind, wp_tokStart, wp_bind, wp_curTok]
  refine ite_wp (fun hl => ?_) fun hl => ?_
  · rw [wp_bind]
    refine wp_imp (wp_parameterType H hm h) ?_
    rintro e t1 ⟨h1, g1, n1, -⟩
    rw [wp_bind, wp_pure]
    refine rest t1 (some e) (.inr h1) ?_
    intro e' he; cases he; exact n1.1
  · rw [wp_bind, wp_pure]
    exact rest s none (.inl rfl) fun e he => nomatch he

theorem wp_stateAttribute (H : HSelf env self m) (hm : B env s + 2 < m) (h : Inv env s) :
    wp env (stateAttribute self) (After env s s (fun D e => Node env D .entry e)) (EOK env) s := by
  unfold stateAttribute
  wpr
  have hp := h.pos
  have ht := h.tsp
  refine wp_imp (wp_identifierExpr H hm h) ?_
  rintro i t1 ⟨h2, h1⟩
  cases i with
  | none => wpr; exact h2 rfl
  | some ne =>
    obtain ⟨n, e⟩ := ne
    obtain ⟨h3, n3, o3⟩ := h1 n e rfl
    wpr
    refine ite_wp (fun hl => ?_) fun hl => ?_
    · wpr
      refine wp_imp (H.next (by omega) h3.lt) ?_
      rintro _ t2 ⟨h4, g4⟩
      refine wp_imp (H.expr (by omega) h4.lt) ?_
      rintro v t3 ⟨h5, g5, n5⟩
      exact ⟨h5, h5.adv.mem, .keyedEntry h.tsp (fun _ => o3.symm) (n3.mono fun d hd => g5 d (g4 d hd)) n5.1⟩
    · wpr; exact h3.inv.pos

theorem wp_stepProperty (H : HSelf env self m) (hm : B env s + 2 < m) (h : Inv env s) :
    wp env (stepProperty self) (After env s s (fun D e => env.workflow = true → Node env D .prop e)) (EOK env) s := by
  unfold stepProperty
  rw [wp_bind, wp_getPos, wp_bind]
  refine wp_imp (wp_identifierExpr H hm h) ?_
  rintro i t1 ⟨h2, h1⟩
  cases i with
  | none => wpr; exact h2 rfl
  | some ne =>
    obtain ⟨n, e⟩ := ne
    obtain ⟨h3, n3, o3⟩ := h1 n e rfl
    dsimp only
    rw [wp_bind, wp_curTok]
    refine ite_wp (fun hl => ?_) fun hl => ?_
    · wpr; exact h3.inv.pos
    rw [wp_bind]
    refine wp_imp (H.next (by omega) h3.lt) ?_
    rintro _ t2 ⟨h4, g4⟩
    have b4 := h4.B
    rw [wp_bind, wp_getPos]
    refine ite_wp (fun hl => ?_) fun hl => ?_
    · rw [wp_bind]
      refine wp_imp (wp_parameterList H (by omega) h4.inv) ?_
      intro ps t3 h5
      have h5' : Lt env s t3 ∧ (∀ d ∈ t2.defs, d ∈ t3.defs) ∧ AllN env t3.defs .param ps := by
        rcases h5 with ⟨rfl, rfl⟩ | ⟨h5, h6, h7, h8⟩
        · exact ⟨h4.lt, fun _ h => h, AllN.nil⟩
        · exact ⟨h4.lt.trans_le h5.le, h6, h8⟩
      obtain ⟨h6, g6, n6⟩ := h5'
      wpr
      refine wp_imp (H.next (by omega) h6) ?_
      rintro _ t4 ⟨h7, g7⟩
      exact ⟨h7, h7.adv.mem, fun hw => .propList hw h.pos (n3.mono fun d hd => g7 d (g6 d (g4 d hd))) h4.inv.pos (n6.mono g7)⟩
    refine ite_wp (fun hl => ?_) fun hl => ?_
    · rw [wp_bind, wp_curTok]
      have fin : ∀ (t3 : St) (ps : List Expr), Lt env s t3 → (∀ d ∈ t2.defs, d ∈ t3.defs) → AllN env t3.defs .param ps →
          wp env (do
            let p ← here t2.pos
            nextTok self
            let value ← pure (Expr.list p ps)
            let p ← here s.pos
            pure (.keyedEntry p e value)) (After env s s (fun D e => env.workflow = true → Node env D .prop e)) (EOK env) t3 := by
        intro t3 ps h6 g6 n6
        wpr
        refine wp_imp (H.next (by omega) h6) ?_
        rintro _ t4 ⟨h7, g7⟩
        exact ⟨h7, h7.adv.mem, fun hw => .propList hw h.pos (n3.mono fun d hd => g7 d (g6 d (g4 d hd))) h4.inv.pos (n6.mono g7)⟩
      refine ite_wp (fun hl => ?_) fun hl => ?_
      · rw [wp_bind]
        refine wp_imp (H.next (by omega) h4.lt) ?_
        rintro _ t3 ⟨h5, g5⟩
        rw [wp_bind]
        refine wp_imp (H.exprs (by omega) h5.lt .rp .returnParameter) ?_
        rintro ps t4 ⟨h6, g6, -, n6⟩
        exact fin t4 ps h6 (fun d hd => g6 d (g5 d hd)) n6
      · rw [wp_bind, wp_pure]
        exact fin t2 [] h4.lt (fun _ h => h) AllN.nil
    · rw [wp_bind]
      refine wp_imp (H.kw (by omega) h4.lt) ?_
      rintro v t3 ⟨h5, g5, n5⟩
      wpr
      exact ⟨h5, h5.adv.mem, fun hw => .prop hw h.pos (n3.mono fun d hd => g5 d (g4 d hd)) n5.1⟩

theorem wp_produce (H : HSelf env self m) (hm : B env s + 32 < m) (h : Inv env s) (p : Producer) :
    wp env (produce self p) (After env s s (fun D e => ProdOK env D p e)) (EOK env) s := by
  cases p
  · exact wp_argument H hm h
  · exact wp_keyedEntry H hm h
  · exact wp_selectorEntry H (by omega) h
  · exact wp_imp (H .expression s h (by show B env s + 28 < m; omega)) fun e u hu => ⟨hu.mv, hu.mv.adv.mem, hu.val.1⟩
  · exact wp_stepProperty H (by omega) h
  · exact wp_stateAttribute H (by omega) h
  · exact wp_parameter H (by omega) h
  · exact wp_returnParameter H (by omega) h
  · exact wp_attributeAlias H (by omega) h

theorem ProdOK.mono {D D' : List Expr} {p : Producer} {e : Expr} (h : ProdOK env D p e) (hD : ∀ d ∈ D, d ∈ D') :
    ProdOK env D' p e := by
  cases p
  · exact h.elim (fun h => .inl (h.mono hD)) fun h => .inr (h.mono hD)
  all_goals first
    | exact fun hw => Node.mono (h hw) hD
    | exact Node.mono h hD

theorem mem_snoc {α : Type} {P : α → Prop} {es : List α} {e : α} (h1 : ∀ x ∈ es, P x) (h2 : P e) :
    ∀ x ∈ es ++ [e], P x := by
  intro x hx
  rw [List.mem_append, List.mem_singleton] at hx
  rcases hx with hx | rfl
  · exact h1 x hx
  · exact h2

theorem wp_exprsBody (k : Tok) (p : Producer) (acc : List Expr)
    (H : HSelf env self (M env (.exprs k p acc) s)) (hpre : Pre env (.exprs k p acc) s) :
    wp env (exprsBody self k p acc) (Post env (.exprs k p acc) s) (EOK env) s := by
  obtain ⟨h, hacc⟩ := hpre
  change HSelf env self (B env s + 40) at H
  unfold exprsBody
  rw [wp_bind, wp_curTok]
  refine ite_wp (fun ht => ?_) fun ht => ?_
  · exact wp_pure.mpr ⟨.refl h, ht, hacc⟩
  rw [wp_bind]
  refine wp_imp (wp_produce H (by omega) h p) ?_
  rintro e t1 ⟨h1, g1, n1⟩
  rw [wp_bind, wp_getS]
  refine ite_wp (fun ht1 => ?_) fun ht1 => ?_
  · refine ite_wp (fun ht2 => ?_) fun ht2 => ?_
    · wpr; exact h1.inv.tsp
    · exact wp_pure.mpr ⟨h1.le, Decidable.not_not.mp ht2, mem_snoc (fun x hx => (hacc x hx).mono g1) n1⟩
  · rw [wp_bind]
    refine wp_imp (H.next (by omega) h1.lt) ?_
    rintro _ t2 ⟨h2, g2⟩
    have b2 := h2.B
    refine wp_imp (H (.exprs k p (acc ++ [e])) t2 ⟨h2.inv, ?_⟩ (by show B env t2 + 40 < _; omega)) ?_
    · exact mem_snoc (fun x hx => (hacc x hx).mono fun d hd => g2 d (g1 d hd)) (n1.mono g2)
    · rintro es t3 ⟨h3, h4, h5⟩
      exact ⟨h2.trans_le h3, h4, h5⟩

end
end PP
