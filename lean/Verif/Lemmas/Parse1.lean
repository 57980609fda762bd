import Verif.Lemmas.Convert
import Verif.Lemmas.LexTok

/-! # The functions of the parser: names, parameters, calls -/
namespace PP

section
variable {env : Env} {s t u : St} {self : Self} {m : Nat}

/-- Something was parsed; the current token may be looked at twice. -/
structure Lt (env : Env) (s s' : St) : Prop where
  adv : Adv env s s'
  inv : Inv env s'
  phi : phi env s < phi env s'

theorem Mv.lt (h : Mv env s t) : Lt env s t := ⟨h.adv, h.inv, h.phi⟩
theorem Lt.le (h : Lt env s t) : Le env s t := ⟨h.adv, h.inv, Nat.le_of_lt h.phi⟩
theorem Lt.B (h : Lt env s t) : PP.B env t + 64 ≤ PP.B env s := B_drop h.phi h.inv.toBase
theorem Lt.trans_le (h : Lt env s t) (h2 : Le env t u) : Lt env s u :=
  ⟨h.adv.trans h2.adv, h2.inv, Nat.lt_of_lt_of_le h.phi h2.phi⟩
theorem Lt.trans_mv (h : Lt env s t) (h2 : Mv env t u) : Mv env s u := h.le.trans_mv h2
theorem Lt.trans_ml (h : Lt env s t) (h2 : Ml env t u) : Lt env s u := h.trans_le (h2.le h.inv)
theorem Lt.nx (h : Lt env s t) (h2 : Nx env t u) : Mv env s u :=
  ⟨h.adv.trans h2.adv, h2.inv, h.adv.r.trans h2.bk, Nat.lt_of_lt_of_le h.phi (h2.phi_le h.inv.toBase)⟩

/-- `u` comes after `s`, keeps the definitions of `t` and satisfies `φ`. -/
def After (env : Env) (s t : St) {α : Type} (φ : List Expr → α → Prop) (a : α) (u : St) : Prop :=
  Mv env s u ∧ (∀ d ∈ t.defs, d ∈ u.defs) ∧ φ u.defs a

/-- The same with the end token `k`. -/
def Upto (env : Env) (s t : St) (k : Tok) {α : Type} (φ : List Expr → α → Prop) (a : α) (u : St) : Prop :=
  Lt env s u ∧ (∀ d ∈ t.defs, d ∈ u.defs) ∧ u.tok = k ∧ φ u.defs a

theorem HSelf.next (H : HSelf env self m) (hm : B env s ≤ m) (h : Lt env s t) :
    wp env (self .nextToken) (fun _ u => Mv env s u ∧ ∀ d ∈ t.defs, d ∈ u.defs) (EOK env) t := by
  have := h.B
  refine wp_imp (wp_nextTok H h.inv.toBase (by omega)) ?_
  exact fun _ u hu => ⟨h.nx hu, hu.adv.mem⟩

/-- The first token. -/
theorem HSelf.first (H : HSelf env self m) (hm : B env s + 2 < m) (h : Inv env s) (he : s.tok ≠ .end_) :
    wp env (self .nextToken) (fun _ u => Mv env s u ∧ ∀ d ∈ s.defs, d ∈ u.defs) (EOK env) s :=
  wp_imp (wp_nextTok H h.toBase hm) fun _ _ hu => ⟨hu.mv h.toBase he, hu.adv.mem⟩

theorem HSelf.value (H : HSelf env self m) (hm : B env s ≤ m) (h : Lt env s t) {n : NT}
    (hn : n = .expression ∨ n = .assignment ∨ n = .unary ∨ n = .primary ∨ n = .atom ∨ ∃ l, n = .binary l) :
    match n with
    | .expression => wp env (self .expression) (After env s t (Val env)) (EOK env) t
    | .assignment => wp env (self .assignment) (After env s t (Val env)) (EOK env) t
    | .unary => wp env (self .unary) (After env s t (Val env)) (EOK env) t
    | .primary => wp env (self .primary) (After env s t (Val env)) (EOK env) t
    | .atom => wp env (self .atom) (After env s t (Val env)) (EOK env) t
    | .binary l => wp env (self (.binary l)) (After env s t (Val env)) (EOK env) t
    | _ => True := by
  have hB := h.B
  have key : ∀ e u, VPost env t e u → After env s t (Val env) e u :=
    fun e u hu => ⟨h.trans_mv hu.mv, hu.mv.adv.mem, hu.val⟩
  rcases hn with rfl | rfl | rfl | rfl | rfl | ⟨l, rfl⟩
  · exact wp_imp (H .expression t h.inv (by show B env t + _ < m; omega)) key
  · exact wp_imp (H .assignment t h.inv (by show B env t + _ < m; omega)) key
  · exact wp_imp (H .unary t h.inv (by show B env t + _ < m; omega)) key
  · exact wp_imp (H .primary t h.inv (by show B env t + _ < m; omega)) fun e u hu => key e u hu.toVPost
  · exact wp_imp (H .atom t h.inv (by show B env t + _ < m; omega)) fun e u hu => key e u hu.toVPost
  · refine wp_imp (H (.binary l) t h.inv ?_) key
    have : l.rank ≤ 32 := by cases l <;> decide
    show B env t + l.rank < m
    omega

theorem HSelf.expr (H : HSelf env self m) (hm : B env s ≤ m) (h : Lt env s t) :
    wp env (self .expression) (After env s t (Val env)) (EOK env) t := H.value hm h (n := .expression) (.inl rfl)
theorem HSelf.rel (H : HSelf env self m) (hm : B env s ≤ m) (h : Lt env s t) :
    wp env (relationship self) (After env s t (Val env)) (EOK env) t :=
  H.value hm h (n := .binary .rel) (.inr (.inr (.inr (.inr (.inr ⟨_, rfl⟩)))))

theorem HSelf.exprs (H : HSelf env self m) (hm : B env s ≤ m) (h : Lt env s t) (k : Tok) (p : Producer) :
    wp env (expressions self k p) (Upto env s t k (fun D es => ∀ e ∈ es, ProdOK env D p e)) (EOK env) t := by
  have hB := h.B
  refine wp_imp (H (.exprs k p []) t ⟨h.inv, by intro e he; cases he⟩ (by show B env t + 40 < m; omega)) ?_
  exact fun es u hu => ⟨h.trans_le hu.1, hu.1.adv.mem, hu.2.1, hu.2.2⟩

theorem HSelf.block (H : HSelf env self m) (hm : B env s ≤ m) (h : Lt env s t) (k : Tok) :
    wp env (parseBlock self k) (Upto env s t k (fun D e => Node env D .block e)) (EOK env) t := by
  have hB := h.B
  refine wp_imp (H (.parse k false) t h.inv (by show B env t + 42 < m; omega)) ?_
  rintro e u ⟨h1, h2, h3⟩
  exact ⟨h.trans_le h1, h1.adv.mem, h2, by simpa using h3⟩

theorem HSelf.attrs (H : HSelf env self m) (hm : B env s ≤ m) (h : Lt env s t) :
    wp env (self (.attrOps [])) (fun es u => Lt env s u ∧ (∀ d ∈ t.defs, d ∈ u.defs) ∧ AllN env u.defs .attr es) (EOK env) t := by
  have hB := h.B
  refine wp_imp (H (.attrOps []) t ⟨h.inv, AllN.nil⟩ (by show B env t + 5 < m; omega)) ?_
  exact fun es u hu => ⟨h.trans_le hu.1, hu.1.adv.mem, hu.2⟩

theorem wp_assert {k : Tok} {Q : Unit → St → Prop} (ht : Inv env t) (h : t.tok = k → Q () t) :
    wp env (assertToken k) Q (EOK env) t := by
  rw [wp_assertToken]
  split
  · exact h ‹_›
  · exact ht.tsp

/-- The end of a node at the current position. -/
theorem okHere {p : Nat} (h : p ≤ env.text.length + 1) (len : Int) : okPos env ⟨p, len⟩ := h

theorem endHere {e : Expr} {p q : Nat} (h : e.pos = ⟨p, (q : Int) - p⟩) (hq : q ≤ env.text.length + 1) : endOk env e := by
  unfold endOk Expr.off Expr.len
  rw [h]
  dsimp only
  omega

theorem keywordOf_some {k : Tok} {w : GoStr} (h : keywordOf k = some w) : k.isKeyword = true := by
  unfold keywordOf at h
  split at h
  · assumption
  · cases h

theorem keyword_ne_end {k : Tok} (h : k.isKeyword = true) : k ≠ .end_ := by
  intro h0; rw [h0] at h; exact absurd h (by decide)

/-- The text of the current token. -/
theorem Inv.here (h : Inv env s) {k : Tok} (ht : s.tok = k) : SpeltAt env s.tsp k s.val := ht ▸ h.sp

theorem wp_identifier (H : HSelf env self m) (hm : B env s + 2 < m) (h : Inv env s) :
    wp env (identifier self) (fun i u => (∀ n, i = some n → Mv env s u) ∧
      (i = none → u = back s ∧ 1 ≤ rTok s.tok)) (EOK env) s := by
  unfold identifier
  wpr
  split
  · next ht =>
    wpr
    have hstr := h.str (E := EOK env) (by rw [ht]; rfl)
    refine wp_imp hstr ?_
    rintro n _ rfl
    refine wp_imp (H.first hm h (by rw [ht]; decide)) ?_
    rintro _ u ⟨hu, -⟩
    exact ⟨fun _ _ => hu, fun h => nomatch h⟩
  · next ht =>
    split
    · next w hw =>
      wpr
      refine wp_imp (H.first hm h (keyword_ne_end (keywordOf_some hw))) ?_
      rintro _ u ⟨hu, -⟩
      exact ⟨fun _ _ => hu, fun h => nomatch h⟩
    · next hw =>
      wpr
      refine ⟨fun _ h => (nomatch h), fun _ => ⟨rfl, ?_⟩⟩
      unfold rTok
      have : s.tok.isKeyword = false := by
        unfold keywordOf at hw
        split at hw
        · cases hw
        · simpa using ‹¬ s.tok.isKeyword = true›
      rw [this]
      split
      · omega
      · simp [ht]

theorem wp_identifierExpr (H : HSelf env self m) (hm : B env s + 2 < m) (h : Inv env s) :
    wp env (identifierExpr self) (fun i u =>
      (i = none → u.pos ≤ env.text.length + 1) ∧ ∀ n e, i = some (n, e) → Mv env s u ∧ Node env u.defs .value e ∧
        e.off = s.tsp) (EOK env) s := by
  unfold identifierExpr
  wpr
  split
  · next ht =>
    wpr
    have hstr := h.str (E := EOK env) (by rw [ht]; rfl)
    refine wp_imp hstr ?_
    rintro n _ rfl
    refine wp_imp (H.first hm h (by rw [ht]; decide)) ?_
    rintro _ u ⟨hu, -⟩
    refine ⟨fun h => (nomatch h), fun n e hx => ?_⟩
    cases hx
    exact ⟨hu, .qname h.tsp, rfl⟩
  · next ht =>
    split
    · next w hw =>
      wpr
      refine wp_imp (H.first hm h (keyword_ne_end (keywordOf_some hw))) ?_
      rintro _ u ⟨hu, -⟩
      refine ⟨fun h => (nomatch h), fun n e hx => ?_⟩
      cases hx
      exact ⟨hu, .qname h.tsp, rfl⟩
    · wpr
      exact ⟨fun _ => h.tsp, fun n e hx => (nomatch hx)⟩

theorem wp_typeName (H : HSelf env self m) (hm : B env s + 2 < m) (h : Inv env s) :
    wp env (typeName self) (fun i u => (i = none → u = s) ∧ ∀ e, i = some e → Mv env s u ∧
      ∃ p n, e = .qref p n (toLowerAscii n) ∧ p.off = s.tsp ∧ Val env u.defs e) (EOK env) s := by
  unfold typeName
  wpr
  split
  · next ht =>
    wpr
    refine wp_imp (h.word (.inl ht)) ?_
    rintro n _ ⟨rfl, hw⟩
    refine wp_imp (H.first hm h (by rw [ht]; decide)) ?_
    rintro _ u ⟨hu, -⟩
    refine ⟨fun h => (nomatch h), fun e he => ?_⟩
    cases he
    exact ⟨hu, _, _, rfl, rfl, .qref h.tsp (.inl hw), endHere rfl h.pos⟩
  · refine wp_pure.mpr ⟨fun _ => rfl, fun e he => nomatch he⟩

theorem wp_arrayExpression (H : HSelf env self m) (hm : B env s ≤ m) (h : Lt env s t) :
    wp env (arrayExpression self) (Upto env s t .rb (fun D es => ∀ e ∈ es, Node env D .value e)) (EOK env) t := by
  unfold arrayExpression
  wpr
  refine wp_imp (H.exprs hm h .rb .argument) ?_
  rintro es u ⟨h1, h2, h3, h4⟩
  exact ⟨h1, h2, h3, joinHashEntries_ok es h4⟩

/-- A type: a name or an access on a name. -/
def IsType : Expr → Prop
  | .qref .. | .access .. => True
  | _ => False

theorem wp_parameterType (H : HSelf env self m) (hm : B env s + 2 < m) (h : Inv env s) :
    wp env (parameterType self) (After env s s (fun D e => Val env D e ∧ e.isQName = false)) (EOK env) s := by
  unfold parameterType
  wpr
  refine wp_imp (wp_typeName H hm h) ?_
  rintro i u ⟨h0, h1⟩
  cases i with
  | none => have := h0 rfl; subst this; wpr; exact h.pos
  | some e =>
    obtain ⟨h2, p, n, rfl, hpo, h3⟩ := h1 e rfl
    wpr
    split
    · wpr
      refine wp_imp (H.next (by omega) h2.lt) ?_
      rintro _ t2 ⟨h4, h5⟩
      refine wp_imp (wp_arrayExpression H (by omega) h4.lt) ?_
      rintro es t3 ⟨h6, h7, h8, h9⟩
      refine wp_imp (H.next (by omega) h6) ?_
      rintro _ t4 ⟨h10, h11⟩
      refine ⟨h10, h10.adv.mem, ⟨.access h.tsp (.inl hpo.symm) (.operand ?_) fun k hk => (h9 k hk).mono h11, endHere rfl h6.inv.pos⟩, rfl⟩
      exact h3.1.mono fun d hd => h11 d (h7 d (h5 d hd))
    · exact wp_pure.mpr ⟨h2, h2.adv.mem, h3, rfl⟩

theorem wp_parameterList (H : HSelf env self m) (hm : B env s + 2 < m) (h : Inv env s) :
    wp env (parameterList self) (fun ps u => (u = s ∧ ps = []) ∨
      Upto env s s .rp (fun D ps => AllN env D .param ps) ps u) (EOK env) s := by
  unfold parameterList
  wpr
  split
  · next ht =>
    wpr
    refine wp_imp (H.first hm h (by intro h0; rw [h0] at ht; rcases ht with ht | ht <;> cases ht)) ?_
    rintro _ t2 ⟨h1, h2⟩
    refine wp_imp (H.exprs (by omega) h1.lt .rp .parameter) ?_
    rintro es t3 ⟨h3, h4, h5, h6⟩
    exact .inr ⟨h3, h3.adv.mem, h5, h6⟩
  · exact wp_pure.mpr (.inl ⟨rfl, rfl⟩)

theorem wp_optParameterList (H : HSelf env self m) (hm : B env s + 2 < m) (h : Inv env s) :
    wp env (optParameterList self) (fun ps u => Ml env s u ∧ AllN env u.defs .param ps) (EOK env) s := by
  unfold optParameterList
  wpr
  split
  · next ht =>
    wpr
    refine wp_imp (wp_parameterList H hm h) ?_
    rintro ps u (⟨rfl, rfl⟩ | ⟨h1, h2, h3, h4⟩)
    · refine wp_imp (H.first hm h (by intro h0; rw [h0] at ht; rcases ht with ht | ht <;> cases ht)) ?_
      rintro _ t2 ⟨h1, h2⟩
      exact ⟨.inr h1, AllN.nil⟩
    · refine wp_imp (H.next (by omega) h1) ?_
      rintro _ t2 ⟨h5, h6⟩
      exact ⟨.inr h5, h4.mono h6⟩
  · exact wp_pure.mpr ⟨.inl rfl, AllN.nil⟩

theorem wp_optReturnType (H : HSelf env self m) (hm : B env s + 2 < m) (h : Inv env s) :
    wp env (optReturnType self) (fun rt u => Ml env s u ∧ ∀ e, rt = some e → Node env u.defs .value e) (EOK env) s := by
  unfold optReturnType
  wpr
  split
  · next ht =>
    wpr
    refine wp_imp (H.first hm h (by rw [ht]; decide)) ?_
    rintro _ t2 ⟨h1, h2⟩
    have := h1.B
    refine wp_imp (wp_parameterType H (by omega) h1.inv) ?_
    rintro e t3 ⟨h3, h4, h5, -⟩
    refine ⟨.inr (h1.trans h3), fun e' he => ?_⟩
    cases he; exact h5.1
  · exact wp_pure.mpr ⟨.inl rfl, fun e' he => nomatch he⟩

theorem wp_braces (H : HSelf env self m) (hm : B env s + 2 < m) (h : Inv env s) :
    wp env (braces self) (Upto env s s .rc (fun D e => Node env D .block e)) (EOK env) s := by
  unfold braces
  wpr
  refine wp_assert h fun ht => ?_
  refine wp_imp (H.first hm h (by rw [ht]; decide)) ?_
  rintro _ t2 ⟨h1, h2⟩
  refine wp_imp (H.block (by omega) h1.lt .rc) ?_
  rintro e t3 ⟨h3, h4, h5, h6⟩
  exact ⟨h3, h3.adv.mem, h5, h6⟩

theorem wp_lambdaParameterList (H : HSelf env self m) (hm : B env s ≤ m) (h : Lt env s t) :
    wp env (lambdaParameterList self) (Upto env s t .pipeEnd (fun D ps => AllN env D .param ps)) (EOK env) t := by
  unfold lambdaParameterList
  wpr
  refine wp_imp (H.next (by omega) h) ?_
  rintro _ t2 ⟨h1, h2⟩
  refine wp_imp (H.exprs (by omega) h1.lt .pipeEnd .parameter) ?_
  rintro es t3 ⟨h3, h4, h5, h6⟩
  exact ⟨h3, fun d hd => h4 d (h2 d hd), h5, h6⟩

theorem wp_lambda (H : HSelf env self m) (hm : B env s + 2 < m) (h : Inv env s) (ht : s.tok = .pipe) :
    wp env (lambda self) (After env s s (fun D e => Node env D .lambda e ∧ endOk env e)) (EOK env) s := by
  unfold lambda lambdaParameterList
  wpr
  refine wp_imp (H.first hm h (by rw [ht]; decide)) ?_
  rintro _ t1 ⟨h1, g1⟩
  refine wp_imp (H.exprs (by omega) h1.lt .pipeEnd .parameter) ?_
  rintro ps t2 ⟨h2, g2, -, n2⟩
  refine wp_imp (H.next (by omega) h2) ?_
  rintro _ t3 ⟨h3, g3⟩
  have b3 := h3.B
  refine wp_imp (wp_optReturnType H (by omega) h3.inv) ?_
  rintro rt t4 ⟨h4, n4⟩
  have h4' := h3.lt.trans_ml h4
  have b4 := h4'.B
  refine wp_imp (wp_braces H (by omega) h4'.inv) ?_
  rintro b t5 ⟨h5, g5, -, n5⟩
  have h5' := h4'.trans_le h5.le
  refine wp_imp (H.next (by omega) h5') ?_
  rintro _ t6 ⟨h6, g6⟩
  have g4 := (h4.le h3.inv).adv.mem
  refine ⟨h6, h6.adv.mem, .lambda h.tsp (.inr (h.here ht)) ?_ (n5.mono g6) ?_, endHere rfl h5.inv.pos⟩
  · intro e he
    exact (n2 e he).mono fun d hd => g6 d (g5 d (g4 d (g3 d hd)))
  · intro e he
    exact (n4 e he).mono fun d hd => g6 d (g5 d hd)

/-- What a call gives. -/
def CallV (env : Env) (D : List Expr) (e : Expr) : Prop :=
  Val env D e ∧ e.isBin = false ∧ e.isName = false ∧ e.isDefinition = false

theorem wp_callFunction (H : HSelf env self m) (hm : B env s + 2 < m) (h : Inv env s) {f : Expr}
    (ht : s.tok = .lp ∨ s.tok = .pipe) (hf : Prim env s.defs f) (hfe : endOk env f) :
    wp env (callFunctionExpression self f) (After env s s (fun D e => CallV env D e ∧ innermost e = innermost f)) (EOK env) s := by
  have hoff : f.off ≤ env.text.length + 1 := hf.okPos
  -- the node
  have fin : ∀ (u : St) (args : List Expr) (lam : Option Expr) (end_ : Int), Mv env s u →
      (∀ a ∈ args, Node env u.defs .value a) → (∀ l, lam = some l → Node env u.defs .lambda l) →
      0 ≤ end_ → end_ ≤ env.text.length + 1 →
      wp env (match f with
        | .bin p .namedAccess l r => pure (convertLhsToCall p l r args lam ⟨f.off, end_ - f.off⟩)
        | _ => pure (.call ⟨f.off, end_ - f.off⟩ .named true f args lam)) (After env s s (fun D e => CallV env D e ∧ innermost e = innermost f)) (EOK env) u := by
    intro u args lam end_ h1 h2 h3 h4 h5
    have hq : okPos env ⟨f.off, end_ - f.off⟩ := hoff
    have hend : ∀ e : Expr, e.pos = ⟨f.off, end_ - f.off⟩ → endOk env e := by
      intro e he
      unfold endOk Expr.off Expr.len
      rw [he]
      dsimp only
      omega
    cases hf with
    | operand hv =>
      have hx : ∀ p l r, f ≠ .bin p .namedAccess l r := by
        intro p l r hx; subst hx; cases hv; rename_i hk _ _ _ _; exact hk rfl
      split
      · exact absurd rfl (hx _ _ _)
      · refine wp_pure.mpr ⟨h1, h1.adv.mem, ⟨⟨.call hq (.inl (.inl rfl)) (hv.mono h1.adv.mem) h2 h3, hend _ rfl⟩, rfl, rfl, rfl⟩, rfl⟩
    | rawAccess hp hl hr =>
      dsimp only
      refine wp_pure.mpr ⟨h1, h1.adv.mem, ⟨⟨node_convertLhsToCall hp hq rfl (hl.mono h1.adv.mem) (hr.mono h1.adv.mem) h2 h3, hend _ rfl⟩, rfl, rfl, rfl⟩,
        innermost_convertLhs _⟩
  -- the lambda
  have lam : ∀ (u : St) (args : List Expr) (end_ : Int), (u = s ∨ Mv env s u) → (u.tok = .pipe ∨ u ≠ s) →
      (∀ a ∈ args, Node env u.defs .value a) →
      0 ≤ end_ → end_ ≤ env.text.length + 1 →
      wp env (do
        let t ← curTok
        let (block, end_) ← if t = .pipe then do
            let l ← lambda self
            pure (some l, (l.off : Int) + l.len)
          else pure (none, end_)
        match f with
        | .bin p .namedAccess l r => pure (convertLhsToCall p l r args block ⟨f.off, end_ - f.off⟩)
        | _ => pure (.call ⟨f.off, end_ - f.off⟩ .named true f args block)) (After env s s (fun D e => CallV env D e ∧ innermost e = innermost f)) (EOK env) u := by
    intro u args end_ h1 h1' h2 h4 h5
    have hui : Inv env u := by rcases h1 with rfl | h1; exact h; exact h1.inv
    have hub : B env u + 2 < m := by rcases h1 with rfl | h1; exact hm; have := h1.B; omega
    rw [wp_bind, wp_curTok]
    refine ite_wp (fun htp => ?_) fun htp => ?_
    · rw [wp_bind]
      refine wp_imp (wp_lambda H hub hui htp) ?_
      rintro l u2 ⟨g1, g2, g3, g4⟩
      rw [wp_bind, wp_pure]
      have : Mv env s u2 := by
        rcases h1 with rfl | h1
        · exact g1
        · exact h1.trans g1
      refine fin u2 args (some l) _ this (fun a ha => (h2 a ha).mono g2) ?_ g4.1 g4.2
      intro l' hl'; cases hl'; exact g3
    · rw [wp_bind, wp_pure]
      rcases h1 with rfl | h1
      · rcases h1' with h1' | h1'
        · exact absurd h1' htp
        · exact absurd rfl h1'
      · exact fin u args none end_ h1 h2 (fun l hl => nomatch hl) h4 h5
  unfold callFunctionExpression
  rw [wp_bind, wp_curTok]
  refine ite_wp (fun htp => ?_) fun htp => ?_
  · rw [wp_bind]
    refine wp_imp (H.first hm h (by rcases ht with ht | ht <;> rw [ht] <;> decide)) ?_
    rintro _ t1 ⟨h1, g1⟩
    rw [wp_bind]
    refine wp_imp (H.exprs (by omega) h1.lt .rp .argument) ?_
    rintro es t2 ⟨h2, g2, -, n2⟩
    rw [wp_bind, wp_getPos, wp_bind]
    refine wp_imp (H.next (by omega) h2) ?_
    rintro _ t3 ⟨h3, g3⟩
    have := h2.inv.pos
    have hne : t3 ≠ s := by
      intro h0; have := h3.phi; rw [h0] at this; omega
    rw [wp_bind, wp_pure]
    exact lam t3 (joinHashEntries es) (t2.pos : Int) (.inr h3) (.inr hne)
      (joinHashEntries_ok es fun e he => ((n2 e he).elim (fun h => .inl (h.mono g3)) (fun h => .inr (h.mono g3))))
      (by omega) (by omega)
  · rw [wp_bind, wp_pure]
    exact lam s [] _ (.inl rfl) (.inl (Decidable.not_not.mp htp)) (by intro a ha; cases ha) hfe.1 hfe.2

end
end PP
