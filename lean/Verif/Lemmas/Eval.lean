import Verif.Lemmas.Exec

/-! # Running the parser: results for every sufficient fuel -/
namespace PP

/-- `run` gives `a` and leaves `t`, with every fuel from `k` on. -/
def Ev (env : Env) (k : Nat) (x : NT) (s : St) (a : Out x) (t : St) : Prop :=
  ∀ f, k ≤ f → run f x env s = .ok a t

section
variable {env : Env} {s t u : St} {k k' : Nat} {e : Expr}

theorem Ev.mono {x : NT} {a : Out x} (h : Ev env k x s a t) (hk : k ≤ k') : Ev env k' x s a t :=
  fun f hf => h f (Nat.le_trans hk hf)

/-- From a step. -/
theorem Ev.step {x : NT} {a : Out x} (h : ∀ f, k ≤ f → PP.step (run f) x env s = .ok a t) : Ev env (k + 1) x s a t := by
  intro f hf
  obtain ⟨f, rfl⟩ : ∃ g, f = g + 1 := ⟨f - 1, by omega⟩
  exact h f (by omega)

/-- Tokens that continue a primary expression. -/
def contPrimary : Tok → Bool
  | .lp | .pipe | .lcollect | .llcollect | .lb | .dot => true
  | _ => false

/-- Tokens that start a unary expression other than a primary one. -/
def startsUnary : Tok → Bool
  | .subtract | .add | .not | .multiply | .at_ | .atat => true
  | _ => false

def isNamedAccess : Expr → Bool
  | .bin _ .namedAccess _ _ => true
  | _ => false

def isQname : Expr → Bool
  | .qname .. => true
  | _ => false

theorem Ev.primary (h : Ev env k .atom s e t) (ht : contPrimary t.tok = false) (he : isNamedAccess e = false) :
    Ev env (k + 2) .primary s e t := by
  refine Ev.step (k := k + 1) fun f hf => ?_
  obtain ⟨f, rfl⟩ : ∃ g, f = g + 1 := ⟨f - 1, by omega⟩
  show primaryBody (run (f + 1)) env s = _
  unfold primaryBody
  ex
  rw [h _ (by omega)]
  show primLoopBody (run f) e env t = _
  unfold primLoopBody
  ex
  revert ht
  cases t.tok <;> intro ht <;> (try exact absurd ht (by decide)) <;> (cases e <;> (try rfl)) <;>
    (rename_i b _ _; cases b <;> (try rfl) <;> exact absurd he (by simp [isNamedAccess]))

theorem Ev.unary (h : Ev env k .primary s e t) (hs : startsUnary s.tok = false) : Ev env (k + 1) .unary s e t := by
  refine Ev.step fun f hf => ?_
  show unaryBody (run f) env s = _
  unfold unaryBody
  ex
  rw [← h f hf]
  revert hs
  cases s.tok <;> intro hs <;> first | rfl | exact absurd hs (by decide)

theorem Ev.binLoop {l : Lvl} (ht : l.isOp t.tok = false) : Ev env 1 (.binLoop l e) t e t := by
  refine Ev.step (k := 0) fun f hf => ?_
  show binLoopBody (run f) l e env t = _
  unfold binLoopBody
  ex
  rw [ht]
  rfl

/-- The same for the operand of a level. -/
def EvOp (env : Env) (k : Nat) (l : Lvl) (s : St) (e : Expr) (t : St) : Prop :=
  ∀ f, k ≤ f → operand (run f) l env s = .ok e t

theorem Ev.binary {l : Lvl} (h : EvOp env k l s e t) (ht : l.isOp t.tok = false) : Ev env (k + 2) (.binary l) s e t := by
  refine Ev.step (k := k + 1) fun f hf => ?_
  show binaryBody (run f) l env s = _
  unfold binaryBody
  ex
  have h2 : run f (.binLoop l e) env t = .ok e t := Ev.binLoop ht f (by omega)
  rw [h f (by omega)]
  exact h2

/-- Not an operator of the binary levels. -/
def isBinOp (t : Tok) : Bool :=
  Lvl.isOp .or t || Lvl.isOp .and t || Lvl.isOp .compare t || Lvl.isOp .equal t || Lvl.isOp .shift t || Lvl.isOp .additive t ||
  Lvl.isOp .mult t || Lvl.isOp .match_ t || Lvl.isOp .in_ t

theorem Ev.orLevel (h : Ev env k .unary s e t) (ht : isBinOp t.tok = false) : Ev env (k + 18) (.binary .or) s e t := by
  simp only [isBinOp, Bool.or_eq_false_iff] at ht
  obtain ⟨⟨⟨⟨⟨⟨⟨⟨h1, h2⟩, h3⟩, h4⟩, h5⟩, h6⟩, h7⟩, h8⟩, h9⟩ := ht
  exact Ev.binary (l := .or) (Ev.binary (l := .and) (Ev.binary (l := .compare) (Ev.binary (l := .equal) (Ev.binary (l := .shift)
    (Ev.binary (l := .additive) (Ev.binary (l := .mult) (Ev.binary (l := .match_) (Ev.binary (l := .in_) h h9) h8) h7) h6) h5) h4) h3) h2) h1

/-- Tokens that continue an expression after the operators. -/
def contExpr : Tok → Bool
  | .qmark | .kProduces | .kConsumes => true
  | _ => false

theorem Ev.expression (h : Ev env k (.binary .or) s e t) (ht : contExpr t.tok = false) : Ev env (k + 2) .expression s e t := by
  refine Ev.step (k := k + 1) fun f hf => ?_
  obtain ⟨f, rfl⟩ : ∃ g, f = g + 1 := ⟨f - 1, by omega⟩
  show expressionBody (run (f + 1)) env s = _
  unfold expressionBody
  ex
  rw [h _ (by omega)]
  dsimp only
  have h1 : t.tok ≠ .qmark := by intro h; rw [h] at ht; cases ht
  have h2 : ¬ (t.tok = .kProduces ∨ t.tok = .kConsumes) := by
    rintro (h | h) <;> (rw [h] at ht; cases ht)
  have h3 : run (f + 1) (.selLoop e) env t = .ok e t := by
    show selLoopBody (run f) e env t = _
    unfold selLoopBody
    ex
    rw [if_neg h1]
  rw [h3]
  dsimp only
  rw [if_neg h2]

/-- Tokens that continue a statement after an expression. -/
def contStmt : Tok → Bool
  | .lc | .assign | .addAssign | .subtractAssign => true
  | _ => false

theorem Ev.assignment (h : Ev env k .expression s e t) (ht : contStmt t.tok = false) (he : isQname e = false) :
    Ev env (k + 2) .assignment s e t := by
  refine Ev.step (k := k + 1) fun f hf => ?_
  obtain ⟨f, rfl⟩ : ∃ g, f = g + 1 := ⟨f - 1, by omega⟩
  show assignmentBody (run (f + 1)) env s = _
  unfold assignmentBody stepOrResource resource
  ex
  rw [h _ (by omega)]
  dsimp only
  have h1 : t.tok ≠ .lc := by intro h; rw [h] at ht; cases ht
  have h2 : ¬ (t.tok = .assign ∨ t.tok = .addAssign ∨ t.tok = .subtractAssign) := by
    rintro (h | h | h) <;> (rw [h] at ht; cases ht)
  rw [if_neg h1]
  dsimp only
  have h3 : run (f + 1) (.assignLoop e) env t = .ok e t := by
    show assignLoopBody (run f) e env t = _
    unfold assignLoopBody
    ex
    rw [if_neg h2]
  cases hw : env.workflow with
  | false => simp only [Bool.false_eq_true, if_false]; exact h3
  | true =>
    simp only [if_true]
    cases e <;> first | exact h3 | exact absurd he (by simp [isQname])

theorem Ev.rel (h : Ev env k .assignment s e t) (ht : Lvl.isOp .rel t.tok = false) : Ev env (k + 2) (.binary .rel) s e t :=
  Ev.binary (l := .rel) h ht

/-- Tokens that end an expression statement. -/
def stops (t : Tok) : Bool :=
  !(contPrimary t || isBinOp t || contExpr t || contStmt t || Lvl.isOp .rel t)

theorem stops_iff {t : Tok} (h : stops t = true) : contPrimary t = false ∧ isBinOp t = false ∧ contExpr t = false ∧ contStmt t = false ∧
    Lvl.isOp .rel t = false := by
  simp only [stops, Bool.not_eq_true', Bool.or_eq_false_iff] at h
  obtain ⟨⟨⟨⟨h1, h2⟩, h3⟩, h4⟩, h5⟩ := h
  exact ⟨h1, h2, h3, h4, h5⟩

/-- From an atom to a whole expression. -/
theorem Ev.whole (h : Ev env k .atom s e t) (ht : stops t.tok = true) (hs : startsUnary s.tok = false) (he : isNamedAccess e = false)
    (hq : isQname e = false) : Ev env (k + 27) (.binary .rel) s e t := by
  obtain ⟨h1, h2, h3, h4, h5⟩ := stops_iff ht
  exact Ev.rel (Ev.assignment (Ev.expression (Ev.orLevel (Ev.unary (Ev.primary h h1 he) hs) h2) h3) h4 hq) h5

/-- `Parse` of a single expression. -/
theorem parse_single {p : Nat} {c : Nat} {env : Env} {s0 s t u : St} (hepp : env.epp = false)
    (h0 : run (parseFuel env.text) .nextToken env { s0 with pos := 0, defs := [], nls := none } = .ok () s)
    (hw : skipWhite false env s = .ok (c, p) t) (hne : s.tok ≠ .end_) (htt : t.tok = s.tok)
    (h1 : Ev env k (.binary .rel) { t with pos := p } e u) (hk : k < parseFuel env.text) (hend : u.tok = .end_) :
    (parseFrom env s0 true).1 = .value e := by
  unfold parseFrom parseProgram parseTop
  ex
  rw [hepp]
  simp only [Bool.false_eq_true, if_false]
  rw [h0]
  obtain ⟨f, hf⟩ : ∃ f, parseFuel env.text = f + 1 := ⟨parseFuel env.text - 1, by omega⟩
  have h2 : run (parseFuel env.text) (.parse .end_ true) env s = .ok e u := by
    rw [hf]
    show parseBody (run f) .end_ true env s = _
    unfold parseBody
    ex
    rw [hw]
    simp only [if_true]
    rw [if_neg (by rw [htt]; exact hne)]
    have : relationship (run f) env { t with pos := p } = .ok e u := h1 f (by omega)
    rw [this]
    unfold assertToken
    ex
    rw [if_pos hend]
  dsimp only
  rw [h2]
  simp only [if_true]

end
end PP
