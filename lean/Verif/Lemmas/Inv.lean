import Verif.Lemmas.Wp
import Verif.Lemmas.NodeOps

/-!
# Invariants of the parser state and the measure for termination

`nls` (the place where the next newline continues after a heredoc) makes the position jump, also
backwards.  The pair (position, pending jump) is ordered so that every action of the lexer goes up:
first by the smaller of the two, then by whether the position has passed the pending jump, then by
the position.
-/
namespace PP

/-- The pending jump; no jump counts as a jump far behind the end. -/
def nlv (env : Env) (s : St) : Nat := s.nls.getD (env.text.length + 3)

def LeP (p n p' n' : Nat) : Prop :=
  min p n < min p' n' ∨ (min p n = min p' n' ∧ ((n ≤ p ∧ p' < n') ∨ ((n ≤ p ↔ n' ≤ p') ∧ p ≤ p')))

def LtP (p n p' n' : Nat) : Prop :=
  min p n < min p' n' ∨ (min p n = min p' n' ∧ ((n ≤ p ∧ p' < n') ∨ ((n ≤ p ↔ n' ≤ p') ∧ p < p')))

/-- The order on states. -/
def R (env : Env) (s s' : St) : Prop :=
  LeP s.pos (nlv env s) s'.pos (nlv env s') ∧
  (nlv env s' = nlv env s ∨ min s.pos (nlv env s) < nlv env s')

/-- The rank of a state in the order. -/
def psi (env : Env) (s : St) : Nat :=
  min s.pos (nlv env s) * (2 * (env.text.length + 3)) +
    (if nlv env s ≤ s.pos then 0 else env.text.length + 3) + s.pos

/-- The position goes back to the start of the current token. -/
def back (s : St) : St := { s with pos := s.tsp }

def rTok (t : Tok) : Nat := if t = .end_ then 2 else if t = .identifier ∨ t.isKeyword = true then 0 else 1

def phi (env : Env) (s : St) : Nat := 3 * psi env s + rTok s.tok

theorem rTok_le (t : Tok) : rTok t ≤ 2 := by unfold rTok; split <;> (try split) <;> omega
theorem rTok_lt {t : Tok} (h : t ≠ .end_) : rTok t ≤ 1 := by
  unfold rTok; rw [if_neg h]; split <;> omega

section
variable {env : Env} {s s' t u : St}

theorem R.refl (s : St) : R env s s := by
  unfold R LeP; constructor
  · exact .inr ⟨rfl, .inr ⟨Iff.rfl, Nat.le_refl _⟩⟩
  · exact .inl rfl

theorem R.trans (h1 : R env s t) (h2 : R env t u) : R env s u := by
  unfold R LeP at *
  generalize nlv env s = a at *
  generalize nlv env t = b at *
  generalize nlv env u = c at *
  omega

theorem psi_le_of (h : LeP s.pos (nlv env s) s'.pos (nlv env s')) (h1 : s.pos ≤ env.text.length + 1)
    (_ : s'.pos ≤ env.text.length + 1) : psi env s ≤ psi env s' := by
  unfold LeP at h
  unfold psi
  generalize nlv env s = n at *
  generalize nlv env s' = n' at *
  generalize s.pos = p at *
  generalize s'.pos = p' at *
  generalize env.text.length = L at *
  rcases h with h | ⟨h, h'⟩
  · have : (min p n + 1) * (2 * (L + 3)) ≤ min p' n' * (2 * (L + 3)) := Nat.mul_le_mul_right _ h
    rw [Nat.add_mul] at this
    split <;> split <;> omega
  · rw [h]
    split <;> split <;> omega

theorem psi_lt_of (h : LtP s.pos (nlv env s) s'.pos (nlv env s')) (h1 : s.pos ≤ env.text.length + 1)
    (_ : s'.pos ≤ env.text.length + 1) : psi env s < psi env s' := by
  unfold LtP at h
  unfold psi
  generalize nlv env s = n at *
  generalize nlv env s' = n' at *
  generalize s.pos = p at *
  generalize s'.pos = p' at *
  generalize env.text.length = L at *
  rcases h with h | ⟨h, h'⟩
  · have : (min p n + 1) * (2 * (L + 3)) ≤ min p' n' * (2 * (L + 3)) := Nat.mul_le_mul_right _ h
    rw [Nat.add_mul] at this
    split <;> split <;> omega
  · rw [h]
    split <;> split <;> omega

/-- The rank of the last state. -/
def psiMax (env : Env) : Nat :=
  (env.text.length + 1) * (2 * (env.text.length + 3)) + (env.text.length + 3) + (env.text.length + 1)

theorem psi_le_max (h1 : s.pos ≤ env.text.length + 1) : psi env s ≤ psiMax env := by
  unfold psi psiMax
  have : min s.pos (nlv env s) * (2 * (env.text.length + 3)) ≤ (env.text.length + 1) * (2 * (env.text.length + 3)) :=
    Nat.mul_le_mul_right _ (by omega)
  split <;> omega

/-- Going back to an earlier position keeps the order. -/
theorem R.reset (h : R env s t) : R env s { t with pos := s.pos } := by
  unfold R LeP nlv at *
  simp only
  generalize s.nls.getD (env.text.length + 3) = a at *
  generalize t.nls.getD (env.text.length + 3) = b at *
  omega

theorem R.adv (s : St) (n : Nat) : R env s { s with pos := s.pos + n } := by
  unfold R LeP nlv
  dsimp only
  generalize s.nls.getD (env.text.length + 3) = a at *
  omega

theorem R.to (s : St) {q : Nat} (h : s.pos ≤ q) : R env s { s with pos := q } := by
  have := R.adv (env := env) s (q - s.pos)
  rwa [show s.pos + (q - s.pos) = q by omega] at this

theorem LtP.to (s : St) {q : Nat} (h : s.pos < q) : LtP s.pos (nlv env s) q (nlv env s) := by
  unfold LtP
  omega

theorem LtP.trans_le (h1 : LtP s.pos (nlv env s) t.pos (nlv env t))
    (h2 : LeP t.pos (nlv env t) u.pos (nlv env u)) : LtP s.pos (nlv env s) u.pos (nlv env u) := by
  unfold LtP LeP at *
  generalize nlv env s = a at *
  generalize nlv env t = b at *
  generalize nlv env u = c at *
  omega

theorem LtP.le_trans (h1 : LeP s.pos (nlv env s) t.pos (nlv env t))
    (h2 : LtP t.pos (nlv env t) u.pos (nlv env u)) : LtP s.pos (nlv env s) u.pos (nlv env u) := by
  unfold LtP LeP at *
  generalize nlv env s = a at *
  generalize nlv env t = b at *
  generalize nlv env u = c at *
  omega

theorem R.newLine (s : St) (h : ∀ k, s.nls = some k → k ≤ env.text.length + 1) :
    R env s { s with pos := s.nls.getD s.pos, nls := none } := by
  unfold R LeP nlv
  dsimp only
  cases hn : s.nls with
  | none => dsimp only [Option.getD_none]; omega
  | some k => have := h k hn; dsimp only [Option.getD_none, Option.getD_some]; omega

/-- Forgetting a pending jump keeps the order. -/
theorem R.drop (s : St) (h1 : s.pos ≤ env.text.length + 1) : R env s { s with nls := none } := by
  unfold R LeP nlv
  dsimp only
  cases hn : s.nls with
  | none => dsimp only [Option.getD_none]; omega
  | some k => dsimp only [Option.getD_none, Option.getD_some]; omega

/-- A name or a type name. -/
def Expr.isName : Expr → Bool
  | .qname .. | .qref .. => true
  | _ => false

/-- What a token carries. -/
def ValOK (env : Env) (D : List Expr) (tsp : Nat) (t : Tok) (v : TokVal) : Prop :=
  match t with
  | .boolean => ∃ b, v = .bool b
  | .integer => ∃ i, v = .int i
  | .float => ∃ f, v = .flt f
  | .kDefault => v = .dflt
  | .heredoc | .concatenatedString => ∃ e, v = .expr e ∧ Val env D e ∧ e.isBin = false ∧ e.isDefinition = false ∧ e.isName = false
  | .variable => tsp < env.text.length ∧ ((∃ w, v = .str w) ∨ ∃ i, v = .int i)
  | .renderString => env.epp = true ∧ ∃ w, v = .str w
  | .renderExpr => env.epp = true ∧ v = .nil
  | .kPlan => env.tasks = true ∧ ∃ w, v = .str w
  | .kType => (∃ w, v = .str w) ∧ b!"type" <:+: env.text
  | .string | .regexp | .identifier | .typeName | .kAnd | .kApplication | .kAttr | .kCase | .kClass
  | .kDefine | .kFunction | .kIf | .kIn | .kInherits | .kElse | .kElsif | .kNode | .kOr | .kPrivate
  | .kSite | .kUndef | .kUnless => ∃ w, v = .str w
  | .kProduces | .kConsumes => v = .str t.str
  | _ => v = .nil

/-- The text of a token stands where the token starts. -/
def SpeltAt (env : Env) (tsp : Nat) (t : Tok) (v : TokVal) : Prop :=
  match t with
  | .boolean => ∀ b, v = .bool b → ReadsAt env.text tsp (if b then b!"true" else b!"false")
  | .typeName => ∀ w, v = .str w → ReadsAt env.text tsp w
  | .not | .subtract | .add | .multiply | .lp | .wslp | .renderExpr | .pipe | .lcollect | .llcollect | .at_ | .atat =>
    ReadsAt env.text tsp t.str
  | .kAttr | .kPrivate => ∀ w, v = .str w → ReadsAt env.text tsp w
  | .kIf | .kUnless | .kElsif | .kCase | .kClass | .kDefine | .kApplication | .kFunction | .kPlan | .kNode | .kSite
  | .kDefault => ReadsAt env.text tsp t.str
  | _ => True

/-- Positions are in bounds and the definitions are well built. -/
structure Base (env : Env) (s : St) : Prop where
  pos : s.pos ≤ env.text.length + 1
  tsp : s.tsp ≤ env.text.length + 1
  nls : ∀ k, s.nls = some k → k ≤ env.text.length + 1
  nls2 : ∀ k, s.nls = some k → 2 ≤ k
  defs : ∀ d ∈ s.defs, d.isDefinition = true ∧ Node env s.defs .value d

/-- The end of the text was reached.  In a template a bare style word makes a workflow parser go back
to the closing tag (`identifier` sets the position to `tokenStartPos`). -/
def Fin (env : Env) (pos tsp : Nat) : Prop :=
  (env.epp = false ∨ env.workflow = false → env.text.length ≤ pos ∨ 0 ∈ env.text) ∧
    (env.epp = false → env.text.length ≤ tsp ∨ 0 ∈ env.text)

/-- `Base` with a token. -/
structure Inv (env : Env) (s : St) : Prop extends Base env s where
  tok : ValOK env s.defs s.tsp s.tok s.val
  fin : s.tok = .end_ → Fin env s.pos s.tsp
  sp : SpeltAt env s.tsp s.tok s.val

/-- `t` comes after `s`: no enclosing name and no definition is lost. -/
structure Adv (env : Env) (s t : St) : Prop where
  names : t.names = s.names
  defs : s.defs <+: t.defs
  r : R env s t

theorem Adv.refl (s : St) : Adv env s s := ⟨rfl, List.prefix_refl _, R.refl s⟩
theorem Adv.trans (h1 : Adv env s t) (h2 : Adv env t u) : Adv env s u :=
  ⟨h2.names.trans h1.names, h1.defs.trans h2.defs, h1.r.trans h2.r⟩
theorem Adv.mem (h : Adv env s t) : ∀ d ∈ s.defs, d ∈ t.defs := fun _ hd => h.defs.subset hd

theorem Adv.psi_le (h : Adv env s t) (h1 : Base env s) (h2 : Base env t) : psi env s ≤ psi env t :=
  psi_le_of h.r.1 h1.pos h2.pos

theorem ValOK.mono {D D' : List Expr} {tsp : Nat} {t : Tok} {v : TokVal} (h : ValOK env D tsp t v)
    (hD : ∀ d ∈ D, d ∈ D') : ValOK env D' tsp t v := by
  unfold ValOK at *
  split at h <;> try exact h
  · obtain ⟨e, h1, h2, h3⟩ := h
    exact ⟨e, h1, h2.mono hD, h3⟩
  · obtain ⟨e, h1, h2, h3⟩ := h
    exact ⟨e, h1, h2.mono hD, h3⟩

/-- The panic values that can occur. -/
def EOK (env : Env) : Err → Prop
  | .issue _ p => p ≤ env.text.length + 1
  | .invalidUnicode p => p ≤ env.text.length + 1
  | .crash k => (k = .slice ∧ b!"@(" <:+: env.text) ∨ (k = .hashAssertion ∧ b!"type" <:+: env.text) ∨
      (k = .tokenString ∧ env.workflow = true)
  | .timeout => False

end
end PP
