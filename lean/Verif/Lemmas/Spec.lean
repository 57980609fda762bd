import Verif.Lemmas.LexHeredoc

/-!
# What the recursive functions of the lexer and the parser do

`Pre n s` is what `n` requires of the state, `Post n s a s'` what it guarantees and `M n s` the
measure that its recursive calls make smaller.
-/
namespace PP

section
variable (env : Env)

/-- What is left, counted in parser steps. -/
def B (s : St) : Nat := (3 * psiMax env + 2 - phi env s) * 64

/-- What is left, counted in lexer steps. -/
def ML (s : St) : Nat := (psiMax env - psi env s) * 192

/-- Something was parsed. -/
structure Mv (s s' : St) : Prop where
  adv : Adv env s s'
  inv : Inv env s'
  bk : R env s (back s')
  phi : phi env s < phi env s'

/-- Nothing or something was parsed. -/
structure Le (s s' : St) : Prop where
  adv : Adv env s s'
  inv : Inv env s'
  phi : phi env s ≤ phi env s'

/-- Nothing was done or something was parsed. -/
def Ml (s s' : St) : Prop := s' = s ∨ Mv env s s'

/-- A token was read. -/
structure Nx (s s' : St) : Prop where
  adv : Adv env s s'
  inv : Inv env s'
  bk : R env s (back s')
  lt : s'.tok ≠ .end_ → psi env s < psi env s'
  digit : ∀ c n, Seen env s.pos c n → isDecimalDigit c = true → s'.tok = .integer ∨ s'.tok = .float

/-- The result of a function that parses a value. -/
structure VPost (s : St) (e : Expr) (s' : St) : Prop where
  mv : Mv env s s'
  val : Val env s'.defs e
  qn : e.isName = true → (e.isQName = true → rTok s.tok = 0) ∧ e.off = s.tsp

/-- The result of `atom` and `primary`. -/
structure PPost (s : St) (e : Expr) (s' : St) : Prop extends VPost env s e s' where
  bin : e.isBin = false
  num : (s.tok = .integer ∨ s.tok = .float) → isNumberLit (innermost e) = true

/-- The result of the loop of a left associative operator. -/
structure LPost (s : St) (e e' : Expr) (s' : St) : Prop where
  ml : Ml env s s'
  val : Val env s'.defs e'
  qn : e'.isName = true → e' = e

theorem LPost.name {env : Env} {s t u : St} {e e' : Expr} (h : LPost env t e e' u)
    (h1 : e.isName = true → (e.isQName = true → rTok s.tok = 0) ∧ e.off = s.tsp) (hx : e'.isName = true) :
    (e'.isQName = true → rTok s.tok = 0) ∧ e'.off = s.tsp := by
  have := h.qn hx
  subst this
  exact h1 hx

/-- What a producer produces. -/
def ProdOK (D : List Expr) : Producer → Expr → Prop
  | .argument, e => ArgV env D e
  | .keyedEntry, e => Node env D .entry e
  | .selectorEntry, e => Node env D .selEntry e
  | .expression, e => Node env D .value e
  | .stepProperty, e => env.workflow = true → Node env D .prop e
  | .stateAttribute, e => Node env D .entry e
  | .parameter, e => Node env D .param e
  | .returnParameter, e => Node env D .param e
  | .attributeAlias, e => Node env D .value e

def AllN (D : List Expr) (σ : Role) (es : List Expr) : Prop := ∀ e ∈ es, Node env D σ e

/-- Preconditions. -/
def Pre : NT → St → Prop
  | .nextToken, s => Base env s
  | .delim _ ds _ _ _ ec start segs, s => Base env s ∧ ds ≤ env.text.length ∧
      (ec ≠ 0 → start ≤ env.text.length ∧ s.pos ≤ env.text.length ∧ ∃ q n, Seen env q ec n ∧ s.pos = q + n) ∧ AllN env s.defs .segment segs
  | .escapes end_ _ _ _ _ segs, s => Base env s ∧ end_ ≤ env.text.length ∧ AllN env s.defs .segment segs
  | .parse _ _, s => Inv env s
  | .stmts _ acc, s => Inv env s ∧ ∀ e ∈ acc, StmtV env s.defs e
  | .commaArgs acc, s => Inv env s ∧ acc ≠ [] ∧ ∀ e ∈ acc, Val env s.defs e
  | .exprs _ p acc, s => Inv env s ∧ ∀ e ∈ acc, ProdOK env s.defs p e
  | .assignment, s | .expression, s | .binary _, s | .unary, s | .primary, s | .atom, s => Inv env s
  | .assignLoop e, s | .selLoop e, s | .binLoop _ e, s => Inv env s ∧ Val env s.defs e
  | .primLoop e, s => Inv env s ∧ Prim env s.defs e ∧ endOk env e ∧
      (e.isBin = true → ∃ p l r, e = .bin p .namedAccess l r)
  | .ifExpr u, s => Inv env s ∧ s.tok ≠ .end_ ∧ (if u then s.tok = .kUnless else s.tok = .kIf ∨ s.tok = .kElsif)
  | .caseOptions acc, s => Inv env s ∧ AllN env s.defs .option acc
  | .resourceExpr start first f, s => Inv env s ∧ s.tok = .lc ∧ start ≤ env.text.length + 1 ∧ Val env s.defs first ∧
      StartsForm env.text ⟨start, 0⟩ f first
  | .resourceBodies title acc, s => Inv env s ∧ Val env s.defs title ∧ AllN env s.defs .body acc
  | .attrOps acc, s => Inv env s ∧ AllN env s.defs .attr acc
  | .hostnames acc, s => Inv env s ∧ AllN env s.defs .value acc
  | .dottedName start _, s => Inv env s ∧ start ≤ env.text.length + 1
  | .activities acc, s => Inv env s ∧ env.workflow = true ∧ AllN env s.defs .activity acc
  | .eppLoop acc, s => Inv env s ∧ ∀ e ∈ acc, StmtV env s.defs e

/-- Postconditions. -/
def Post : (n : NT) → St → Out n → St → Prop
  | .nextToken, s, _, s' => Nx env s s'
  | .delim d .., s, segs, s' => Adv env s s' ∧ Base env s' ∧ (s'.tsp = s.tsp ∨ R env s (back s')) ∧
      AllN env s'.defs .segment segs ∧
      ((s'.tok = .string ∧ ∃ w, s'.val = .str w) ∨ (s'.tok = .divide ∧ s'.val = .nil ∧ d = c%'/'))
  | .escapes .., s, r, s' => Adv env s s' ∧ Base env s' ∧ (s'.tsp = s.tsp ∨ R env s (back s')) ∧
      AllN env s'.defs .segment r.2
  | .parse t single, s, e, s' => Le env s s' ∧ s'.tok = t ∧
      (if single = true then Val env s'.defs e else Node env s'.defs .block e)
  | .stmts t _, s, es, s' => Le env s s' ∧ s'.tok = t ∧ ∀ e ∈ es, StmtV env s'.defs e
  | .commaArgs acc, s, es, s' => Ml env s s' ∧ (es ≠ [] ∧ es.head? = acc.head?) ∧ ∀ e ∈ es, Val env s'.defs e
  | .exprs t p _, s, es, s' => Le env s s' ∧ s'.tok = t ∧ ∀ e ∈ es, ProdOK env s'.defs p e
  | .assignment, s, e, s' | .expression, s, e, s' | .binary _, s, e, s' | .unary, s, e, s' => VPost env s e s'
  | .primary, s, e, s' | .atom, s, e, s' => PPost env s e s'
  | .assignLoop e, s, e', s' | .selLoop e, s, e', s' | .binLoop _ e, s, e', s' => LPost env s e e' s'
  | .primLoop e, s, e', s' => LPost env s e e' s' ∧ e'.isBin = false ∧ innermost e' = innermost e
  | .ifExpr u, s, e, s' => Mv env s s' ∧ Val env s'.defs e ∧ e.isBin = false ∧ e.isName = false ∧ e.isDefinition = false ∧
      ∃ p c t x, e = .ifE p u c t x
  | .caseOptions _, s, es, s' => Le env s s' ∧ s'.tok = .rc ∧ AllN env s'.defs .option es
  | .resourceExpr .., s, e, s' => Mv env s s' ∧ Val env s'.defs e ∧ e.isName = false
  | .resourceBodies .., s, es, s' => Le env s s' ∧ AllN env s'.defs .body es
  | .attrOps _, s, es, s' => Le env s s' ∧ AllN env s'.defs .attr es
  | .hostnames _, s, es, s' => Le env s s' ∧ AllN env s'.defs .value es
  | .dottedName .., s, e, s' => Mv env s s' ∧ Node env s'.defs .value e
  | .activities _, s, es, s' => Le env s s' ∧ s'.tok = .rc ∧ AllN env s'.defs .activity es
  | .eppLoop _, s, es, s' => Le env s s' ∧ s'.tok = .end_ ∧ ∀ e ∈ es, StmtV env s'.defs e

/-- The rank of an operator level. -/
def Lvl.rank : Lvl → Nat
  | .rel => 32 | .or => 26 | .and => 25 | .compare => 24 | .equal => 23 | .shift => 22 | .additive => 21
  | .mult => 20 | .match_ => 19 | .in_ => 18

/-- The measure. -/
def M : NT → St → Nat
  | .nextToken, s => ML env s + 2
  | .delim _ _ _ _ _ ec _ _, s => ML env s + if ec = 0 then 0 else 3
  | .escapes .., s => ML env s + 3
  | .parse .., s => B env s + 42
  | .stmts .., s => B env s + 40
  | .exprs .., s => B env s + 40
  | .eppLoop .., s => B env s + 40
  | .caseOptions .., s => B env s + 41
  | .assignment, s => B env s + 30
  | .expression, s => B env s + 28
  | .binary l, s => B env s + l.rank
  | .unary, s => B env s + 16
  | .primary, s => B env s + 14
  | .hostnames .., s => B env s + 12
  | .dottedName .., s => B env s + 11
  | .atom, s => B env s + 10
  | .ifExpr _, s => B env s + 9
  | .commaArgs .., s | .assignLoop _, s | .selLoop _, s | .binLoop .., s | .primLoop _, s
  | .resourceExpr .., s | .resourceBodies .., s | .attrOps _, s | .activities _, s => B env s + 5

/-- Recursive calls below the measure `m` do what they should. -/
def HSelf (self : Self) (m : Nat) : Prop :=
  ∀ n s, Pre env n s → M env n s < m → wp env (self n) (Post env n s) (EOK env) s

end

section
variable {env : Env} {s t u : St} {self : Self} {m : Nat}

theorem phi_le_max (h : Base env s) : phi env s ≤ 3 * psiMax env + 2 := by
  have := psi_le_max (env := env) h.pos
  have := rTok_le s.tok
  unfold phi; omega

theorem ML_le_B (s : St) : ML env s ≤ B env s := by
  have := rTok_le s.tok
  unfold ML B phi; omega

theorem B_drop (h : phi env s < phi env t) (ht : Base env t) : B env t + 64 ≤ B env s := by
  have := phi_le_max ht
  unfold B; omega

theorem B_mono (h : phi env s ≤ phi env t) : B env t ≤ B env s := by
  unfold B; omega

theorem ML_drop (h : psi env s < psi env t) (ht : t.pos ≤ env.text.length + 1) : ML env t + 192 ≤ ML env s := by
  have := psi_le_max (env := env) ht
  unfold ML; omega

theorem ML_mono (h : psi env s ≤ psi env t) : ML env t ≤ ML env s := by
  unfold ML; omega

/-- From the lexer to the parser. -/
theorem B_ML (h : psi env s < psi env t) (ht : Base env t) : B env t + 64 ≤ ML env s := by
  have := phi_le_max ht
  have := psi_le_max (env := env) ht.pos
  unfold B ML phi at *; omega

theorem Mv.le (h : Mv env s t) : Le env s t := ⟨h.adv, h.inv, Nat.le_of_lt h.phi⟩
theorem Le.refl (h : Inv env s) : Le env s s := ⟨Adv.refl s, h, Nat.le_refl _⟩
theorem Le.trans (h1 : Le env s t) (h2 : Le env t u) : Le env s u :=
  ⟨h1.adv.trans h2.adv, h2.inv, Nat.le_trans h1.phi h2.phi⟩
theorem Mv.trans_ml (h1 : Mv env s t) (h2 : Ml env t u) : Mv env s u := by
  rcases h2 with rfl | h2
  · exact h1
  · exact ⟨h1.adv.trans h2.adv, h2.inv, h1.adv.r.trans h2.bk, Nat.lt_trans h1.phi h2.phi⟩
theorem Le.trans_mv (h1 : Le env s t) (h2 : Mv env t u) : Mv env s u :=
  ⟨h1.adv.trans h2.adv, h2.inv, h1.adv.r.trans h2.bk, Nat.lt_of_le_of_lt h1.phi h2.phi⟩
theorem Mv.trans_le (h1 : Mv env s t) (h2 : Le env t u) : Le env s u := h1.le.trans h2
theorem Mv.trans (h1 : Mv env s t) (h2 : Mv env t u) : Mv env s u := h1.trans_ml (.inr h2)
theorem Ml.trans_mv (h1 : Ml env s t) (h2 : Mv env t u) : Mv env s u := by
  rcases h1 with rfl | h1
  · exact h2
  · exact h1.trans h2
theorem Ml.trans (h1 : Ml env s t) (h2 : Ml env t u) : Ml env s u := by
  rcases h1 with rfl | h1
  · exact h2
  · exact .inr (h1.trans_ml h2)
theorem Ml.le (h : Ml env s t) (hs : Inv env s) : Le env s t := by
  rcases h with rfl | h
  · exact .refl hs
  · exact h.le
theorem Ml.mv (h : Ml env s t) : t = s ∨ Mv env s t := h

theorem Nx.psi_le (h : Nx env s t) (hs : Base env s) : psi env s ≤ psi env t := h.adv.psi_le hs h.inv.toBase

theorem Nx.phi_le (h : Nx env s t) (hs : Base env s) : phi env s ≤ phi env t := by
  have h1 := h.psi_le hs
  have h2 := rTok_le s.tok
  unfold phi
  by_cases ht : t.tok = .end_
  · have h3 : rTok t.tok = 2 := by rw [ht]; rfl
    omega
  · have := h.lt ht; omega

theorem Nx.phi_lt (h : Nx env s t) (hs : Base env s) (hn : s.tok ≠ .end_) : phi env s < phi env t := by
  have h1 := h.psi_le hs
  have h2 := rTok_lt hn
  unfold phi
  by_cases ht : t.tok = .end_
  · have h3 : rTok t.tok = 2 := by rw [ht]; rfl
    omega
  · have := h.lt ht; omega

theorem Nx.le (h : Nx env s t) (hs : Base env s) : Le env s t := ⟨h.adv, h.inv, h.phi_le hs⟩
theorem Nx.mv (h : Nx env s t) (hs : Base env s) (hn : s.tok ≠ .end_) : Mv env s t :=
  ⟨h.adv, h.inv, h.bk, h.phi_lt hs hn⟩

/-- After something was parsed one more token may be read. -/
theorem Mv.nx (h1 : Mv env s t) (h2 : Nx env t u) : Mv env s u :=
  ⟨h1.adv.trans h2.adv, h2.inv, h1.adv.r.trans h2.bk, Nat.lt_of_lt_of_le h1.phi (h2.phi_le h1.inv.toBase)⟩

theorem Mv.B (h : Mv env s t) : B env t + 64 ≤ B env s := B_drop h.phi h.inv.toBase
theorem Le.B (h : Le env s t) : PP.B env t ≤ PP.B env s := B_mono h.phi
theorem Ml.B (h : Ml env s t) : PP.B env t ≤ PP.B env s := by
  rcases h with rfl | h
  · exact Nat.le_refl _
  · have := h.B; omega

theorem wp_nextTok (H : HSelf env self m) (hs : Base env s) (hm : B env s + 2 < m) :
    wp env (self .nextToken) (fun _ s' => Nx env s s') (EOK env) s :=
  H .nextToken s hs (by have := ML_le_B (env := env) s; show ML env s + 2 < m; omega)

theorem wp_tokenString {E : Err → Prop} (h : (∃ w, s.val = .str w) ∨ s.val = .nil) :
    wp env tokenString (fun _ s' => s' = s) E s := by
  unfold wp tokenString
  rcases h with ⟨w, h⟩ | h <;> rw [h]

/-- Tokens whose value is a string or missing. -/
def Tok.hasStr : Tok → Bool
  | .boolean | .integer | .float | .kDefault | .heredoc | .concatenatedString | .variable => false
  | _ => true

theorem ValOK.str {D : List Expr} {tsp : Nat} {t : Tok} {v : TokVal} (h : ValOK env D tsp t v)
    (ht : t.hasStr = true) : (∃ w, v = .str w) ∨ v = .nil := by
  cases t <;> first
    | exact absurd ht (by decide)
    | exact .inl h
    | exact .inr h
    | exact .inl ⟨_, h⟩
    | exact .inl h.1
    | exact .inl h.2
    | exact .inr h.2

theorem Inv.str (h : Inv env s) (ht : s.tok.hasStr = true) {E : Err → Prop} :
    wp env tokenString (fun _ s' => s' = s) E s := wp_tokenString (h.tok.str ht)

/-- Tokens with one text. -/
def Tok.fixed : Tok → Bool
  | .assign | .addAssign | .subtractAssign | .farrow | .parrow | .kProduces | .kConsumes
  | .inEdge | .inEdgeSub | .outEdge | .outEdgeSub | .less | .lessEqual | .greater | .greaterEqual | .equal | .notEqual
  | .lshift | .rshift | .add | .subtract | .multiply | .divide | .remainder | .match_ | .notMatch => true
  | _ => false

theorem ValOK.fixed {D : List Expr} {tsp : Nat} {t : Tok} {v : TokVal} (h : ValOK env D tsp t v)
    (ht : t.fixed = true) : v = .nil ∨ v = .str t.str := by
  cases t <;> first
    | exact absurd ht (by decide)
    | exact .inl h
    | exact .inr h

/-- The text of an operator. -/
theorem Inv.op (h : Inv env s) (ht : s.tok.hasStr = true) {E : Err → Prop} :
    wp env tokenString (fun w s' => s' = s ∧ (s.tok.fixed = true → w = s.tok.str)) E s := by
  cases hf : s.tok.fixed with
  | true =>
    unfold tokenString wp
    dsimp only
    rcases h.tok.fixed hf with hv | hv <;> rw [hv] <;> exact ⟨rfl, fun _ => rfl⟩
  | false => exact wp_imp (h.str ht) fun _ _ h => ⟨h, fun h => (nomatch h)⟩

/-- The text of a type name or a reserved word. -/
theorem Inv.word (h : Inv env s) (ht : s.tok = .typeName ∨ s.tok = .kAttr ∨ s.tok = .kPrivate) {E : Err → Prop} :
    wp env tokenString (fun w s' => s' = s ∧ ReadsAt env.text s.tsp w) E s := by
  have h1 := h.tok
  have h2 := h.sp
  rcases ht with ht | ht | ht <;> rw [ht] at h1 h2 <;> obtain ⟨w, hw⟩ := h1 <;> unfold tokenString wp <;> dsimp only <;> rw [hw] <;>
    exact ⟨rfl, h2 w hw⟩

end
end PP
