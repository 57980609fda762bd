import Verif.Parser
import Verif.Spec.Start
import Verif.Spec.Words

/-!
# The trees that the parser builds

`Node env D σ e`: the tree `e` is built from the node constructions of the parser; `σ` is its role,
`D` the list of definitions found so far.  An auxiliary notion for the proofs about the parser: the
properties derive what they claim from it.
-/
namespace PP

def Expr.isBin : Expr → Bool
  | .bin .. => true
  | _ => false

/-- The role of a node. -/
inductive Role where
  | value | functor | entry | selEntry | option | param | attr | body | query | block | stmt | segment
  | lambda | prop | activity | else_ | operand
deriving DecidableEq

/-- Offsets are at most one past the end of the text (a heredoc at the end of the text). -/
def okPos (env : Env) (p : Pos) : Prop := p.off ≤ env.text.length + 1

/-- A call of a function stands in a block as a statement, and the name of a statement function only at the end: elsewhere
it takes the next expression as its argument.  A list `a, b` of statements is left only in a block that ends with a
statement call. -/
structure BlockOk (ss : List Expr) : Prop where
  rval : ∀ p w f args lam, Expr.call p .named w f args lam ∈ ss → w = false
  names : ∀ e ∈ ss.dropLast, isStatementCall e = false
  commas : ∀ p es, Expr.commaSep p es ∈ ss →
    ∃ q m args, ss.getLast? = some (.call q .named false m args none) ∧ isStatementCall m = true

/-- The node starts where it should. -/
abbrev Stt (env : Env) (e : Expr) : Prop := Starts env.text env.workflow e

inductive Node (env : Env) (D : List Expr) : Role → Expr → Prop
  | access {p o ks} : okPos env p → Stt env (.access p o ks) → Node env D .operand o → (∀ k ∈ ks, Node env D .value k) →
      Node env D .value (.access p o ks)
  | bin {p k l r} : okPos env p → k ≠ .namedAccess → Stt env (.bin p k l r) → Node env D .value l → Node env D .value r →
      (∃ o, (o, k) ∈ Spec.operators) → Node env D .value (.bin p k l r)
  | namedAccess {p l r} : okPos env p → Node env D .value l → Node env D .value r →
      Node env D .functor (.bin p .namedAccess l r)
  | operand {e} : Node env D .value e → Node env D .operand e
  | rawAccess {p l r} : okPos env p → Node env D .operand l → Node env D .value r →
      Node env D .operand (.bin p .namedAccess l r)
  | un {p k e} : okPos env p → Stt env (.un p k e) → (k = .not ∨ k = .paren ∨ k = .minus ∨ k = .unfold ∨ (k = .render ∧ env.epp = true)) →
      Node env D .value e → Node env D .value (.un p k e)
  | namedVar {p q n} : okPos env p → okPos env q → Node env D .value (.un p .variable (.qname q n))
  | numVar {p q v} : okPos env p → okPos env q → Node env D .value (.un p .variable (.integer q 10 v))
  | text {p e} : okPos env p → Node env D .value e → Node env D .segment (.un p .text e)
  | textString {p v} : okPos env p → Node env D .segment (.string p v)
  | query {p x e} : okPos env p → Stt env (.query p x e) → Node env D .value e → Node env D .query (.query p x e)
  | queryNop {p x q} : okPos env p → Stt env (.query p x (.nop q)) → okPos env q → Node env D .query (.query p x (.nop q))
  | attributeOp {p o n v} : okPos env p → Node env D .value v → (o = b!"=>" ∨ o = b!"+>") → Node env D .attr (.attributeOp p o n v)
  | attributesOp {p v} : okPos env p → Stt env (.attributesOp p v) → Node env D .value v → Node env D .attr (.attributesOp p v)
  | block {p ss} : okPos env p → BlockOk ss → (∀ e ∈ ss, Node env D .stmt e) → Node env D .block (.block p ss)
  | stmt {e} : Node env D .value e → Node env D .stmt e
  | comma {p es} : okPos env p → Stt env (.commaSep p es) → 2 ≤ es.length → (∀ e ∈ es, Node env D .value e) → Node env D .stmt (.commaSep p es)
  | call {p rv f args lam} : okPos env p → Stt env (.call p .named rv f args lam) → Node env D .value f → (∀ a ∈ args, Node env D .value a) →
      (∀ l, lam = some l → Node env D .lambda l) → Node env D .value (.call p .named rv f args lam)
  | method {p f args lam} : okPos env p → Stt env (.call p .method true f args lam) → Node env D .functor f → (∀ a ∈ args, Node env D .value a) →
      (∀ l, lam = some l → Node env D .lambda l) → Node env D .value (.call p .method true f args lam)
  | lambda {p ps b rt} : okPos env p → Stt env (.lambda p ps b rt) → (∀ e ∈ ps, Node env D .param e) → Node env D .block b →
      (∀ t, rt = some t → Node env D .value t) → Node env D .lambda (.lambda p ps b rt)
  | capabilityMapping {p k c comp ms} : okPos env p → Node env D .value comp → (∀ m ∈ ms, Node env D .attr m) →
      Expr.capabilityMapping p k c comp ms ∈ D → (k = b!"produces" ∨ k = b!"consumes") →
      Node env D .value (.capabilityMapping p k c comp ms)
  | caseE {p t os} : okPos env p → Stt env (.caseE p t os) → Node env D .value t → (∀ o ∈ os, Node env D .option o) →
      Node env D .value (.caseE p t os)
  | caseOption {p vs t} : okPos env p → (∀ v ∈ vs, Node env D .value v) → Node env D .block t →
      Node env D .option (.caseOption p vs t)
  | collect {p t q ops} : okPos env p → Stt env (.collect p t q ops) → Node env D .operand t → Node env D .query q →
      (∀ o ∈ ops, Node env D .attr o) → Node env D .value (.collect p t q ops)
  | concat {p ss} : okPos env p → (∀ e ∈ ss, Node env D .segment e) → Node env D .value (.concat p ss)
  | heredocString {p s q v} : okPos env p → okPos env q → Node env D .value (.heredoc p s (.string q v))
  | heredocConcat {p s q ss} : okPos env p → okPos env q → (∀ e ∈ ss, Node env D .segment e) →
      Node env D .value (.heredoc p s (.concat q ss))
  | ifE {p u c t e} : okPos env p → Stt env (.ifE p u c t e) → Node env D .value c → Node env D .block t → Node env D .else_ e →
      Node env D .value (.ifE p u c t e)
  | elseBlock {e} : Node env D .block e → Node env D .else_ e
  | elseIf {p c t e} : Node env D .value (.ifE p false c t e) → Node env D .else_ (.ifE p false c t e)
  | elseNop {p} : okPos env p → Node env D .else_ (.nop p)
  | keyedEntry {p k v} : okPos env p → Stt env (.keyedEntry p k v) → Node env D .value k → Node env D .value v → Node env D .entry (.keyedEntry p k v)
  | boolean {p v} : okPos env p → Stt env (.boolean p v) → Node env D .value (.boolean p v)
  | dflt {p} : okPos env p → Stt env (.dflt p) → Node env D .value (.dflt p)
  | float {p v} : okPos env p → Node env D .value (.float p v)
  | hash {p es} : okPos env p → (∀ e ∈ es, Node env D .entry e) → Node env D .value (.hash p es)
  | integer {p r v} : okPos env p → Node env D .value (.integer p r v)
  | list {p es} : okPos env p → (∀ e ∈ es, Node env D .value e) → Node env D .value (.list p es)
  | string {p v} : okPos env p → Node env D .value (.string p v)
  | undef {p} : okPos env p → Node env D .value (.undef p)
  | qname {p n} : okPos env p → Node env D .value (.qname p n)
  | qref {p n} : okPos env p → Stt env (.qref p n (toLowerAscii n)) → Node env D .value (.qref p n (toLowerAscii n))
  | regexp {p v} : okPos env p → Node env D .value (.regexp p v)
  | renderString {p v} : okPos env p → env.epp = true → Node env D .value (.renderString p v)
  | reserved {p w} : okPos env p → Stt env (.reserved p w false) → Node env D .value (.reserved p w false)
  | namedDef {p k n ps b} : okPos env p → Stt env (.namedDef p k n ps b) → (∀ e ∈ ps, Node env D .param e) → Node env D .block b →
      Expr.namedDef p k n ps b ∈ D → Node env D .value (.namedDef p k n ps b)
  | function {p pl n ps b rt} : okPos env p → Stt env (.function p pl n ps b rt) → (pl = true → env.tasks = true) → (∀ e ∈ ps, Node env D .param e) →
      Node env D .block b → (∀ t, rt = some t → Node env D .value t) →
      Expr.function p pl n ps b rt ∈ D → Node env D .value (.function p pl n ps b rt)
  | node {p pa hs b} : okPos env p → Stt env (.node p pa hs b) → (∀ h, pa = some h → Node env D .value h) → (∀ h ∈ hs, Node env D .value h) →
      Node env D .block b → Expr.node p pa hs b ∈ D → Node env D .value (.node p pa hs b)
  | site {p b} : okPos env p → Stt env (.site p b) → Node env D .block b → Expr.site p b ∈ D → Node env D .value (.site p b)
  | typeAlias {p n t} : okPos env p → Node env D .value t → Expr.typeAlias p n t ∈ D →
      Node env D .value (.typeAlias p n t)
  | typeDefinition {p n pa b} : okPos env p → Node env D .block b → Expr.typeDefinition p n pa b ∈ D →
      Node env D .value (.typeDefinition p n pa b)
  | typeMapping {p t m} : okPos env p → Node env D .value t → Node env D .value m → Expr.typeMapping p t m ∈ D →
      Node env D .value (.typeMapping p t m)
  | parameter {p n v t c} : okPos env p → (∀ e, v = some e → Node env D .value e) →
      (∀ e, t = some e → Node env D .value e) → Node env D .param (.parameter p n v t c)
  | resource {p f t bs} : okPos env p → Stt env (.resource p f t bs) → Node env D .value t → (∀ b ∈ bs, Node env D .body b) →
      Node env D .value (.resource p f t bs)
  | resourceBody {p t ops} : okPos env p → Stt env (.resourceBody p t ops) → Node env D .value t → (∀ o ∈ ops, Node env D .attr o) →
      Node env D .body (.resourceBody p t ops)
  | resourceDefaults {p f t ops} : okPos env p → Stt env (.resourceDefaults p f t ops) → Node env D .value t → (∀ o ∈ ops, Node env D .attr o) →
      Node env D .value (.resourceDefaults p f t ops)
  | resourceOverride {p f t ops} : okPos env p → Stt env (.resourceOverride p f t ops) → Node env D .value t → (∀ o ∈ ops, Node env D .attr o) →
      Node env D .value (.resourceOverride p f t ops)
  | selector {p t ss} : okPos env p → Stt env (.selector p t ss) → Node env D .value t → (∀ e ∈ ss, Node env D .selEntry e) →
      Node env D .value (.selector p t ss)
  | selectorEntry {p m v} : okPos env p → Node env D .value m → Node env D .value v →
      Node env D .selEntry (.selectorEntry p m v)
  | prop {p k v} : env.workflow = true → okPos env p → Node env D .value k → Node env D .value v → Node env D .prop (.keyedEntry p k v)
  | propList {p k q es} : env.workflow = true → okPos env p → Node env D .value k → okPos env q → (∀ e ∈ es, Node env D .param e) →
      Node env D .prop (.keyedEntry p k (.list q es))
  | propHash {p k q es} : env.workflow = true → okPos env p → Node env D .value k → okPos env q → (∀ e ∈ es, Node env D .prop e) →
      Node env D .prop (.keyedEntry p k (.hash q es))
  | step {p n st ps d} : env.workflow = true → Expr.step p n st ps d ∈ D →
      Node env D .activity (.step p n st ps d) → Node env D .value (.step p n st ps d)
  | activityStep {p n st q es d} : okPos env p → okPos env q → env.workflow = true → (∀ e ∈ es, Node env D .prop e) →
      (∀ e, d = some e → st ≠ .workflow → st ≠ .resource → Node env D .block e) →
      (∀ e, d = some e → st = .resource → Node env D .value e) →
      (∀ e, d = some e → st = .workflow → ∃ r acts, e = .block r acts) →
      (∀ r acts, d = some (.block r acts) → st = .workflow → okPos env r) →
      (∀ r acts, d = some (.block r acts) → st = .workflow → ∀ a ∈ acts, Node env D .activity a) →
      Node env D .activity (.step p n st (if es.isEmpty then none else some (.hash q es)) d)
  | activityFunction {p n ps b rt} : Node env D .value (.function p false n ps b rt) →
      Node env D .activity (.function p false n ps b rt)

theorem Node.mono {env : Env} {D D' : List Expr} {σ : Role} {e : Expr} (h : Node env D σ e)
    (hD : ∀ d ∈ D, d ∈ D') : Node env D' σ e := by
  induction h with
  | step h1 h2 _ ih => exact .step h1 (hD _ h2) ih
  | activityStep h1 h2 h3 _ _ _ h4 h5 _ ih1 ih2 ih3 ih4 => exact .activityStep h1 h2 h3 ih1 ih2 ih3 h4 h5 ih4
  | stmt _ ih => exact .stmt ih
  | operand _ ih => exact .operand ih
  | rawAccess h1 _ _ ih1 ih2 => exact .rawAccess h1 ih1 ih2
  | comma h1 h0 h2 _ ih => exact .comma h1 h0 h2 ih
  | elseBlock _ ih => exact .elseBlock ih
  | elseIf _ ih => exact .elseIf ih
  | elseNop h => exact .elseNop h
  | prop hw h1 _ _ h2 h3 => exact .prop hw h1 h2 h3
  | propList hw h1 _ h3 _ h2 h4 => exact .propList hw h1 h2 h3 h4
  | propHash hw h1 _ h3 _ h2 h4 => exact .propHash hw h1 h2 h3 h4
  | namedVar h1 h2 => exact .namedVar h1 h2
  | numVar h1 h2 => exact .numVar h1 h2
  | text h1 _ ih => exact .text h1 ih
  | queryNop h1 h0 h2 => exact .queryNop h1 h0 h2
  | heredocString h1 h2 => exact .heredocString h1 h2
  | heredocConcat h1 h2 _ ih => exact .heredocConcat h1 h2 ih
  | activityFunction _ ih => exact .activityFunction ih
  | _ => constructor <;> first | assumption | exact hD _ ‹_›

/-- Nodes start where they should. -/
theorem Node.starts {env : Env} {D : List Expr} {σ : Role} {e : Expr} (h : Node env D σ e) : Stt env e := by
  induction h with
  | namedAccess => exact fun h => absurd rfl h
  | rawAccess => exact fun h => absurd rfl h
  | prop h => exact fun h' => absurd (h.symm.trans h') (by decide)
  | propList h => exact fun h' => absurd (h.symm.trans h') (by decide)
  | propHash h => exact fun h' => absurd (h.symm.trans h') (by decide)
  | namedVar => exact List.nil_prefix
  | numVar => exact List.nil_prefix
  | text => exact List.nil_prefix
  | _ => first | assumption | exact True.intro

end PP
