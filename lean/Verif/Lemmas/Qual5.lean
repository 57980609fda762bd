import Verif.Lemmas.Qual4

/-! # Qualified names: the productions -/
namespace PP.Qu
open PP PP.Props

section
variable {env : Env} {base ns ms ls : List GoStr} {self : Self}

theorem Ok.pureAny {α : Type} {a : α} : Ok env base ns (Pure.pure a) ns (fun _ => True) := .pure trivial
theorem AllN.join {es : List Expr} (h : AllN ns es) : AllN ns (joinHashEntries es) := named_joinHashEntries h
theorem Named.ofAny {e : Expr} (h : Any e) : Named ns e := h ns

def AnyKey (r : Option (GoStr × Expr)) : Prop := ∀ x ∈ r, Any x.2
theorem AnyKey.get {n : GoStr} {k : Expr} (h : AnyKey (some (n, k))) : Named ns k := h _ rfl ns
theorem OptN.get {e : Expr} (h : OptN ns (Option.some e)) : Named ns e := h _ rfl
theorem Named.binl {p k l r} (h : Named ns (.bin p k l r)) : Named ns l := (h.kids rfl).of_cons.1
theorem Named.binr {p k l r} (h : Named ns (.bin p k l r)) : Named ns r := (h.kids rfl).of_cons.2.of_cons.1
theorem I.named {s : St} {e : Expr} (hv : s.val = .expr e) (h : I base s ∧ s.names = ns) : Named ms e := h.1.val e hv ms
theorem AllN.ofHash {p es} (h : Named ns (.hash p es)) : AllN ns es := h.kids rfl
theorem AllN.ofList {p es} (h : Named ns (.list p es)) : AllN ns es := h.kids rfl
theorem Named.ofList {p e} (h : Named ns (.list p [e])) : Named ns e := (h.kids rfl).of_cons.1
theorem Named.objectRef {n} : Named ns (objectRef n) := .leaf rfl rfl
theorem Named.mapping' {n : GoStr} {q p kind c ms} (hq : q = qualified (ns ++ [n])) (hc : Named ns c) (hm : AllN ns ms) :
    Named ns (.capabilityMapping p kind q c ms) := hq ▸ .mapping hc hm

macro_rules | `(tactic| nm1) => `(tactic| first
  | (with_reducible refine OptN.get ?_; assumption) | (with_reducible apply AnyKey.get; assumption)
  | with_reducible apply Named.setPos | with_reducible apply named_convertLhsToCall
  | with_reducible apply named_joinHashEntries
  | (with_reducible apply Named.binl; assumption) | (with_reducible apply Named.binr; assumption)
  | (with_reducible apply I.named; (· assumption); assumption)
  | (with_reducible apply AllN.ofHash; assumption) | (with_reducible apply AllN.ofList; assumption)
  | (with_reducible apply Named.ofList; assumption)
  | with_reducible exact Named.objectRef
  | (with_reducible apply Named.mapping'; (· assumption)))

variable (H : HS env base self)
include H
theorem Ok.identifier   : Ok env base ns (PP.identifier self) ns (fun _ => True) := by
  unfold PP.identifier
  ok
macro_rules | `(tactic| okl) => `(tactic| (with_reducible refine Ok.identifier ?_; (· assumption)))

theorem Ok.identifierExpr   : Ok env base ns (PP.identifierExpr self) ns AnyKey := by
  unfold PP.identifierExpr
  ok
  all_goals (refine Ok.pure fun x hx => ?_; cases hx; nm)
macro_rules | `(tactic| okl) => `(tactic| (with_reducible refine Ok.identifierExpr ?_; (· assumption)))

theorem Ok.typeName   : Ok env base ns (PP.typeName self) ns (OptN ns) := by
  unfold PP.typeName
  ok
macro_rules | `(tactic| okl) => `(tactic| (with_reducible refine Ok.typeName ?_; (· assumption)))

theorem Ok.arrayExpression   : Ok env base ns (PP.arrayExpression self) ns (AllN ns) := by
  unfold PP.arrayExpression
  ok
macro_rules | `(tactic| okl) => `(tactic| (with_reducible refine Ok.arrayExpression ?_; (· assumption)))

theorem Ok.parameterType   : Ok env base ns (PP.parameterType self) ns (Named ns) := by
  unfold PP.parameterType
  ok
macro_rules | `(tactic| okl) => `(tactic| (with_reducible refine Ok.parameterType ?_; (· assumption)))

theorem Ok.parameterList   : Ok env base ns (PP.parameterList self) ns (AllN ns) := by
  unfold PP.parameterList
  ok
macro_rules | `(tactic| okl) => `(tactic| (with_reducible refine Ok.parameterList ?_; (· assumption)))

theorem Ok.optParameterList   : Ok env base ns (PP.optParameterList self) ns (AllN ns) := by
  unfold PP.optParameterList
  ok
macro_rules | `(tactic| okl) => `(tactic| (with_reducible refine Ok.optParameterList ?_; (· assumption)))

theorem Ok.optReturnType   : Ok env base ns (PP.optReturnType self) ns (OptN ns) := by
  unfold PP.optReturnType
  ok
macro_rules | `(tactic| okl) => `(tactic| (with_reducible refine Ok.optReturnType ?_; (· assumption)))

theorem Ok.lambdaParameterList   : Ok env base ns (PP.lambdaParameterList self) ns (AllN ns) := by
  unfold PP.lambdaParameterList
  ok
macro_rules | `(tactic| okl) => `(tactic| (with_reducible refine Ok.lambdaParameterList ?_; (· assumption)))

theorem Ok.braces   : Ok env base ns (PP.braces self) ns (Named ns) := by
  unfold PP.braces
  ok
macro_rules | `(tactic| okl) => `(tactic| (with_reducible refine Ok.braces ?_; (· assumption)))

theorem Ok.lambda   : Ok env base ns (PP.lambda self) ns (Named ns) := by
  unfold PP.lambda
  ok
macro_rules | `(tactic| okl) => `(tactic| (with_reducible refine Ok.lambda ?_; (· assumption)))

theorem Ok.callFunctionExpression {e : Expr} (h : Named ns e) : Ok env base ns (PP.callFunctionExpression self e) ns (Named ns) := by
  unfold PP.callFunctionExpression
  have fin : ∀ (args : List Expr) (block : Option Expr) (p : Pos), AllN ns args → OptN ns block → Ok env base ns
      (match e with
        | .bin p' .namedAccess l r => Pure.pure (convertLhsToCall p' l r args block p)
        | _ => Pure.pure (.call p .named true e args block)) ns (Named ns) := by
    intro args block p ha hb
    split
    · exact .pureN (named_convertLhsToCall (Named.binl h) (Named.binr h) ha hb)
    · exact .pureN (by nm)
  refine Ok.bind Ok.curTok fun t _ => ?_
  dsimp only
  refine Ok.ite (fun _ => ?_) (fun _ => ?_)
  · refine Ok.bind H.tok fun _ _ => Ok.bind (HS.exprs H .nil) fun es he => Ok.bind Ok.getPos fun p _ => Ok.bind H.tok fun _ _ => ?_
    refine Ok.bindPure (Ok.bind Ok.curTok fun t _ => Ok.ite (fun _ => ?_) (fun _ => ?_))
    · exact Ok.bind (Ok.lambda H) fun l hl => Ok.bindPure (fin _ _ _ (named_joinHashEntries he) (.some hl))
    · exact Ok.bindPure (fin _ _ _ (named_joinHashEntries he) .none)
  · refine Ok.bindPure (Ok.bind Ok.curTok fun t _ => Ok.ite (fun _ => ?_) (fun _ => ?_))
    · exact Ok.bind (Ok.lambda H) fun l hl => Ok.bindPure (fin _ _ _ .nil (.some hl))
    · exact Ok.bindPure (fin _ _ _ .nil .none)
macro_rules | `(tactic| okl) => `(tactic| (with_reducible refine Ok.callFunctionExpression ?_ ?_; (· assumption); (· nm; done)))

theorem Ok.handleKeyword   : Ok env base ns (PP.handleKeyword self) ns (Named ns) := by
  unfold PP.handleKeyword
  ok
macro_rules | `(tactic| okl) => `(tactic| (with_reducible refine Ok.handleKeyword ?_; (· assumption)))

theorem Ok.argument   : Ok env base ns (PP.argument self) ns (Named ns) := by
  unfold PP.argument
  ok
macro_rules | `(tactic| okl) => `(tactic| (with_reducible refine Ok.argument ?_; (· assumption)))

theorem Ok.keyedEntry   : Ok env base ns (PP.keyedEntry self) ns (Named ns) := by
  unfold PP.keyedEntry
  ok
macro_rules | `(tactic| okl) => `(tactic| (with_reducible refine Ok.keyedEntry ?_; (· assumption)))

theorem Ok.selectorEntry   : Ok env base ns (PP.selectorEntry self) ns (Named ns) := by
  unfold PP.selectorEntry
  ok
macro_rules | `(tactic| okl) => `(tactic| (with_reducible refine Ok.selectorEntry ?_; (· assumption)))

theorem Ok.parameter   : Ok env base ns (PP.parameter self) ns (Named ns) := by
  unfold PP.parameter
  ok
macro_rules | `(tactic| okl) => `(tactic| (with_reducible refine Ok.parameter ?_; (· assumption)))

theorem Ok.attributeAlias   : Ok env base ns (PP.attributeAlias self) ns (Named ns) := by
  unfold PP.attributeAlias
  ok
macro_rules | `(tactic| okl) => `(tactic| (with_reducible refine Ok.attributeAlias ?_; (· assumption)))

theorem Ok.returnParameter   : Ok env base ns (PP.returnParameter self) ns (Named ns) := by
  unfold PP.returnParameter
  ok
macro_rules | `(tactic| okl) => `(tactic| (with_reducible refine Ok.returnParameter ?_; (· assumption)))

theorem Ok.stepProperty   : Ok env base ns (PP.stepProperty self) ns (Named ns) := by
  unfold PP.stepProperty
  ok
macro_rules | `(tactic| okl) => `(tactic| (with_reducible refine Ok.stepProperty ?_; (· assumption)))

theorem Ok.stateAttribute   : Ok env base ns (PP.stateAttribute self) ns (Named ns) := by
  unfold PP.stateAttribute
  ok
macro_rules | `(tactic| okl) => `(tactic| (with_reducible refine Ok.stateAttribute ?_; (· assumption)))

theorem Ok.produce {p : Producer}  : Ok env base ns (PP.produce self p) ns (Named ns) := by
  unfold PP.produce
  ok
macro_rules | `(tactic| okl) => `(tactic| (with_reducible refine Ok.produce ?_; (· assumption)))

theorem Ok.exprsBody {t p acc} (h : AllN ns acc) : Ok env base ns (PP.exprsBody self t p acc) ns (AllN ns) := by
  unfold PP.exprsBody
  ok
theorem Ok.commaArgsBody {acc} (h : AllN ns acc) : Ok env base ns (PP.commaArgsBody self acc) ns (AllN ns) := by
  unfold PP.commaArgsBody
  ok
theorem Ok.syntacticStatement   : Ok env base ns (PP.syntacticStatement self) ns (Named ns) := by
  unfold PP.syntacticStatement
  ok
macro_rules | `(tactic| okl) => `(tactic| (with_reducible refine Ok.syntacticStatement ?_; (· assumption)))

theorem Ok.stmtsBody {t acc} (h : AllN ns acc) : Ok env base ns (PP.stmtsBody self t acc) ns (AllN ns) := by
  unfold PP.stmtsBody
  ok
theorem Ok.parseBody {t b}  : Ok env base ns (PP.parseBody self t b) ns (Named ns) := by
  unfold PP.parseBody
  ok
theorem Ok.className   : Ok env base ns (PP.className self) ns (fun _ => True) := by
  unfold PP.className
  ok
macro_rules | `(tactic| okl) => `(tactic| (with_reducible refine Ok.className ?_; (· assumption)))

theorem Ok.attributeOperation   : Ok env base ns (PP.attributeOperation self) ns (Named ns) := by
  unfold PP.attributeOperation
  ok
macro_rules | `(tactic| okl) => `(tactic| (with_reducible refine Ok.attributeOperation ?_; (· assumption)))

theorem Ok.attrOpsBody {acc} (h : AllN ns acc) : Ok env base ns (PP.attrOpsBody self acc) ns (AllN ns) := by
  unfold PP.attrOpsBody
  ok
theorem Ok.capabilityMapping {e k} (h : Named ns e) : Ok env base ns (PP.capabilityMapping self e k) ns (Named ns) := by
  unfold PP.capabilityMapping
  ok
macro_rules | `(tactic| okl) => `(tactic| (with_reducible refine Ok.capabilityMapping ?_ ?_; (· assumption); (· nm; done)))

theorem Ok.expressionBody   : Ok env base ns (PP.expressionBody self) ns (Named ns) := by
  unfold PP.expressionBody
  ok
theorem Ok.selectorsExpression {e} (h : Named ns e) : Ok env base ns (PP.selectorsExpression self e) ns (Named ns) := by
  unfold PP.selectorsExpression
  ok
macro_rules | `(tactic| okl) => `(tactic| (with_reducible refine Ok.selectorsExpression ?_ ?_; (· assumption); (· nm; done)))

theorem Ok.selLoopBody {e} (h : Named ns e) : Ok env base ns (PP.selLoopBody self e) ns (Named ns) := by
  unfold PP.selLoopBody
  ok
theorem Ok.stepName   : Ok env base ns (PP.stepName self) ns (fun _ => True) := by
  unfold PP.stepName
  ok
macro_rules | `(tactic| okl) => `(tactic| (with_reducible refine Ok.stepName ?_; (· assumption)))

theorem Ok.stepStyle   : Ok env base ns (PP.stepStyle self) ns (fun _ => True) := by
  unfold PP.stepStyle
  ok
macro_rules | `(tactic| okl) => `(tactic| (with_reducible refine Ok.stepStyle ?_; (· assumption)))

theorem Ok.stepIteration {n}  : Ok env base ns (PP.stepIteration self n) ns (AllN ns) := by
  unfold PP.stepIteration
  ok
macro_rules | `(tactic| okl) => `(tactic| (with_reducible refine Ok.stepIteration ?_; (· assumption)))

theorem Ok.resource   : Ok env base ns (PP.resource self) ns (Named ns) := by
  unfold PP.resource
  ok
macro_rules | `(tactic| okl) => `(tactic| (with_reducible refine Ok.resource ?_; (· assumption)))

theorem Ok.assignLoopBody {e} (h : Named ns e) : Ok env base ns (PP.assignLoopBody self e) ns (Named ns) := by
  unfold PP.assignLoopBody
  ok
theorem Ok.operand {l}  : Ok env base ns (PP.operand self l) ns (Named ns) := by
  unfold PP.operand
  ok
macro_rules | `(tactic| okl) => `(tactic| (with_reducible refine Ok.operand ?_; (· assumption)))

theorem Ok.binaryBody {l}  : Ok env base ns (PP.binaryBody self l) ns (Named ns) := by
  unfold PP.binaryBody
  ok
theorem Ok.binLoopBody {l e} (h : Named ns e) : Ok env base ns (PP.binLoopBody self l e) ns (Named ns) := by
  unfold PP.binLoopBody
  ok
theorem Ok.unaryBody   : Ok env base ns (PP.unaryBody self) ns (Named ns) := by
  unfold PP.unaryBody
  ok
theorem Ok.collectExpression {e} (h : Named ns e) : Ok env base ns (PP.collectExpression self e) ns (Named ns) := by
  unfold PP.collectExpression
  ok
macro_rules | `(tactic| okl) => `(tactic| (with_reducible refine Ok.collectExpression ?_ ?_; (· assumption); (· nm; done)))

theorem Ok.primaryBody   : Ok env base ns (PP.primaryBody self) ns (Named ns) := by
  unfold PP.primaryBody
  ok
theorem Ok.primLoopBody {e} (h : Named ns e) : Ok env base ns (PP.primLoopBody self e) ns (Named ns) := by
  unfold PP.primLoopBody
  ok
theorem Ok.hostname   : Ok env base ns (PP.hostname self) ns (Named ns) := by
  unfold PP.hostname
  ok
macro_rules | `(tactic| okl) => `(tactic| (with_reducible refine Ok.hostname ?_; (· assumption)))

theorem Ok.dottedNameBody {n l}  : Ok env base ns (PP.dottedNameBody self n l) ns (Named ns) := by
  unfold PP.dottedNameBody
  ok
theorem Ok.hostnamesBody {acc} (h : AllN ns acc) : Ok env base ns (PP.hostnamesBody self acc) ns (AllN ns) := by
  unfold PP.hostnamesBody
  ok
theorem Ok.nodeDefinition   : Ok env base ns (PP.nodeDefinition self) ns (Named ns) := by
  unfold PP.nodeDefinition
  ok
macro_rules | `(tactic| okl) => `(tactic| (with_reducible refine Ok.nodeDefinition ?_; (· assumption)))

theorem Ok.siteDefinition   : Ok env base ns (PP.siteDefinition self) ns (Named ns) := by
  unfold PP.siteDefinition
  ok
macro_rules | `(tactic| okl) => `(tactic| (with_reducible refine Ok.siteDefinition ?_; (· assumption)))

theorem Ok.resourceDefinition {b}  : Ok env base ns (PP.resourceDefinition self b) ns (Named ns) := by
  unfold PP.resourceDefinition
  ok
macro_rules | `(tactic| okl) => `(tactic| (with_reducible refine Ok.resourceDefinition ?_; (· assumption)))

theorem Ok.typeAliasBody   : Ok env base ns (PP.typeAliasBody self) ns (Named ns) := by
  unfold PP.typeAliasBody
  ok
macro_rules | `(tactic| okl) => `(tactic| (with_reducible refine Ok.typeAliasBody ?_; (· assumption)))

theorem Ok.typeDefinitionBody {s n p}  : Ok env base ns (PP.typeDefinitionBody self s n p) ns (Named ns) := by
  unfold PP.typeDefinitionBody
  ok
macro_rules | `(tactic| okl) => `(tactic| (with_reducible refine Ok.typeDefinitionBody ?_; (· assumption)))

theorem Ok.typeAliasOrDefinition   : Ok env base ns (PP.typeAliasOrDefinition self) ns (Named ns) := by
  unfold PP.typeAliasOrDefinition
  ok
macro_rules | `(tactic| okl) => `(tactic| (with_reducible refine Ok.typeAliasOrDefinition ?_; (· assumption)))

theorem Ok.caseOption   : Ok env base ns (PP.caseOption self) ns (Named ns) := by
  unfold PP.caseOption
  ok
macro_rules | `(tactic| okl) => `(tactic| (with_reducible refine Ok.caseOption ?_; (· assumption)))

theorem Ok.caseOptionsBody {acc} (h : AllN ns acc) : Ok env base ns (PP.caseOptionsBody self acc) ns (AllN ns) := by
  unfold PP.caseOptionsBody
  ok
theorem Ok.caseExpression   : Ok env base ns (PP.caseExpression self) ns (Named ns) := by
  unfold PP.caseExpression
  ok
macro_rules | `(tactic| okl) => `(tactic| (with_reducible refine Ok.caseExpression ?_; (· assumption)))

theorem Ok.ifBody {b}  : Ok env base ns (PP.ifBody self b) ns (Named ns) := by
  unfold PP.ifBody
  ok
theorem Ok.leaf {e} (h : Named ns e) : Ok env base ns (PP.leaf self e) ns (Named ns) := by
  unfold PP.leaf
  ok
macro_rules | `(tactic| okl) => `(tactic| (with_reducible refine Ok.leaf ?_ ?_; (· assumption); (· nm; done)))

theorem Ok.resourceExprBody {s e f} (h : Named ns e) : Ok env base ns (PP.resourceExprBody self s e f) ns (Named ns) := by
  unfold PP.resourceExprBody
  ok
theorem Ok.resourceBody {e} (h : Named ns e) : Ok env base ns (PP.resourceBody self e) ns (Named ns) := by
  unfold PP.resourceBody
  ok
macro_rules | `(tactic| okl) => `(tactic| (with_reducible refine Ok.resourceBody ?_ ?_; (· assumption); (· nm; done)))

theorem Ok.resourceBodiesBody {e acc} (h : Named ns e) (ha : AllN ns acc) : Ok env base ns (PP.resourceBodiesBody self e acc) ns (AllN ns) := by
  unfold PP.resourceBodiesBody
  ok
theorem Ok.eppLoopBody {acc} (h : AllN ns acc) : Ok env base ns (PP.eppLoopBody self acc) ns (AllN ns) := by
  unfold PP.eppLoopBody
  ok
end
end PP.Qu
