import Verif.Lemmas.Text4

/-! # Strings in results are UTF-8: the productions -/
namespace PP.Vt
open PP PP.Props

section
variable {env : Env} {self : Self}

theorem Ok.pureAny {α : Type} {a : α} : Ok env (Pure.pure a) (fun _ => True) := .pure trivial

def KeyT (r : Option (GoStr × Expr)) : Prop := ∀ x ∈ r, V x.1 ∧ Txt x.2
def OptV (r : Option GoStr) : Prop := ∀ x ∈ r, V x
theorem KeyT.get {n : GoStr} {k : Expr} (h : KeyT (some (n, k))) : Txt k := (h _ rfl).2
theorem KeyT.key {n : GoStr} {k : Expr} (h : KeyT (some (n, k))) : V n := (h _ rfl).1
theorem OptV.get {n : GoStr} (h : OptV (some n)) : V n := h _ rfl
theorem OptV.none : OptV none := fun _ h => nomatch h
theorem OptV.some {n : GoStr} (h : V n) : OptV (some n) := fun x hx => by cases hx; exact h
theorem Ok.pureOV {o : Option GoStr} (h : OptV o) : Ok env (Pure.pure o) OptV := .pure h
theorem OptT.get {e : Expr} (h : OptT (Option.some e)) : Txt e := h _ rfl
theorem V.keyword {t : Tok} {w : GoStr} (h : keywordOf t = some w) : V w := by
  unfold keywordOf at h
  split at h
  · cases h; exact V.tok _
  · cases h
theorem Txt.binl {p k l r} (h : Txt (.bin p k l r)) : Txt l := h.kids.of_cons.1
theorem Txt.binr {p k l r} (h : Txt (.bin p k l r)) : Txt r := h.kids.of_cons.2.of_cons.1
theorem AllT.ofHash {p es} (h : Txt (.hash p es)) : AllT es := h.kids
theorem AllT.ofList {p es} (h : Txt (.list p es)) : AllT es := h.kids
theorem Txt.ofList {p e} (h : Txt (.list p [e])) : Txt e := h.kids.of_cons.1
theorem Txt.objectRef {n} : Txt (objectRef n) := by unfold PP.objectRef; nm
theorem V.ofQref {p n d} (h : Txt (.qref p n d)) : V n := h.strs.of_cons.1
theorem V.ofQrefD {p n d} (h : Txt (.qref p n d)) : V d := h.strs.of_cons.2.of_cons.1
theorem V.ofQname {p n} (h : Txt (.qname p n)) : V n := h.strs.of_cons.1
theorem V.ofReserved {p n b} (h : Txt (.reserved p n b)) : V n := h.strs.of_cons.1
theorem V.ofString {p n} (h : Txt (.string p n)) : V n := h.strs.of_cons.1
theorem V.ofQrefO {p n d} (h : OptT (Option.some (.qref p n d))) : V n := V.ofQref h.get
theorem AllV.kind {l : Lvl} {op : GoStr} (h : V op) : AllV (opString (l.kind op)) := by
  cases l <;> first | exact .nil | exact .cons h .nil

macro_rules | `(tactic| vl) => `(tactic| first
  | ((with_reducible apply KeyT.key); assumption) | ((with_reducible apply OptV.get); assumption)
  | ((with_reducible apply V.keyword); assumption) | ((with_reducible apply V.ofQref); assumption)
  | ((with_reducible apply V.ofQrefD); assumption)
  | ((with_reducible apply V.ofQname); assumption) | ((with_reducible apply V.ofReserved); assumption)
  | ((with_reducible apply V.ofQrefO); assumption)
  | ((with_reducible apply V.ofString); assumption))
macro_rules | `(tactic| nm1) => `(tactic| first
  | ((with_reducible refine OptT.get ?_); assumption) | ((with_reducible apply KeyT.get); assumption)
  | with_reducible apply Txt.setPos | with_reducible apply txt_convertLhsToCall
  | with_reducible apply txt_joinHashEntries | with_reducible apply AllV.kind
  | ((with_reducible apply Txt.binl); assumption) | ((with_reducible apply Txt.binr); assumption)
  | ((with_reducible apply AllT.ofHash); assumption) | ((with_reducible apply AllT.ofList); assumption)
  | ((with_reducible apply Txt.ofList); assumption)
  | with_reducible exact Txt.objectRef)
macro_rules | `(tactic| okl) => `(tactic| first
  | with_reducible exact Ok.pureOV OptV.none | ((with_reducible refine Ok.pureOV (OptV.some ?_)); vl; done))

variable (H : HS env self)
include H
theorem Ok.identifier : Ok env (PP.identifier self) OptV := by
  unfold PP.identifier
  ok
macro_rules | `(tactic| okl) => `(tactic| ((with_reducible refine Ok.identifier ?_); (· assumption)))

theorem Ok.identifierExpr   : Ok env (PP.identifierExpr self) KeyT := by
  unfold PP.identifierExpr
  ok
  all_goals (refine Ok.pure fun x hx => ?_; cases hx; (try (refine ⟨?_, ?_⟩ <;> nm)))
macro_rules | `(tactic| okl) => `(tactic| ((with_reducible refine Ok.identifierExpr ?_); (· assumption)))

theorem Ok.typeName   : Ok env (PP.typeName self) OptT := by
  unfold PP.typeName
  ok
macro_rules | `(tactic| okl) => `(tactic| ((with_reducible refine Ok.typeName ?_); (· assumption)))

theorem Ok.arrayExpression   : Ok env (PP.arrayExpression self) AllT := by
  unfold PP.arrayExpression
  ok
macro_rules | `(tactic| okl) => `(tactic| ((with_reducible refine Ok.arrayExpression ?_); (· assumption)))

theorem Ok.parameterType   : Ok env (PP.parameterType self) Txt := by
  unfold PP.parameterType
  ok
macro_rules | `(tactic| okl) => `(tactic| ((with_reducible refine Ok.parameterType ?_); (· assumption)))

theorem Ok.parameterList   : Ok env (PP.parameterList self) AllT := by
  unfold PP.parameterList
  ok
macro_rules | `(tactic| okl) => `(tactic| ((with_reducible refine Ok.parameterList ?_); (· assumption)))

theorem Ok.optParameterList   : Ok env (PP.optParameterList self) AllT := by
  unfold PP.optParameterList
  ok
macro_rules | `(tactic| okl) => `(tactic| ((with_reducible refine Ok.optParameterList ?_); (· assumption)))

theorem Ok.optReturnType   : Ok env (PP.optReturnType self) OptT := by
  unfold PP.optReturnType
  ok
macro_rules | `(tactic| okl) => `(tactic| ((with_reducible refine Ok.optReturnType ?_); (· assumption)))

theorem Ok.lambdaParameterList   : Ok env (PP.lambdaParameterList self) AllT := by
  unfold PP.lambdaParameterList
  ok
macro_rules | `(tactic| okl) => `(tactic| ((with_reducible refine Ok.lambdaParameterList ?_); (· assumption)))

theorem Ok.braces   : Ok env (PP.braces self) Txt := by
  unfold PP.braces
  ok
macro_rules | `(tactic| okl) => `(tactic| ((with_reducible refine Ok.braces ?_); (· assumption)))

theorem Ok.lambda   : Ok env (PP.lambda self) Txt := by
  unfold PP.lambda
  ok
macro_rules | `(tactic| okl) => `(tactic| ((with_reducible refine Ok.lambda ?_); (· assumption)))

theorem Ok.callFunctionExpression {e : Expr} (h : Txt e) : Ok env (PP.callFunctionExpression self e) Txt := by
  unfold PP.callFunctionExpression
  have fin : ∀ (args : List Expr) (block : Option Expr) (p : Pos), AllT args → OptT block → Ok env
      (match e with
        | .bin p' .namedAccess l r => Pure.pure (convertLhsToCall p' l r args block p)
        | _ => Pure.pure (.call p .named true e args block)) Txt := by
    intro args block p ha hb
    split
    · exact .pureN (txt_convertLhsToCall (Txt.binl h) (Txt.binr h) ha hb)
    · exact .pureN (by nm)
  refine Ok.bind Ok.curTok fun t _ => ?_
  dsimp only
  refine Ok.ite (fun _ => ?_) (fun _ => ?_)
  · refine Ok.bind H.tok fun _ _ => Ok.bind (HS.exprs H .nil) fun es he => Ok.bind Ok.getPos fun p _ => Ok.bind H.tok fun _ _ => ?_
    refine Ok.bindPure (Ok.bind Ok.curTok fun t _ => Ok.ite (fun _ => ?_) (fun _ => ?_))
    · exact Ok.bind (Ok.lambda H) fun l hl => Ok.bindPure (fin _ _ _ (txt_joinHashEntries he) (.some hl))
    · exact Ok.bindPure (fin _ _ _ (txt_joinHashEntries he) .none)
  · refine Ok.bindPure (Ok.bind Ok.curTok fun t _ => Ok.ite (fun _ => ?_) (fun _ => ?_))
    · exact Ok.bind (Ok.lambda H) fun l hl => Ok.bindPure (fin _ _ _ .nil (.some hl))
    · exact Ok.bindPure (fin _ _ _ .nil .none)
macro_rules | `(tactic| okl) => `(tactic| ((with_reducible refine Ok.callFunctionExpression ?_ ?_); (· assumption); (· nm; done)))

theorem Ok.handleKeyword   : Ok env (PP.handleKeyword self) Txt := by
  unfold PP.handleKeyword
  ok
macro_rules | `(tactic| okl) => `(tactic| ((with_reducible refine Ok.handleKeyword ?_); (· assumption)))

theorem Ok.argument   : Ok env (PP.argument self) Txt := by
  unfold PP.argument
  ok
macro_rules | `(tactic| okl) => `(tactic| ((with_reducible refine Ok.argument ?_); (· assumption)))

theorem Ok.keyedEntry   : Ok env (PP.keyedEntry self) Txt := by
  unfold PP.keyedEntry
  ok
macro_rules | `(tactic| okl) => `(tactic| ((with_reducible refine Ok.keyedEntry ?_); (· assumption)))

theorem Ok.selectorEntry   : Ok env (PP.selectorEntry self) Txt := by
  unfold PP.selectorEntry
  ok
macro_rules | `(tactic| okl) => `(tactic| ((with_reducible refine Ok.selectorEntry ?_); (· assumption)))

theorem Ok.parameter   : Ok env (PP.parameter self) Txt := by
  unfold PP.parameter
  ok
macro_rules | `(tactic| okl) => `(tactic| ((with_reducible refine Ok.parameter ?_); (· assumption)))

theorem Ok.attributeAlias   : Ok env (PP.attributeAlias self) Txt := by
  unfold PP.attributeAlias
  ok
macro_rules | `(tactic| okl) => `(tactic| ((with_reducible refine Ok.attributeAlias ?_); (· assumption)))

theorem Ok.returnParameter   : Ok env (PP.returnParameter self) Txt := by
  unfold PP.returnParameter
  ok
macro_rules | `(tactic| okl) => `(tactic| ((with_reducible refine Ok.returnParameter ?_); (· assumption)))

theorem Ok.stepProperty   : Ok env (PP.stepProperty self) Txt := by
  unfold PP.stepProperty
  ok
macro_rules | `(tactic| okl) => `(tactic| ((with_reducible refine Ok.stepProperty ?_); (· assumption)))

theorem Ok.stateAttribute   : Ok env (PP.stateAttribute self) Txt := by
  unfold PP.stateAttribute
  ok
macro_rules | `(tactic| okl) => `(tactic| ((with_reducible refine Ok.stateAttribute ?_); (· assumption)))

theorem Ok.produce {p : Producer}  : Ok env (PP.produce self p) Txt := by
  unfold PP.produce
  ok
macro_rules | `(tactic| okl) => `(tactic| ((with_reducible refine Ok.produce ?_); (· assumption)))

theorem Ok.exprsBody {t p acc} (h : AllT acc) : Ok env (PP.exprsBody self t p acc) AllT := by
  unfold PP.exprsBody
  ok
theorem Ok.commaArgsBody {acc} (h : AllT acc) : Ok env (PP.commaArgsBody self acc) AllT := by
  unfold PP.commaArgsBody
  ok
theorem Ok.syntacticStatement   : Ok env (PP.syntacticStatement self) Txt := by
  unfold PP.syntacticStatement
  ok
macro_rules | `(tactic| okl) => `(tactic| ((with_reducible refine Ok.syntacticStatement ?_); (· assumption)))

theorem Ok.stmtsBody {t acc} (h : AllT acc) : Ok env (PP.stmtsBody self t acc) AllT := by
  unfold PP.stmtsBody
  ok
theorem Ok.parseBody {t b}  : Ok env (PP.parseBody self t b) Txt := by
  unfold PP.parseBody
  ok
theorem Ok.className   : Ok env (PP.className self) V := by
  unfold PP.className
  ok
macro_rules | `(tactic| okl) => `(tactic| ((with_reducible refine Ok.className ?_); (· assumption)))

theorem Ok.attributeOperation   : Ok env (PP.attributeOperation self) Txt := by
  unfold PP.attributeOperation
  ok
macro_rules | `(tactic| okl) => `(tactic| ((with_reducible refine Ok.attributeOperation ?_); (· assumption)))

theorem Ok.attrOpsBody {acc} (h : AllT acc) : Ok env (PP.attrOpsBody self acc) AllT := by
  unfold PP.attrOpsBody
  ok
theorem Ok.capabilityMapping {e k} (h : Txt e) (hv : V k) : Ok env (PP.capabilityMapping self e k) Txt := by
  unfold PP.capabilityMapping
  ok
macro_rules | `(tactic| okl) => `(tactic| ((with_reducible refine Ok.capabilityMapping ?_ ?_ ?_); (· assumption); (· nm; done); (· vl; done)))

theorem Ok.expressionBody   : Ok env (PP.expressionBody self) Txt := by
  unfold PP.expressionBody
  ok
theorem Ok.selectorsExpression {e} (h : Txt e) : Ok env (PP.selectorsExpression self e) Txt := by
  unfold PP.selectorsExpression
  ok
macro_rules | `(tactic| okl) => `(tactic| ((with_reducible refine Ok.selectorsExpression ?_ ?_); (· assumption); (· nm; done)))

theorem Ok.selLoopBody {e} (h : Txt e) : Ok env (PP.selLoopBody self e) Txt := by
  unfold PP.selLoopBody
  ok
theorem Ok.stepName   : Ok env (PP.stepName self) V := by
  unfold PP.stepName
  ok
macro_rules | `(tactic| okl) => `(tactic| ((with_reducible refine Ok.stepName ?_); (· assumption)))

theorem Ok.stepStyle   : Ok env (PP.stepStyle self) (fun _ => True) := by
  unfold PP.stepStyle
  ok
macro_rules | `(tactic| okl) => `(tactic| ((with_reducible refine Ok.stepStyle ?_); (· assumption)))

theorem Ok.stepIteration {n} (h : V n) : Ok env (PP.stepIteration self n) AllT := by
  unfold PP.stepIteration
  ok
macro_rules | `(tactic| okl) => `(tactic| ((with_reducible refine Ok.stepIteration ?_ ?_); (· assumption); (· vl; done)))

theorem Ok.resource   : Ok env (PP.resource self) Txt := by
  unfold PP.resource
  ok
macro_rules | `(tactic| okl) => `(tactic| ((with_reducible refine Ok.resource ?_); (· assumption)))

theorem Ok.assignLoopBody {e} (h : Txt e) : Ok env (PP.assignLoopBody self e) Txt := by
  unfold PP.assignLoopBody
  ok
theorem Ok.operand {l}  : Ok env (PP.operand self l) Txt := by
  unfold PP.operand
  ok
macro_rules | `(tactic| okl) => `(tactic| ((with_reducible refine Ok.operand ?_); (· assumption)))

theorem Ok.binaryBody {l}  : Ok env (PP.binaryBody self l) Txt := by
  unfold PP.binaryBody
  ok
theorem Ok.binLoopBody {l e} (h : Txt e) : Ok env (PP.binLoopBody self l e) Txt := by
  unfold PP.binLoopBody
  ok
  rename_i op ho _ _ r hr p _
  exact H.binLoop (.plain (AllV.kind ho) (.cons h (.one hr)))
theorem Ok.unaryBody   : Ok env (PP.unaryBody self) Txt := by
  unfold PP.unaryBody
  ok
  rename_i hs _ _ v hv
  refine Ok.bind (Ok.setTokenValue (v := .flt { neg := !v.neg, text := v.text }) (show V v.text from I.flt hv hs)) fun _ _ => ?_
  ok
theorem Ok.collectExpression {e} (h : Txt e) : Ok env (PP.collectExpression self e) Txt := by
  unfold PP.collectExpression
  ok
macro_rules | `(tactic| okl) => `(tactic| ((with_reducible refine Ok.collectExpression ?_ ?_); (· assumption); (· nm; done)))

theorem Ok.primaryBody   : Ok env (PP.primaryBody self) Txt := by
  unfold PP.primaryBody
  ok
theorem Ok.primLoopBody {e} (h : Txt e) : Ok env (PP.primLoopBody self e) Txt := by
  unfold PP.primLoopBody
  refine Ok.bind Ok.curTok fun t _ => ?_
  split
  · exact Ok.bind (Ok.callFunctionExpression H h) fun _ he => H.primLoop he
  · exact Ok.bind (Ok.callFunctionExpression H h) fun _ he => H.primLoop he
  · exact Ok.bind (Ok.collectExpression H h) fun _ he => H.primLoop he
  · exact Ok.bind (Ok.collectExpression H h) fun _ he => H.primLoop he
  · refine Ok.bind H.tok fun _ _ => Ok.bind (Ok.arrayExpression H) fun ps hp => Ok.bind Ok.here fun p _ => Ok.bind H.tok fun _ _ => ?_
    refine H.primLoop ?_
    split
    · exact .plain (by nm) (.cons h (.append (.one (.plain (by nm) hp)) .nil))
    · exact .plain (by nm) (.cons h hp)
  · refine Ok.bind H.tok fun _ _ => Ok.bind Ok.getS fun s hs => ?_
    have fin : ∀ r, Txt r → Ok env (do
        let p ← PP.here e.off
        self (.primLoop (.bin p .namedAccess e r))) Txt := fun r hr =>
      Ok.bind Ok.here fun p _ => H.primLoop (.plain (by nm) (.cons h (.one hr)))
    dsimp only
    refine Ok.ite (fun _ => ?_) (fun _ => ?_)
    · exact Ok.bind Ok.tokenString fun n hn => Ok.bind Ok.here fun p _ => Ok.bind H.tok fun _ _ => Ok.bindPure (fin _ (by nm))
    · exact Ok.bind H.atom fun r hr => fin r hr
  · split
    · exact .pureN (txt_convertLhsToCall (Txt.binl h) (Txt.binr h) .nil .none)
    · exact .pureN h
theorem Ok.hostname   : Ok env (PP.hostname self) Txt := by
  unfold PP.hostname
  ok
macro_rules | `(tactic| okl) => `(tactic| ((with_reducible refine Ok.hostname ?_); (· assumption)))

theorem Ok.dottedNameBody {n l} (h : AllV l) : Ok env (PP.dottedNameBody self n l) Txt := by
  unfold PP.dottedNameBody
  ok
theorem Ok.hostnamesBody {acc} (h : AllT acc) : Ok env (PP.hostnamesBody self acc) AllT := by
  unfold PP.hostnamesBody
  ok
theorem Ok.nodeDefinition   : Ok env (PP.nodeDefinition self) Txt := by
  unfold PP.nodeDefinition
  ok
macro_rules | `(tactic| okl) => `(tactic| ((with_reducible refine Ok.nodeDefinition ?_); (· assumption)))

theorem Ok.siteDefinition   : Ok env (PP.siteDefinition self) Txt := by
  unfold PP.siteDefinition
  ok
macro_rules | `(tactic| okl) => `(tactic| ((with_reducible refine Ok.siteDefinition ?_); (· assumption)))

theorem Ok.resourceDefinition {b}  : Ok env (PP.resourceDefinition self b) Txt := by
  unfold PP.resourceDefinition
  ok
macro_rules | `(tactic| okl) => `(tactic| ((with_reducible refine Ok.resourceDefinition ?_); (· assumption)))

theorem Ok.typeAliasBody   : Ok env (PP.typeAliasBody self) Txt := by
  unfold PP.typeAliasBody
  ok
macro_rules | `(tactic| okl) => `(tactic| ((with_reducible refine Ok.typeAliasBody ?_); (· assumption)))

theorem Ok.typeDefinitionBody {s n p} (h : V n) (hp : V p) : Ok env (PP.typeDefinitionBody self s n p) Txt := by
  unfold PP.typeDefinitionBody
  ok
macro_rules | `(tactic| okl) => `(tactic| ((with_reducible refine Ok.typeDefinitionBody ?_ ?_ ?_); (· assumption); (· vl; done); (· vl; done)))

theorem Ok.typeAliasOrDefinition   : Ok env (PP.typeAliasOrDefinition self) Txt := by
  unfold PP.typeAliasOrDefinition
  ok
macro_rules | `(tactic| okl) => `(tactic| ((with_reducible refine Ok.typeAliasOrDefinition ?_); (· assumption)))

theorem Ok.caseOption   : Ok env (PP.caseOption self) Txt := by
  unfold PP.caseOption
  ok
macro_rules | `(tactic| okl) => `(tactic| ((with_reducible refine Ok.caseOption ?_); (· assumption)))

theorem Ok.caseOptionsBody {acc} (h : AllT acc) : Ok env (PP.caseOptionsBody self acc) AllT := by
  unfold PP.caseOptionsBody
  ok
theorem Ok.caseExpression   : Ok env (PP.caseExpression self) Txt := by
  unfold PP.caseExpression
  ok
macro_rules | `(tactic| okl) => `(tactic| ((with_reducible refine Ok.caseExpression ?_); (· assumption)))

theorem Ok.ifBody {b}  : Ok env (PP.ifBody self b) Txt := by
  unfold PP.ifBody
  ok
theorem Ok.leaf {e} (h : Txt e) : Ok env (PP.leaf self e) Txt := by
  unfold PP.leaf
  ok
macro_rules | `(tactic| okl) => `(tactic| ((with_reducible refine Ok.leaf ?_ ?_); (· assumption); (· nm; done)))

theorem Ok.resourceExprBody {s e f} (h : Txt e) : Ok env (PP.resourceExprBody self s e f) Txt := by
  unfold PP.resourceExprBody
  ok
theorem Ok.resourceBody {e} (h : Txt e) : Ok env (PP.resourceBody self e) Txt := by
  unfold PP.resourceBody
  ok
macro_rules | `(tactic| okl) => `(tactic| ((with_reducible refine Ok.resourceBody ?_ ?_); (· assumption); (· nm; done)))

theorem Ok.resourceBodiesBody {e acc} (h : Txt e) (ha : AllT acc) : Ok env (PP.resourceBodiesBody self e acc) AllT := by
  unfold PP.resourceBodiesBody
  ok
theorem Ok.eppLoopBody {acc} (h : AllT acc) : Ok env (PP.eppLoopBody self acc) AllT := by
  unfold PP.eppLoopBody
  ok
end
end PP.Vt
