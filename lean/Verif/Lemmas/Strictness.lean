import Verif.Lemmas.Validator

/-! # The strictness of a checker only filters and re-labels issues. -/

namespace PP
namespace Checker

/-- What a checker makes of an issue that the same checker with strictness `error` reports: dropped
when its severity is `ignore`, otherwise given its severity. -/
def relabel (v : Checker) (i : Issue) : Option Issue :=
  if v.severityOf i.code = .ignore then none else some { i with severity := v.severityOf i.code }

/-- The same checker with strictness `error`. -/
def strictest (v : Checker) : Checker := { v with strict := .error }

/-- Relabelling of the outcome of a check. -/
def adj (v : Checker) (m : VM) : VM := m.map (List.filterMap v.relabel)

variable (v : Checker)

theorem adj_none : v.adj vnone = vnone := rfl
theorem adj_error (p) : v.adj (.error p) = .error p := rfl
theorem adj_seq (a b : VM) : v.adj (a ⊹ b) = v.adj a ⊹ v.adj b := by
  cases a <;> cases b <;> simp [adj, VM.seq, bind, Except.bind, pure, Except.pure, Except.map]

theorem adj_accept (code : VCode) (e : Expr) (args : List (GoStr × Arg)) : v.adj (v.strictest.accept code e args) = v.accept code e args := by
  unfold accept
  have h : v.strictest.severityOf code ≠ .ignore := by
    unfold strictest severityOf
    cases code <;> by_cases h : v.kind = .puppet <;> simp [h, Strictness.severity]
  simp only [h, if_false, adj, Except.map, List.filterMap_cons, List.filterMap_nil, relabel]
  split <;> simp_all

theorem adj_forEach {f g : Expr → VM} (h : ∀ e, f e = v.adj (g e)) (es : List Expr) :
    vforEach f es = v.adj (vforEach g es) := by
  induction es with
  | nil => rfl
  | cons e es ih => rw [vforEach, vforEach, adj_seq, ih, h]

theorem adj_ite {p : Prop} [Decidable p] (a b : VM) : v.adj (if p then a else b) = if p then v.adj a else v.adj b := by
  split <;> rfl

theorem checkRValue_adj (e : Expr) : v.checkRValue e = v.adj (v.strictest.checkRValue e) := by
  match e with
  | .un p k e =>
    rw [checkRValue, checkRValue]; exact checkRValue_adj e
  | .access .. | .bin .. | .query .. | .attributeOp .. | .attributesOp .. | .block .. | .call ..
  | .capabilityMapping .. | .caseE .. | .caseOption .. | .collect .. | .concat .. | .epp .. | .heredoc ..
  | .ifE .. | .keyedEntry .. | .lambda .. | .boolean .. | .dflt _ | .float .. | .hash .. | .integer ..
  | .list .. | .string .. | .undef _ | .nop _ | .namedDef .. | .function .. | .node .. | .parameter ..
  | .program .. | .qname .. | .qref .. | .regexp .. | .renderString .. | .reserved .. | .resource ..
  | .resourceBody .. | .resourceDefaults .. | .resourceOverride .. | .selector .. | .selectorEntry ..
  | .site .. | .typeAlias .. | .typeDefinition .. | .typeMapping .. | .step .. | .commaSep .. =>
    simp [checkRValue, adj_ite, adj_accept, adj_none]

theorem checkRelation_adj (e : Expr) : v.checkRelation e = v.adj (v.strictest.checkRelation e) := by
  unfold checkRelation
  split <;> simp only [adj_none, checkRValue_adj v]

mutual
theorem checkAssign_adj : (e : Expr) → v.checkAssign e = v.adj (v.strictest.checkAssign e)
  | .access p o ks => by rw [checkAssign, checkAssign, adj_accept]
  | .list _ es => by rw [checkAssign, checkAssign]; exact checkAssignAll_adj es
  | .un p k n => by
    cases k <;> simp only [checkAssign, adj_none]
    split <;> simp only [adj_ite, adj_accept, adj_none]
  | .bin .. | .query .. | .attributeOp .. | .attributesOp .. | .block .. | .call ..
  | .capabilityMapping .. | .caseE .. | .caseOption .. | .collect .. | .concat .. | .epp .. | .heredoc ..
  | .ifE .. | .keyedEntry .. | .lambda .. | .boolean .. | .dflt _ | .float .. | .hash .. | .integer ..
  | .string .. | .undef _ | .nop _ | .namedDef .. | .function .. | .node .. | .parameter ..
  | .program .. | .qname .. | .qref .. | .regexp .. | .renderString .. | .reserved .. | .resource ..
  | .resourceBody .. | .resourceDefaults .. | .resourceOverride .. | .selector .. | .selectorEntry ..
  | .site .. | .typeAlias .. | .typeDefinition .. | .typeMapping .. | .step .. | .commaSep .. => by
    simp [checkAssign, adj_none]
theorem checkAssignAll_adj : (es : List Expr) → v.checkAssignAll es = v.adj (v.strictest.checkAssignAll es)
  | [] => by simp [checkAssignAll, adj_none]
  | e :: es => by rw [checkAssignAll, checkAssignAll, adj_seq, ← checkAssign_adj e, ← checkAssignAll_adj es]
end

theorem checkCaptureLast_adj : (ps : List Expr) → v.checkCaptureLast ps = v.adj (v.strictest.checkCaptureLast ps)
  | [] => by simp [checkCaptureLast, adj_none]
  | [_] => by simp [checkCaptureLast, adj_none]
  | p :: q :: ps => by
    rw [checkCaptureLast, checkCaptureLast, adj_seq, ← checkCaptureLast_adj (q :: ps)]
    congr 1
    split <;> simp only [adj_accept, adj_none]

theorem checkNoCapture_adj (c : Expr) (ps : List Expr) : v.checkNoCapture c ps = v.adj (v.strictest.checkNoCapture c ps) := by
  apply adj_forEach
  intro e
  split <;> simp only [adj_accept, adj_none]

theorem checkFutureReservedWord_adj (e w) : v.checkFutureReservedWord e w = v.adj (v.strictest.checkFutureReservedWord e w) := by
  simp only [checkFutureReservedWord, adj_ite, adj_accept, adj_none]

theorem checkReservedTypeName_adj (e w) : v.checkReservedTypeName e w = v.adj (v.strictest.checkReservedTypeName e w) := by
  simp only [checkReservedTypeName, adj_ite, adj_accept, adj_none]

theorem checkHostname_adj (hs) : v.checkHostname hs = v.adj (v.strictest.checkHostname hs) := by
  apply adj_forEach
  intro e
  have hf : v.strictest.feq = v.feq := rfl
  unfold checkHostname1 checkHostnameString
  rw [hf]
  split
  · split <;> simp only [adj_ite, adj_accept, adj_none, adj_error]
  · simp only [adj_ite, adj_accept, adj_none]
  · rfl

theorem checkIllegalAssignment_adj (e : Expr) : v.checkIllegalAssignment e = v.adj (v.strictest.checkIllegalAssignment e) := by
  induction e using Expr.kidsInduction with
  | step e ih =>
    rw [checkIllegalAssignment_eq, checkIllegalAssignment_eq]
    simp only [adj_ite, adj_accept, adj_none]
    congr 2
    revert ih
    generalize e.kids = ks
    intro ih
    induction ks with
    | nil => rfl
    | cons k ks ihk =>
      rw [vforEach, vforEach, adj_seq, ← ih k (List.mem_cons_self ..),
        ihk fun x hx => ih x (List.mem_cons_of_mem _ hx)]

theorem checkNoIdemLast_adj (c b) : v.checkNoIdemLast c b = v.adj (v.strictest.checkNoIdemLast c b) := by
  unfold checkNoIdemLast
  split
  · split <;> simp only [adj_accept, adj_none]
  · rfl

theorem checkUnique_adj (seen ps) : v.checkUnique seen ps = v.adj (v.strictest.checkUnique seen ps) := by
  induction ps generalizing seen with
  | nil => simp [checkUnique, adj_none]
  | cons p ps ih =>
    unfold checkUnique
    split
    · rfl
    · simp only [adj_ite, adj_seq, adj_accept, ← ih]

theorem checkQuery_adj : (e : Expr) → v.checkQuery e = v.adj (v.strictest.checkQuery e)
  | .bin p k l r => by
    cases k <;> simp only [checkQuery, adj_ite, adj_accept, adj_none, adj_seq]
    · rw [← checkQuery_adj l, ← checkQuery_adj r]
    · rw [← checkQuery_adj l, ← checkQuery_adj r]
  | .un p k e => by
    cases k <;> simp only [checkQuery, adj_accept, adj_none]
    exact checkQuery_adj e
  | .access .. | .query .. | .attributeOp .. | .attributesOp .. | .block .. | .call ..
  | .capabilityMapping .. | .caseE .. | .caseOption .. | .collect .. | .concat .. | .epp .. | .heredoc ..
  | .ifE .. | .keyedEntry .. | .lambda .. | .boolean .. | .dflt _ | .float .. | .hash .. | .integer ..
  | .list .. | .string .. | .undef _ | .nop _ | .namedDef .. | .function .. | .node .. | .parameter ..
  | .program .. | .qname .. | .qref .. | .regexp .. | .renderString .. | .reserved .. | .resource ..
  | .resourceBody .. | .resourceDefaults .. | .resourceOverride .. | .selector .. | .selectorEntry ..
  | .site .. | .typeAlias .. | .typeDefinition .. | .typeMapping .. | .step .. | .commaSep .. => by
    simp [checkQuery, adj_none, adj_accept]

theorem checkReservedParams_adj (c ps) : v.checkReservedParams c ps = v.adj (v.strictest.checkReservedParams c ps) := by
  induction ps with
  | nil => simp [checkReservedParams, adj_none]
  | cons p ps ih =>
    unfold checkReservedParams
    split
    · rfl
    · simp only [adj_ite, adj_seq, adj_accept, adj_none, ← ih]

theorem checkTypeRef_adj (c r) : v.checkTypeRef c r = v.adj (v.strictest.checkTypeRef c r) := by
  unfold checkTypeRef
  simp only
  split <;> simp only [adj_accept, checkFutureReservedWord_adj v]

theorem checkReturnType_adj (c r) : v.checkReturnType c r = v.adj (v.strictest.checkReturnType c r) := by
  cases r <;> simp [checkReturnType, adj_none, checkTypeRef_adj v]

theorem checkTop_adj (e cs) : v.checkTop e cs = v.adj (v.strictest.checkTop e cs) := by
  induction cs with
  | nil => simp [checkTop, adj_none]
  | cons c cs ih =>
    unfold checkTop
    split
    · rfl
    · rfl
    · split
      · exact ih
      · simp only [adj_ite, adj_accept, ← ih]
    · simp only [adj_accept]

theorem checkNamedDefinition_adj (p e n ps) :
    v.checkNamedDefinition p e n ps = v.adj (v.strictest.checkNamedDefinition p e n ps) := by
  simp only [checkNamedDefinition, adj_seq, adj_ite, adj_accept, adj_none, ← checkTop_adj,
    ← checkReservedTypeName_adj, ← checkFutureReservedWord_adj, ← checkUnique_adj]

theorem checkAttributeOperation_adj (p e o n) :
    v.checkAttributeOperation p e o n = v.adj (v.strictest.checkAttributeOperation p e o n) := by
  unfold checkAttributeOperation
  split
  · split <;> simp only [adj_accept, adj_none]
  · rfl

theorem checkAttributesOperation_adj (p o) :
    v.checkAttributesOperation p o = v.adj (v.strictest.checkAttributesOperation p o) := by
  simp only [checkAttributesOperation, adj_seq, ← checkRValue_adj]
  congr 1
  split
  · split <;> simp only [adj_accept, adj_none]
  · rfl

theorem checkBlock_adj : (ss : List Expr) → v.checkBlock ss = v.adj (v.strictest.checkBlock ss)
  | [] => by simp [checkBlock, adj_none]
  | [_] => by simp [checkBlock, adj_none]
  | s :: t :: ss => by
    simp only [checkBlock, adj_ite, adj_accept, ← checkBlock_adj (t :: ss)]

theorem checkCallNamed_adj (c f) : v.checkCallNamed c f = v.adj (v.strictest.checkCallNamed c f) := by
  unfold checkCallNamed
  split <;> simp only [adj_accept, adj_none]

theorem checkCapabilityMapping_adj (e c x) :
    v.checkCapabilityMapping e c x = v.adj (v.strictest.checkCapabilityMapping e c x) := by
  simp only [checkCapabilityMapping, adj_seq, adj_ite, adj_accept, adj_none]
  congr 1
  split <;> simp only [adj_accept, adj_none]

theorem checkCaseOptions_adj (c f os) : v.checkCaseOptions c f os = v.adj (v.strictest.checkCaseOptions c f os) := by
  induction os generalizing f with
  | nil => simp [checkCaseOptions, adj_none]
  | cons o os ih =>
    unfold checkCaseOptions
    split
    · simp only [adj_seq, ← ih]
      rw [adj_forEach v (f := fun d => v.accept .duplicateDefault d [(b!"container", .node c)])
        (g := fun d => v.strictest.accept .duplicateDefault d [(b!"container", .node c)]) (fun e => (adj_accept v _ e _).symm)]
    · rfl

theorem checkSelectors_adj (c f os) : v.checkSelectors c f os = v.adj (v.strictest.checkSelectors c f os) := by
  induction os generalizing f with
  | nil => simp [checkSelectors, adj_none]
  | cons o os ih =>
    unfold checkSelectors
    split
    · simp only [adj_ite, adj_seq, adj_accept, adj_none, ← ih]
    · rfl

theorem checkHash_adj (seen es) : v.checkHash seen es = v.adj (v.strictest.checkHash seen es) := by
  induction es generalizing seen with
  | nil => simp [checkHash, adj_none]
  | cons o os ih =>
    unfold checkHash
    split
    · have hk : ∀ k, v.strictest.hashKey k = v.hashKey k := fun _ => rfl
      have hs : ∀ k, v.strictest.stringOk k = v.stringOk k := fun _ => rfl
      have hf : v.strictest.feq = v.feq := rfl
      rw [hk, hs, hf]
      cases v.hashKey _ with
      | error p => rfl
      | ok o =>
        cases o with
        | none => exact ih seen
        | some l =>
          simp only [bind, Except.bind, adj_ite, adj_seq, adj_accept, adj_error, ← ih]
    · rfl

theorem checkUnfolds_adj (f os) : v.checkUnfolds f os = v.adj (v.strictest.checkUnfolds f os) := by
  induction os generalizing f with
  | nil => simp [checkUnfolds, adj_none]
  | cons o os ih =>
    unfold checkUnfolds
    split
    · simp only [adj_ite, adj_seq, adj_accept, ← ih]
    · exact ih f

theorem checkTypeMapping_adj (e l r) : v.checkTypeMapping e l r = v.adj (v.strictest.checkTypeMapping e l r) := by
  simp only [checkTypeMapping, adj_ite, adj_accept, adj_none]

theorem catalogOp_adj (e) {a b : VM} (h : a = v.adj b) : v.catalogOp e a = v.adj (v.strictest.catalogOp e b) := by
  unfold catalogOp
  have hk : v.strictest.kind = v.kind := rfl
  rw [hk]
  simp only [adj_ite, adj_accept, h]

/-- A check with any strictness is the check with strictness `error`, relabelled. -/
theorem check_adj (path : List Expr) (e : Expr) : v.check path e = v.adj (v.strictest.check path e) := by
  have hk : v.strictest.kind = v.kind := rfl
  cases e with
  | step => simp only [check, hk, adj_ite, adj_none, adj_accept]
  | namedDef p k n ps b =>
    cases k <;> simp only [check] <;> apply catalogOp_adj <;>
      simp only [adj_none, adj_seq, ← checkNamedDefinition_adj, ← checkNoCapture_adj,
        ← checkReservedParams_adj, ← checkNoIdemLast_adj]
  | bin p k l r =>
    cases k
    case relationship op =>
      simp only [check]
      apply catalogOp_adj
      simp only [adj_seq, ← checkRelation_adj]
    all_goals
      simp only [check, adj_ite, adj_none, adj_seq, adj_accept, ← checkRValue_adj, ← checkAssign_adj]
  | call p k rv f a l =>
    cases k <;> simp only [check, adj_none, checkCallNamed_adj v]
  | capabilityMapping => exact catalogOp_adj v _ (checkCapabilityMapping_adj ..)
  | collect => apply catalogOp_adj; simp only [adj_ite, adj_accept, adj_none]
  | epp =>
    simp only [check]
    split <;> simp only [adj_none, adj_seq, ← checkNoCapture_adj, ← checkUnique_adj]
  | function p plan n ps b r =>
    cases plan
    · simp only [check, adj_seq, ← checkNamedDefinition_adj, ← checkCaptureLast_adj, ← checkReturnType_adj]
    · simp only [check, adj_none]
  | node =>
    apply catalogOp_adj
    simp only [adj_seq, ← checkHostname_adj, ← checkTop_adj, ← checkNoIdemLast_adj]
  | parameter p n d t c =>
    simp only [check, adj_seq, adj_ite, adj_accept, adj_none]
    congr 1
    cases d <;> simp only [adj_none, ← checkIllegalAssignment_adj]
  | resourceDefaults => apply catalogOp_adj; simp only [adj_ite, adj_accept, adj_none]
  | resource =>
    apply catalogOp_adj
    simp only [adj_ite, adj_none]
    congr 1
    split <;> simp only [adj_ite, adj_accept, adj_none]
  | resourceOverride => apply catalogOp_adj; simp only [adj_ite, adj_accept, adj_none]
  | site => exact catalogOp_adj v _ rfl
  | caseOption => exact adj_forEach v (fun e => checkRValue_adj v e) _
  | list => exact adj_forEach v (fun e => checkRValue_adj v e) _
  | _ =>
    simp only [check, adj_none, adj_seq, adj_ite, adj_accept, ← checkRValue_adj, ← checkAttributeOperation_adj,
      ← checkAttributesOperation_adj, ← checkBlock_adj, ← checkCaseOptions_adj, ← checkCaptureLast_adj,
      ← checkReturnType_adj, ← checkHash_adj, ← checkUnfolds_adj, ← checkSelectors_adj, ← checkTop_adj,
      ← checkReservedTypeName_adj, ← checkTypeRef_adj, ← checkTypeMapping_adj, ← checkQuery_adj]

theorem checkVisits_adj (xs) : checkVisits v xs = v.adj (checkVisits v.strictest xs) := by
  induction xs with
  | nil => rfl
  | cons x xs ih => rw [checkVisits, checkVisits, adj_seq, ← ih, ← check_adj]

theorem validateWith_adj (e : Expr) : validateWith v e = v.adj (validateWith v.strictest e) := by
  rw [validateWith_eq, validateWith_eq, checkVisits_adj]

end Checker
end PP
