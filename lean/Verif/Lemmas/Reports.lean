import Verif.Lemmas.Location
import Verif.Lemmas.Strictness

/-! # Exactly which issues of a given code are reported, and where. -/

namespace PP

/-- If the check succeeds, the issues whose code satisfies `pc` are located at `l`, in this order. -/
def Reports (pc : VCode → Bool) (m : VM) (l : List Expr) : Prop :=
  ∀ is, m = .ok is → (is.filter (fun i => pc i.code)).map Issue.at_ = l

theorem Reports.none {pc} : Reports pc vnone [] := by
  intro is h; cases h; rfl

theorem Reports.error {pc p l} : Reports pc (.error p) l := by
  intro is h; cases h

theorem Reports.seq {pc a b l r} (ha : Reports pc a l) (hb : Reports pc b r) : Reports pc (a ⊹ b) (l ++ r) := by
  intro is h
  obtain ⟨x, y, h1, h2, rfl⟩ := seq_ok h
  rw [List.filter_append, List.map_append, ha x h1, hb y h2]

theorem Reports.seqL {pc a b l} (ha : Reports pc a l) (hb : Reports pc b []) : Reports pc (a ⊹ b) l := by
  simpa using ha.seq hb

theorem Reports.seqR {pc a b l} (ha : Reports pc a []) (hb : Reports pc b l) : Reports pc (a ⊹ b) l := by
  simpa using ha.seq hb

theorem Reports.accept {pc} {v : Checker} {code e args} (h : pc code = true) (hs : v.severityOf code ≠ .ignore) :
    Reports pc (v.accept code e args) [e] := by
  intro is h'
  simp only [Checker.accept, hs, if_false] at h'
  cases h'
  simp [h]

theorem Reports.silent {pc m} (h : AllIssues (fun i => pc i.code = false) m) : Reports pc m [] := by
  intro is h'
  have := h is h'
  rw [List.filter_eq_nil_iff.2]
  · rfl
  · intro i hi; simp [this i hi]

theorem Reports.forEach {pc} {f : Expr → VM} {g : Expr → List Expr} {es : List Expr}
    (h : ∀ e ∈ es, Reports pc (f e) (g e)) : Reports pc (vforEach f es) (es.flatMap g) := by
  induction es with
  | nil => exact .none
  | cons e es ih =>
    exact (h e (List.mem_cons_self ..)).seq (ih fun x hx => h x (List.mem_cons_of_mem _ hx))

theorem Reports.visits {pc} {c : Checker} {g : List Expr × Expr → List Expr} {xs : List (List Expr × Expr)}
    (h : ∀ x ∈ xs, Reports pc (c.check x.1 x.2) (g x)) : Reports pc (checkVisits c xs) (xs.flatMap g) := by
  induction xs with
  | nil => exact .none
  | cons x xs ih =>
    exact (h x (List.mem_cons_self ..)).seq (ih fun y hy => h y (List.mem_cons_of_mem _ hy))

theorem Reports.validate {pc} {c : Checker} {g : List Expr × Expr → List Expr} {e : Expr}
    (h : ∀ path x, Reports pc (c.check path x) (g (path, x))) :
    Reports pc (validateWith c e) ((visited e).flatMap g) := by
  rw [validateWith_eq]
  exact Reports.visits fun x _ => h x.1 x.2

/-! ## The codes a check can report -/

namespace Checker
variable {v : Checker}

/-- The check reports codes from the list only. -/
abbrev Codes (l : List VCode) (m : VM) : Prop := AllIssues (fun i => i.code ∈ l) m

theorem Codes.mono {l l' : List VCode} {m} (h : Codes l m) (hl : ∀ c ∈ l, c ∈ l') : Codes l' m :=
  AllIssues.mono h fun _ hi => hl _ hi

theorem codes_accept {l : List VCode} {code e args} (h : code ∈ l) : Codes l (v.accept code e args) :=
  AllIssues.accept h

macro "codes" : tactic => `(tactic|
  repeat' (first
    | exact AllIssues.none
    | exact AllIssues.okNil
    | exact AllIssues.error
    | apply AllIssues.seq
    | (apply codes_accept; simp; done)
    | split))

theorem codes_checkRValue (e : Expr) : Codes [.notRvalue] (v.checkRValue e) := by
  induction e using Expr.kidsInduction with
  | step e ih =>
    cases e with
    | un p k e => rw [checkRValue]; exact ih e (by simp [Expr.kids])
    | _ => simp only [checkRValue]; codes

theorem codes_checkRelation (e : Expr) : Codes [.notRvalue] (v.checkRelation e) := by
  unfold checkRelation
  split
  · exact .none
  · exact .none
  · exact codes_checkRValue _

theorem checkAssignAll_eq : (es : List Expr) → v.checkAssignAll es = vforEach v.checkAssign es
  | [] => by simp [checkAssignAll, vforEach, vnone]
  | e :: es => by simp [checkAssignAll, vforEach, checkAssignAll_eq es]

theorem codes_checkAssign (e : Expr) :
    Codes [.illegalAssignmentViaIndex, .crossScopeAssignment, .illegalNumericAssignment] (v.checkAssign e) := by
  induction e using Expr.kidsInduction with
  | step e ih =>
    cases e with
    | list p es =>
      rw [checkAssign, checkAssignAll_eq]
      exact AllIssues.forEach fun e he => ih e (by simpa [Expr.kids] using he)
    | un p k n => cases k <;> simp only [checkAssign] <;> codes
    | _ => simp only [checkAssign]; codes

theorem codes_checkCaptureLast : (ps : List Expr) → Codes [.capturesRestNotLast] (v.checkCaptureLast ps)
  | [] => by rw [checkCaptureLast]; codes
  | [_] => by rw [checkCaptureLast]; codes
  | p :: q :: ps => by
    rw [checkCaptureLast]
    refine AllIssues.seq ?_ (codes_checkCaptureLast (q :: ps))
    codes

theorem codes_checkNoCapture (ps : List Expr) : Codes [.capturesRestNotSupported] (v.checkNoCapture c0 ps) := by
  apply AllIssues.forEach
  intro e he
  codes

theorem codes_checkFutureReservedWord (e w) : Codes [.futureReservedWord] (v.checkFutureReservedWord e w) := by
  unfold checkFutureReservedWord; codes

theorem codes_checkReservedTypeName (e w) : Codes [.reservedTypeName] (v.checkReservedTypeName e w) := by
  unfold checkReservedTypeName; codes

theorem codes_checkHostname (hs) :
    Codes [.illegalHostnameChars, .illegalHostnameInterpolation] (v.checkHostname hs) := by
  apply AllIssues.forEach
  intro e he
  unfold checkHostname1 checkHostnameString; codes

theorem codes_checkIllegalAssignment (e : Expr) : Codes [.illegalAssignmentContext] (v.checkIllegalAssignment e) := by
  induction e using Expr.kidsInduction with
  | step e ih =>
    rw [checkIllegalAssignment_eq]
    split
    · codes
    · split
      · codes
      · exact AllIssues.forEach fun k hk => ih k hk

theorem codes_checkNoIdemLast (b) : Codes [.idemNotAllowedLast] (v.checkNoIdemLast c0 b) := by
  unfold checkNoIdemLast; codes

theorem codes_checkUnique (seen ps) : Codes [.duplicateParameter] (v.checkUnique seen ps) := by
  induction ps generalizing seen with
  | nil => rw [checkUnique]; codes
  | cons p ps ih =>
    unfold checkUnique
    split
    · codes
    · split
      · exact (codes_accept (by simp)).seq (ih _)
      · exact ih _

theorem codes_checkQuery (e : Expr) : Codes [.illegalQueryExpression] (v.checkQuery e) := by
  induction e using Expr.kidsInduction with
  | step e ih =>
    cases e with
    | bin p k l r =>
      have hl := ih l (by simp [Expr.kids])
      have hr := ih r (by simp [Expr.kids])
      cases k <;> simp only [checkQuery] <;> (first | exact hl.seq hr | codes)
    | un p k e =>
      have hl := ih e (by simp [Expr.kids])
      cases k <;> simp only [checkQuery] <;> (first | exact hl | codes)
    | _ => simp only [checkQuery]; codes

theorem codes_checkReservedParams (c ps) : Codes [.reservedParameter] (v.checkReservedParams c ps) := by
  induction ps with
  | nil => rw [checkReservedParams]; codes
  | cons p ps ih =>
    unfold checkReservedParams
    split
    · codes
    · apply AllIssues.seq
      · codes
      · exact ih

theorem codes_checkTypeRef (r) : Codes [.futureReservedWord, .illegalExpression] (v.checkTypeRef c0 r) := by
  unfold checkTypeRef
  simp only
  split
  · exact (codes_checkFutureReservedWord _ _).mono (by simp)
  · codes

theorem codes_checkReturnType (r) : Codes [.futureReservedWord, .illegalExpression] (v.checkReturnType c0 r) := by
  cases r with
  | none => exact .none
  | some r => exact codes_checkTypeRef r

theorem codes_checkTop (e cs) : Codes [.notAbsoluteTopLevel, .notTopLevel] (v.checkTop e cs) := by
  induction cs with
  | nil => simp only [checkTop]; codes
  | cons c cs ih =>
    unfold checkTop
    split
    · codes
    · codes
    · split
      · exact ih
      · split
        · codes
        · exact ih
    · codes

theorem codes_checkNamedDefinition (p e n ps) :
    Codes [.notAbsoluteTopLevel, .notTopLevel, .illegalDefinitionName, .reservedTypeName, .futureReservedWord,
      .duplicateParameter] (v.checkNamedDefinition p e n ps) := by
  unfold checkNamedDefinition
  refine ((codes_checkTop _ _).mono (by simp)).seq (AllIssues.seq ?_
    (((codes_checkReservedTypeName _ _).mono (by simp)).seq
    (((codes_checkFutureReservedWord _ _).mono (by simp)).seq ((codes_checkUnique _ _).mono (by simp)))))
  codes

theorem codes_checkAttributeOperation (p e o n) : Codes [.illegalAttributeAppend] (v.checkAttributeOperation p e o n) := by
  unfold checkAttributeOperation; codes

theorem codes_checkAttributesOperation (p o) :
    Codes [.unsupportedOperatorInContext, .notRvalue] (v.checkAttributesOperation p o) := by
  unfold checkAttributesOperation
  refine AllIssues.seq ?_ ((codes_checkRValue o).mono (by simp))
  codes

theorem codes_checkBlock : (ss : List Expr) → Codes [.idemExpressionNotLast] (v.checkBlock ss)
  | [] => by rw [checkBlock]; codes
  | [_] => by rw [checkBlock]; codes
  | s :: t :: ss => by
    rw [checkBlock]
    split
    · codes
    · exact codes_checkBlock (t :: ss)

theorem codes_checkCallNamed (f) : Codes [.illegalExpression] (v.checkCallNamed c0 f) := by
  unfold checkCallNamed; codes

theorem codes_checkCapabilityMapping (e c x) :
    Codes [.illegalClassref, .illegalExpression] (v.checkCapabilityMapping e c x) := by
  unfold checkCapabilityMapping
  apply AllIssues.seq <;> codes

theorem codes_checkCaseOptions (f os) : Codes [.duplicateDefault] (v.checkCaseOptions c0 f os) := by
  induction os generalizing f with
  | nil => rw [checkCaseOptions]; codes
  | cons o os ih =>
    unfold checkCaseOptions
    split
    · exact AllIssues.seq (AllIssues.forEach fun d hd => codes_accept (by simp)) (ih _)
    · codes

theorem codes_checkSelectors (f os) : Codes [.duplicateDefault] (v.checkSelectors c0 f os) := by
  induction os generalizing f with
  | nil => rw [checkSelectors]; codes
  | cons o os ih =>
    unfold checkSelectors
    split
    · split
      · apply AllIssues.seq
        · codes
        · exact ih _
      · exact ih _
    · codes

theorem codes_checkHash (f os) : Codes [.duplicateKey] (v.checkHash f os) := by
  induction os generalizing f with
  | nil => rw [checkHash]; codes
  | cons o os ih =>
    unfold checkHash
    split
    · cases v.hashKey _ with
      | error p => exact .error
      | ok r =>
        cases r with
        | none => exact ih _
        | some l =>
          simp only [bind, Except.bind]
          split
          · split
            · exact (codes_accept (by simp)).seq (ih _)
            · codes
          · exact ih _
    · codes

theorem codes_checkUnfolds (f os) : Codes [.multipleAttributesUnfold] (v.checkUnfolds f os) := by
  induction os generalizing f with
  | nil => rw [checkUnfolds]; codes
  | cons o os ih =>
    unfold checkUnfolds
    split
    · split
      · exact (codes_accept (by simp)).seq (ih _)
      · exact ih _
    · exact ih _

theorem codes_checkTypeMapping (e l r) :
    Codes [.unsupportedExpression, .illegalSingleTypeMapping, .illegalRegexpTypeMapping] (v.checkTypeMapping e l r) := by
  unfold checkTypeMapping
  simp only
  codes

/-- The check of an expression that is a catalog operation. -/
theorem codes_catalogOp {l : List VCode} {e m} (hm : Codes l m) : Codes (.catalogOperationNotSupported :: l) (v.catalogOp e m) := by
  unfold catalogOp
  split
  · exact hm.mono fun c hc => List.mem_cons_of_mem _ hc
  · codes

/-- The codes that the check of an expression can report. -/
def codesOf : Expr → List VCode
  | .step .. => [.workflowOperationNotSupported]
  | .namedDef _ .application .. => [.catalogOperationNotSupported]
  | .namedDef .. => [.catalogOperationNotSupported, .notAbsoluteTopLevel, .notTopLevel, .illegalDefinitionName,
      .reservedTypeName, .futureReservedWord, .duplicateParameter, .capturesRestNotSupported, .reservedParameter,
      .idemNotAllowedLast]
  | .bin _ (.assignment _) .. => [.appendsDeletesNoLongerSupported, .illegalAssignmentViaIndex,
      .crossScopeAssignment, .illegalNumericAssignment]
  | .bin _ .namedAccess .. => [.illegalExpression]
  | .bin _ (.relationship _) .. => [.catalogOperationNotSupported, .notRvalue]
  | .bin .. => [.notRvalue]
  | .attributeOp .. => [.illegalAttributeAppend]
  | .attributesOp .. => [.unsupportedOperatorInContext, .notRvalue]
  | .block .. => [.idemExpressionNotLast]
  | .call _ .named .. => [.illegalExpression]
  | .capabilityMapping .. => [.catalogOperationNotSupported, .illegalClassref, .illegalExpression]
  | .caseE .. => [.notRvalue, .duplicateDefault]
  | .caseOption .. => [.notRvalue]
  | .collect .. => [.catalogOperationNotSupported, .illegalExpression]
  | .epp .. => [.capturesRestNotSupported, .duplicateParameter]
  | .function _ false .. => [.notAbsoluteTopLevel, .notTopLevel, .illegalDefinitionName, .reservedTypeName,
      .futureReservedWord, .duplicateParameter, .capturesRestNotLast, .illegalExpression]
  | .ifE .. => [.notRvalue]
  | .keyedEntry .. => [.notRvalue]
  | .lambda .. => [.capturesRestNotLast, .futureReservedWord, .illegalExpression]
  | .hash .. => [.duplicateKey]
  | .list .. => [.notRvalue]
  | .node .. => [.catalogOperationNotSupported, .illegalHostnameChars, .illegalHostnameInterpolation,
      .notAbsoluteTopLevel, .notTopLevel, .idemNotAllowedLast]
  | .parameter .. => [.illegalNumericParameter, .illegalParameterName, .illegalAssignmentContext]
  | .reserved .. => [.futureReservedWord, .reservedWord]
  | .resourceBody .. => [.multipleAttributesUnfold]
  | .resourceDefaults .. => [.catalogOperationNotSupported, .notVirtualizable]
  | .resource .. => [.catalogOperationNotSupported, .notVirtualizable]
  | .resourceOverride .. => [.catalogOperationNotSupported, .notVirtualizable]
  | .selectorEntry .. => [.notRvalue]
  | .selector .. => [.notRvalue, .duplicateDefault]
  | .site .. => [.catalogOperationNotSupported]
  | .typeAlias .. => [.notAbsoluteTopLevel, .notTopLevel, .illegalDefinitionName, .reservedTypeName,
      .futureReservedWord, .illegalExpression]
  | .typeMapping .. => [.notAbsoluteTopLevel, .notTopLevel, .unsupportedExpression, .illegalSingleTypeMapping,
      .illegalRegexpTypeMapping]
  | .query .. => [.illegalQueryExpression]
  | .un .. => [.notRvalue]
  | _ => []

theorem codes_check (path : List Expr) (e : Expr) : Codes (codesOf e) (v.check path e) := by
  cases e with
  | step => simp only [check, codesOf]; codes
  | namedDef p k n ps b =>
    have hd : Codes [.notAbsoluteTopLevel, .notTopLevel, .illegalDefinitionName,
      .reservedTypeName, .futureReservedWord, .duplicateParameter, .capturesRestNotSupported, .reservedParameter,
      .idemNotAllowedLast] (v.checkNamedDefinition path (.namedDef p k n ps b) n ps ⊹ v.checkNoCapture (.namedDef p k n ps b) ps ⊹
        v.checkReservedParams (.namedDef p k n ps b) ps ⊹ v.checkNoIdemLast (.namedDef p k n ps b) b) :=
      ((codes_checkNamedDefinition _ _ _ _).mono (by simp)).seq
        (((codes_checkNoCapture _).mono (by simp)).seq (((codes_checkReservedParams _ _).mono (by simp)).seq
          ((codes_checkNoIdemLast _).mono (by simp))))
    cases k <;> simp only [check, codesOf]
    · exact codes_catalogOp .none
    · exact codes_catalogOp hd
    · exact codes_catalogOp hd
  | bin p k l r =>
    cases k <;> simp only [check, codesOf]
    case relationship op =>
      exact codes_catalogOp ((codes_checkRelation _).seq (codes_checkRelation _))
    case assignment op =>
      split
      · exact (codes_checkAssign _).mono (by simp)
      · codes
    case namedAccess => codes
    all_goals exact (codes_checkRValue _).seq (codes_checkRValue _)
  | attributeOp => exact codes_checkAttributeOperation _ _ _ _
  | attributesOp p x => exact codes_checkAttributesOperation _ _
  | block p ss => exact codes_checkBlock _
  | call p k rv f a l =>
    cases k <;> simp only [check, codesOf]
    · codes
    · codes
    · exact codes_checkCallNamed _
  | capabilityMapping p k c x ms => exact codes_catalogOp (codes_checkCapabilityMapping _ _ _)
  | caseE p t os =>
    exact ((codes_checkRValue _).mono (by simp [codesOf])).seq ((codes_checkCaseOptions _ _).mono (by simp [codesOf]))
  | caseOption p vs t => exact AllIssues.forEach fun x hx => codes_checkRValue x
  | collect p t q ops =>
    apply codes_catalogOp
    codes
  | epp p s b =>
    simp only [check, codesOf]
    split
    · exact ((codes_checkNoCapture _).mono (by simp)).seq ((codes_checkUnique _ _).mono (by simp))
    · codes
  | function p plan n ps b r =>
    cases plan
    · simp only [check, codesOf]
      exact ((codes_checkNamedDefinition _ _ _ _).mono (by simp)).seq
        (((codes_checkCaptureLast _).mono (by simp)).seq ((codes_checkReturnType _).mono (by simp)))
    · simp only [check]; codes
  | ifE p u t a b => exact codes_checkRValue _
  | keyedEntry p a b => exact (codes_checkRValue _).seq (codes_checkRValue _)
  | lambda p ps b r =>
    exact ((codes_checkCaptureLast _).mono (by simp [codesOf])).seq ((codes_checkReturnType _).mono (by simp [codesOf]))
  | hash p es => exact codes_checkHash _ _
  | list p es => exact AllIssues.forEach fun x hx => codes_checkRValue x
  | node p par hs b =>
    exact codes_catalogOp (((codes_checkHostname _).mono (by simp)).seq (((codes_checkTop _ _).mono (by simp)).seq
      ((codes_checkNoIdemLast _).mono (by simp))))
  | parameter p n d t c =>
    simp only [check, codesOf]
    apply AllIssues.seq
    · codes
    · cases d with
      | none => exact .none
      | some d => exact (codes_checkIllegalAssignment d).mono (by simp)
  | reserved => simp only [check, codesOf]; codes
  | resourceBody p t ops => exact codes_checkUnfolds _ _
  | resourceDefaults => apply codes_catalogOp; codes
  | resource => apply codes_catalogOp; codes
  | resourceOverride => apply codes_catalogOp; codes
  | selectorEntry p m x => exact codes_checkRValue _
  | selector p l ss =>
    exact ((codes_checkRValue _).mono (by simp [codesOf])).seq ((codes_checkSelectors _ _).mono (by simp [codesOf]))
  | site => exact codes_catalogOp .none
  | typeAlias p n t =>
    simp only [check, codesOf]
    refine ((codes_checkTop _ _).mono (by simp)).seq (AllIssues.seq ?_
      (((codes_checkReservedTypeName _ _).mono (by simp)).seq ((codes_checkTypeRef _).mono (by simp))))
    codes
  | typeMapping p t m =>
    exact ((codes_checkTop _ _).mono (by simp [codesOf])).seq ((codes_checkTypeMapping _ _ _).mono (by simp [codesOf]))
  | query p x q => exact codes_checkQuery _
  | un p k x => exact codes_checkRValue _
  | _ => simp only [check]; codes

/-- Codes that do not occur in the list of the expression are not reported. -/
theorem silent_check {pc : VCode → Bool} {path e} (h : ∀ c ∈ codesOf e, pc c = false) :
    Reports pc (v.check path e) [] :=
  .silent (AllIssues.mono (codes_check path e) fun _ hi => h _ hi)

theorem silent_of {pc : VCode → Bool} {l : List VCode} {m} (hm : Codes l m) (h : ∀ c ∈ l, pc c = false) :
    Reports pc m [] :=
  .silent (AllIssues.mono hm fun _ hi => h _ hi)

end Checker
end PP
