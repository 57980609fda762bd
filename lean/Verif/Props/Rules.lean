import Verif.Props.Placement
import Verif.Spec.Rules

/-!
# C63: the remaining rules of the validators are reported exactly where they are broken

`Verif/Spec/Rules.lean` says where each rule is broken.  The codes that are not here have their own
theorems (C16 to C25).
-/

namespace PP.Props
open PP.Expr PP.Rules

/-- The tasks and workflow validators refuse a catalog construct as such and do not look at how it is
written (its parts are looked at). -/
def unlessRefused (kind : CheckerKind) (x : Expr) (l : List Expr) : List Expr :=
  if kind ≠ .puppet ∧ catalogConstruct x = true then [] else l

/-- The issues of this code are those of the rule. -/
def BrokenAt (c : Checker) (is : List Issue) (e : Expr) (code : VCode) (rule : List Expr × Expr → List Expr) : Prop :=
  ReportedAt is code ((visited e).flatMap fun x => unlessRefused c.kind x.2 (rule x))

/-! ## Reports -/

section
variable {pc : VCode → Bool} {v : Checker}

theorem Reports.congr {m l l'} (h : Reports pc m l) (hl : l = l') : Reports pc m l' := hl ▸ h

theorem Reports.other {code e args} (h : pc code = false) : Reports pc (v.accept code e args) [] :=
  Checker.silent_of (l := [code]) (Checker.codes_accept (by simp)) (by simpa using h)

theorem Reports.accepts {code e args} (h : pc code = true)
    (hc : (code != .duplicateKey && code != .idemExpressionNotLast) = true) : Reports pc (v.accept code e args) [e] := by
  simp at hc
  exact .accept h (severityOf_fixed _ _ hc.1 hc.2)

theorem Reports.quiet {l : List VCode} {m} (hm : Checker.Codes l m) (h : l.all (fun c => !pc c) = true) :
    Reports pc m [] :=
  Checker.silent_of hm (by simpa using h)

theorem Reports.ite {a b l r} {p : Prop} [Decidable p] (ha : Reports pc a l) (hb : Reports pc b r) :
    Reports pc (if p then a else b) (if p then l else r) := by
  split
  · exact ha
  · exact hb

theorem Reports.refused {e m l} (h0 : pc .catalogOperationNotSupported = false) (h : Reports pc m l) :
    Reports pc (v.catalogOp e m) (if v.kind = .puppet then l else []) := catalogOp_or h0 h

theorem Reports.each {f : Expr → VM} {p : Expr → List Expr} {es : List Expr} (h : ∀ e, Reports pc (f e) (p e)) :
    Reports pc (vforEach f es) (es.flatMap p) := .forEach fun e _ => h e

end

theorem flatMap_filter' {α} (p : α → Bool) (l : List α) :
    (l.flatMap fun x => [x].filter p) = l.filter p := by
  induction l with
  | nil => rfl
  | cons a l ih => rw [List.flatMap_cons, ih, List.filter_cons, List.filter_cons]; split <;> simp

theorem hasNoValue_eq (e : Expr) : (e.isDefinition || e.isCollect) = hasNoValue e := by cases e <;> rfl

theorem checkRValue_reports (v : Checker) (e : Expr) :
    Reports (· == .notRvalue) (v.checkRValue e) ([innermost e].filter hasNoValue) := by
  induction e using Expr.kidsInduction with
  | step e ih =>
    cases e with
    | un p k e => rw [Checker.checkRValue, innermost]; exact ih e (by simp [Expr.kids])
    | _ =>
      simp only [Checker.checkRValue, hasNoValue_eq]
      refine Reports.congr (Reports.ite (Reports.accept rfl (severityOf_fixed _ _ (by simp) (by simp))) Reports.none) ?_
      simp only [innermost, List.filter_cons, List.filter_nil]

theorem checkRelation_reports (v : Checker) (e : Expr) :
    Reports (· == .notRvalue) (v.checkRelation e) ((([e].filter relatedValue).map innermost).filter hasNoValue) := by
  unfold Checker.checkRelation
  split
  · exact .none
  · exact .none
  · rename_i h1 h2
    have : relatedValue e = true := by
      cases e with
      | collect => exact absurd rfl (h1 _ _ _ _)
      | bin p k l r => cases k <;> first | rfl | exact absurd rfl (h2 _ _ _ _)
      | _ => rfl
    simpa [this] using checkRValue_reports v e

theorem checkUnfolds_reports (v : Checker) (seen : Bool) (ops : List Expr) :
    Reports (· == .multipleAttributesUnfold) (v.checkUnfolds seen ops)
      ((ops.filter isUnfold).drop (if seen then 0 else 1)) := by
  induction ops generalizing seen with
  | nil => rw [Checker.checkUnfolds]; simpa using Reports.none
  | cons o ops ih =>
    unfold Checker.checkUnfolds
    split
    · rename_i p x
      have hu : isUnfold (.attributesOp p x) = true := rfl
      have h := ih true
      cases seen
      · simpa [List.filter_cons, hu] using h
      · simpa [List.filter_cons, hu] using (Reports.accept (v := v) rfl (severityOf_fixed _ .multipleAttributesUnfold (by simp) (by simp))).seq h
    · rename_i h1
      have : isUnfold o = false := by cases o <;> first | rfl | exact absurd rfl (h1 _ _)
      simpa [List.filter_cons, this] using ih seen

theorem checkUnfolds_reports' (v : Checker) (ops : List Expr) :
    Reports (· == .multipleAttributesUnfold) (v.checkUnfolds false ops) ((ops.filter isUnfold).drop 1) :=
  checkUnfolds_reports v false ops

theorem flatMap_innermost (l : List Expr) :
    (l.flatMap fun x => [innermost x].filter hasNoValue) = (l.map innermost).filter hasNoValue := by
  induction l with
  | nil => rfl
  | cons a l ih => rw [List.flatMap_cons, ih, List.map_cons, ← List.filter_append]; rfl

/-- The report at the construct that has a `* =>`. -/
theorem container_reports {pc : VCode → Bool} (c : Checker) (path : List Expr) (h : pc .unsupportedOperatorInContext = true) :
    Reports pc (match path.getLast? with
      | some k => match k with
        | .resource .. | .resourceDefaults .. | .resourceOverride .. | .collect .. | .capabilityMapping .. =>
          c.accept .unsupportedOperatorInContext k [(b!"operator", .text b!"* =>"), (b!"value", .node k)]
        | _ => vnone
      | none => vnone) (path.getLast?.toList.filter noUnfold) := by
  cases hl : path.getLast? with
  | none => exact .none
  | some l => cases l <;> first
    | exact Reports.none
    | exact Reports.accepts h rfl

theorem container_quiet {pc : VCode → Bool} (c : Checker) (path : List Expr) (h : pc .unsupportedOperatorInContext = false) :
    Reports pc (match path.getLast? with
      | some k => match k with
        | .resource .. | .resourceDefaults .. | .resourceOverride .. | .collect .. | .capabilityMapping .. =>
          c.accept .unsupportedOperatorInContext k [(b!"operator", .text b!"* =>"), (b!"value", .node k)]
        | _ => vnone
      | none => vnone) [] := by
  cases hl : path.getLast? with
  | none => exact .none
  | some l => cases l <;> first
    | exact Reports.none
    | exact Reports.other h

theorem checkQuery_reports (v : Checker) (e : Expr) :
    Reports (· == .illegalQueryExpression) (v.checkQuery e) ((conditions e).filter fun c => !isCondition c) := by
  induction e using Expr.kidsInduction with
  | step e ih =>
    cases e with
    | bin p k l r =>
      have hl := ih l (by simp [Expr.kids])
      have hr := ih r (by simp [Expr.kids])
      cases k with
      | and | or =>
        simp only [Checker.checkQuery, conditions, List.filter_append]
        exact hl.seq hr
      | comparison op =>
        simp only [Checker.checkQuery]
        refine Reports.congr (Reports.ite Reports.none (Reports.accepts rfl rfl)) ?_
        by_cases h1 : op = b!"==" <;> by_cases h2 : op = b!"!=" <;> simp [conditions, isCondition, h1, h2]
      | _ =>
        simp only [Checker.checkQuery]
        exact Reports.congr (Reports.accepts rfl rfl) rfl
    | un p k e =>
      have hl := ih e (by simp [Expr.kids])
      cases k with
      | paren => simp only [Checker.checkQuery, conditions]; exact hl
      | «variable» => simp only [Checker.checkQuery]; exact Reports.none
      | _ =>
        simp only [Checker.checkQuery]
        exact Reports.congr (Reports.accepts rfl rfl) rfl
    | _ =>
      simp only [Checker.checkQuery]
      first
        | exact Reports.none
        | exact Reports.congr (Reports.accepts rfl rfl) rfl

theorem isDigit_eq (b : UInt8) : isDecimalDigit b.toNat = isDigit b := rfl
theorem isLower_eq (b : UInt8) : isLowerByte b = isLower b := rfl
theorem isUpper_eq (b : UInt8) : isUpperByte b = isUpper b := rfl
theorem isWord_eq (b : UInt8) : isWordByte b = isWord b := by
  unfold isWordByte isLetterOrDigit isWord isLetter
  rw [isDigit_eq]
  have h1 : isUppercaseLetter b.toNat = isUpper b := rfl
  have h2 : isLowercaseLetter b.toNat = isLower b := rfl
  rw [h1, h2]
  cases isDigit b <;> cases isUpper b <;> cases isLower b <;> rfl

theorem startsWithNumber_eq (n : GoStr) : startsWithNumber n = isNumericName n := by
  cases n <;> rfl

theorem byte_eq (b : UInt8) (n : Nat) (h : n < 256) : (b == UInt8.ofNat n) = (b.toNat == n) := by
  have : (UInt8.ofNat n).toNat = n := by simp [UInt8.toNat_ofNat', Nat.mod_eq_of_lt h]
  rw [Bool.eq_iff_iff, beq_iff_eq, beq_iff_eq, ← UInt8.toNat_inj, this]

theorem paramName_eq (n : GoStr) : paramName n = isParameterName n := by
  cases n with
  | nil => rfl
  | cons b s =>
    have h1 : (b == (c%'_' : UInt8)) = (b.toNat == 95) := byte_eq b 95 (by decide)
    have h2 : isWordByte = isWord := funext isWord_eq
    simp only [paramName, isParameterName, isLower_eq, h1, h2]

theorem checkIllegalAssignment_reports (v : Checker) (e : Expr) :
    Reports (· == .illegalAssignmentContext) (v.checkIllegalAssignment e) (assignmentsIn e) := by
  induction e using Expr.kidsInduction with
  | step e ih =>
    rw [Checker.checkIllegalAssignment_eq]
    by_cases ha : e.isAssignment = true
    · rw [if_pos ha]
      refine Reports.congr (Reports.accepts rfl rfl) ?_
      cases e with
      | bin p k l r =>
        cases k with
        | assignment => rw [assignmentsIn]
        | _ => cases ha
      | _ => cases ha
    · rw [if_neg ha]
      by_cases hl : e.isLambda = true
      · rw [if_pos hl]
        refine Reports.congr Reports.none ?_
        cases e with
        | lambda => rw [assignmentsIn]
        | _ => cases hl
      · rw [if_neg hl]
        refine Reports.congr (Reports.forEach (g := assignmentsIn) ih) ?_
        rw [assignmentsIn.eq_def]
        split
        · exact absurd rfl ha
        · exact absurd rfl hl
        · rw [List.flatMap_subtype (g := assignmentsIn) (by simp)]; simp

/-- Closes the parts of a check. -/
syntax "reports" "[" term,* "]" : tactic
macro_rules
  | `(tactic| reports [$ts,*]) => do
    let alts ← ts.getElems.mapM fun t => `(tactic| exact $t)
    `(tactic| repeat' (first
        | exact Reports.none
        | exact Reports.error (l := [])
        | exact Reports.other rfl
        | exact Reports.accepts rfl rfl
        | exact Reports.quiet (Checker.codes_checkRValue _) rfl
        | exact Reports.quiet (Checker.codes_checkRelation _) rfl
        | exact Reports.quiet (Checker.codes_checkTop _ _) rfl
        | exact Reports.quiet (Checker.codes_checkReservedTypeName _ _) rfl
        | exact Reports.quiet (Checker.codes_checkFutureReservedWord _ _) rfl
        | exact Reports.quiet (Checker.codes_checkUnique _ _) rfl
        | exact Reports.quiet (Checker.codes_checkNoCapture _) rfl
        | exact Reports.quiet (Checker.codes_checkCaptureLast _) rfl
        | exact Reports.quiet (Checker.codes_checkReservedParams _ _) rfl
        | exact Reports.quiet (Checker.codes_checkNoIdemLast _) rfl
        | exact Reports.quiet (Checker.codes_checkReturnType _) rfl
        | exact Reports.quiet (Checker.codes_checkTypeRef _) rfl
        | exact Reports.quiet (Checker.codes_checkHostname _) rfl
        | exact Reports.quiet (Checker.codes_checkIllegalAssignment _) rfl
        | exact Reports.quiet (Checker.codes_checkCaseOptions _ _) rfl
        | exact Reports.quiet (Checker.codes_checkSelectors _ _) rfl
        | exact Reports.quiet (Checker.codes_checkCapabilityMapping _ _ _) rfl
        | exact Reports.quiet (Checker.codes_checkTypeMapping _ _ _) rfl
        $[| $alts:tactic]*
        | apply Reports.refused rfl
        | apply Reports.ite
        | apply Reports.each
        | apply Reports.seq))


theorem default_quiet {pc : VCode → Bool} (c : Checker) (v : Option Expr) (h : pc .illegalAssignmentContext = false) :
    Reports pc (match v with
      | some x => c.checkIllegalAssignment x
      | none => vnone) [] := by
  cases v with
  | none => exact .none
  | some x => exact Reports.quiet (Checker.codes_checkIllegalAssignment _) (by simpa using h)

/-- Whether a resource is a class. -/
def isClassResource : Expr → Bool
  | .qname _ n => decide (n = b!"class")
  | _ => false

theorem virtual_resource {pc : VCode → Bool} (c : Checker) (x t : Expr) (h : pc .notVirtualizable = true) :
    Reports pc (match t with
      | .qname _ n => if n = b!"class" then c.accept .notVirtualizable x [] else vnone
      | _ => vnone) (if isClassResource t then [x] else []) := by
  cases t with
  | qname q n =>
    simp only [isClassResource]
    by_cases hn : n = b!"class"
    · simpa [hn] using Reports.accepts h rfl
    · simpa [hn] using Reports.none
  | _ => exact Reports.none

theorem virtualClass_resource (p f t bs) : virtualClass (.resource p f t bs) =
    if f = .regular then [] else if isClassResource t then [.resource p f t bs] else [] := by
  cases t with
  | qname q n => by_cases hf : f = .regular <;> by_cases hn : n = b!"class" <;> simp [virtualClass, isClassResource, hf, hn]
  | _ => simp [virtualClass, isClassResource]

/-- What a mapping must be. -/
theorem mapping_cases (v : Checker) (e t m : Expr) : v.checkTypeMapping e t m = match mapped? t with
    | none => v.accept .unsupportedExpression e [(b!"expression", .node e)]
    | some false => if (typeName? m).isSome then vnone else v.accept .illegalSingleTypeMapping e [(b!"expression", .node e)]
    | some true => if isReplacement m then vnone else v.accept .illegalRegexpTypeMapping e [(b!"expression", .node e)] := by
  have hrep : ∀ k, Checker.isPatternWithReplacement k = isReplacement k := fun k => by
    unfold Checker.isPatternWithReplacement isReplacement; rfl
  have hname : ∀ k, Checker.isTypeRef k = (typeName? k).isSome := fun k => by
    cases k <;> first | rfl | skip
    rename_i p o ks; cases o <;> rfl
  have hex : isReplacement m = true → (typeName? m).isSome = false := by
    intro h; cases m <;> first | rfl | cases h
  have fin : ∀ (o : Option Bool) (ty : Nat), ty = (match o with | none => 0 | some false => 1 | some true => 2) →
      (if ty = 0 then v.accept .unsupportedExpression e [(b!"expression", .node e)]
      else if isReplacement m then
        if ty = 1 then v.accept .illegalSingleTypeMapping e [(b!"expression", .node e)] else vnone
      else if (typeName? m).isSome then
        if ty = 2 then v.accept .illegalRegexpTypeMapping e [(b!"expression", .node e)] else vnone
      else if ty = 1 then v.accept .illegalSingleTypeMapping e [(b!"expression", .node e)]
      else v.accept .illegalRegexpTypeMapping e [(b!"expression", .node e)]) = match o with
    | none => v.accept .unsupportedExpression e [(b!"expression", .node e)]
    | some false => if (typeName? m).isSome then vnone else v.accept .illegalSingleTypeMapping e [(b!"expression", .node e)]
    | some true => if isReplacement m then vnone else v.accept .illegalRegexpTypeMapping e [(b!"expression", .node e)] := by
    intro o ty hty
    cases o with
    | none => simp [hty]
    | some b =>
      by_cases h1 : isReplacement m = true
      · have h2 := hex h1
        cases b <;> simp [hty, h1, h2]
      · by_cases h2 : (typeName? m).isSome = true <;> cases b <;> simp [hty, h1, h2]
  unfold Checker.checkTypeMapping
  simp only [hrep, hname]
  refine fin _ _ ?_
  unfold mapped?
  cases t with
  | access p o ks =>
    cases o with
    | qref q name d =>
      by_cases hr : name = b!"Runtime"
      · simp only [hr, if_true]
        rcases ks with _ | ⟨a, _ | ⟨b, _ | ⟨c, l⟩⟩⟩
        · rfl
        · rfl
        · dsimp only
          cases isReplacement b <;> rfl
        · rfl
      · simp [hr]
    | _ => rfl
  | _ => rfl

theorem mapping_unmappable (v : Checker) (x t m : Expr) :
    Reports (· == .unsupportedExpression) (v.checkTypeMapping x t m) (if mapped? t = none then [x] else []) := by
  rw [mapping_cases]
  rcases mapped? t with _ | _ | _ <;> apply Reports.congr
  · exact Reports.accepts rfl rfl
  · rfl
  · reports []
  · simp
  · reports []
  · simp

theorem mapping_single (v : Checker) (x t m : Expr) :
    Reports (· == .illegalSingleTypeMapping) (v.checkTypeMapping x t m)
      (if mapped? t = some false ∧ typeName? m = none then [x] else []) := by
  rw [mapping_cases]
  rcases mapped? t with _ | _ | _ <;> apply Reports.congr
  · exact Reports.other rfl
  · rfl
  · reports []
  · cases typeName? m <;> simp
  · reports []
  · simp

theorem mapping_pattern (v : Checker) (x t m : Expr) :
    Reports (· == .illegalRegexpTypeMapping) (v.checkTypeMapping x t m)
      (if mapped? t = some true ∧ isReplacement m = false then [x] else []) := by
  rw [mapping_cases]
  rcases mapped? t with _ | _ | _ <;> apply Reports.congr
  · exact Reports.other rfl
  · rfl
  · reports []
  · simp
  · reports []
  · cases isReplacement m <;> simp

/-- Starts the proof of a rule. -/
theorem rule_of {c : Checker} {e : Expr} {is : List Issue} (h : validateWith c e = .ok is) {code : VCode}
    {rule : List Expr × Expr → List Expr}
    (hr : ∀ path x, Reports (· == code) (c.check path x) (unlessRefused c.kind x (rule (path, x)))) :
    BrokenAt c is e code rule :=
  Reports.validate (pc := (· == code)) (g := fun x => unlessRefused c.kind x.2 (rule x)) (fun path x => hr path x) is h

/-- The cases in which the code is not reported. -/
syntax "other_cases" "[" Lean.Parser.Tactic.simpLemma,* "]" : tactic
macro_rules
  | `(tactic| other_cases [$ts,*]) =>
    `(tactic| exact Reports.congr (Checker.silent_check (by simp [Checker.codesOf])) (by simp [unlessRefused, $ts,*]))

section
variable (c : Checker) (e : Expr) (is : List Issue) (h : validateWith c e = .ok is)
include h

/-- C63: the second and following `* =>` of a resource. -/
theorem C63_more_unfolds : BrokenAt c is e .multipleAttributesUnfold fun x => moreUnfolds x.2 := by
  refine rule_of h ?_
  intro path x
  cases x with
  | resourceBody p t ops =>
    refine Reports.congr (checkUnfolds_reports' c ops) ?_
    simp [unlessRefused, moreUnfolds, catalogConstruct]
  | namedDef p k => cases k <;> other_cases [moreUnfolds]
  | function p plan => cases plan <;> other_cases [moreUnfolds]
  | bin p k l r => cases k <;> other_cases [moreUnfolds]
  | call p k => cases k <;> other_cases [moreUnfolds]
  | _ => other_cases [moreUnfolds]

/-- C63: a definition or a collector where a value is needed. -/
theorem C63_no_value : BrokenAt c is e .notRvalue fun x => noValueWhereNeeded x.2 := by
  refine rule_of h ?_
  intro path x
  cases x with
  | namedDef p k => cases k <;> other_cases [noValueWhereNeeded, valuePositions]
  | function p plan => cases plan <;> other_cases [noValueWhereNeeded, valuePositions]
  | call p k => cases k <;> other_cases [noValueWhereNeeded, valuePositions]
  | bin p k l r =>
    cases k
    case assignment => other_cases [noValueWhereNeeded, valuePositions]
    case namedAccess => other_cases [noValueWhereNeeded, valuePositions]
    case relationship =>
      apply Reports.congr
      · simp only [Checker.check]
        reports [checkRelation_reports c _]
      · have : List.filter hasNoValue (List.map innermost (List.filter relatedValue [l])) ++
            List.filter hasNoValue (List.map innermost (List.filter relatedValue [r])) =
            List.filter hasNoValue (List.map innermost (List.filter relatedValue [l, r])) := by
          rw [← List.filter_append, ← List.map_append, ← List.filter_append]; rfl
        rw [this]
        cases hk : c.kind <;> simp [unlessRefused, noValueWhereNeeded, valuePositions, catalogConstruct]
    all_goals
      apply Reports.congr
      · simp only [Checker.check]
        reports [checkRValue_reports c _]
      · rw [← List.filter_append]
        simp [unlessRefused, noValueWhereNeeded, valuePositions, catalogConstruct]
  | attributesOp p x =>
    apply Reports.congr
    · simp only [Checker.check, Checker.checkAttributesOperation]
      exact Reports.seq (container_quiet _ _ rfl) (checkRValue_reports c x)
    · simp [unlessRefused, noValueWhereNeeded, valuePositions, catalogConstruct]
  | caseE | caseOption | ifE | keyedEntry | list | selectorEntry | selector | un =>
    apply Reports.congr
    · simp only [Checker.check]
      reports [checkRValue_reports c _, Reports.each (checkRValue_reports c)]
    · try rw [← List.filter_append]
      simp [unlessRefused, noValueWhereNeeded, valuePositions, catalogConstruct, flatMap_innermost]
  | _ => other_cases [noValueWhereNeeded, valuePositions]

/-- C63: words that are reserved. -/
theorem C63_reserved_words : BrokenAt c is e .reservedWord fun x => usesReservedWord x.2 := by
  refine rule_of h ?_
  intro path x
  cases x with
  | reserved p w f =>
    apply Reports.congr
    · simp only [Checker.check]
      reports []
    · cases f <;> simp [unlessRefused, usesReservedWord, catalogConstruct]
  | namedDef p k => cases k <;> other_cases [usesReservedWord]
  | function p plan => cases plan <;> other_cases [usesReservedWord]
  | bin p k l r => cases k <;> other_cases [usesReservedWord]
  | call p k => cases k <;> other_cases [usesReservedWord]
  | _ => other_cases [usesReservedWord]

/-- C63: `+=` and `-=`. -/
theorem C63_appends_deletes : BrokenAt c is e .appendsDeletesNoLongerSupported fun x => appendsOrDeletes x.2 := by
  refine rule_of h ?_
  intro path x
  cases x with
  | namedDef p k => cases k <;> other_cases [appendsOrDeletes]
  | function p plan => cases plan <;> other_cases [appendsOrDeletes]
  | bin p k l r =>
    cases k
    case assignment op =>
      apply Reports.congr
      · simp only [Checker.check]
        reports [Reports.quiet (Checker.codes_checkAssign _) rfl]
      · simp [unlessRefused, appendsOrDeletes, catalogConstruct]
    all_goals other_cases [appendsOrDeletes]
  | call p k => cases k <;> other_cases [appendsOrDeletes]
  | _ => other_cases [appendsOrDeletes]

/-- C63: the conditions of queries. -/
theorem C63_queries : BrokenAt c is e .illegalQueryExpression fun x => badConditions x.2 := by
  refine rule_of h ?_
  intro path x
  cases x with
  | query p b q =>
    refine Reports.congr (checkQuery_reports c q) ?_
    simp [unlessRefused, badConditions, catalogConstruct]
  | namedDef p k => cases k <;> other_cases [badConditions]
  | function p plan => cases plan <;> other_cases [badConditions]
  | bin p k l r => cases k <;> other_cases [badConditions]
  | call p k => cases k <;> other_cases [badConditions]
  | _ => other_cases [badConditions]

/-- C63: `@` and `@@`. -/
theorem C63_virtual : BrokenAt c is e .notVirtualizable fun x => virtualClass x.2 := by
  refine rule_of h ?_
  intro path x
  cases x with
  | resource p f t bs =>
    apply Reports.congr
    · simp only [Checker.check]
      exact Reports.refused rfl (Reports.ite Reports.none (virtual_resource c _ t rfl))
    · cases hk : c.kind <;> by_cases hf : f = .regular <;> simp [unlessRefused, virtualClass_resource, catalogConstruct, hf]
  | resourceDefaults p f | resourceOverride p f =>
    apply Reports.congr
    · simp only [Checker.check]
      reports []
    · cases hk : c.kind <;> by_cases hf : f = .regular <;> simp [unlessRefused, virtualClass, catalogConstruct, hf]
  | namedDef p k => cases k <;> other_cases [virtualClass]
  | function p plan => cases plan <;> other_cases [virtualClass]
  | bin p k l r => cases k <;> other_cases [virtualClass]
  | call p k => cases k <;> other_cases [virtualClass]
  | _ => other_cases [virtualClass]

/-- C63: `+>`. -/
theorem C63_appended_attributes : BrokenAt c is e .illegalAttributeAppend badAppend := by
  refine rule_of h ?_
  intro path x
  cases x with
  | attributeOp p op n v =>
    simp only [Checker.check, Checker.checkAttributeOperation, unlessRefused, badAppend, catalogConstruct]
    by_cases ho : op = b!"+>"
    · simp only [ho, if_true]
      cases hl : path.getLast? with
      | none => simpa using Reports.accepts rfl rfl
      | some l => cases l <;> first
          | simpa using Reports.none
          | simpa using Reports.accepts rfl rfl
    · simpa [ho] using Reports.none
  | namedDef p k => cases k <;> other_cases [badAppend]
  | function p plan => cases plan <;> other_cases [badAppend]
  | bin p k l r => cases k <;> other_cases [badAppend]
  | call p k => cases k <;> other_cases [badAppend]
  | _ => other_cases [badAppend]

/-- C63: `* =>` outside the bodies of resources. -/
theorem C63_misplaced_unfolds : BrokenAt c is e .unsupportedOperatorInContext misplacedUnfold := by
  refine rule_of h ?_
  intro path x
  cases x with
  | attributesOp p x =>
    simp only [Checker.check, Checker.checkAttributesOperation, unlessRefused, misplacedUnfold, catalogConstruct]
    apply Reports.congr
    · exact Reports.seq (container_reports c path rfl) (Reports.quiet (Checker.codes_checkRValue _) rfl)
    · simp
  | namedDef p k => cases k <;> other_cases [misplacedUnfold]
  | function p plan => cases plan <;> other_cases [misplacedUnfold]
  | bin p k l r => cases k <;> other_cases [misplacedUnfold]
  | call p k => cases k <;> other_cases [misplacedUnfold]
  | _ => other_cases [misplacedUnfold]

/-- C63: names of parameters that begin with a digit. -/
theorem C63_numeric_parameters : BrokenAt c is e .illegalNumericParameter fun x => numericParameter x.2 := by
  refine rule_of h ?_
  intro path x
  cases x with
  | parameter p n v t cr =>
    apply Reports.congr
    · simp only [Checker.check, startsWithNumber_eq]
      exact Reports.seq (by reports []) (default_quiet c v rfl)
    · by_cases hn : isNumericName n = true <;> simp [unlessRefused, numericParameter, catalogConstruct, hn]
  | namedDef p k => cases k <;> other_cases [numericParameter]
  | function p plan => cases plan <;> other_cases [numericParameter]
  | bin p k l r => cases k <;> other_cases [numericParameter]
  | call p k => cases k <;> other_cases [numericParameter]
  | _ => other_cases [numericParameter]

/-- C63: names of parameters. -/
theorem C63_parameter_names : BrokenAt c is e .illegalParameterName fun x => badParameterName x.2 := by
  refine rule_of h ?_
  intro path x
  cases x with
  | parameter p n v t cr =>
    apply Reports.congr
    · simp only [Checker.check, startsWithNumber_eq, paramName_eq]
      exact Reports.seq (by reports []) (default_quiet c v rfl)
    · by_cases hn : isNumericName n = true <;> by_cases hp : isParameterName n = true <;>
        simp [unlessRefused, badParameterName, catalogConstruct, hn, hp]
  | namedDef p k => cases k <;> other_cases [badParameterName]
  | function p plan => cases plan <;> other_cases [badParameterName]
  | bin p k l r => cases k <;> other_cases [badParameterName]
  | call p k => cases k <;> other_cases [badParameterName]
  | _ => other_cases [badParameterName]

/-- C63: assignments in default values of parameters. -/
theorem C63_assigning_defaults : BrokenAt c is e .illegalAssignmentContext fun x => assignsInDefault x.2 := by
  refine rule_of h ?_
  intro path x
  cases x with
  | parameter p n v t cr =>
    cases v with
    | none =>
      apply Reports.congr
      · simp only [Checker.check]
        reports []
      · simp [unlessRefused, assignsInDefault, catalogConstruct]
    | some v =>
      apply Reports.congr
      · simp only [Checker.check]
        reports [checkIllegalAssignment_reports c _]
      · simp [unlessRefused, assignsInDefault, catalogConstruct]
  | namedDef p k => cases k <;> other_cases [assignsInDefault]
  | function p plan => cases plan <;> other_cases [assignsInDefault]
  | bin p k l r => cases k <;> other_cases [assignsInDefault]
  | call p k => cases k <;> other_cases [assignsInDefault]
  | _ => other_cases [assignsInDefault]

/-- C63: type mappings. -/
theorem C63_unmappable : BrokenAt c is e .unsupportedExpression fun x => unmappable x.2 := by
  refine rule_of h ?_
  intro path x
  cases x with
  | typeMapping p t m =>
    refine Reports.congr (Reports.seq (Reports.quiet (Checker.codes_checkTop _ _) rfl) (mapping_unmappable c _ t m)) ?_
    simp [unlessRefused, unmappable, catalogConstruct]
  | namedDef p k => cases k <;> other_cases [unmappable]
  | function p plan => cases plan <;> other_cases [unmappable]
  | bin p k l r => cases k <;> other_cases [unmappable]
  | call p k => cases k <;> other_cases [unmappable]
  | _ => other_cases [unmappable]

/-- C63: type mappings of one name. -/
theorem C63_single_mappings : BrokenAt c is e .illegalSingleTypeMapping fun x => badSingleMapping x.2 := by
  refine rule_of h ?_
  intro path x
  cases x with
  | typeMapping p t m =>
    refine Reports.congr (Reports.seq (Reports.quiet (Checker.codes_checkTop _ _) rfl) (mapping_single c _ t m)) ?_
    simp [unlessRefused, badSingleMapping, catalogConstruct]
  | namedDef p k => cases k <;> other_cases [badSingleMapping]
  | function p plan => cases plan <;> other_cases [badSingleMapping]
  | bin p k l r => cases k <;> other_cases [badSingleMapping]
  | call p k => cases k <;> other_cases [badSingleMapping]
  | _ => other_cases [badSingleMapping]

/-- C63: type mappings of the names that match a pattern. -/
theorem C63_pattern_mappings : BrokenAt c is e .illegalRegexpTypeMapping fun x => badPatternMapping x.2 := by
  refine rule_of h ?_
  intro path x
  cases x with
  | typeMapping p t m =>
    refine Reports.congr (Reports.seq (Reports.quiet (Checker.codes_checkTop _ _) rfl) (mapping_pattern c _ t m)) ?_
    simp [unlessRefused, badPatternMapping, catalogConstruct]
  | namedDef p k => cases k <;> other_cases [badPatternMapping]
  | function p plan => cases plan <;> other_cases [badPatternMapping]
  | bin p k l r => cases k <;> other_cases [badPatternMapping]
  | call p k => cases k <;> other_cases [badPatternMapping]
  | _ => other_cases [badPatternMapping]
end

end PP.Props
