import Verif.Props.Rules2
import Verif.Props.Duplicates
import Verif.Props.Cli

/-!
# C64: the rules are all there is

The places at which each rule of the language is broken, together: `broken`.  With the severity of each rule they determine
the verdict of a validator and of the command line tool.  The rules themselves are specified in Spec/Rules.lean and with
C16 to C25; nothing here refers to the checkers.
-/

namespace PP.Props
open PP.Expr PP.Rules

/-- How grave it is to break a rule: a word that will be reserved is a deprecation; for repeated keys and forgotten values
it is the strictness of the Puppet validator; the rest, and these too for tasks and workflows, are errors. -/
def gravity (kind : CheckerKind) (strict : Strictness) : VCode → Severity
  | .futureReservedWord => .deprecation
  | .duplicateKey | .idemExpressionNotLast =>
    if kind = .puppet then match strict with
      | .off => .ignore
      | .warning => .warning
      | .error => .error
    else .error
  | _ => .error

/-- The nodes of the tree, with their containers, that are looked at. -/
def nodes (kind : CheckerKind) (e : Expr) (rule : List Expr × Expr → List Expr) : List Expr :=
  (visited e).flatMap fun x => unlessRefused kind x.2 (rule x)

/-- The places in `e` at which the rule with this code is broken. -/
noncomputable def broken (c : Checker) (e : Expr) : VCode → List Expr
  | .catalogOperationNotSupported => if c.kind = .puppet then [] else (subexpressions e).filter catalogConstruct
  | .workflowOperationNotSupported => if c.kind = .workflow then [] else (subexpressions e).filter isStep
  | .invalidStepStyle => []
  | .duplicateParameter => (visited e).flatMap (duplicateParameters c.kind)
  | .duplicateDefault => (subexpressions e).flatMap superfluousDefaults
  | .duplicateKey => (subexpressions e).flatMap (repeatedKeys c.feq c.ff)
  | .idemExpressionNotLast => (subexpressions e).flatMap forgottenValues
  | .notTopLevel => (visited e).flatMap (misplaced c.kind)
  | .notAbsoluteTopLevel => (visited e).flatMap misplacedInBlock
  | .capturesRestNotLast => (subexpressions e).flatMap capturesRestNotLast
  | .capturesRestNotSupported => (visited e).flatMap (capturesRestForbidden c.kind)
  | .illegalAssignmentViaIndex => ((subexpressions e).flatMap assignmentTargets).filter isAccess
  | .crossScopeAssignment => ((subexpressions e).flatMap assignmentTargets).filter isQualifiedVariable
  | .illegalNumericAssignment => ((subexpressions e).flatMap assignmentTargets).filter isNumericVariable
  | .multipleAttributesUnfold => nodes c.kind e fun x => moreUnfolds x.2
  | .notRvalue => nodes c.kind e fun x => noValueWhereNeeded x.2
  | .reservedWord => nodes c.kind e fun x => usesReservedWord x.2
  | .appendsDeletesNoLongerSupported => nodes c.kind e fun x => appendsOrDeletes x.2
  | .illegalQueryExpression => nodes c.kind e fun x => badConditions x.2
  | .notVirtualizable => nodes c.kind e fun x => virtualClass x.2
  | .illegalAttributeAppend => nodes c.kind e badAppend
  | .unsupportedOperatorInContext => nodes c.kind e misplacedUnfold
  | .illegalNumericParameter => nodes c.kind e fun x => numericParameter x.2
  | .illegalParameterName => nodes c.kind e fun x => badParameterName x.2
  | .illegalAssignmentContext => nodes c.kind e fun x => assignsInDefault x.2
  | .unsupportedExpression => nodes c.kind e fun x => unmappable x.2
  | .illegalSingleTypeMapping => nodes c.kind e fun x => badSingleMapping x.2
  | .illegalRegexpTypeMapping => nodes c.kind e fun x => badPatternMapping x.2
  | .illegalDefinitionName => nodes c.kind e fun x => badDefinitionName x.2
  | .reservedTypeName => nodes c.kind e fun x => definedTypeName x.2
  | .futureReservedWord => nodes c.kind e fun x => usesFutureWord x.2
  | .idemNotAllowedLast => nodes c.kind e fun x => endsWithValue isIdem x.2
  | .reservedParameter => nodes c.kind e fun x => takesReservedParameter x.2
  | .illegalHostnameChars => nodes c.kind e fun x => badHostnames c.feq x.2
  | .illegalHostnameInterpolation => nodes c.kind e fun x => computedHostnames c.feq x.2
  | .illegalClassref => nodes c.kind e fun x => badClassref x.2
  | .illegalExpression => nodes c.kind e fun x => wrongKind x.2

theorem no_step_style (c : Checker) (e : Expr) (is : List Issue) (h : validateWith c e = .ok is) :
    ReportedAt is .invalidStepStyle [] := by
  have := Reports.validate (pc := (· == .invalidStepStyle)) (c := c) (g := fun _ => []) (e := e) ?_
  · rw [ReportedAt, this is h, flatMap_nil']
  · intro path x
    cases x with
    | namedDef p k n ps b => cases k <;> exact Checker.silent_check (by simp [Checker.codesOf])
    | bin p k l r => cases k <;> exact Checker.silent_check (by simp [Checker.codesOf])
    | call p k => cases k <;> exact Checker.silent_check (by simp [Checker.codesOf])
    | function p plan => cases plan <;> exact Checker.silent_check (by simp [Checker.codesOf])
    | _ => exact Checker.silent_check (by simp [Checker.codesOf])

/-- C64: every issue has the gravity of its rule. -/
theorem C64_gravity (c : Checker) (e : Expr) (is : List Issue) (h : validateWith c e = .ok is) :
    ∀ i ∈ is, i.severity = gravity c.kind c.strict i.code ∧ gravity c.kind c.strict i.code ≠ .ignore := by
  intro i hi
  obtain ⟨h1, h2, h3⟩ := C12_severity c e is h i hi
  obtain ⟨code, sev, at_, args⟩ := i
  simp only at h1 h2 h3
  cases code
  case futureReservedWord => rw [h1 rfl]; exact ⟨rfl, by simp [gravity]⟩
  case duplicateKey | idemExpressionNotLast =>
    obtain ⟨a, b, d⟩ := h2 (by simp)
    by_cases hk : c.kind = .puppet
    · cases hs : c.strict
      · exact absurd ⟨hk, hs⟩ d
      · rw [a ⟨hk, hs⟩]; simp [gravity, hk]
      · rw [b (.inl ⟨hk, hs⟩)]; simp [gravity, hk]
    · rw [b (.inr hk)]; simp [gravity, hk]
  all_goals
    rw [h3 (by simp) (by simp) (by simp)]
    exact ⟨rfl, by simp [gravity]⟩

theorem reportedAt_of_never {is : List Issue} {code : VCode} (h : ∀ i ∈ is, i.code ≠ code) : ReportedAt is code [] := by
  rw [ReportedAt, List.map_eq_nil_iff, List.filter_eq_nil_iff]
  intro i hi
  simpa using h i hi

/-- C64: for every code, the issues with it are reported exactly at the places at which the rule is broken, in that order,
unless the strictness makes the rule one to ignore. -/
theorem C64_issues (c : Checker) (hf : FloatEq c.feq) (e : Expr) (is : List Issue) (h : validateWith c e = .ok is) (code : VCode) :
    ReportedAt is code (if gravity c.kind c.strict code = .ignore then [] else broken c e code) := by
  have ignored : gravity c.kind c.strict code = .ignore → ReportedAt is code [] := by
    intro hg
    refine reportedAt_of_never fun i hi hc => ?_
    subst hc
    exact (C64_gravity c e is h i hi).2 hg
  have strict : (code = .duplicateKey ∨ code = .idemExpressionNotLast) → gravity c.kind c.strict code ≠ .ignore →
      c.kind ≠ .puppet ∨ c.strict ≠ .off := by
    rintro hc hg
    by_cases hk : c.kind = .puppet
    · refine .inr fun ho => hg ?_
      rcases hc with rfl | rfl <;> simp [gravity, hk, ho]
    · exact .inl hk
  by_cases hg : gravity c.kind c.strict code = .ignore
  · rw [if_pos hg]
    exact ignored hg
  rw [if_neg hg]
  cases code
  case catalogOperationNotSupported =>
    by_cases hk : c.kind = .puppet
    · rw [show broken c e .catalogOperationNotSupported = [] from if_pos hk]; exact C16_puppet_never c hk e is h
    · rw [show broken c e .catalogOperationNotSupported = _ from if_neg hk]
      exact C16_tasks_rejects_catalog_operations c hk e is h
  case workflowOperationNotSupported =>
    by_cases hk : c.kind = .workflow
    · rw [show broken c e .workflowOperationNotSupported = [] from if_pos hk]
      exact reportedAt_of_never fun i hi => (C17_workflow_accepts_steps c hk e is h i hi).1
    · rw [show broken c e .workflowOperationNotSupported = _ from if_neg hk]
      exact C17_steps_rejected c hk e is h
  case invalidStepStyle => exact no_step_style c e is h
  case duplicateParameter => exact C18_duplicate_parameters c e is h
  case duplicateDefault => exact C19_duplicate_defaults c e is h
  case duplicateKey => exact C20_duplicate_keys c hf (strict (.inl rfl) hg) e is h
  case idemExpressionNotLast => exact C21_reported_at c (strict (.inr rfl) hg) e is h
  case notTopLevel => exact C22_not_top_level c e is h
  case notAbsoluteTopLevel => exact C22_not_absolute_top_level c e is h
  case capturesRestNotLast => exact C23_captures_rest_not_last c e is h
  case capturesRestNotSupported => exact C23_captures_rest_not_supported c e is h
  case illegalAssignmentViaIndex => exact C25_index_targets c e is h
  case crossScopeAssignment => exact C25_qualified_targets c e is h
  case illegalNumericAssignment => exact C25_numeric_targets c e is h
  case multipleAttributesUnfold => exact C63_more_unfolds c e is h
  case notRvalue => exact C63_no_value c e is h
  case reservedWord => exact C63_reserved_words c e is h
  case appendsDeletesNoLongerSupported => exact C63_appends_deletes c e is h
  case illegalQueryExpression => exact C63_queries c e is h
  case notVirtualizable => exact C63_virtual c e is h
  case illegalAttributeAppend => exact C63_appended_attributes c e is h
  case unsupportedOperatorInContext => exact C63_misplaced_unfolds c e is h
  case illegalNumericParameter => exact C63_numeric_parameters c e is h
  case illegalParameterName => exact C63_parameter_names c e is h
  case illegalAssignmentContext => exact C63_assigning_defaults c e is h
  case unsupportedExpression => exact C63_unmappable c e is h
  case illegalSingleTypeMapping => exact C63_single_mappings c e is h
  case illegalRegexpTypeMapping => exact C63_pattern_mappings c e is h
  case illegalDefinitionName => exact C63_definition_names c e is h
  case reservedTypeName => exact C63_type_names c e is h
  case futureReservedWord => exact C63_future_words c e is h
  case idemNotAllowedLast => exact C63_value_last c e is h
  case reservedParameter => exact C63_reserved_parameters c e is h
  case illegalHostnameChars => exact C63_host_names c e is h
  case illegalHostnameInterpolation => exact C63_computed_hosts c e is h
  case illegalClassref => exact C63_capabilities c e is h
  case illegalExpression => exact C63_wrong_kind c e is h

/-- C64: an issue is reported at a place exactly if the rule is broken there. -/
theorem C64_issue_iff (c : Checker) (hf : FloatEq c.feq) (e : Expr) (is : List Issue) (h : validateWith c e = .ok is) (code : VCode)
    (x : Expr) : (∃ i ∈ is, i.code = code ∧ i.at_ = x) ↔ gravity c.kind c.strict code ≠ .ignore ∧ x ∈ broken c e code := by
  have hr := C64_issues c hf e is h code
  unfold ReportedAt at hr
  have : (∃ i ∈ is, i.code = code ∧ i.at_ = x) ↔ x ∈ (is.filter fun i => i.code == code).map Issue.at_ := by
    simp [List.mem_map, List.mem_filter, and_assoc]
  rw [this, hr]
  split <;> simp_all

/-- C64: nothing is reported exactly if no rule is broken. -/
theorem C64_accepted_iff (c : Checker) (hf : FloatEq c.feq) (e : Expr) (is : List Issue) (h : validateWith c e = .ok is) :
    is = [] ↔ ∀ code, gravity c.kind c.strict code ≠ .ignore → broken c e code = [] := by
  constructor
  · rintro rfl code hg
    cases hb : broken c e code with
    | nil => rfl
    | cons x l =>
      obtain ⟨i, hi, -⟩ := (C64_issue_iff c hf e [] h code x).2 ⟨hg, hb ▸ List.mem_cons_self ..⟩
      cases hi
  · intro hb
    cases is with
    | nil => rfl
    | cons i is =>
      have hm := (C64_issue_iff c hf e _ h i.code i.at_).1 ⟨i, List.mem_cons_self .., rfl, rfl⟩
      rw [hb i.code hm.1] at hm
      cases hm.2

/-- C64: there is an error exactly if a rule is broken whose gravity is that of an error. -/
theorem C64_rejected_iff (c : Checker) (hf : FloatEq c.feq) (e : Expr) (is : List Issue) (h : validateWith c e = .ok is) :
    (∃ i ∈ is, i.severity = .error) ↔ ∃ code, gravity c.kind c.strict code = .error ∧ broken c e code ≠ [] := by
  constructor
  · rintro ⟨i, hi, hs⟩
    have hm := (C64_issue_iff c hf e _ h i.code i.at_).1 ⟨i, hi, rfl, rfl⟩
    refine ⟨i.code, by rw [← (C64_gravity c e is h i hi).1, hs], fun hn => ?_⟩
    rw [hn] at hm
    cases hm.2
  · rintro ⟨code, hg, hb⟩
    obtain ⟨x, hx⟩ := List.exists_mem_of_ne_nil _ hb
    obtain ⟨i, hi, rfl, -⟩ := (C64_issue_iff c hf e is h code x).2 ⟨by rw [hg]; simp, hx⟩
    exact ⟨i, hi, by rw [(C64_gravity c e is h i hi).1, hg]⟩

/-- C64: the exit status of the command line tool, by the rules alone: not zero exactly if the text is not a program, or
a rule is broken in it whose gravity, with the strictness asked for, is that of an error. -/
theorem C64_tool (a : CliArgs) (hf : FloatEq a.feq) (out : CliOut) (h : cliMain a = .ok out) :
    out.exit ≠ 0 ↔ (∃ err, parse a.env false = .error err) ∨
      ∃ s e, strict a.strict = some s ∧ parse a.env false = .value e ∧
        ∃ code, gravity .puppet s code = .error ∧ broken (cliChecker a s) e code ≠ [] := by
  rw [C46_exit_status a out h]
  refine or_congr Iff.rfl ?_
  constructor
  · rintro ⟨s, e, is, hs, hp, hv, hi⟩
    exact ⟨s, e, hs, hp, (C64_rejected_iff (cliChecker a s) hf e is hv).1 hi⟩
  · rintro ⟨s, e, hs, hp, hb⟩
    have hv := C46_issues_shown a out h s e hs hp
    exact ⟨s, e, out.issues, hs, hp, hv, (C64_rejected_iff (cliChecker a s) hf e _ hv).2 hb⟩

/-- Not vacuous: the equality used by default is symmetric and transitive, ... -/
theorem floatEq_default (text : GoStr) : FloatEq (CliArgs.feq { fileName := b!"a.pp", content := text }) :=
  ⟨fun a b h => by simpa using (by simpa using h : a = b).symm,
   fun a b c h h' => by simpa using (by simpa using h : a = b).trans (by simpa using h')⟩

/-- ... and the tool ends with status 1 for a program that breaks a rule, with 0 for one that breaks none, and with 0
or 1, depending on the strictness, for one with a key twice. -/
example :
    (cliMain { fileName := b!"a.pp", content := b!"$x = attr" }).toOption.map CliOut.exit = some 1 ∧
    (cliMain { fileName := b!"a.pp", content := b!"$x = 1" }).toOption.map CliOut.exit = some 0 ∧
    (cliMain { fileName := b!"a.pp", content := b!"$x = {a=>1,a=>2}", strict := b!"warning" }).toOption.map CliOut.exit = some 0 ∧
    (cliMain { fileName := b!"a.pp", content := b!"$x = {a=>1,a=>2}", strict := b!"error" }).toOption.map CliOut.exit = some 1 := by
  decide +kernel

end PP.Props
