import Verif.Lemmas.Reports
import Verif.Props.Visitor
import Verif.Props.Literal

/-!
# C12 - C23, C25, C49: what the validators report

`validateWith c e` is the outcome of `ValidatePuppet`, `ValidateTasks` or `ValidateWorkflow` (chosen by
`c.kind`) on `e`.  The expressions of a tree are listed by `subexpressions`; C09 (Props/Visitor) says
that this lists every contained expression exactly once, in document order.
-/

namespace PP.Props
open PP.Expr

/-- The expression and everything it contains, in document order (C09). -/
def subexpressions (e : Expr) : List Expr := e :: (e.allContents []).map Prod.snd

theorem visited_snd (e : Expr) : (visited e).map Prod.snd = subexpressions e := rfl

/-- `ValidatePuppet` / `NewChecker` with a strictness. -/
def puppet (s : Strictness) (textLen : Nat) (feq : FloatVal → FloatVal → Bool) (ff : FloatVal → GoStr) : Checker :=
  { kind := .puppet, strict := s, textLen, feq, ff }

/-- The issues with a given code are reported at these expressions, in this order. -/
def ReportedAt (is : List Issue) (code : VCode) (l : List Expr) : Prop :=
  (is.filter (fun i => i.code == code)).map Issue.at_ = l

/-! ## C12 -/

/-- C12: every issue has the severity that its code demands: future reserved word is a deprecation,
duplicate key and idem-not-last have the chosen strictness (error for tasks and workflow), all others
are errors; and nothing is reported with severity `ignore`. -/
theorem C12_severity (c : Checker) (e : Expr) (is : List Issue) (h : validateWith c e = .ok is) :
    ∀ i ∈ is,
      (i.code = .futureReservedWord → i.severity = .deprecation) ∧
      (i.code = .duplicateKey ∨ i.code = .idemExpressionNotLast →
        (c.kind = .puppet ∧ c.strict = .warning → i.severity = .warning) ∧
        (c.kind = .puppet ∧ c.strict = .error ∨ c.kind ≠ .puppet → i.severity = .error) ∧
        ¬ (c.kind = .puppet ∧ c.strict = .off)) ∧
      (i.code ≠ .futureReservedWord → i.code ≠ .duplicateKey → i.code ≠ .idemExpressionNotLast →
        i.severity = .error) := by
  intro i hi
  obtain ⟨h1, h2, -⟩ := good_validate c e is h i hi
  unfold Checker.severityOf at h1
  obtain ⟨code, sev, at_⟩ := i
  simp only at h1 h2
  refine ⟨?_, ?_, ?_⟩
  · rintro rfl; exact h1
  · intro hc
    refine ⟨?_, ?_, ?_⟩
    · rintro ⟨k1, k2⟩
      rcases hc with rfl | rfl <;> simp_all [Strictness.severity]
    · intro hk
      rcases hc with rfl | rfl <;> rcases hk with ⟨k1, k2⟩ | k1 <;> simp_all [Strictness.severity]
    · rintro ⟨k1, k2⟩
      rcases hc with rfl | rfl <;> simp_all [Strictness.severity]
  · intro a b d
    cases code <;> simp_all

/-! ## C13 -/

theorem filterMap_congr' {α β} {f g : α → Option β} {l : List α} (h : ∀ x ∈ l, f x = g x) :
    l.filterMap f = l.filterMap g := by
  induction l with
  | nil => rfl
  | cons a l ih =>
    rw [List.filterMap_cons, List.filterMap_cons, h a (List.mem_cons_self ..),
      ih fun x hx => h x (List.mem_cons_of_mem _ hx)]

theorem flatMap_nil' {α β} (l : List α) : (l.flatMap fun _ => ([] : List β)) = [] := by
  induction l <;> simp_all

/-- C13: with strictness `off` exactly the duplicate key and idem-not-last issues disappear. -/
theorem C13_off_is_filter (n feq ff) (e : Expr) (is : List Issue)
    (h : validateWith (puppet .error n feq ff) e = .ok is) :
    validateWith (puppet .off n feq ff) e =
      .ok (is.filter fun i => i.code != .duplicateKey && i.code != .idemExpressionNotLast) := by
  have hs := good_validate _ e is h
  have := Checker.validateWith_adj (puppet .off n feq ff) e
  change validateWith _ _ = Checker.adj _ (validateWith (puppet .error n feq ff) e) at this
  rw [this, h]
  simp only [Checker.adj, Except.map]
  congr 1
  rw [← List.filterMap_eq_filter]
  apply filterMap_congr'
  intro i hi
  obtain ⟨h1, -, -⟩ := hs i hi
  obtain ⟨code, sev, at_⟩ := i
  simp only at h1
  cases code <;> simp [Checker.relabel, Checker.severityOf, puppet, Strictness.severity, Option.guard] <;>
    simp [h1, Checker.severityOf]

/-- C13: warning and error report the same codes at the same expressions. -/
theorem C13_warning_same_as_error (n feq ff) (e : Expr) (is : List Issue)
    (h : validateWith (puppet .error n feq ff) e = .ok is) :
    ∃ ws, validateWith (puppet .warning n feq ff) e = .ok ws ∧
      ws.map (fun i => (i.code, i.at_)) = is.map (fun i => (i.code, i.at_)) := by
  have := Checker.validateWith_adj (puppet .warning n feq ff) e
  change validateWith _ _ = Checker.adj _ (validateWith (puppet .error n feq ff) e) at this
  rw [this, h]
  refine ⟨_, rfl, ?_⟩
  have hr : ∀ i : Issue, (puppet .warning n feq ff).relabel i =
      some { i with severity := (puppet .warning n feq ff).severityOf i.code } := by
    rintro ⟨code, sev, at_⟩
    cases code <;> simp [Checker.relabel, Checker.severityOf, puppet, Strictness.severity]
  rw [filterMap_congr' (g := fun i => some { i with severity := (puppet .warning n feq ff).severityOf i.code })
    (fun i _ => hr i), List.filterMap_eq_map', List.map_map]
  rfl

/-- C13: whether validation panics does not depend on the strictness. -/
theorem C13_panic_independent (s n feq ff) (e : Expr) (p : VPanic) :
    validateWith (puppet s n feq ff) e = .error p ↔ validateWith (puppet .error n feq ff) e = .error p := by
  have := Checker.validateWith_adj (puppet s n feq ff) e
  change validateWith _ _ = Checker.adj _ (validateWith (puppet .error n feq ff) e) at this
  rw [this]
  cases validateWith (puppet .error n feq ff) e <;> simp [Checker.adj, Except.map]

/-! ## C14 -/

/-- C14: validating with a validator that was used before gives the issues of a fresh validator. -/
theorem C14_reuse (v : Validator) (e : Expr) :
    (v.validate e).map Validator.issues = validateWith v.checker e := by
  rw [validateWith_eq]
  have := foldlM_visit (visited e) { v with issues := [] }
  unfold Validator.validate
  rw [show (([], e) :: e.allContents []) = visited e from rfl, this]
  exact vnone_seq _

/-! ## C15 -/

/-- C15: every issue is located at the validated expression or at an expression contained in it. -/
theorem C15_located_in_tree (c : Checker) (e : Expr) (is : List Issue) (h : validateWith c e = .ok is) :
    ∀ i ∈ is, i.at_ ∈ subexpressions e := by
  intro i hi
  obtain ⟨-, -, h3⟩ := good_validate c e is h i hi
  obtain ⟨p, hp⟩ := visited_complete h3
  rw [← visited_snd]
  exact List.mem_map.2 ⟨_, hp, rfl⟩

/-! ## C16, C17 -/

/-- The constructs that need a catalog. -/
def catalogConstruct : Expr → Bool
  | .namedDef .. => true                 -- application, define, class
  | .capabilityMapping .. => true
  | .collect .. => true
  | .node .. => true
  | .bin _ (.relationship _) .. => true
  | .resource .. => true
  | .resourceDefaults .. => true
  | .resourceOverride .. => true
  | .site .. => true
  | _ => false

theorem severityOf_fixed (c : Checker) (code : VCode) (h1 : code ≠ .duplicateKey) (h2 : code ≠ .idemExpressionNotLast) :
    c.severityOf code ≠ .ignore := by
  unfold Checker.severityOf
  cases code <;> simp_all

theorem flatMap_visited {f : Expr → List Expr} (e : Expr) :
    ((visited e).flatMap fun x => f x.2) = (subexpressions e).flatMap f := by
  rw [← visited_snd, List.flatMap_map]

theorem flatMap_filter {α} (p : α → Bool) (l : List α) : (l.flatMap fun x => if p x then [x] else []) = l.filter p := by
  induction l with
  | nil => rfl
  | cons a l ih => by_cases h : p a = true <;> simp [List.flatMap_cons, ih, h]

theorem catalogOp_reports {c : Checker} {e m} (h : c.kind ≠ .puppet) :
    Reports (· == .catalogOperationNotSupported) (c.catalogOp e m) [e] := by
  unfold Checker.catalogOp
  rw [if_neg h]
  exact .accept rfl (severityOf_fixed _ _ (by simp) (by simp))

/-- C16: the tasks (and the workflow) validator reports catalog-operation-not-supported exactly at the
catalog constructs of the program, each once. -/
theorem C16_tasks_rejects_catalog_operations (c : Checker) (hk : c.kind ≠ .puppet) (e : Expr) (is : List Issue)
    (h : validateWith c e = .ok is) :
    ReportedAt is .catalogOperationNotSupported ((subexpressions e).filter catalogConstruct) := by
  have := Reports.validate (pc := (· == .catalogOperationNotSupported)) (c := c)
    (g := fun x => if catalogConstruct x.2 then [x.2] else []) (e := e) ?_
  · rw [← flatMap_filter, ← flatMap_visited]
    exact this is h
  · intro path x
    cases x with
    | namedDef p k n ps b => cases k <;> exact catalogOp_reports hk
    | bin p k l r => cases k <;> first
        | exact catalogOp_reports hk
        | exact Checker.silent_check (by simp [Checker.codesOf])
    | capabilityMapping | collect | node | resource | resourceDefaults | resourceOverride | site =>
      exact catalogOp_reports hk
    | call p k => cases k <;> exact Checker.silent_check (by simp [Checker.codesOf])
    | function p plan => cases plan <;> exact Checker.silent_check (by simp [Checker.codesOf])
    | _ => exact Checker.silent_check (by simp [Checker.codesOf])

/-- C16: so a program without catalog constructs gets no such issue, and one with a catalog construct
anywhere is rejected. -/
theorem C16_rejected_iff (c : Checker) (hk : c.kind ≠ .puppet) (e : Expr) (is : List Issue)
    (h : validateWith c e = .ok is) :
    (∃ i ∈ is, i.code = .catalogOperationNotSupported ∧ i.severity = .error) ↔
      ∃ x, Within x e ∧ catalogConstruct x = true := by
  have h1 := C16_tasks_rejects_catalog_operations c hk e is h
  constructor
  · rintro ⟨i, hi, hc, -⟩
    have : i.at_ ∈ (subexpressions e).filter catalogConstruct := by
      rw [← h1]
      exact List.mem_map.2 ⟨i, List.mem_filter.2 ⟨hi, by simp [hc]⟩, rfl⟩
    obtain ⟨h2, h3⟩ := List.mem_filter.1 this
    rw [← visited_snd] at h2
    obtain ⟨x, hx, hx'⟩ := List.mem_map.1 h2
    exact ⟨i.at_, hx' ▸ (visited_ok e x hx).1, h3⟩
  · rintro ⟨x, hx, hc⟩
    obtain ⟨p, hp⟩ := visited_complete hx
    have : x ∈ (subexpressions e).filter catalogConstruct :=
      List.mem_filter.2 ⟨by rw [← visited_snd]; exact List.mem_map.2 ⟨_, hp, rfl⟩, hc⟩
    rw [← h1] at this
    obtain ⟨i, hi, -⟩ := List.mem_map.1 this
    obtain ⟨hi, hc⟩ := List.mem_filter.1 hi
    have hc : i.code = .catalogOperationNotSupported := by simpa using hc
    exact ⟨i, hi, hc, (C12_severity c e is h i hi).2.2 (by simp [hc]) (by simp [hc]) (by simp [hc])⟩

/-- C16: the Puppet validator never reports it. -/
theorem C16_puppet_never (c : Checker) (hk : c.kind = .puppet) (e : Expr) (is : List Issue)
    (h : validateWith c e = .ok is) : ReportedAt is .catalogOperationNotSupported [] := by
  have op : ∀ x m, Reports (· == .catalogOperationNotSupported) m [] →
      Reports (· == .catalogOperationNotSupported) (c.catalogOp x m) [] := by
    intro x m hm
    unfold Checker.catalogOp
    rwa [if_pos hk]
  have := Reports.validate (pc := (· == .catalogOperationNotSupported)) (c := c)
    (g := fun _ => []) (e := e) ?_
  · rw [ReportedAt, this is h, flatMap_nil']
  · intro path x
    cases x with
    | namedDef p k n ps b =>
      cases k
      · exact op _ _ .none
      all_goals
        exact op _ _ ((Checker.silent_of (Checker.codes_checkNamedDefinition _ _ _ _) (by simp)).seqL
          ((Checker.silent_of (Checker.codes_checkNoCapture _) (by simp)).seqL
          ((Checker.silent_of (Checker.codes_checkReservedParams _ _) (by simp)).seqL
          (Checker.silent_of (Checker.codes_checkNoIdemLast _) (by simp)))))
    | bin p k l r => cases k <;> first
        | exact op _ _ ((Checker.silent_of (Checker.codes_checkRelation _) (by simp)).seqL
            (Checker.silent_of (Checker.codes_checkRelation _) (by simp)))
        | exact Checker.silent_check (by simp [Checker.codesOf])
    | capabilityMapping => exact op _ _ (Checker.silent_of (Checker.codes_checkCapabilityMapping _ _ _) (by simp))
    | collect => exact op _ _ (Checker.silent_of (l := [.illegalExpression]) (by codes) (by simp))
    | node => exact op _ _ ((Checker.silent_of (Checker.codes_checkHostname _) (by simp)).seqL
        ((Checker.silent_of (Checker.codes_checkTop _ _) (by simp)).seqL
          (Checker.silent_of (Checker.codes_checkNoIdemLast _) (by simp))))
    | resource => exact op _ _ (Checker.silent_of (l := [.notVirtualizable]) (by codes) (by simp))
    | resourceDefaults => exact op _ _ (Checker.silent_of (l := [.notVirtualizable]) (by codes) (by simp))
    | resourceOverride => exact op _ _ (Checker.silent_of (l := [.notVirtualizable]) (by codes) (by simp))
    | site => exact op _ _ .none
    | call p k => cases k <;> exact Checker.silent_check (by simp [Checker.codesOf])
    | function p plan => cases plan <;> exact Checker.silent_check (by simp [Checker.codesOf])
    | _ => exact Checker.silent_check (by simp [Checker.codesOf])

def isStep : Expr → Bool
  | .step .. => true
  | _ => false

/-- C17: the Puppet and tasks validators report workflow-operation-not-supported exactly at the steps. -/
theorem C17_steps_rejected (c : Checker) (hk : c.kind ≠ .workflow) (e : Expr) (is : List Issue)
    (h : validateWith c e = .ok is) :
    ReportedAt is .workflowOperationNotSupported ((subexpressions e).filter isStep) := by
  have := Reports.validate (pc := (· == .workflowOperationNotSupported)) (c := c)
    (g := fun x => if isStep x.2 then [x.2] else []) (e := e) ?_
  · rw [← flatMap_filter, ← flatMap_visited]
    exact this is h
  · intro path x
    cases x with
    | step =>
      simp only [Checker.check, hk, if_false]
      exact .accept rfl (severityOf_fixed _ _ (by simp) (by simp))
    | namedDef p k n ps b => cases k <;> exact Checker.silent_check (by simp [Checker.codesOf])
    | bin p k l r => cases k <;> exact Checker.silent_check (by simp [Checker.codesOf])
    | call p k => cases k <;> exact Checker.silent_check (by simp [Checker.codesOf])
    | function p plan => cases plan <;> exact Checker.silent_check (by simp [Checker.codesOf])
    | _ => exact Checker.silent_check (by simp [Checker.codesOf])

/-- C17: the workflow validator never reports a step. -/
theorem C17_workflow_accepts_steps (c : Checker) (hk : c.kind = .workflow) (e : Expr) (is : List Issue)
    (h : validateWith c e = .ok is) :
    ∀ i ∈ is, i.code ≠ .workflowOperationNotSupported ∧ i.code ≠ .invalidStepStyle := by
  have : Reports (fun x => x == .workflowOperationNotSupported || x == .invalidStepStyle) (validateWith c e)
      ((visited e).flatMap fun _ => []) := by
    apply Reports.validate
    intro path x
    cases x with
    | step => simp only [Checker.check, hk, if_true]; exact .none
    | namedDef p k n ps b => cases k <;> exact Checker.silent_check (by simp [Checker.codesOf])
    | bin p k l r => cases k <;> exact Checker.silent_check (by simp [Checker.codesOf])
    | call p k => cases k <;> exact Checker.silent_check (by simp [Checker.codesOf])
    | function p plan => cases plan <;> exact Checker.silent_check (by simp [Checker.codesOf])
    | _ => exact Checker.silent_check (by simp [Checker.codesOf])
  have := this is h
  rw [flatMap_nil', List.map_eq_nil_iff, List.filter_eq_nil_iff] at this
  intro i hi
  have h' := this i hi
  simp at h'
  exact h'

end PP.Props
