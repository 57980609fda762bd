import Verif.Lemmas.Validator

/-! # Where issues are located and what their severity is. -/

namespace PP

/-- `Within x e`: the expression `x` is `e` or is contained in `e`, at any depth. -/
inductive Within : Expr → Expr → Prop
  | self (e : Expr) : Within e e
  | inside (x k e : Expr) : k ∈ e.kids → Within x k → Within x e

theorem Within.kid {k e : Expr} (h : k ∈ e.kids) : Within k e := .inside _ _ _ h (.self _)

theorem Within.trans {x y z : Expr} (h1 : Within x y) (h2 : Within y z) : Within x z := by
  induction h2 with
  | self => exact h1
  | inside k e hk _ ih => exact .inside _ _ _ (by assumption) ih

/-- Containers at which (or in whose parameters) the check of a contained expression may report. -/
def reportsAtContainer : Expr → Bool
  | .lambda .. | .resource .. | .resourceDefaults .. | .resourceOverride .. | .collect .. | .capabilityMapping .. => true
  | _ => false

namespace Checker
variable {v : Checker}

/-- Issues that `v` may report at the expressions that satisfy `L`. -/
def Good (v : Checker) (L : Expr → Prop) (i : Issue) : Prop :=
  i.severity = v.severityOf i.code ∧ i.severity ≠ .ignore ∧ L i.at_

theorem good_accept {L : Expr → Prop} {code e args} (h : L e) : AllIssues (v.Good L) (v.accept code e args) := by
  intro is h' i hi
  unfold Checker.accept at h'
  simp only at h'
  split at h' <;> cases h'
  · cases hi
  · rw [List.mem_singleton.1 hi]; exact ⟨rfl, by assumption, h⟩

/-- `L` holds for everything in `e`. -/
def Covers (L : Expr → Prop) (e : Expr) : Prop := ∀ x, Within x e → L x

theorem Covers.self {L e} (h : Covers L e) : L e := h e (.self e)
theorem Covers.kid {L e k} (h : Covers L e) (hk : k ∈ e.kids) : Covers L k :=
  fun x hx => h x (.inside _ _ _ hk hx)

/-- Close goals by the closure properties of `AllIssues`. -/
macro "issues" : tactic => `(tactic|
  repeat' (first
    | exact AllIssues.none
    | exact AllIssues.okNil
    | exact AllIssues.error
    | apply AllIssues.seq
    | (apply good_accept; first | assumption | exact Covers.self (by assumption))
    | split))

theorem good_checkRValue {L} {e : Expr} (h : Covers L e) : AllIssues (v.Good L) (v.checkRValue e) := by
  induction e using Expr.kidsInduction with
  | step e ih =>
    cases e with
    | un p k e =>
      rw [checkRValue]
      exact ih e (by simp [Expr.kids]) (h.kid (by simp [Expr.kids]))
    | _ => simp only [checkRValue]; issues

theorem good_checkRelation {L} {e : Expr} (h : Covers L e) : AllIssues (v.Good L) (v.checkRelation e) := by
  unfold checkRelation
  split
  · exact .none
  · exact .none
  · exact good_checkRValue h

mutual
theorem good_checkAssign {L} : {e : Expr} → Covers L e → AllIssues (v.Good L) (v.checkAssign e)
  | .access p o ks, h => by rw [checkAssign]; issues
  | .list _ es, h => by
    rw [checkAssign]; exact good_checkAssignAll fun e he => h.kid (by simpa [Expr.kids] using he)
  | .un p k n, h => by
    cases k <;> simp only [checkAssign] <;> issues
  | .bin .., _ | .query .., _ | .attributeOp .., _ | .attributesOp .., _ | .block .., _ | .call .., _
  | .capabilityMapping .., _ | .caseE .., _ | .caseOption .., _ | .collect .., _ | .concat .., _ | .epp .., _ | .heredoc .., _
  | .ifE .., _ | .keyedEntry .., _ | .lambda .., _ | .boolean .., _ | .dflt _, _ | .float .., _ | .hash .., _ | .integer .., _
  | .string .., _ | .undef _, _ | .nop _, _ | .namedDef .., _ | .function .., _ | .node .., _ | .parameter .., _
  | .program .., _ | .qname .., _ | .qref .., _ | .regexp .., _ | .renderString .., _ | .reserved .., _ | .resource .., _
  | .resourceBody .., _ | .resourceDefaults .., _ | .resourceOverride .., _ | .selector .., _ | .selectorEntry .., _
  | .site .., _ | .typeAlias .., _ | .typeDefinition .., _ | .typeMapping .., _ | .step .., _ | .commaSep .., _ => by
    simp only [checkAssign]; issues
theorem good_checkAssignAll {L} : {es : List Expr} → (∀ e ∈ es, Covers L e) → AllIssues (v.Good L) (v.checkAssignAll es)
  | [], _ => by rw [checkAssignAll]; issues
  | e :: es, h => by
    rw [checkAssignAll]
    exact (good_checkAssign (h e (List.mem_cons_self ..))).seq
      (good_checkAssignAll fun x hx => h x (List.mem_cons_of_mem _ hx))
end

theorem good_checkCaptureLast {L} : {ps : List Expr} → (∀ e ∈ ps, Covers L e) → AllIssues (v.Good L) (v.checkCaptureLast ps)
  | [], _ => by rw [checkCaptureLast]; issues
  | [_], _ => by rw [checkCaptureLast]; issues
  | p :: q :: ps, h => by
    rw [checkCaptureLast]
    have hp := h p (List.mem_cons_self ..)
    apply AllIssues.seq
    · issues
    · exact good_checkCaptureLast fun x hx => h x (List.mem_cons_of_mem _ hx)

theorem good_checkNoCapture {L} {ps : List Expr} (h : ∀ e ∈ ps, Covers L e) : AllIssues (v.Good L) (v.checkNoCapture c0 ps) := by
  apply AllIssues.forEach
  intro e he
  have := h e he
  issues

theorem good_checkFutureReservedWord {L} {e w} (h : L e) : AllIssues (v.Good L) (v.checkFutureReservedWord e w) := by
  unfold checkFutureReservedWord; issues

theorem good_checkReservedTypeName {L} {e w} (h : L e) : AllIssues (v.Good L) (v.checkReservedTypeName e w) := by
  unfold checkReservedTypeName; issues

theorem good_checkHostname {L} {ps : List Expr} (h : ∀ e ∈ ps, Covers L e) : AllIssues (v.Good L) (v.checkHostname ps) := by
  apply AllIssues.forEach
  intro e he
  have := h e he
  unfold checkHostname1 checkHostnameString; issues

theorem good_checkIllegalAssignment {L} {e : Expr} (h : Covers L e) : AllIssues (v.Good L) (v.checkIllegalAssignment e) := by
  induction e using Expr.kidsInduction with
  | step e ih =>
    rw [checkIllegalAssignment_eq]
    split
    · issues
    · split
      · issues
      · exact AllIssues.forEach fun k hk => ih k hk (h.kid hk)

theorem good_checkNoIdemLast {L} {b : Expr} (h : Covers L b) : AllIssues (v.Good L) (v.checkNoIdemLast c0 b) := by
  unfold checkNoIdemLast
  split
  · split
    · rename_i x hx
      have : L x := by
        unfold endsWithIdem at hx
        split at hx
        · split at hx <;> cases hx
          rename_i hl _
          exact (h.kid (by simpa [Expr.kids] using List.mem_of_getLast? hl)).self
        · cases hx
      issues
    · issues
  · issues

theorem good_checkUnique {L} {ps : List Expr} (h : ∀ e ∈ ps, Covers L e) (seen) : AllIssues (v.Good L) (v.checkUnique seen ps) := by
  induction ps generalizing seen with
  | nil => rw [checkUnique]; issues
  | cons p ps ih =>
    have hp := h p (List.mem_cons_self ..)
    have ih' := ih fun x hx => h x (List.mem_cons_of_mem _ hx)
    unfold checkUnique
    split
    · issues
    · split
      · exact (good_accept hp.self).seq (ih' _)
      · exact ih' _

theorem good_checkQuery {L} {e : Expr} (h : Covers L e) : AllIssues (v.Good L) (v.checkQuery e) := by
  induction e using Expr.kidsInduction with
  | step e ih =>
    cases e with
    | bin p k l r =>
      have hl := ih l (by simp [Expr.kids]) (h.kid (by simp [Expr.kids]))
      have hr := ih r (by simp [Expr.kids]) (h.kid (by simp [Expr.kids]))
      cases k <;> simp only [checkQuery] <;> (first | exact hl.seq hr | issues)
    | un p k e =>
      have hl := ih e (by simp [Expr.kids]) (h.kid (by simp [Expr.kids]))
      cases k <;> simp only [checkQuery] <;> (first | exact hl | issues)
    | _ => simp only [checkQuery]; issues

theorem good_checkReservedParams {L} {c} (h : L c) (ps : List Expr) : AllIssues (v.Good L) (v.checkReservedParams c ps) := by
  induction ps with
  | nil => rw [checkReservedParams]; issues
  | cons p ps ih =>
    unfold checkReservedParams
    split
    · issues
    · apply AllIssues.seq
      · issues
      · exact ih

theorem good_checkTypeRef {L} {r} (h : L r) : AllIssues (v.Good L) (v.checkTypeRef c0 r) := by
  unfold checkTypeRef
  simp only
  split
  · exact good_checkFutureReservedWord h
  · issues

theorem good_checkReturnType {L} {r} (h : ∀ x ∈ r, L x) : AllIssues (v.Good L) (v.checkReturnType c0 r) := by
  cases r with
  | none => exact .none
  | some r => exact good_checkTypeRef (h r rfl)

theorem good_checkTop {L} {e} (h : L e) (cs) : AllIssues (v.Good L) (v.checkTop e cs) := by
  induction cs with
  | nil => simp only [checkTop]; issues
  | cons c cs ih =>
    unfold checkTop
    split
    · issues
    · issues
    · split
      · exact ih
      · split
        · issues
        · exact ih
    · issues

theorem good_checkNamedDefinition {L} {p e n ps} (h : L e) (hp : ∀ e ∈ ps, Covers L e) :
    AllIssues (v.Good L) (v.checkNamedDefinition p e n ps) := by
  unfold checkNamedDefinition
  refine (good_checkTop h _).seq (AllIssues.seq ?_ ((good_checkReservedTypeName h).seq
    ((good_checkFutureReservedWord h).seq (good_checkUnique hp _))))
  issues

theorem good_checkBlock {L} : {ss : List Expr} → (∀ e ∈ ss, Covers L e) → AllIssues (v.Good L) (v.checkBlock ss)
  | [], _ => by rw [checkBlock]; issues
  | [_], _ => by rw [checkBlock]; issues
  | s :: t :: ss, h => by
    have hs := h s (List.mem_cons_self ..)
    rw [checkBlock]
    split
    · issues
    · exact good_checkBlock fun x hx => h x (List.mem_cons_of_mem _ hx)

theorem mem_checkDefaults {x : Expr} {found xs} (h : x ∈ (checkDefaults found xs).1) : x ∈ xs := by
  induction xs generalizing found with
  | nil => simp [checkDefaults] at h
  | cons y ys ih =>
    unfold checkDefaults at h
    split at h
    · split at h
      simp only at h
      rename_i heq
      by_cases hf : found = true
      · simp only [hf, if_true] at h
        rcases List.mem_cons.1 h with rfl | h
        · exact List.mem_cons_self ..
        · exact List.mem_cons_of_mem _ (ih (by rw [heq]; exact h))
      · simp only [hf] at h
        exact List.mem_cons_of_mem _ (ih (by rw [heq]; exact h))
    · exact List.mem_cons_of_mem _ (ih h)

theorem good_checkCaseOptions {L} {os : List Expr} (h : ∀ e ∈ os, Covers L e) (f) :
    AllIssues (v.Good L) (v.checkCaseOptions c0 f os) := by
  induction os generalizing f with
  | nil => rw [checkCaseOptions]; issues
  | cons o os ih =>
    have ho := h o (List.mem_cons_self ..)
    unfold checkCaseOptions
    split
    · refine AllIssues.seq (AllIssues.forEach fun d hd => ?_) (ih (fun x hx => h x (List.mem_cons_of_mem _ hx)) _)
      exact good_accept (ho.kid (by simp [Expr.kids, mem_checkDefaults hd])).self
    · issues

theorem good_checkSelectors {L} {os : List Expr} (h : ∀ e ∈ os, Covers L e) (f) :
    AllIssues (v.Good L) (v.checkSelectors c0 f os) := by
  induction os generalizing f with
  | nil => rw [checkSelectors]; issues
  | cons o os ih =>
    have ho := h o (List.mem_cons_self ..)
    have ih' := ih fun x hx => h x (List.mem_cons_of_mem _ hx)
    unfold checkSelectors
    split
    · split
      · apply AllIssues.seq
        · issues
        · exact ih' _
      · exact ih' _
    · issues

theorem good_checkHash {L} {os : List Expr} (h : ∀ e ∈ os, Covers L e) (f) :
    AllIssues (v.Good L) (v.checkHash f os) := by
  induction os generalizing f with
  | nil => rw [checkHash]; issues
  | cons o os ih =>
    have ho := h o (List.mem_cons_self ..)
    have ih' := ih fun x hx => h x (List.mem_cons_of_mem _ hx)
    unfold checkHash
    split
    · cases v.hashKey _ with
      | error p => exact .error
      | ok r =>
        cases r with
        | none => exact ih' _
        | some l =>
          simp only [bind, Except.bind]
          split
          · split
            · exact (good_accept ho.self).seq (ih' _)
            · issues
          · exact ih' _
    · issues

theorem good_checkUnfolds {L} {os : List Expr} (h : ∀ e ∈ os, Covers L e) (f) :
    AllIssues (v.Good L) (v.checkUnfolds f os) := by
  induction os generalizing f with
  | nil => rw [checkUnfolds]; issues
  | cons o os ih =>
    have ho := h o (List.mem_cons_self ..)
    have ih' := ih fun x hx => h x (List.mem_cons_of_mem _ hx)
    unfold checkUnfolds
    split
    · split
      · exact (good_accept ho.self).seq (ih' _)
      · exact ih' _
    · exact ih' _

theorem good_checkTypeMapping {L} {e l r} (h : L e) : AllIssues (v.Good L) (v.checkTypeMapping e l r) := by
  unfold checkTypeMapping
  simp only
  issues

theorem good_catalogOp {L} {e m} (h : L e) (hm : AllIssues (v.Good L) m) : AllIssues (v.Good L) (v.catalogOp e m) := by
  unfold catalogOp
  split
  · exact hm
  · issues

/-- All issues of a check are located in the checked expression, or (attribute unfolding, EPP
parameters) in its container. -/
theorem good_check {L} {path : List Expr} {e : Expr} (h : Covers L e)
    (hp : ∀ c, path.getLast? = some c → reportsAtContainer c = true → Covers L c) :
    AllIssues (v.Good L) (v.check path e) := by
  have hk : ∀ k ∈ e.kids, Covers L k := fun k hk => h.kid hk
  have he : L e := h.self
  cases e with
  | step => simp only [check]; issues
  | namedDef p k n ps b =>
    have hps : ∀ e ∈ ps, Covers L e := fun x hx => hk x (by simp [Expr.kids, hx])
    have hb : Covers L b := hk b (by simp [Expr.kids])
    cases k <;> simp only [check] <;> apply good_catalogOp he
    · exact .none
    · exact (good_checkNamedDefinition he hps).seq ((good_checkNoCapture hps).seq
        ((good_checkReservedParams he _).seq (good_checkNoIdemLast hb)))
    · exact (good_checkNamedDefinition he hps).seq ((good_checkNoCapture hps).seq
        ((good_checkReservedParams he _).seq (good_checkNoIdemLast hb)))
  | bin p k l r =>
    have hl : Covers L l := hk l (by simp [Expr.kids])
    have hr : Covers L r := hk r (by simp [Expr.kids])
    cases k
    case relationship op =>
      exact good_catalogOp he ((good_checkRelation hl).seq (good_checkRelation hr))
    case assignment op =>
      simp only [check]
      split
      · exact good_checkAssign hl
      · issues
    case namedAccess => simp only [check]; split; · exact .none
                        · exact good_accept hr.self
    all_goals exact (good_checkRValue hl).seq (good_checkRValue hr)
  | attributeOp =>
    simp only [check, checkAttributeOperation]
    issues
  | attributesOp p x =>
    simp only [check, checkAttributesOperation]
    apply AllIssues.seq
    · split
      · rename_i c hc
        split
        · exact good_accept (hp _ hc rfl).self
        · exact good_accept (hp _ hc rfl).self
        · exact good_accept (hp _ hc rfl).self
        · exact good_accept (hp _ hc rfl).self
        · exact good_accept (hp _ hc rfl).self
        · exact .none
      · exact .none
    · exact good_checkRValue (hk x (by simp [Expr.kids]))
  | block p ss => exact good_checkBlock fun x hx => hk x (by simpa [Expr.kids] using hx)
  | call p k rv f a l =>
    cases k <;> simp only [check]
    · issues
    · issues
    · have hf : Covers L f := hk f (by simp [Expr.kids])
      unfold checkCallNamed
      issues
  | capabilityMapping p k c x ms =>
    have hx : Covers L x := hk x (by simp [Expr.kids])
    apply good_catalogOp he
    unfold checkCapabilityMapping
    apply AllIssues.seq <;> issues
  | caseE p t os =>
    exact (good_checkRValue (hk t (by simp [Expr.kids]))).seq
      (good_checkCaseOptions (fun x hx => hk x (by simp [Expr.kids, hx])) _)
  | caseOption p vs t =>
    exact AllIssues.forEach fun x hx => good_checkRValue (hk x (by simp [Expr.kids, hx]))
  | collect p t q ops =>
    have ht : Covers L t := hk t (by simp [Expr.kids])
    apply good_catalogOp he
    issues
  | epp p s b =>
    simp only [check]
    split
    · rename_i q ps b' r hc
      have hps : ∀ e ∈ ps, Covers L e := fun x hx => (hp _ hc rfl).kid (by simp [Expr.kids, hx])
      exact (good_checkNoCapture hps).seq (good_checkUnique hps _)
    · issues
  | function p plan n ps b r =>
    have hps : ∀ e ∈ ps, Covers L e := fun x hx => hk x (by simp [Expr.kids, hx])
    cases plan
    · simp only [check]
      exact (good_checkNamedDefinition he hps).seq ((good_checkCaptureLast hps).seq
        (good_checkReturnType fun x hx => (hk x (by simp [Expr.kids, Option.mem_def.1 hx])).self))
    · simp only [check]; issues
  | ifE p u t a b => exact good_checkRValue (hk t (by simp [Expr.kids]))
  | keyedEntry p a b =>
    exact (good_checkRValue (hk a (by simp [Expr.kids]))).seq (good_checkRValue (hk b (by simp [Expr.kids])))
  | lambda p ps b r =>
    have hps : ∀ e ∈ ps, Covers L e := fun x hx => hk x (by simp [Expr.kids, hx])
    exact (good_checkCaptureLast hps).seq
        (good_checkReturnType fun x hx => (hk x (by simp [Expr.kids, Option.mem_def.1 hx])).self)
  | hash p es => exact good_checkHash (fun x hx => hk x (by simpa [Expr.kids] using hx)) _
  | list p es => exact AllIssues.forEach fun x hx => good_checkRValue (hk x (by simpa [Expr.kids] using hx))
  | node p par hs b =>
    have hps : ∀ e ∈ hs, Covers L e := fun x hx => hk x (by simp [Expr.kids, hx])
    exact good_catalogOp he ((good_checkHostname hps).seq ((good_checkTop he _).seq
      (good_checkNoIdemLast (hk b (by simp [Expr.kids])))))
  | parameter p n d t c =>
    simp only [check]
    apply AllIssues.seq
    · issues
    · cases d with
      | none => exact .none
      | some d => exact good_checkIllegalAssignment (hk d (by simp [Expr.kids]))
  | resourceBody p t ops => exact good_checkUnfolds (fun x hx => hk x (by simp [Expr.kids, hx])) _
  | resourceDefaults => apply good_catalogOp he; issues
  | resource => apply good_catalogOp he; issues
  | resourceOverride => apply good_catalogOp he; issues
  | selectorEntry p m x => exact good_checkRValue (hk m (by simp [Expr.kids]))
  | selector p l ss =>
    exact (good_checkRValue (hk l (by simp [Expr.kids]))).seq
      (good_checkSelectors (fun x hx => hk x (by simp [Expr.kids, hx])) _)
  | site => exact good_catalogOp he .none
  | typeAlias p n t =>
    simp only [check]
    refine (good_checkTop he _).seq (AllIssues.seq ?_ ((good_checkReservedTypeName he).seq
      (good_checkTypeRef (hk t (by simp [Expr.kids])).self)))
    issues
  | typeMapping p t m => exact (good_checkTop he _).seq (good_checkTypeMapping he)
  | query p x q => exact good_checkQuery (hk q (by simp [Expr.kids]))
  | un p k x => exact good_checkRValue (hk x (by simp [Expr.kids]))
  | _ => simp only [check]; issues

end Checker

/-! ## Visits -/

theorem within_iff {x e : Expr} : Within x e ↔ x = e ∨ ∃ k ∈ e.kids, Within x k := by
  constructor
  · rintro (_ | ⟨k, _, hk, h⟩)
    · exact .inl rfl
    · exact .inr ⟨k, hk, h⟩
  · rintro (rfl | ⟨k, hk, h⟩)
    · exact .self _
    · exact .inside _ _ _ hk h

/-- What is known about a visit in the traversal of `r`. -/
def VisitOk (r : Expr) (c : List Expr × Expr) : Prop :=
  Within c.2 r ∧ ∀ x, c.1.getLast? = some x → ∃ y, Within y r ∧ x = y.receiver ∧ c.2 ∈ y.kids

theorem allContents_ok {r e : Expr} (h : Within e r) (path : List Expr) : ∀ c ∈ e.allContents path, VisitOk r c := by
  induction e using Expr.kidsInduction generalizing path with
  | step e ih =>
    intro c hc
    rw [Expr.allContents_eq] at hc
    obtain ⟨k, hk, hc⟩ := List.mem_flatMap.1 hc
    have hkr : Within k r := (Within.kid hk).trans h
    rcases List.mem_cons.1 hc with rfl | hc
    · refine ⟨hkr, fun x hx => ⟨e, h, ?_, hk⟩⟩
      simpa using hx.symm
    · exact ih k hk hkr _ c hc

theorem visited_ok (r : Expr) : ∀ c ∈ visited r, VisitOk r c := by
  intro c hc
  rcases List.mem_cons.1 hc with rfl | hc
  · exact ⟨.self _, by simp⟩
  · exact allContents_ok (.self r) [] c hc

/-- Everything contained is visited. -/
theorem allContents_complete {x e : Expr} (h : Within x e) (path : List Expr) :
    x = e ∨ ∃ p, (p, x) ∈ e.allContents path := by
  induction e using Expr.kidsInduction generalizing path with
  | step e ih =>
    rcases within_iff.1 h with rfl | ⟨k, hk, h⟩
    · exact .inl rfl
    · right
      rw [Expr.allContents_eq]
      rcases ih k hk h (path ++ [e.receiver]) with rfl | ⟨p, hp⟩
      · exact ⟨_, List.mem_flatMap.2 ⟨x, hk, List.mem_cons_self ..⟩⟩
      · exact ⟨p, List.mem_flatMap.2 ⟨k, hk, List.mem_cons_of_mem _ hp⟩⟩

theorem visited_complete {x e : Expr} (h : Within x e) : ∃ p, (p, x) ∈ visited e := by
  rcases allContents_complete h [] with rfl | ⟨p, hp⟩
  · exact ⟨[], List.mem_cons_self ..⟩
  · exact ⟨p, List.mem_cons_of_mem _ hp⟩

theorem receiver_reports {y : Expr} (h : reportsAtContainer y.receiver = true) : y.receiver = y := by
  cases y <;> first | rfl | cases h

/-- Every issue of a validation carries the severity of its code and is located in the tree. -/
theorem good_validate (c : Checker) (e : Expr) : AllIssues (c.Good (Within · e)) (validateWith c e) := by
  rw [validateWith_eq]
  refine AllIssues.visits fun x hx => ?_
  obtain ⟨h1, h2⟩ := visited_ok e x hx
  refine Checker.good_check (fun y hy => hy.trans h1) fun c hc hr => ?_
  obtain ⟨y, hy, rfl, -⟩ := h2 c hc
  rw [receiver_reports hr]
  exact fun z hz => hz.trans hy

end PP
