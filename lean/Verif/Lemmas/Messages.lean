import Verif.Spec.Messages

/-! # The arguments of the messages. -/
namespace PP
namespace Checker
variable {v : Checker} {root : Expr}

/-- The arguments of the issue are about the expression at which it is. -/
def Tells (v : Checker) (root : Expr) (i : Issue) : Prop := Describes v.feq root i.code i.at_ i.args

theorem tells_accept {code e args} (h : Describes v.feq root code e args) :
    AllIssues (v.Tells root) (v.accept code e args) := AllIssues.accept h

/-- Close goals by the closure properties of `AllIssues`. -/
macro "tells" : tactic => `(tactic|
  repeat' (first
    | exact AllIssues.none
    | exact AllIssues.okNil
    | exact AllIssues.error
    | apply AllIssues.seq
    | (apply tells_accept; first | assumption | (constructor; done))
    | split))

theorem tells_checkRValue {e : Expr} : AllIssues (v.Tells root) (v.checkRValue e) := by
  induction e using Expr.kidsInduction with
  | step e ih =>
    cases e with
    | un p k e =>
      rw [checkRValue]
      exact ih e (by simp [Expr.kids])
    | _ => simp only [checkRValue]; tells

theorem tells_checkRelation {e : Expr} : AllIssues (v.Tells root) (v.checkRelation e) := by
  unfold checkRelation
  split
  · exact .none
  · exact .none
  · exact tells_checkRValue

mutual
theorem tells_checkAssign : {e : Expr} → AllIssues (v.Tells root) (v.checkAssign e)
  | .access p o ks => by rw [checkAssign]; tells
  | .list _ es => by
    rw [checkAssign]; exact tells_checkAssignAll
  | .un p k n => by
    cases k <;> simp only [checkAssign] <;> try tells
    rename_i h
    apply tells_accept
    cases n with
    | integer q r i => exact .numericAssignment ..
    | qname q s => exact absurd rfl (h q s)
    | _ => exact .otherAssignment _ _ rfl (fun _ _ _ => nofun)
  | .bin .. | .query .. | .attributeOp .. | .attributesOp .. | .block .. | .call ..
  | .capabilityMapping .. | .caseE .. | .caseOption .. | .collect .. | .concat .. | .epp .. | .heredoc ..
  | .ifE .. | .keyedEntry .. | .lambda .. | .boolean .. | .dflt _ | .float .. | .hash .. | .integer ..
  | .string .. | .undef _ | .nop _ | .namedDef .. | .function .. | .node .. | .parameter ..
  | .program .. | .qname .. | .qref .. | .regexp .. | .renderString .. | .reserved .. | .resource ..
  | .resourceBody .. | .resourceDefaults .. | .resourceOverride .. | .selector .. | .selectorEntry ..
  | .site .. | .typeAlias .. | .typeDefinition .. | .typeMapping .. | .step .. | .commaSep .. => by
    simp only [checkAssign]; tells
theorem tells_checkAssignAll : {es : List Expr} → AllIssues (v.Tells root) (v.checkAssignAll es)
  | [] => by rw [checkAssignAll]; tells
  | e :: es => by
    rw [checkAssignAll]
    exact tells_checkAssign.seq tells_checkAssignAll
end

theorem param?_eq {p : Expr} {n c} (h : p.param? = some (n, c)) : ∃ q v t, p = .parameter q n v t c := by
  cases p <;> simp only [Expr.param?] at h <;> cases h
  exact ⟨_, _, _, rfl⟩

theorem tells_checkCaptureLast : {ps : List Expr} → AllIssues (v.Tells root) (v.checkCaptureLast ps)
  | [] => by rw [checkCaptureLast]; tells
  | [_] => by rw [checkCaptureLast]; tells
  | p :: q :: ps => by
    rw [checkCaptureLast]
    apply AllIssues.seq
    · split
      · rename_i hq
        obtain ⟨_, _, _, rfl⟩ := param?_eq hq
        tells
      · tells
    · exact tells_checkCaptureLast

theorem tells_checkNoCapture {c : Expr} {ps : List Expr} (h : Within c root) (hp : c.params = ps) :
    AllIssues (v.Tells root) (v.checkNoCapture c ps) := by
  apply AllIssues.forEach
  intro e he
  split
  · rename_i hq
    obtain ⟨_, _, _, rfl⟩ := param?_eq hq
    exact tells_accept (.capturesRestNotSupported _ _ _ _ _ h (hp ▸ he))
  · tells

theorem tells_checkFutureReservedWord {e w} (h : Describes v.feq root .futureReservedWord e [(b!"word", .text w)]) :
    AllIssues (v.Tells root) (v.checkFutureReservedWord e w) := by
  unfold checkFutureReservedWord; tells

theorem tells_checkReservedTypeName {e w} (h : e.defName? = some w) :
    AllIssues (v.Tells root) (v.checkReservedTypeName e w) := by
  unfold checkReservedTypeName
  split
  · exact tells_accept (.reservedType _ _ h)
  · tells

theorem tells_checkHostname {hs : List Expr} : AllIssues (v.Tells root) (v.checkHostname hs) := by
  refine AllIssues.forEach fun e _ => ?_
  unfold checkHostname1 checkHostnameString
  split
  · split
    · rename_i hl
      split
      · exact tells_accept (.hostnameParts _ _ hl)
      · tells
    · tells
    · tells
    · tells
  · tells
  · tells

theorem tells_checkIllegalAssignment {e : Expr} : AllIssues (v.Tells root) (v.checkIllegalAssignment e) := by
  induction e using Expr.kidsInduction with
  | step e ih =>
    rw [checkIllegalAssignment_eq]
    split
    · tells
    · split
      · tells
      · exact AllIssues.forEach fun k hk => ih k hk

theorem tells_checkNoIdemLast {c b : Expr} (h : Within c root) (hb : c.body? = some b) :
    AllIssues (v.Tells root) (v.checkNoIdemLast c b) := by
  unfold checkNoIdemLast
  split
  · split
    · rename_i x hx
      unfold endsWithIdem at hx
      split at hx
      · split at hx <;> cases hx
        rename_i hl _
        exact tells_accept (.idemLast _ _ _ _ h hb hl)
      · cases hx
    · tells
  · tells

theorem tells_checkUnique {ps : List Expr} (seen) : AllIssues (v.Tells root) (v.checkUnique seen ps) := by
  induction ps generalizing seen with
  | nil => rw [checkUnique]; tells
  | cons p ps ih =>
    unfold checkUnique
    split
    · tells
    · rename_i hq
      obtain ⟨_, _, _, rfl⟩ := param?_eq hq
      split
      · exact (tells_accept (.duplicateParameter ..)).seq (ih _)
      · exact ih _

theorem tells_checkQuery {e : Expr} : AllIssues (v.Tells root) (v.checkQuery e) := by
  induction e using Expr.kidsInduction with
  | step e ih =>
    cases e with
    | bin p k l r =>
      have hl := ih l (by simp [Expr.kids])
      have hr := ih r (by simp [Expr.kids])
      cases k <;> simp only [checkQuery] <;> (first | exact hl.seq hr | tells)
    | un p k e =>
      have hl := ih e (by simp [Expr.kids])
      cases k <;> simp only [checkQuery] <;> (first | exact hl | tells)
    | _ => simp only [checkQuery]; tells

theorem tells_checkReservedParams {c : Expr} {ps : List Expr} (h : ∀ p ∈ ps, p ∈ c.params) :
    AllIssues (v.Tells root) (v.checkReservedParams c ps) := by
  induction ps with
  | nil => rw [checkReservedParams]; tells
  | cons p ps ih =>
    unfold checkReservedParams
    split
    · tells
    · rename_i hq
      obtain ⟨_, _, _, rfl⟩ := param?_eq hq
      apply AllIssues.seq
      · split
        · exact tells_accept (.reservedParameter _ _ _ _ _ _ (h _ (List.mem_cons_self ..)))
        · tells
      · exact ih fun x hx => h x (List.mem_cons_of_mem _ hx)

theorem tells_checkTypeRef {c t : Expr} (h : Within c root) (ht : c.typeIn? = some t) :
    AllIssues (v.Tells root) (v.checkTypeRef c t) := by
  unfold checkTypeRef
  simp only
  split
  · rename_i hd
    apply tells_checkFutureReservedWord
    split at hd
    · subst hd; exact .futureTypeAccess ..
    · subst hd; exact .futureType ..
  · exact tells_accept (.typeReference _ _ h ht)

theorem tells_checkReturnType {c : Expr} {r} (h : Within c root) (hr : c.typeIn? = r) :
    AllIssues (v.Tells root) (v.checkReturnType c r) := by
  cases r with
  | none => exact .none
  | some r => exact tells_checkTypeRef h hr

theorem tells_checkTop {e} (cs) : AllIssues (v.Tells root) (v.checkTop e cs) := by
  induction cs with
  | nil => simp only [checkTop]; tells
  | cons c cs ih =>
    unfold checkTop
    split
    · tells
    · tells
    · split
      · exact ih
      · split
        · tells
        · exact ih
    · tells

theorem tells_name {e : Expr} {n} {b : Bool} (h : e.defName? = some n) :
    AllIssues (v.Tells root) (if b = true then vnone else
      v.accept .illegalDefinitionName e [(b!"name", .text n), (b!"value", .node e)]) := by
  split
  · tells
  · exact tells_accept (.definitionName _ _ h)

theorem tells_checkNamedDefinition {p e n ps} (h : e.defName? = some n) :
    AllIssues (v.Tells root) (v.checkNamedDefinition p e n ps) := by
  unfold checkNamedDefinition
  exact (tells_checkTop _).seq ((tells_name h).seq ((tells_checkReservedTypeName h).seq
    ((tells_checkFutureReservedWord (.futureName _ _ h)).seq (tells_checkUnique _))))

theorem tells_checkBlock : {ss : List Expr} → AllIssues (v.Tells root) (v.checkBlock ss)
  | [] => by rw [checkBlock]; tells
  | [_] => by rw [checkBlock]; tells
  | s :: t :: ss => by
    rw [checkBlock]
    split
    · tells
    · exact tells_checkBlock

theorem isDefault_checkDefaults {x : Expr} {found xs} (h : x ∈ (checkDefaults found xs).1) : x.isDefault = true := by
  induction xs generalizing found with
  | nil => simp [checkDefaults] at h
  | cons y ys ih =>
    unfold checkDefaults at h
    split at h
    · rename_i hy
      split at h
      simp only at h
      rename_i heq
      by_cases hf : found = true
      · simp only [hf, if_true] at h
        rcases List.mem_cons.1 h with rfl | h
        · exact hy
        · exact ih (by rw [heq]; exact h)
      · simp only [hf] at h
        exact ih (by rw [heq]; exact h)
    · exact ih h

theorem tells_checkCaseOptions {p t all} {os : List Expr} (h : Within (.caseE p t all) root) (ho : ∀ o ∈ os, o ∈ all) (f) :
    AllIssues (v.Tells root) (v.checkCaseOptions (.caseE p t all) f os) := by
  induction os generalizing f with
  | nil => rw [checkCaseOptions]; tells
  | cons o os ih =>
    unfold checkCaseOptions
    split
    · refine AllIssues.seq (AllIssues.forEach fun d hd => ?_) (ih (fun x hx => ho x (List.mem_cons_of_mem _ hx)) _)
      exact tells_accept (.caseDefault _ _ _ _ _ _ _ h (ho _ (List.mem_cons_self ..)) (mem_checkDefaults hd)
        (isDefault_checkDefaults hd))
    · tells

theorem tells_checkSelectors {p l all} {os : List Expr} (h : Within (.selector p l all) root) (ho : ∀ o ∈ os, o ∈ all) (f) :
    AllIssues (v.Tells root) (v.checkSelectors (.selector p l all) f os) := by
  induction os generalizing f with
  | nil => rw [checkSelectors]; tells
  | cons o os ih =>
    have ih' := ih fun x hx => ho x (List.mem_cons_of_mem _ hx)
    unfold checkSelectors
    split
    · split
      · rename_i hm
        apply AllIssues.seq
        · split
          · exact tells_accept (.selectorDefault _ _ _ _ _ _ h (ho _ (List.mem_cons_self ..)) hm)
          · tells
        · exact ih' _
      · exact ih' _
    · tells

theorem tells_checkHash {os : List Expr} (f) : AllIssues (v.Tells root) (v.checkHash f os) := by
  induction os generalizing f with
  | nil => rw [checkHash]; tells
  | cons o os ih =>
    unfold checkHash
    split
    · cases v.hashKey _ with
      | error p => exact .error
      | ok r =>
        cases r with
        | none => exact ih _
        | some l =>
          simp only [bind, Except.bind]
          split
          · split
            · exact (tells_accept (.duplicateKey ..)).seq (ih _)
            · tells
          · exact ih _
    · tells

theorem tells_checkUnfolds {os : List Expr} (f) : AllIssues (v.Tells root) (v.checkUnfolds f os) := by
  induction os generalizing f with
  | nil => rw [checkUnfolds]; tells
  | cons o os ih =>
    unfold checkUnfolds
    split
    · split
      · exact (tells_accept (.unfolds ..)).seq (ih _)
      · exact ih _
    · exact ih _

theorem tells_checkTypeMapping {e l r} : AllIssues (v.Tells root) (v.checkTypeMapping e l r) := by
  unfold checkTypeMapping
  simp only
  tells

theorem tells_catalogOp {e m} (hm : AllIssues (v.Tells root) m) : AllIssues (v.Tells root) (v.catalogOp e m) := by
  unfold catalogOp
  split
  · exact hm
  · tells

/-- All issues of a check have the right arguments. -/
theorem tells_check {path : List Expr} {e : Expr} (h : Within e root) (hp : PartOf root e (.opt path.getLast?))
    (hl : ∀ p ps b r, path.getLast? = some (.lambda p ps b r) → Within (.lambda p ps b r) root) :
    AllIssues (v.Tells root) (v.check path e) := by
  cases e with
  | step => simp only [check]; tells
  | namedDef p k n ps b =>
    cases k <;> simp only [check] <;> apply tells_catalogOp
    · exact .none
    · exact (tells_checkNamedDefinition rfl).seq ((tells_checkNoCapture h rfl).seq
        ((tells_checkReservedParams fun _ h => h).seq (tells_checkNoIdemLast h rfl)))
    · exact (tells_checkNamedDefinition rfl).seq ((tells_checkNoCapture h rfl).seq
        ((tells_checkReservedParams fun _ h => h).seq (tells_checkNoIdemLast h rfl)))
  | bin p k l r =>
    cases k
    case relationship op => exact tells_catalogOp (tells_checkRelation.seq tells_checkRelation)
    case assignment op =>
      simp only [check]
      split
      · exact tells_checkAssign
      · tells
    case namedAccess =>
      simp only [check]
      split
      · exact .none
      · exact tells_accept (.methodName _ _ _ _ h hp)
    all_goals exact tells_checkRValue.seq tells_checkRValue
  | attributeOp p op n x =>
    simp only [check, checkAttributeOperation]
    split
    · split
      · tells
      · tells
      · exact tells_accept (.attributeAppend _ _ _ _ _ hp)
    · tells
  | attributesOp p x =>
    simp only [check, checkAttributesOperation]
    apply AllIssues.seq
    · tells
    · exact tells_checkRValue
  | block p ss => exact tells_checkBlock
  | call p k rv f a l =>
    cases k <;> simp only [check]
    · tells
    · tells
    · unfold checkCallNamed
      split
      · tells
      · tells
      · tells
      · exact tells_accept (.functionName _ _ _ _ _ h)
  | capabilityMapping p k c x ms =>
    apply tells_catalogOp
    unfold checkCapabilityMapping
    apply AllIssues.seq
    · split
      · tells
      · tells
      · tells
      · tells
      · tells
      · exact tells_accept (.component _ _ _ _ _ h)
    · tells
  | caseE p t os => exact tells_checkRValue.seq (tells_checkCaseOptions h (fun _ h => h) _)
  | caseOption p vs t => exact AllIssues.forEach fun x _ => tells_checkRValue
  | collect p t q ops =>
    apply tells_catalogOp
    split
    · tells
    · exact tells_accept (.typeName _ _ _ _ h)
  | epp p s b =>
    simp only [check]
    split
    · rename_i hc
      exact (tells_checkNoCapture (hl _ _ _ _ hc) rfl).seq (tells_checkUnique _)
    · tells
  | function p plan n ps b r =>
    cases plan
    · simp only [check]
      exact (tells_checkNamedDefinition rfl).seq (tells_checkCaptureLast.seq (tells_checkReturnType h rfl))
    · simp only [check]; tells
  | ifE p u t a b => exact tells_checkRValue
  | keyedEntry p a b => exact tells_checkRValue.seq tells_checkRValue
  | lambda p ps b r => exact tells_checkCaptureLast.seq (tells_checkReturnType h rfl)
  | hash p es => exact tells_checkHash _
  | list p es => exact AllIssues.forEach fun x _ => tells_checkRValue
  | node p par hs b =>
    exact tells_catalogOp (tells_checkHostname.seq ((tells_checkTop _).seq (tells_checkNoIdemLast h rfl)))
  | parameter p n d t c =>
    simp only [check]
    apply AllIssues.seq
    · tells
    · cases d with
      | none => exact .none
      | some d => exact tells_checkIllegalAssignment
  | reserved p w f =>
    cases f
    · exact tells_accept (.reservedWord ..)
    · exact tells_accept (.futureWord ..)
  | resourceBody p t ops => exact tells_checkUnfolds _
  | resourceDefaults => apply tells_catalogOp; tells
  | resource => apply tells_catalogOp; tells
  | resourceOverride => apply tells_catalogOp; tells
  | selectorEntry p m x => exact tells_checkRValue
  | selector p l ss => exact tells_checkRValue.seq (tells_checkSelectors h (fun _ h => h) _)
  | site => exact tells_catalogOp .none
  | typeAlias p n t =>
    simp only [check]
    exact (tells_checkTop _).seq ((tells_name rfl).seq ((tells_checkReservedTypeName rfl).seq
      (tells_checkTypeRef h rfl)))
  | typeMapping p t m => exact (tells_checkTop _).seq tells_checkTypeMapping
  | query p x q => exact tells_checkQuery
  | un p k x => exact tells_checkRValue
  | _ => simp only [check]; tells

end Checker

theorem allContents_nonempty {e : Expr} {path} {c : List Expr × Expr} (h : c ∈ e.allContents path) : c.1.getLast? ≠ none := by
  induction e using Expr.kidsInduction generalizing path with
  | step e ih =>
    rw [Expr.allContents_eq] at h
    obtain ⟨k, hk, hc⟩ := List.mem_flatMap.1 h
    rcases List.mem_cons.1 hc with rfl | hc
    · simp
    · exact ih k hk hc

/-- Every issue of a validation has the right arguments. -/
theorem tells_validate (c : Checker) (e : Expr) : AllIssues (c.Tells e) (validateWith c e) := by
  rw [validateWith_eq]
  refine AllIssues.visits fun x hx => ?_
  obtain ⟨h1, h2⟩ := visited_ok e x hx
  refine Checker.tells_check h1 ?_ fun p ps b r hc => ?_
  · cases hg : x.1.getLast? with
    | none =>
      rcases List.mem_cons.1 hx with rfl | hx
      · exact .root rfl
      · exact absurd hg (allContents_nonempty hx)
    | some y =>
      obtain ⟨y, hy, rfl, hk⟩ := h2 y hg
      exact .inside y hy hk
  · obtain ⟨y, hy, he, -⟩ := h2 _ hc
    rw [he, receiver_reports (by rw [← he]; rfl)]
    exact hy

end PP
