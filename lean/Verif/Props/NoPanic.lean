import Verif.Props.Parse

/-!
# C24: validation of a parse result
-/
namespace PP.Props
open PP.Expr
set_option maxRecDepth 100000

/-- Every panic of the check satisfies `Q`. -/
def Fails (Q : VPanic → Prop) {α : Type} (m : Except VPanic α) : Prop := ∀ x, m = .error x → Q x

section
variable {Q : VPanic → Prop}

theorem Fails.ok {α} (a : α) : Fails Q (.ok a : Except VPanic α) := fun _ h => nomatch h
theorem Fails.none : Fails Q vnone := .ok _
theorem Fails.accept {v : Checker} {c e a} : Fails Q (v.accept c e a) := by
  unfold Checker.accept; dsimp only; split <;> exact .ok _
theorem Fails.seq {a b : VM} (ha : Fails Q a) (hb : Fails Q b) : Fails Q (a ⊹ b) := by
  cases a with
  | error x => exact fun y h => by cases h; exact ha _ rfl
  | ok x =>
    cases b with
    | error y => exact fun z h => by cases h; exact hb _ rfl
    | ok y => exact .ok _
theorem Fails.forEach {f : Expr → VM} {es : List Expr} (h : ∀ e ∈ es, Fails Q (f e)) : Fails Q (vforEach f es) := by
  induction es with
  | nil => exact .none
  | cons e es ih => exact (h e (List.mem_cons_self ..)).seq (ih fun x hx => h x (List.mem_cons_of_mem _ hx))
theorem Fails.ite {p : Prop} [Decidable p] {a b : VM} (ha : Fails Q a) (hb : Fails Q b) : Fails Q (if p then a else b) := by
  split <;> assumption

theorem Fails.visits {c : Checker} {xs : List (List Expr × Expr)}
    (h : ∀ x ∈ xs, Fails Q (c.check x.1 x.2)) : Fails Q (checkVisits c xs) := by
  induction xs with
  | nil => exact .none
  | cons x xs ih =>
    exact (h x (List.mem_cons_self ..)).seq (ih fun y hy => h y (List.mem_cons_of_mem _ hy))

variable {v : Checker}

theorem fails_checkRValue (e : Expr) : Fails Q (v.checkRValue e) := by
  induction e using kidsInduction with
  | step e ih =>
    unfold Checker.checkRValue
    split
    · exact ih _ (List.mem_singleton.2 rfl)
    · exact .ite .accept .none

theorem fails_checkRelation (e : Expr) : Fails Q (v.checkRelation e) := by
  unfold Checker.checkRelation
  split <;> first | exact .none | exact fails_checkRValue _

mutual
theorem fails_checkAssign : (e : Expr) → Fails Q (v.checkAssign e)
  | .access .. => by unfold Checker.checkAssign; exact .accept
  | .list _ es => by unfold Checker.checkAssign; exact fails_checkAssignAll es
  | .un p k n => by
    unfold Checker.checkAssign
    cases k <;> first | exact .none | skip
    dsimp only
    split
    · exact .ite .accept .none
    · exact .accept
  | .bin .. | .query .. | .attributeOp .. | .attributesOp .. | .block .. | .call .. | .capabilityMapping ..
  | .caseE .. | .caseOption .. | .collect .. | .concat .. | .epp .. | .heredoc .. | .ifE .. | .keyedEntry ..
  | .lambda .. | .boolean .. | .dflt .. | .float .. | .hash .. | .integer .. | .string .. | .undef .. | .nop ..
  | .namedDef .. | .function .. | .node .. | .parameter .. | .program .. | .qname .. | .qref .. | .regexp ..
  | .renderString .. | .reserved .. | .resource .. | .resourceBody .. | .resourceDefaults .. | .resourceOverride ..
  | .selector .. | .selectorEntry .. | .site .. | .typeAlias .. | .typeDefinition .. | .typeMapping .. | .step ..
  | .commaSep .. => by unfold Checker.checkAssign; exact .none
theorem fails_checkAssignAll : (es : List Expr) → Fails Q (v.checkAssignAll es)
  | [] => by unfold Checker.checkAssignAll; exact .none
  | e :: es => by unfold Checker.checkAssignAll; exact (fails_checkAssign e).seq (fails_checkAssignAll es)
end

theorem fails_checkCaptureLast : (ps : List Expr) → Fails Q (v.checkCaptureLast ps)
  | [] => .none
  | [_] => .none
  | p :: q :: ps => by
    unfold Checker.checkCaptureLast
    refine .seq ?_ (fails_checkCaptureLast (q :: ps))
    split <;> first | exact .accept | exact .none

theorem fails_checkNoCapture (ps : List Expr) : Fails Q (v.checkNoCapture c0 ps) := by
  refine .forEach fun p _ => ?_
  split <;> first | exact .accept | exact .none

theorem fails_checkFutureReservedWord (e w) : Fails Q (v.checkFutureReservedWord e w) := .ite .accept .none
theorem fails_checkReservedTypeName (e w) : Fails Q (v.checkReservedTypeName e w) := .ite .accept .none

theorem toLiteral_concat (feq) (p : Pos) (ss : List Expr) :
    (∃ s, toLiteral feq (.concat p ss) = .literal (.str s)) ∨ toLiteral feq (.concat p ss) = .notLiteral := by
  unfold toLiteral toLit
  rcases ss with _ | ⟨x, _ | ⟨y, ys⟩⟩
  · exact .inr rfl
  · cases x <;> first | exact .inr rfl | exact .inl ⟨_, rfl⟩
  · cases x <;> exact .inr rfl

theorem fails_checkHostname1 {h : Expr} : Fails Q (v.checkHostname1 h) := by
  unfold Checker.checkHostname1
  split
  · next p ss =>
    rcases toLiteral_concat v.feq p ss with ⟨s, h⟩ | h <;> rw [h]
    · exact .ite .accept .none
    · exact .accept
  · exact .ite .accept .none
  · exact .none

theorem fails_checkIllegalAssignment (e : Expr) : Fails Q (v.checkIllegalAssignment e) := by
  induction e using kidsInduction with
  | step e ih =>
    rw [Checker.checkIllegalAssignment_eq]
    exact .ite .accept (.ite .none (.forEach ih))

theorem fails_checkNoIdemLast {b : Expr} (h : isBlock b = true) : Fails Q (v.checkNoIdemLast c0 b) := by
  cases b <;> simp only [isBlock, Bool.false_eq_true] at h
  unfold Checker.checkNoIdemLast
  dsimp only
  split <;> first | exact .accept | exact .none

theorem fails_checkUnique {ps : List Expr} (h : ∀ p ∈ ps, isParameter p = true) (seen : List GoStr) :
    Fails Q (v.checkUnique seen ps) := by
  induction ps generalizing seen with
  | nil => exact .none
  | cons p ps ih =>
    have h1 := h p (List.mem_cons_self ..)
    have h2 := ih fun x hx => h x (List.mem_cons_of_mem _ hx)
    cases p <;> simp only [isParameter, Bool.false_eq_true] at h1
    unfold Checker.checkUnique
    exact .ite (.seq .accept (h2 _)) (h2 _)

theorem fails_checkReservedParams {ps : List Expr} (h : ∀ p ∈ ps, isParameter p = true) (c : Expr) :
    Fails Q (v.checkReservedParams c ps) := by
  induction ps with
  | nil => exact .none
  | cons p ps ih =>
    have h1 := h p (List.mem_cons_self ..)
    have h2 := ih fun x hx => h x (List.mem_cons_of_mem _ hx)
    cases p <;> simp only [isParameter, Bool.false_eq_true] at h1
    unfold Checker.checkReservedParams
    exact .seq (.ite .accept .none) h2

theorem fails_checkQuery (e : Expr) : Fails Q (v.checkQuery e) := by
  induction e using kidsInduction with
  | step e ih =>
    unfold Checker.checkQuery
    split
    · split
      · exact .ite .none .accept
      · exact .seq (ih _ (by simp [Expr.kids])) (ih _ (by simp [Expr.kids]))
      · exact .seq (ih _ (by simp [Expr.kids])) (ih _ (by simp [Expr.kids]))
      · exact .accept
    · split
      · exact ih _ (by simp [Expr.kids])
      · exact .none
      · exact .accept
    all_goals first | exact .none | exact .accept

theorem fails_checkTypeRef (r : Expr) : Fails Q (v.checkTypeRef c0 r) := by
  unfold Checker.checkTypeRef
  dsimp only
  split
  · exact .ite .accept .none
  · exact .accept

theorem fails_checkReturnType (r : Option Expr) : Fails Q (v.checkReturnType c0 r) := by
  cases r
  · exact .none
  · exact fails_checkTypeRef _

theorem fails_checkTop (e : Expr) (cs : List Expr) : Fails Q (v.checkTop e cs) := by
  induction cs with
  | nil => exact .none
  | cons c rest ih =>
    unfold Checker.checkTop
    split
    · exact .none
    · exact .none
    · split
      · exact ih
      · exact .ite .accept ih
    · exact .accept

theorem fails_checkNamedDefinition (path e name) {ps : List Expr} (h : ∀ p ∈ ps, isParameter p = true) :
    Fails Q (v.checkNamedDefinition path e name ps) :=
  (fails_checkTop _ _).seq <| (Fails.ite .none .accept).seq <| (fails_checkReservedTypeName _ _).seq <|
    (fails_checkFutureReservedWord _ _).seq (fails_checkUnique h _)

theorem fails_checkAttributeOperation (path e op n) : Fails Q (v.checkAttributeOperation path e op n) := by
  unfold Checker.checkAttributeOperation
  refine .ite ?_ .none
  split <;> first | exact .none | exact .accept

theorem fails_checkAttributesOperation (path e) : Fails Q (v.checkAttributesOperation path e) := by
  refine .seq ?_ (fails_checkRValue _)
  split
  · split <;> first | exact .none | exact .accept
  · exact .none

theorem fails_checkBlock : (ss : List Expr) → Fails Q (v.checkBlock ss)
  | [] => .none
  | [_] => .none
  | s :: t :: ss => by
    unfold Checker.checkBlock
    exact .ite .accept (fails_checkBlock (t :: ss))

theorem fails_checkCallNamed (f) : Fails Q (v.checkCallNamed c0 f) := by
  unfold Checker.checkCallNamed
  split <;> first | exact .none | exact .accept

theorem fails_checkCapabilityMapping (e c m) : Fails Q (v.checkCapabilityMapping e c m) := by
  refine .seq ?_ (.ite .none .accept)
  split <;> first | exact .none | exact .accept

theorem fails_checkCaseOptions {os : List Expr} (h : ∀ o ∈ os, isCaseOption o = true) (f : Bool) :
    Fails Q (v.checkCaseOptions c0 f os) := by
  induction os generalizing f with
  | nil => exact .none
  | cons o os ih =>
    have h1 := h o (List.mem_cons_self ..)
    have h2 := ih fun x hx => h x (List.mem_cons_of_mem _ hx)
    cases o <;> simp only [isCaseOption, Bool.false_eq_true] at h1
    unfold Checker.checkCaseOptions
    exact .seq (.forEach fun _ _ => .accept) (h2 _)

theorem fails_checkSelectors {os : List Expr} (h : ∀ o ∈ os, isSelectorEntry o = true) (f : Bool) :
    Fails Q (v.checkSelectors c0 f os) := by
  induction os generalizing f with
  | nil => exact .none
  | cons o os ih =>
    have h1 := h o (List.mem_cons_self ..)
    have h2 := ih fun x hx => h x (List.mem_cons_of_mem _ hx)
    cases o <;> simp only [isSelectorEntry, Bool.false_eq_true] at h1
    unfold Checker.checkSelectors
    exact .ite (.seq (.ite .accept .none) (h2 _)) (h2 _)

theorem fails_checkUnfolds (os : List Expr) (f : Bool) : Fails Q (v.checkUnfolds f os) := by
  induction os generalizing f with
  | nil => exact .none
  | cons o os ih =>
    unfold Checker.checkUnfolds
    split
    · exact .ite (.seq .accept (ih _)) (ih _)
    · exact ih _

theorem fails_checkTypeMapping (e l r) : Fails Q (v.checkTypeMapping e l r) := by
  unfold Checker.checkTypeMapping
  exact .ite .accept (.ite (.ite .accept .none) (.ite (.ite .accept .none) (.ite .accept .accept)))

theorem fails_catalogOp {e : Expr} {m : VM} (h : Fails Q m) : Fails Q (v.catalogOp e m) := .ite h .accept

/-! ### Hash keys -/

end

/-- What is known of a key inside a well formed tree. -/
def AllWellFormed (e : Expr) : Prop := ∀ x ∈ subexpressions e, WellFormed x

theorem AllWellFormed.kid {e k : Expr} (h : AllWellFormed e) (hk : k ∈ e.kids) : AllWellFormed k :=
  fun x hx => h x (mem_subexpressions_kid hk hx)

mutual
/-- On well formed expressions the only panic of `ToLiteral` is the unhashable key. -/
theorem toLit_panic (feq : FloatVal → FloatVal → Bool) : (e : Expr) → AllWellFormed e → ∀ x, toLit feq e = .error x →
    x = .notLiteral ∨ (x = .unhashable ∧ CompositeKey e)
  | .program p b ds, hw, x, h => by
    simp only [toLit] at h
    exact (toLit_panic feq b (hw.kid (by simp [Expr.kids])) x h).imp_right fun h => ⟨h.1, .program _ _ _ h.2⟩
  | .heredoc p s t, hw, x, h => by
    simp only [toLit] at h
    exact (toLit_panic feq t (hw.kid (by simp [Expr.kids])) x h).imp_right fun h => ⟨h.1, .heredoc _ _ _ h.2⟩
  | .list p es, hw, x, h => by
    simp only [toLit] at h
    cases h' : toLitList feq es with
    | ok vs => rw [h'] at h; cases h
    | error y =>
      rw [h'] at h; cases h
      refine (toLitList_panic feq es (fun e he => hw.kid he) x h').imp_right ?_
      rintro ⟨h1, e, he, h2⟩
      exact ⟨h1, .list _ _ e he h2⟩
  | .hash p es, hw, x, h => by
    simp only [toLit] at h
    cases h' : toLitEntries feq [] es with
    | ok vs => rw [h'] at h; cases h
    | error y =>
      rw [h'] at h; cases h
      have hk : ∀ e ∈ es, isKeyedEntry e = true := hw _ (List.mem_cons_self ..)
      refine (toLitEntries_panic feq es (fun e he => hw.kid he) hk [] x h').imp_right ?_
      rintro ⟨h1, q, k, v, he, h2 | h2 | h2⟩
      · exact ⟨h1, .key _ _ _ _ _ he h2⟩
      · exact ⟨h1, .value _ _ _ _ _ he h2⟩
      · exact ⟨h1, .here _ _ _ _ _ he h2⟩
  | .concat p ss, hw, x, h => by
    left
    rcases toLiteral_concat feq p ss with ⟨s, h'⟩ | h' <;> unfold toLiteral at h' <;> rw [h] at h'
    · split at h' <;> cases h'
      next h => cases h
    · split at h' <;> first | (cases h'; done) | skip
      next h => cases h; rfl
  | .boolean .., _, x, h | .dflt .., _, x, h | .float .., _, x, h | .integer .., _, x, h | .string .., _, x, h
  | .undef .., _, x, h | .qname .., _, x, h | .qref .., _, x, h | .regexp .., _, x, h | .renderString .., _, x, h
  | .reserved .., _, x, h => by simp only [toLit] at h; cases h
  | .access .., _, x, h | .bin .., _, x, h | .un .., _, x, h | .query .., _, x, h | .attributeOp .., _, x, h
  | .attributesOp .., _, x, h | .block .., _, x, h | .call .., _, x, h | .capabilityMapping .., _, x, h
  | .caseE .., _, x, h | .caseOption .., _, x, h | .collect .., _, x, h | .epp .., _, x, h | .ifE .., _, x, h
  | .keyedEntry .., _, x, h | .lambda .., _, x, h | .nop .., _, x, h | .namedDef .., _, x, h | .function .., _, x, h
  | .node .., _, x, h | .parameter .., _, x, h | .resource .., _, x, h | .resourceBody .., _, x, h
  | .resourceDefaults .., _, x, h | .resourceOverride .., _, x, h | .selector .., _, x, h | .selectorEntry .., _, x, h
  | .site .., _, x, h | .typeAlias .., _, x, h | .typeDefinition .., _, x, h | .typeMapping .., _, x, h
  | .step .., _, x, h | .commaSep .., _, x, h => by simp only [toLit] at h; cases h; exact .inl rfl
theorem toLitList_panic (feq : FloatVal → FloatVal → Bool) : (es : List Expr) → (∀ e ∈ es, AllWellFormed e) →
    ∀ x, toLitList feq es = .error x → x = .notLiteral ∨ (x = .unhashable ∧ ∃ e ∈ es, CompositeKey e)
  | [], _, x, h => by simp only [toLitList] at h; cases h
  | e :: es, hw, x, h => by
    simp only [toLitList] at h
    cases h1 : toLit feq e with
    | error y =>
      rw [h1] at h; cases h
      exact (toLit_panic feq e (hw e (List.mem_cons_self ..)) x h1).imp_right fun h => ⟨h.1, e, List.mem_cons_self .., h.2⟩
    | ok v =>
      rw [h1] at h
      cases h2 : toLitList feq es with
      | ok vs => rw [h2] at h; cases h
      | error y =>
        rw [h2] at h; cases h
        refine (toLitList_panic feq es (fun e he => hw e (List.mem_cons_of_mem _ he)) x h2).imp_right ?_
        rintro ⟨h3, z, hz, h4⟩
        exact ⟨h3, z, List.mem_cons_of_mem _ hz, h4⟩
theorem toLitEntries_panic (feq : FloatVal → FloatVal → Bool) : (es : List Expr) → (∀ e ∈ es, AllWellFormed e) →
    (∀ e ∈ es, isKeyedEntry e = true) → (m : List (Value × Value)) → ∀ x, toLitEntries feq m es = .error x →
    x = .notLiteral ∨ (x = .unhashable ∧ ∃ q k v, Expr.keyedEntry q k v ∈ es ∧ (CompositeKey k ∨ CompositeKey v ∨ Composite k))
  | [], _, _, m, x, h => by simp only [toLitEntries] at h; cases h
  | .keyedEntry q k v :: es, hw, hk, m, x, h => by
    have hw1 : AllWellFormed (.keyedEntry q k v) := hw _ (List.mem_cons_self ..)
    simp only [toLitEntries] at h
    cases h1 : toLit feq k with
    | error y =>
      rw [h1] at h; cases h
      exact (toLit_panic feq k (hw1.kid (by simp [Expr.kids])) x h1).imp_right fun h => ⟨h.1, q, k, v, List.mem_cons_self .., .inl h.2⟩
    | ok kv =>
      rw [h1] at h
      cases h2 : toLit feq v with
      | error y =>
        rw [h2] at h; cases h
        exact (toLit_panic feq v (hw1.kid (by simp [Expr.kids])) x h2).imp_right fun h => ⟨h.1, q, k, v, List.mem_cons_self .., .inr (.inl h.2)⟩
      | ok vv =>
        rw [h2] at h
        cases hh : kv.hashable with
        | false =>
          simp only [bind, Except.bind, hh, Bool.false_eq_true, if_false] at h
          cases h
          exact .inr ⟨rfl, q, k, v, List.mem_cons_self .., .inr (.inr ((hashable_iff (toLit_sound feq k kv h1)).1 hh))⟩
        | true =>
          simp only [bind, Except.bind, hh, if_true] at h
          refine (toLitEntries_panic feq es (fun e he => hw e (List.mem_cons_of_mem _ he))
            (fun e he => hk e (List.mem_cons_of_mem _ he)) _ x h).imp_right ?_
          rintro ⟨h3, q', k', v', hz, h4⟩
          exact ⟨h3, q', k', v', List.mem_cons_of_mem _ hz, h4⟩
  | .boolean .. :: _, _, hk, _, _, _ | .dflt .. :: _, _, hk, _, _, _ | .float .. :: _, _, hk, _, _, _
  | .integer .. :: _, _, hk, _, _, _ | .string .. :: _, _, hk, _, _, _
  | .undef .. :: _, _, hk, _, _, _ | .qname .. :: _, _, hk, _, _, _ | .qref .. :: _, _, hk, _, _, _
  | .regexp .. :: _, _, hk, _, _, _ | .renderString .. :: _, _, hk, _, _, _
  | .reserved .. :: _, _, hk, _, _, _ 
  | .access .. :: _, _, hk, _, _, _ | .bin .. :: _, _, hk, _, _, _ | .un .. :: _, _, hk, _, _, _
  | .query .. :: _, _, hk, _, _, _ | .attributeOp .. :: _, _, hk, _, _, _
  | .attributesOp .. :: _, _, hk, _, _, _ | .block .. :: _, _, hk, _, _, _ | .call .. :: _, _, hk, _, _, _
  | .capabilityMapping .. :: _, _, hk, _, _, _ | .heredoc .. :: _, _, hk, _, _, _ | .list .. :: _, _, hk, _, _, _
  | .caseE .. :: _, _, hk, _, _, _ | .caseOption .. :: _, _, hk, _, _, _ | .collect .. :: _, _, hk, _, _, _
  | .epp .. :: _, _, hk, _, _, _ | .ifE .. :: _, _, hk, _, _, _ | .hash .. :: _, _, hk, _, _, _
  | .lambda .. :: _, _, hk, _, _, _ | .nop .. :: _, _, hk, _, _, _ | .namedDef .. :: _, _, hk, _, _, _
  | .function .. :: _, _, hk, _, _, _ | .program .. :: _, _, hk, _, _, _ | .concat .. :: _, _, hk, _, _, _
  | .node .. :: _, _, hk, _, _, _ | .parameter .. :: _, _, hk, _, _, _ | .resource .. :: _, _, hk, _, _, _
  | .resourceBody .. :: _, _, hk, _, _, _
  | .resourceDefaults .. :: _, _, hk, _, _, _ | .resourceOverride .. :: _, _, hk, _, _, _
  | .selector .. :: _, _, hk, _, _, _ | .selectorEntry .. :: _, _, hk, _, _, _
  | .site .. :: _, _, hk, _, _, _ | .typeAlias .. :: _, _, hk, _, _, _ | .typeDefinition .. :: _, _, hk, _, _, _
  | .typeMapping .. :: _, _, hk, _, _, _
  | .step .. :: _, _, hk, _, _, _ | .commaSep .. :: _, _, hk, _, _, _ => by
    cases hk _ (List.mem_cons_self ..)
end

theorem representable_of_kids {e : Expr} (hd : declares e = []) (hv : ∀ p x, e ≠ .un p .variable x)
    (hk : ∀ k ∈ e.kids, Representable k) : Representable e := by
  refine (forall_sub (P := fun x => (∀ p ∈ declares x, RepresentableParameter p) ∧ RepresentableVariable x)).2 ⟨?_, hk⟩
  exact ⟨by rw [hd]; exact fun _ h => (nomatch h), fun p x h => absurd h (hv p x)⟩

mutual
theorem shape_representable {e : Expr} : LiteralShape e → Representable e
  | .leaf e h => by
    refine representable_of_kids ?_ ?_ ?_ <;> cases e <;> simp [leafValue] at h <;> simp [declares, Expr.kids]
  | .program p b ds h => representable_of_kids rfl (by simp) (by
      have ih := shape_representable h
      simpa [Expr.kids] using ih)
  | .heredoc p s t h => representable_of_kids rfl (by simp) (by
      have ih := shape_representable h
      simpa [Expr.kids] using ih)
  | .concat p q s => representable_of_kids rfl (by simp) (by
      simpa [Expr.kids] using representable_of_kids (e := .string q s) rfl (by simp) (by simp [Expr.kids]))
  | .list p es h => representable_of_kids rfl (by simp) (shapes_representable h)
  | .hash p es h => representable_of_kids rfl (by simp) (entries_representable h)
theorem shapes_representable {es : List Expr} : LiteralShapes es → ∀ e ∈ es, Representable e
  | .nil => fun _ h => nomatch h
  | .cons e es h hs => by
    have ih1 := shape_representable h
    have ih2 := shapes_representable hs
    intro x hx
    rcases List.mem_cons.1 hx with rfl | hx
    · exact ih1
    · exact ih2 x hx
theorem entries_representable {es : List Expr} : LiteralEntries es → ∀ e ∈ es, Representable e
  | .nil => fun _ h => nomatch h
  | .cons p k v es h1 h2 hs => by
    have ih1 := shape_representable h1
    have ih2 := shape_representable h2
    have ih3 := entries_representable hs
    intro x hx
    rcases List.mem_cons.1 hx with rfl | hx
    · refine representable_of_kids rfl (by simp) ?_
      simpa [Expr.kids] using ⟨ih1, ih2⟩
    · exact ih3 x hx
end

/-- A literal list or hash (and everything in it) can be rendered. -/
theorem literal_toPN {feq e v} (hd : toLiteral feq e = .literal v) : ∃ pn, e.toPN = .ok pn := by
  rw [C07_toPN_ok_iff]
  exact shape_representable (denotes_shape ((C11_ok_iff feq e v).1 hd))

/-- The key of an entry of a hash in the tree. -/
def IsHashKey (e k : Expr) : Prop := ∃ p es q v, Expr.hash p es ∈ subexpressions e ∧ Expr.keyedEntry q k v ∈ es

/-- `String()` of the expression is a slice within the source (parser/expression.go:617-619). -/
def InSource (len : Nat) (e : Expr) : Prop := 0 ≤ e.len ∧ (e.off : Int) + e.len ≤ len

/-- The two ways in which validation of a well formed tree can panic. -/
def HashKeyPanic (len : Nat) (e : Expr) (x : VPanic) : Prop :=
  (x = .literal .unhashable ∧ ∃ k, IsHashKey e k ∧ CompositeKey k) ∨
  (x = .slice ∧ ∃ k, IsHashKey e k ∧ ¬ InSource len k)

theorem fails_checkHash {v : Checker} {e : Expr} {p : Pos} {all : List Expr} (hh : Expr.hash p all ∈ subexpressions e)
    (hw : AllWellFormed (.hash p all)) (es : List Expr) (hes : ∀ x ∈ es, x ∈ all) (seen : List Value) :
    Fails (HashKeyPanic v.textLen e) (v.checkHash seen es) := by
  induction es generalizing seen with
  | nil => exact .none
  | cons x es ih =>
    have hx := hes x (List.mem_cons_self ..)
    have ih := ih fun y hy => hes y (List.mem_cons_of_mem _ hy)
    have hk : isKeyedEntry x = true := hw _ (List.mem_cons_self ..) x hx
    have hwx : AllWellFormed x := hw.kid hx
    cases x <;> simp only [isKeyedEntry, Bool.false_eq_true] at hk
    rename_i q k val
    have hwk : AllWellFormed k := hwx.kid (by simp [Expr.kids])
    have hik : IsHashKey e k := ⟨p, all, q, val, hh, hx⟩
    unfold Checker.checkHash
    dsimp only
    have hkey : (∃ o, v.hashKey k = .ok o) ∨ (v.hashKey k = .error (.literal .unhashable) ∧ CompositeKey k) := by
      unfold Checker.hashKey
      cases hl : toLiteral v.feq k with
      | notLiteral => exact .inl ⟨_, rfl⟩
      | panic y =>
        right
        unfold toLiteral at hl
        cases ht : toLit v.feq k with
        | ok z => rw [ht] at hl; cases hl
        | error z =>
          rw [ht] at hl
          rcases toLit_panic v.feq k hwk z ht with rfl | ⟨rfl, h⟩
          · cases hl
          · cases hl; exact ⟨rfl, h⟩
      | literal l =>
        left
        obtain ⟨pn, hpn⟩ := literal_toPN hl
        dsimp only
        split
        · rw [hpn]; exact ⟨_, rfl⟩
        · rw [hpn]; exact ⟨_, rfl⟩
        · next h1 h2 =>
          have : l.hashable = true := by
            cases hb : l.hashable with
            | true => rfl
            | false =>
              have hc := (hashable_iff ((C11_ok_iff _ _ _).1 hl)).1 hb
              cases hc with
              | list p es => exact absurd rfl (h1 p es)
              | hash p es => exact absurd rfl (h2 p es)
              | program p b ds => exact nomatch (hwx _ (List.mem_cons_self ..)).1
              | heredoc p s t hc =>
                rcases hwk _ (List.mem_cons_self ..) with ⟨_, _, rfl⟩ | ⟨_, _, rfl⟩ <;> cases hc
          rw [this]; exact ⟨_, rfl⟩
    rcases hkey with ⟨o, ho⟩ | ⟨ho, hc⟩
    · rw [ho]
      cases o with
      | none => exact ih seen
      | some l =>
        refine .ite ?_ (ih _)
        cases hs : v.stringOk k with
        | true => exact .seq .accept (ih _)
        | false =>
          intro y hy
          cases hy
          refine .inr ⟨rfl, k, hik, ?_⟩
          simp only [Checker.stringOk, Bool.and_eq_false_iff, decide_eq_false_iff_not] at hs
          rintro ⟨h1, h2⟩
          rcases hs with hs | hs
          · exact hs h1
          · exact hs h2
    · rw [ho]
      intro y hy
      cases hy
      exact .inl ⟨rfl, k, hik, hc⟩

/-- The last container on a path is the receiver of a visited expression. -/
theorem path_last {e : Expr} : ∀ c ∈ visited e, ∀ y, c.1.getLast? = some y → ∃ z ∈ subexpressions e, y = z.receiver := by
  have gen : ∀ (e : Expr) (path : List Expr), ∀ c ∈ allContents path e, ∃ z ∈ subexpressions e, c.1.getLast? = some z.receiver := by
    intro e
    induction e using kidsInduction with
    | step e ih =>
      intro path c hc
      rw [allContents_eq] at hc
      obtain ⟨k, hk, hc⟩ := List.mem_flatMap.1 hc
      rcases List.mem_cons.1 hc with rfl | hc
      · exact ⟨e, List.mem_cons_self .., by simp⟩
      · obtain ⟨z, hz, h⟩ := ih k hk _ c hc
        exact ⟨z, mem_subexpressions_kid hk hz, h⟩
  intro c hc y hy
  rcases List.mem_cons.1 hc with rfl | hc
  · cases hy
  · obtain ⟨z, hz, h⟩ := gen e [] c hc
    rw [h] at hy; cases hy
    exact ⟨z, hz, rfl⟩

/-- The checks of one visited expression of a well formed tree. -/
theorem fails_check {c : Checker} {e : Expr} (hw : AllWellFormed e) (x : List Expr × Expr) (hx : x ∈ visited e) :
    Fails (HashKeyPanic c.textLen e) (c.check x.1 x.2) := by
  have hm : x.2 ∈ subexpressions e := by rw [← visited_snd]; exact List.mem_map_of_mem hx
  have hl := path_last x hx
  obtain ⟨path, y⟩ := x
  simp only at hm hl ⊢
  have hy := hw y hm
  unfold Checker.check
  cases y with
  | namedDef p k n ps b =>
    have := fails_checkNamedDefinition (Q := HashKeyPanic c.textLen e) (v := c) path (.namedDef p k n ps b) n hy.1
    cases k with
    | application => exact fails_catalogOp .none
    | _ => exact fails_catalogOp (this.seq ((fails_checkNoCapture _).seq ((fails_checkReservedParams hy.1 _).seq (fails_checkNoIdemLast hy.2))))
  | bin p k l r =>
    cases k with
    | assignment op => exact .ite (fails_checkAssign _) .accept
    | namedAccess => exact .ite .none .accept
    | relationship => exact fails_catalogOp ((fails_checkRelation _).seq (fails_checkRelation _))
    | _ => exact (fails_checkRValue _).seq (fails_checkRValue _)
  | attributeOp => exact fails_checkAttributeOperation _ _ _ _
  | attributesOp => exact fails_checkAttributesOperation _ _
  | block => exact fails_checkBlock _
  | call p k => cases k <;> first | exact .none | exact fails_checkCallNamed _
  | capabilityMapping => exact fails_catalogOp (fails_checkCapabilityMapping _ _ _)
  | caseE => exact (fails_checkRValue _).seq (fails_checkCaseOptions hy.2 _)
  | caseOption => exact .forEach fun _ _ => fails_checkRValue _
  | collect => exact fails_catalogOp (.ite .none .accept)
  | epp =>
    dsimp only
    split
    · next h =>
      obtain ⟨z, hz, h'⟩ := hl _ h
      cases z <;> simp only [Expr.receiver, reduceCtorEq] at h'
      cases h'
      have := hw _ hz
      exact (fails_checkNoCapture _).seq (fails_checkUnique this.1 _)
    · exact .none
  | function p pl =>
    cases pl with
    | true => exact .none
    | false => exact (fails_checkNamedDefinition _ _ _ hy.1).seq ((fails_checkCaptureLast _).seq (fails_checkReturnType _))
  | ifE => exact fails_checkRValue _
  | keyedEntry => exact (fails_checkRValue _).seq (fails_checkRValue _)
  | lambda => exact (fails_checkCaptureLast _).seq (fails_checkReturnType _)
  | hash p es =>
    exact fails_checkHash hm (fun x hx => hw x (subexpressions_trans hm hx)) es (fun _ h => h) []
  | list => exact .forEach fun _ _ => fails_checkRValue _
  | node => exact fails_catalogOp ((Fails.forEach fun _ _ => fails_checkHostname1).seq ((fails_checkTop _ _).seq (fails_checkNoIdemLast hy.2.2)))
  | parameter p n v t r =>
    refine .seq (.ite .accept (.ite .none .accept)) ?_
    split
    · exact fails_checkIllegalAssignment _
    · exact .none
  | reserved => exact .ite .accept .accept
  | resourceBody => exact fails_checkUnfolds _ _
  | resourceDefaults => exact fails_catalogOp (.ite .none .accept)
  | resource =>
    refine fails_catalogOp (.ite .none ?_)
    split
    · exact .ite .accept .none
    · exact .none
  | resourceOverride => exact fails_catalogOp (.ite .none .accept)
  | selectorEntry => exact fails_checkRValue _
  | selector => exact (fails_checkRValue _).seq (fails_checkSelectors hy.2 _)
  | site => exact fails_catalogOp .none
  | typeAlias => exact (fails_checkTop _ _).seq ((Fails.ite .none .accept).seq ((fails_checkReservedTypeName _ _).seq (fails_checkTypeRef _)))
  | typeMapping => exact (fails_checkTop _ _).seq (fails_checkTypeMapping _ _ _)
  | query => exact fails_checkQuery _
  | un => exact fails_checkRValue _
  | step => exact .ite .none .accept
  | _ => exact .none

/-- Validation of a well formed tree panics only because of hash keys. -/
theorem wellFormed_validate (c : Checker) (e : Expr) (hw : AllWellFormed e) (x : VPanic)
    (h : validateWith c e = .error x) : HashKeyPanic c.textLen e x := by
  rw [validateWith_eq] at h
  exact Fails.visits (fun y hy => fails_check hw y hy) x h

/-! ## The property -/

/-- C24: validation of a parse result (by any of the three validators) panics only when some hash in it has
a key that contains a hash with a list or a hash as key, or when some hash in it has a key whose byte range
is outside of the source. -/
theorem C24_panics_only_on_hash_keys (env : Env) (s t : St) (single : Bool) (e : Expr)
    (h : parseFrom env s single = (.value e, t)) (c : Checker) (x : VPanic) (hx : validateWith c e = .error x) :
    ∃ k, IsHashKey e k ∧ ((x = .literal .unhashable ∧ CompositeKey k) ∨ (x = .slice ∧ ¬ InSource c.textLen k)) := by
  rcases wellFormed_validate c e (C43_well_formed env s t single e h) x hx with ⟨h1, k, h2, h3⟩ | ⟨h1, k, h2, h3⟩
  · exact ⟨k, h2, .inl ⟨h1, h3⟩⟩
  · exact ⟨k, h2, .inr ⟨h1, h3⟩⟩

/-- C24: validation of all other parse results returns normally. -/
theorem C24_validation_returns (env : Env) (s t : St) (single : Bool) (e : Expr)
    (h : parseFrom env s single = (.value e, t)) (c : Checker)
    (hk : ∀ k, IsHashKey e k → ¬ CompositeKey k ∧ InSource c.textLen k) : ∃ is, validateWith c e = .ok is := by
  cases hv : validateWith c e with
  | ok is => exact ⟨is, rfl⟩
  | error x =>
    obtain ⟨k, h1, ⟨-, h2⟩ | ⟨-, h2⟩⟩ := C24_panics_only_on_hash_keys env s t single e h c x hv
    · exact absurd h2 (hk k h1).1
    · exact absurd (hk k h1).2 h2

theorem checkHash_panics {c : Checker} {k : Expr} (hs : LiteralShape k) (hc : CompositeKey k) (q : Pos) (v : Expr)
    (es : List Expr) (hm : Expr.keyedEntry q k v ∈ es) (seen : List Value) : ∃ x, c.checkHash seen es = .error x := by
  induction es generalizing seen with
  | nil => cases hm
  | cons y es ih =>
    unfold Checker.checkHash
    rcases List.mem_cons.1 hm with rfl | hm
    · have : c.hashKey k = .error (.literal .unhashable) := by
        unfold Checker.hashKey
        rw [(C11_panics_iff_composite_key c.feq k hs).1.2 hc]
      dsimp only
      rw [this]; exact ⟨_, rfl⟩
    · have ih := fun seen => ih hm seen
      cases y <;> first | exact ⟨_, rfl⟩ | skip
      dsimp only
      cases c.hashKey _ with
      | error z => exact ⟨_, rfl⟩
      | ok o =>
        cases o with
        | none => exact ih _
        | some l =>
          simp only [bind, Except.bind]
          split
          · split
            · obtain ⟨x, hx⟩ := ih seen
              rw [hx]
              cases c.accept _ _ _ <;> exact ⟨_, rfl⟩
            · exact ⟨_, rfl⟩
          · exact ih _

theorem visits_error {c : Checker} {xs : List (List Expr × Expr)} {y : List Expr × Expr} (hy : y ∈ xs)
    (h : ∃ x, c.check y.1 y.2 = .error x) : ∃ x, checkVisits c xs = .error x := by
  induction xs with
  | nil => cases hy
  | cons z xs ih =>
    unfold checkVisits
    rcases List.mem_cons.1 hy with rfl | hy
    · obtain ⟨x, hx⟩ := h
      rw [hx]; exact ⟨_, rfl⟩
    · obtain ⟨x, hx⟩ := ih hy
      rw [hx]
      cases c.check z.1 z.2 <;> exact ⟨_, rfl⟩

/-- C24, the other direction: a literal hash key with a list or hash as key inside makes validation panic
(for any expression, not only parse results). -/
theorem C24_nested_composite_key_panics (c : Checker) (e k : Expr) (hk : IsHashKey e k) (hs : LiteralShape k)
    (hc : CompositeKey k) : ∃ x, validateWith c e = .error x := by
  obtain ⟨p, es, q, v, h1, h2⟩ := hk
  rw [validateWith_eq]
  rw [← visited_snd] at h1
  obtain ⟨y, hy, hy2⟩ := List.mem_map.1 h1
  refine visits_error hy ?_
  obtain ⟨path, z⟩ := y
  cases hy2
  exact checkHash_panics hs hc q v es h2 []

/-- What validation of the outcome of `Parse` gives. -/
inductive Verdict where
  | notParsed
  | issues (is : List (VCode × Severity))
  | unhashable
  | slice
  | otherPanic
deriving DecidableEq, Repr

def verdict (c : Checker) : Outcome → Verdict
  | .value e => match validateWith c e with
    | .ok is => .issues (is.map fun i => (i.code, i.severity))
    | .error (.literal .unhashable) => .unhashable
    | .error .slice => .slice
    | .error _ => .otherPanic
  | _ => .notParsed

/-- Parse a text and validate the result. -/
def validatePuppetText (text : GoStr) : Verdict :=
  verdict { textLen := text.length } (parse { text } false)
def validateWorkflowText (text : GoStr) : Verdict :=
  verdict { kind := .workflow, textLen := text.length } (parse { text, workflow := true } false)

/-- C24: both panics occur: a literal key that contains a hash with a list as key, and a duplicate property
of a step, whose key has a negative length.  (A key that itself is a list is fine.) -/
theorem C24_panics_occur :
    validatePuppetText b!"$x = {{[1] => 2} => 3}" = .unhashable ∧
    validateWorkflowText b!"resource x { type => A, type => B } { a => 1 }" = .slice ∧
    validatePuppetText b!"$x = {[1] => 2, [1] => 3}" = .issues [(.duplicateKey, .error)] ∧
    validateWorkflowText b!"resource x { type => A } { a => 1 }" = .issues [] := by
  decide +kernel

end PP.Props
