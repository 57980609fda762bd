import Verif.Props.Rules
import Verif.Props.Seen

/-!
# C63, continued: names, types, nodes
-/

namespace PP.Props
open PP.Expr PP.Rules

/-! ## Qualified names -/

theorem joined_cons (a : GoStr) (l : List GoStr) (h : l ≠ []) : joined (a :: l) = a ++ b!"::" ++ joined l := by
  cases l with
  | nil => exact absurd rfl h
  | cons b l => rfl

/-- The automaton of the regular expressions, in the middle of a part and at its start. -/
theorem segments_spec (first : UInt8 → Bool) (n : Nat) :
    ∀ s : GoStr, s.length = n →
    (segments first true s = true ↔ IsName first s) ∧
    (segments first false s = true ↔ ∃ w r, s = w ++ r ∧ w.all isWord = true ∧
      (r = [] ∨ ∃ m, r = b!"::" ++ m ∧ IsName first m)) := by
  induction n using Nat.strongRecOn with
  | ind n ih =>
  intro s hs
  have hfalse : (segments first false s = true ↔ ∃ w r, s = w ++ r ∧ w.all isWord = true ∧
      (r = [] ∨ ∃ m, r = b!"::" ++ m ∧ IsName first m)) := by
    cases s with
    | nil => simp only [segments, true_iff]; exact ⟨[], [], rfl, rfl, .inl rfl⟩
    | cons b s =>
      simp only [List.length_cons] at hs
      rw [segments.eq_def]
      simp only
      by_cases hw : isWordByte b = true
      · rw [if_pos hw, (ih s.length (by omega) s rfl).2]
        rw [isWord_eq] at hw
        constructor
        · rintro ⟨w, r, rfl, h1, h2⟩
          exact ⟨b :: w, r, rfl, by simp [hw, h1], h2⟩
        · rintro ⟨w, r, h0, h1, h2⟩
          cases w with
          | nil =>
            rcases h2 with rfl | ⟨m, rfl, _⟩
            · cases h0
            · simp only [List.nil_append, List.cons_append, List.cons.injEq] at h0
              rw [h0.1] at hw; exact absurd hw (by decide)
          | cons c w =>
            simp only [List.cons_append, List.cons.injEq] at h0
            obtain ⟨rfl, rfl⟩ := h0
            exact ⟨w, r, rfl, (by simpa using h1 : _ ∧ _).2 |> fun h => by simpa using h, h2⟩
      · rw [if_neg hw]
        rw [isWord_eq] at hw
        have hnil : ∀ w r, b :: s = w ++ r → w.all isWord = true → w = [] := by
          intro w r h0 h1
          cases w with
          | nil => rfl
          | cons c w =>
            simp only [List.cons_append, List.cons.injEq] at h0
            simp only [List.all_cons, Bool.and_eq_true] at h1
            rw [h0.1] at hw; exact absurd h1.1 hw
        by_cases hc : (b == (c%':' : UInt8)) = true
        · rw [if_pos hc]
          rw [beq_iff_eq] at hc
          subst hc
          cases s with
          | nil =>
            simp only [Bool.false_eq_true, false_iff]
            rintro ⟨w, r, h0, h1, h2⟩
            rw [hnil w r h0 h1] at h0
            rcases h2 with rfl | ⟨m, rfl, _⟩
            · cases h0
            · simp at h0
          | cons d t =>
            simp only [List.length_cons] at hs
            simp only [Bool.and_eq_true, beq_iff_eq, (ih t.length (by omega) t rfl).1]
            constructor
            · rintro ⟨rfl, h⟩
              exact ⟨[], _, rfl, rfl, .inr ⟨t, rfl, h⟩⟩
            · rintro ⟨w, r, h0, h1, h2⟩
              rw [hnil w r h0 h1] at h0
              rcases h2 with rfl | ⟨m, rfl, hm⟩
              · cases h0
              · simp only [List.nil_append, List.cons_append, List.cons.injEq] at h0
                obtain ⟨_, rfl, rfl⟩ := h0
                exact ⟨rfl, hm⟩
        · rw [if_neg hc]
          simp only [Bool.false_eq_true, false_iff]
          rintro ⟨w, r, h0, h1, h2⟩
          rw [hnil w r h0 h1] at h0
          rcases h2 with rfl | ⟨m, rfl, _⟩
          · cases h0
          · simp only [List.nil_append, List.cons_append, List.cons.injEq] at h0
            rw [h0.1] at hc; exact hc (by decide)
  refine ⟨?_, hfalse⟩
  cases s with
  | nil =>
    simp only [segments, Bool.false_eq_true, false_iff]
    rintro ⟨parts, hne, hp, hj⟩
    cases parts with
    | nil => exact hne rfl
    | cons a l =>
      have ha := hp a (by simp)
      cases l with
      | nil => simp only [joined] at hj; subst hj; cases ha
      | cons b l => simp [joined] at hj
  | cons b s =>
    simp only [List.length_cons] at hs
    rw [segments, Bool.and_eq_true, (ih s.length (by omega) s rfl).2]
    constructor
    · rintro ⟨hb, w, r, rfl, h1, h2⟩
      rcases h2 with rfl | ⟨m, rfl, parts, hne, hp, rfl⟩
      · refine ⟨[b :: w], by simp, ?_, by simp [joined]⟩
        simpa [isSegment] using ⟨hb, by simpa using h1⟩
      · refine ⟨(b :: w) :: parts, by simp, ?_, ?_⟩
        · intro p hp'
          rcases List.mem_cons.1 hp' with rfl | h
          · rw [isSegment, hb, h1]; rfl
          · exact hp p h
        · rw [joined_cons _ _ hne]; simp
    · rintro ⟨parts, hne, hp, hj⟩
      cases parts with
      | nil => exact absurd rfl hne
      | cons a l =>
        have ha := hp a (by simp)
        cases a with
        | nil => cases ha
        | cons c w =>
          simp only [isSegment, Bool.and_eq_true] at ha
          cases l with
          | nil =>
            simp only [joined, List.cons.injEq] at hj
            obtain ⟨rfl, rfl⟩ := hj
            exact ⟨ha.1, s, [], by simp, ha.2, .inl rfl⟩
          | cons d l =>
            rw [joined_cons _ _ (by simp)] at hj
            simp only [List.cons_append, List.cons.injEq] at hj
            obtain ⟨rfl, rfl⟩ := hj
            exact ⟨ha.1, w, b!"::" ++ joined (d :: l), by simp, ha.2,
              .inr ⟨_, rfl, d :: l, by simp, fun p hp' => hp p (by simp [hp']), rfl⟩⟩

theorem classrefDecl_iff (s : GoStr) : classrefDecl s = true ↔ IsName isLower s :=
  (segments_spec isLowerByte _ s rfl).1

theorem classrefExtDecl_iff (s : GoStr) : classrefExtDecl s = true ↔ IsName isUpper s :=
  (segments_spec isUpperByte _ s rfl).1

theorem classrefExt_iff (s : GoStr) : classrefExt s = true ↔ IsCapability s := by
  have colon : ∀ m, ¬ IsName isUpper (b!"::" ++ m) := by
    intro m h
    rw [← classrefExtDecl_iff] at h
    simp [classrefExtDecl, segments] at h
    exact absurd h.1 (by decide)
  unfold classrefExt
  split
  · rename_i a b t
    split
    · rename_i h
      simp only [Bool.and_eq_true, beq_iff_eq] at h
      obtain ⟨rfl, rfl⟩ := h
      rw [show segments isUpperByte true t = true ↔ IsName isUpper t from classrefExtDecl_iff t]
      constructor
      · intro h; exact .inr ⟨t, rfl, h⟩
      · rintro (h | ⟨m, h, hm⟩)
        · exact absurd h (colon t)
        · simp only [List.cons_append, List.nil_append, List.cons.injEq, true_and] at h
          rw [h]; exact hm
    · rename_i h
      rw [show segments isUpperByte true (a :: b :: t) = true ↔ IsName isUpper (a :: b :: t) from classrefExtDecl_iff _]
      constructor
      · exact .inl
      · rintro (h' | ⟨m, h', hm⟩)
        · exact h'
        · simp only [List.cons_append, List.nil_append, List.cons.injEq] at h'
          obtain ⟨rfl, rfl, _⟩ := h'
          exact absurd rfl h
  · rename_i h
    rw [show segments isUpperByte true s = true ↔ IsName isUpper s from classrefExtDecl_iff _]
    constructor
    · exact .inl
    · rintro (h' | ⟨m, h', hm⟩)
      · exact h'
      · exact absurd h' (h _ _ _)

/-! ## Definitions -/

theorem reservedTypeNames_iff (n : GoStr) : reservedTypeNames.contains n = true ↔ n ∈ typeNames := by
  rw [List.contains_iff_mem]
  have h1 : ∀ x ∈ reservedTypeNames, x ∈ typeNames := by decide +kernel
  have h2 : ∀ x ∈ typeNames, x ∈ reservedTypeNames := by decide +kernel
  exact ⟨h1 n, h2 n⟩

theorem futureReservedWords_iff (n : GoStr) : futureReservedWords.contains n = true ↔ n ∈ futureWords := by
  rw [List.contains_iff_mem]
  have h1 : ∀ x ∈ futureReservedWords, x ∈ futureWords := by decide +kernel
  have h2 : ∀ x ∈ futureWords, x ∈ futureReservedWords := by decide +kernel
  exact ⟨h1 n, h2 n⟩

theorem reservedParameters_iff (n : GoStr) : reservedParameters.contains n = true ↔ n ∈ takenParameters := by
  rw [List.contains_iff_mem]
  have h1 : ∀ x ∈ reservedParameters, x ∈ takenParameters := by decide +kernel
  have h2 : ∀ x ∈ takenParameters, x ∈ reservedParameters := by decide +kernel
  exact ⟨h1 n, h2 n⟩

theorem typeName_check (v : Checker) (x : Expr) (n : GoStr) :
    Reports (· == .reservedTypeName) (v.checkReservedTypeName x n) (if toLowerGo n ∈ typeNames then [x] else []) := by
  unfold Checker.checkReservedTypeName
  simp only [reservedTypeNames_iff]
  reports []

theorem futureWord_check (v : Checker) (x : Expr) (n : GoStr) :
    Reports (· == .futureReservedWord) (v.checkFutureReservedWord x n) (if n ∈ futureWords then [x] else []) := by
  unfold Checker.checkFutureReservedWord
  simp only [futureReservedWords_iff]
  reports []

theorem typeRef_eq (v : Checker) (x r : Expr) : v.checkTypeRef x r = match typeName? r with
    | some d => v.checkFutureReservedWord r d
    | none => v.accept .illegalExpression r
        [(b!"expression", .node r), (b!"feature", .text b!"a type reference"), (b!"container", .node x)] := by
  unfold Checker.checkTypeRef
  cases r with
  | access p o ks => cases o <;> rfl
  | _ => rfl

theorem typeRef_future (v : Checker) (x r : Expr) :
    Reports (· == .futureReservedWord) (v.checkTypeRef x r) ([r].filter namesFutureWord) := by
  rw [typeRef_eq]
  cases h : typeName? r with
  | none => exact Reports.congr (Reports.other rfl) (by simp [namesFutureWord, h])
  | some d => exact Reports.congr (futureWord_check v r d) (by by_cases hd : d ∈ futureWords <;> simp [namesFutureWord, h, hd])

theorem typeRef_kind (v : Checker) (x r : Expr) :
    Reports (· == .illegalExpression) (v.checkTypeRef x r) ([r].filter fun t => (typeName? t).isNone) := by
  rw [typeRef_eq]
  cases h : typeName? r with
  | none => exact Reports.congr (Reports.accepts rfl rfl) (by simp [h])
  | some d => exact Reports.congr (Reports.quiet (Checker.codes_checkFutureReservedWord _ _) rfl) (by simp [h])

theorem returnType_future (v : Checker) (x : Expr) (r : Option Expr) :
    Reports (· == .futureReservedWord) (v.checkReturnType x r) (r.toList.filter namesFutureWord) := by
  cases r with
  | none => exact Reports.none
  | some r => exact typeRef_future v x r

theorem returnType_kind (v : Checker) (x : Expr) (r : Option Expr) :
    Reports (· == .illegalExpression) (v.checkReturnType x r) (r.toList.filter fun t => (typeName? t).isNone) := by
  cases r with
  | none => exact Reports.none
  | some r => exact typeRef_kind v x r

theorem reservedParams_check (v : Checker) (x : Expr) (ps : List Expr) :
    Reports (· == .reservedParameter) (v.checkReservedParams x ps) ((ps.filter isTakenParameter).map fun _ => x) := by
  induction ps with
  | nil => rw [Checker.checkReservedParams]; exact Reports.none
  | cons p ps ih =>
    unfold Checker.checkReservedParams
    cases p with
    | parameter q n d t cr =>
      simp only [Expr.param?, reservedParameters_iff]
      refine Reports.congr (Reports.seq (Reports.ite (Reports.accepts rfl rfl) Reports.none) ih) ?_
      by_cases hn : n ∈ takenParameters <;> simp [isTakenParameter, hn]
    | _ => exact Reports.error

theorem idemLast_check (v : Checker) (x body : Expr) :
    Reports (· == .idemNotAllowedLast) (v.checkNoIdemLast x body) (lastValue isIdem body) := by
  unfold Checker.checkNoIdemLast
  cases body with
  | block p ss =>
    simp only [Checker.endsWithIdem]
    cases hgl : ss.getLast? with
    | none => simpa [lastValue, hgl] using Reports.none
    | some l =>
      by_cases hl : isIdem l = true
      · simpa [lastValue, hl, hgl] using Reports.accepts rfl rfl
      · simpa [lastValue, hl, hgl] using Reports.none
  | _ => exact Reports.error

/-- The parts of the check of a class, define or function. -/
theorem named_reports {pc : VCode → Bool} (v : Checker) (path x n ps) {l1 l2 l3}
    (ht : pc .notAbsoluteTopLevel = false ∧ pc .notTopLevel = false ∧ pc .duplicateParameter = false)
    (h1 : Reports pc (if classrefDecl n then vnone else
      v.accept .illegalDefinitionName x [(b!"name", .text n), (b!"value", .node x)]) l1)
    (h2 : Reports pc (v.checkReservedTypeName x n) l2)
    (h3 : Reports pc (v.checkFutureReservedWord x n) l3) :
    Reports pc (v.checkNamedDefinition path x n ps) (l1 ++ l2 ++ l3) := by
  unfold Checker.checkNamedDefinition
  refine Reports.congr (((Reports.quiet (Checker.codes_checkTop _ _) (by simp [ht])).seq (h1.seq (h2.seq (h3.seq
    (Reports.quiet (Checker.codes_checkUnique _ _) (by simp [ht]))))))) (by simp)

theorem illegalHostnameChars_eq (s : GoStr) : illegalHostnameChars s = !s.all isHostByte := by
  unfold illegalHostnameChars
  rw [List.not_all_eq_any_not]
  congr 1
  funext b
  have h1 : (b == (c%'-' : UInt8)) = (b.toNat == 45) := byte_eq b 45 (by decide)
  have h2 : (b == (c%'.' : UInt8)) = (b.toNat == 46) := byte_eq b 46 (by decide)
  rw [h1, h2, isWord_eq, isHostByte]
  cases isWord b <;> cases b.toNat == 45 <;> cases b.toNat == 46 <;> rfl

/-- The component of a capability mapping named in lower case. -/
def badComponent : Expr → List Expr
  | .qname p n => [.qname p n]
  | _ => []

section
variable (c : Checker) (e : Expr) (is : List Issue) (h : validateWith c e = .ok is)
include h

/-- C63: the names of definitions. -/
theorem C63_definition_names : BrokenAt c is e .illegalDefinitionName fun x => badDefinitionName x.2 := by
  have hn : ∀ path x n ps, Reports (· == .illegalDefinitionName) (c.checkNamedDefinition path x n ps)
      (if classrefDecl n = true then [] else [x]) := fun path x n ps => Reports.congr
    (named_reports c path x n ps ⟨rfl, rfl, rfl⟩ (Reports.ite Reports.none (Reports.accepts rfl rfl))
      (Reports.quiet (Checker.codes_checkReservedTypeName _ _) rfl)
      (Reports.quiet (Checker.codes_checkFutureReservedWord _ _) rfl)) (by simp)
  refine rule_of h ?_
  intro path x
  cases x with
  | namedDef p k n ps b =>
    cases k
    · other_cases [badDefinitionName, namedDefinition?]
    all_goals
      apply Reports.congr
      · simp only [Checker.check]
        reports [hn _ _ _ _]
      · cases hk : c.kind <;> by_cases hc : IsName isLower n <;>
          simp [unlessRefused, badDefinitionName, namedDefinition?, catalogConstruct, hc, classrefDecl_iff]
  | function p plan n ps b r =>
    cases plan
    · apply Reports.congr
      · simp only [Checker.check]
        reports [hn _ _ _ _]
      · by_cases hc : IsName isLower n <;>
          simp [unlessRefused, badDefinitionName, namedDefinition?, catalogConstruct, hc, classrefDecl_iff]
    · other_cases [badDefinitionName, namedDefinition?]
  | typeAlias p n t =>
    apply Reports.congr
    · simp only [Checker.check]
      reports []
    · by_cases hc : IsName isUpper n <;>
        simp [unlessRefused, badDefinitionName, catalogConstruct, hc, classrefExtDecl_iff]
  | bin p k l r => cases k <;> other_cases [badDefinitionName, namedDefinition?]
  | call p k => cases k <;> other_cases [badDefinitionName, namedDefinition?]
  | _ => other_cases [badDefinitionName, namedDefinition?]

/-- C63: definitions with the name of a type. -/
theorem C63_type_names : BrokenAt c is e .reservedTypeName fun x => definedTypeName x.2 := by
  have hn : ∀ path x n ps, Reports (· == .reservedTypeName) (c.checkNamedDefinition path x n ps)
      (if toLowerGo n ∈ typeNames then [x] else []) := fun path x n ps => Reports.congr
    (named_reports c path x n ps ⟨rfl, rfl, rfl⟩ (Reports.ite Reports.none (Reports.other rfl))
      (typeName_check c x n) (Reports.quiet (Checker.codes_checkFutureReservedWord _ _) rfl)) (by simp)
  refine rule_of h ?_
  intro path x
  cases x with
  | namedDef p k n ps b =>
    cases k
    · other_cases [definedTypeName, namedDefinition?]
    all_goals
      apply Reports.congr
      · simp only [Checker.check]
        reports [hn _ _ _ _]
      · cases hk : c.kind <;> by_cases hc : toLowerGo n ∈ typeNames <;>
          simp [unlessRefused, definedTypeName, namedDefinition?, catalogConstruct, hc]
  | function p plan n ps b r =>
    cases plan
    · apply Reports.congr
      · simp only [Checker.check]
        reports [hn _ _ _ _]
      · by_cases hc : toLowerGo n ∈ typeNames <;>
          simp [unlessRefused, definedTypeName, namedDefinition?, catalogConstruct, hc]
    · other_cases [definedTypeName, namedDefinition?]
  | typeAlias p n t =>
    apply Reports.congr
    · simp only [Checker.check]
      reports [typeName_check c _ _]
    · by_cases hc : toLowerGo n ∈ typeNames <;>
        simp [unlessRefused, definedTypeName, catalogConstruct, hc]
  | bin p k l r => cases k <;> other_cases [definedTypeName, namedDefinition?]
  | call p k => cases k <;> other_cases [definedTypeName, namedDefinition?]
  | _ => other_cases [definedTypeName, namedDefinition?]

/-- C63: words that will be reserved (a deprecation, C12). -/
theorem C63_future_words : BrokenAt c is e .futureReservedWord fun x => usesFutureWord x.2 := by
  have hn : ∀ path x n ps, Reports (· == .futureReservedWord) (c.checkNamedDefinition path x n ps)
      (if n ∈ futureWords then [x] else []) := fun path x n ps => Reports.congr
    (named_reports c path x n ps ⟨rfl, rfl, rfl⟩ (Reports.ite Reports.none (Reports.other rfl))
      (Reports.quiet (Checker.codes_checkReservedTypeName _ _) rfl) (futureWord_check c x n)) (by simp)
  refine rule_of h ?_
  intro path x
  cases x with
  | namedDef p k n ps b =>
    cases k
    · other_cases [usesFutureWord, namedDefinition?, typePositions]
    all_goals
      apply Reports.congr
      · simp only [Checker.check]
        reports [hn _ _ _ _]
      · cases hk : c.kind <;> by_cases hc : n ∈ futureWords <;>
          simp [unlessRefused, usesFutureWord, namedDefinition?, typePositions, catalogConstruct, hc]
  | function p plan n ps b r =>
    cases plan
    · apply Reports.congr
      · simp only [Checker.check]
        exact Reports.seq (hn _ _ _ _) (Reports.seq (Reports.quiet (Checker.codes_checkCaptureLast _) rfl)
          (returnType_future c _ r))
      · by_cases hc : n ∈ futureWords <;> cases r <;>
          simp [unlessRefused, usesFutureWord, namedDefinition?, typePositions, catalogConstruct, hc]
    · other_cases [usesFutureWord, namedDefinition?, typePositions]
  | lambda p ps b r =>
    apply Reports.congr
    · simp only [Checker.check]
      exact Reports.seq (Reports.quiet (Checker.codes_checkCaptureLast _) rfl) (returnType_future c _ r)
    · cases r <;> simp [unlessRefused, usesFutureWord, namedDefinition?, typePositions, catalogConstruct]
  | typeAlias p n t =>
    apply Reports.congr
    · simp only [Checker.check]
      reports [typeRef_future c _ t]
    · simp [unlessRefused, usesFutureWord, namedDefinition?, typePositions, catalogConstruct]
  | reserved p w f =>
    cases f
    · apply Reports.congr
      · simp only [Checker.check]
        reports []
      · simp [unlessRefused, usesFutureWord, namedDefinition?, typePositions, catalogConstruct]
    · apply Reports.congr
      · simp only [Checker.check]
        reports []
      · simp [unlessRefused, usesFutureWord, namedDefinition?, typePositions, catalogConstruct]
  | bin p k l r => cases k <;> other_cases [usesFutureWord, namedDefinition?, typePositions]
  | call p k => cases k <;> other_cases [usesFutureWord, namedDefinition?, typePositions]
  | _ => other_cases [usesFutureWord, namedDefinition?, typePositions]

/-- C63: bodies that end with a value. -/
theorem C63_value_last : BrokenAt c is e .idemNotAllowedLast fun x => endsWithValue isIdem x.2 := by
  refine rule_of h ?_
  intro path x
  cases x with
  | namedDef p k n ps b =>
    cases k
    · other_cases [endsWithValue]
    all_goals
      apply Reports.congr
      · simp only [Checker.check]
        exact Reports.refused rfl (Reports.seq (Reports.quiet (Checker.codes_checkNamedDefinition _ _ _ _) rfl)
          (Reports.seq (Reports.quiet (Checker.codes_checkNoCapture _) rfl) (Reports.seq
            (Reports.quiet (Checker.codes_checkReservedParams _ _) rfl) (idemLast_check c _ b))))
      · cases hk : c.kind <;> simp [unlessRefused, endsWithValue, catalogConstruct]
  | node p par hs b =>
    apply Reports.congr
    · simp only [Checker.check]
      exact Reports.refused rfl (Reports.seq (Reports.quiet (Checker.codes_checkHostname _) rfl)
        (Reports.seq (Reports.quiet (Checker.codes_checkTop _ _) rfl) (idemLast_check c _ b)))
    · cases hk : c.kind <;> simp [unlessRefused, endsWithValue, catalogConstruct]
  | function p plan => cases plan <;> other_cases [endsWithValue]
  | bin p k l r => cases k <;> other_cases [endsWithValue]
  | call p k => cases k <;> other_cases [endsWithValue]
  | _ => other_cases [endsWithValue]

/-- C63: parameters that classes and defines have already. -/
theorem C63_reserved_parameters : BrokenAt c is e .reservedParameter fun x => takesReservedParameter x.2 := by
  refine rule_of h ?_
  intro path x
  cases x with
  | namedDef p k n ps b =>
    cases k
    · other_cases [takesReservedParameter]
    all_goals
      apply Reports.congr
      · simp only [Checker.check]
        exact Reports.refused rfl (Reports.seq (Reports.quiet (Checker.codes_checkNamedDefinition _ _ _ _) rfl)
          (Reports.seq (Reports.quiet (Checker.codes_checkNoCapture _) rfl) (Reports.seq
            (reservedParams_check c _ ps) (Reports.quiet (Checker.codes_checkNoIdemLast _) rfl))))
      · cases hk : c.kind <;> simp [unlessRefused, takesReservedParameter, catalogConstruct]
  | function p plan => cases plan <;> other_cases [takesReservedParameter]
  | bin p k l r => cases k <;> other_cases [takesReservedParameter]
  | call p k => cases k <;> other_cases [takesReservedParameter]
  | _ => other_cases [takesReservedParameter]

/-- C63: names of hosts. -/
theorem C63_host_names : BrokenAt c is e .illegalHostnameChars fun x => badHostnames c.feq x.2 := by
  have hh : ∀ x, Reports (· == .illegalHostnameChars) (c.checkHostname1 x) ([x].filter (isBadHostname c.feq)) := by
    intro x
    have hs : ∀ s, Reports (· == .illegalHostnameChars) (c.checkHostnameString x s) (if s.all isHostByte then [] else [x]) := by
      intro s
      unfold Checker.checkHostnameString
      rw [illegalHostnameChars_eq]
      refine Reports.congr (Reports.ite (Reports.accepts rfl rfl) Reports.none) ?_
      cases s.all isHostByte <;> simp
    unfold Checker.checkHostname1
    cases x with
    | concat p es =>
      cases ht : toLiteral c.feq (.concat p es) with
      | literal l =>
        cases l with
        | str s => exact Reports.congr (hs s) (by cases hb : s.all isHostByte <;> simp [isBadHostname, ht, hb])
        | _ => exact Reports.error
      | notLiteral => exact Reports.congr (Reports.other rfl) (by simp [isBadHostname, ht])
      | panic => exact Reports.error
    | string p s => exact Reports.congr (hs s) (by cases hb : s.all isHostByte <;> simp [isBadHostname, hb])
    | _ => exact Reports.none
  refine rule_of h ?_
  intro path x
  cases x with
  | node p par hs b =>
    apply Reports.congr
    · simp only [Checker.check]
      exact Reports.refused rfl (Reports.seq (Reports.each hh)
        (Reports.seq (Reports.quiet (Checker.codes_checkTop _ _) rfl) (Reports.quiet (Checker.codes_checkNoIdemLast _) rfl)))
    · cases hk : c.kind <;> simp [unlessRefused, badHostnames, hostsOf, catalogConstruct, flatMap_filter']
  | namedDef p k => cases k <;> other_cases [badHostnames, hostsOf]
  | function p plan => cases plan <;> other_cases [badHostnames, hostsOf]
  | bin p k l r => cases k <;> other_cases [badHostnames, hostsOf]
  | call p k => cases k <;> other_cases [badHostnames, hostsOf]
  | _ => other_cases [badHostnames, hostsOf]

/-- C63: names of hosts that are not known when the program is validated. -/
theorem C63_computed_hosts : BrokenAt c is e .illegalHostnameInterpolation fun x => computedHostnames c.feq x.2 := by
  have hh : ∀ x, Reports (· == .illegalHostnameInterpolation) (c.checkHostname1 x) ([x].filter (isComputedHostname c.feq)) := by
    intro x
    have hs : ∀ s, Reports (· == .illegalHostnameInterpolation) (c.checkHostnameString x s) [] := by
      intro s
      unfold Checker.checkHostnameString
      split
      · exact Reports.other rfl
      · exact Reports.none
    unfold Checker.checkHostname1
    cases x with
    | concat p es =>
      cases ht : toLiteral c.feq (.concat p es) with
      | literal l =>
        cases l with
        | str s => exact Reports.congr (hs s) (by simp [isComputedHostname, ht])
        | _ => exact Reports.error
      | notLiteral => exact Reports.congr (Reports.accepts rfl rfl) (by simp [isComputedHostname, ht])
      | panic => exact Reports.error
    | string p s => exact hs s
    | _ => exact Reports.none
  refine rule_of h ?_
  intro path x
  cases x with
  | node p par hs b =>
    apply Reports.congr
    · simp only [Checker.check]
      exact Reports.refused rfl (Reports.seq (Reports.each hh)
        (Reports.seq (Reports.quiet (Checker.codes_checkTop _ _) rfl) (Reports.quiet (Checker.codes_checkNoIdemLast _) rfl)))
    · cases hk : c.kind <;> simp [unlessRefused, computedHostnames, hostsOf, catalogConstruct, flatMap_filter']
  | namedDef p k => cases k <;> other_cases [computedHostnames, hostsOf]
  | function p plan => cases plan <;> other_cases [computedHostnames, hostsOf]
  | bin p k l r => cases k <;> other_cases [computedHostnames, hostsOf]
  | call p k => cases k <;> other_cases [computedHostnames, hostsOf]
  | _ => other_cases [computedHostnames, hostsOf]

/-- C63: capabilities. -/
theorem C63_capabilities : BrokenAt c is e .illegalClassref fun x => badClassref x.2 := by
  refine rule_of h ?_
  intro path x
  cases x with
  | capabilityMapping p k cap comp ms =>
    apply Reports.congr
    · simp only [Checker.check, Checker.checkCapabilityMapping]
      exact Reports.refused rfl (Reports.seq (l := badComponent comp) (by
        split
        · exact Reports.none
        · exact Reports.accepts rfl rfl
        · exact Reports.none
        · exact Reports.none
        · exact Reports.none
        · rename_i h1 h2 h3 h4 h5
          refine Reports.congr (Reports.other rfl) ?_
          cases comp <;> first | rfl | exact absurd rfl (h2 _ _))
        (Reports.ite Reports.none (Reports.accepts rfl rfl)))
    · have : badClassref (.capabilityMapping p k cap comp ms) =
          badComponent comp ++ if classrefExt cap = true then [] else [.capabilityMapping p k cap comp ms] := by
        by_cases hc : IsCapability cap <;> cases comp <;> simp [badClassref, badComponent, classrefExt_iff, hc]
      cases hk : c.kind <;> simp [unlessRefused, this, catalogConstruct]
  | namedDef p k => cases k <;> other_cases [badClassref]
  | function p plan => cases plan <;> other_cases [badClassref]
  | bin p k l r => cases k <;> other_cases [badClassref]
  | call p k => cases k <;> other_cases [badClassref]
  | _ => other_cases [badClassref]

/-- C63: something else than the name of a function, of a method or of a type. -/
theorem C63_wrong_kind : BrokenAt c is e .illegalExpression fun x => wrongKind x.2 := by
  refine rule_of h ?_
  intro path x
  cases x with
  | bin p k l r =>
    cases k
    case namedAccess =>
      simp only [Checker.check]
      refine Reports.congr (Reports.ite Reports.none (Reports.accepts rfl rfl)) ?_
      cases r <;> simp [unlessRefused, wrongKind, catalogConstruct, Expr.isQName]
    all_goals other_cases [wrongKind, typePositions]
  | call p k rv f as l =>
    cases k
    case named =>
      have : Reports (· == .illegalExpression) (c.checkCallNamed (.call p .named rv f as l) f)
          (wrongKind (.call p .named rv f as l)) := by
        unfold Checker.checkCallNamed
        cases f with
        | access q o ks => cases o <;> first
            | exact Reports.none
            | exact Reports.accepts rfl rfl
        | qname => exact Reports.none
        | qref => exact Reports.none
        | _ => exact Reports.accepts rfl rfl
      exact Reports.congr this (by simp [unlessRefused, catalogConstruct])
    all_goals other_cases [wrongKind, typePositions]
  | collect p t q ops =>
    apply Reports.congr
    · simp only [Checker.check]
      exact Reports.refused rfl (Reports.ite Reports.none (Reports.accepts rfl rfl))
    · cases hk : c.kind <;> cases t <;> simp [unlessRefused, wrongKind, catalogConstruct, Expr.isQref]
  | capabilityMapping p k cap comp ms =>
    apply Reports.congr
    · simp only [Checker.check, Checker.checkCapabilityMapping]
      exact Reports.refused rfl (Reports.seq (l := wrongKind (.capabilityMapping p k cap comp ms)) (by
        split
        · exact Reports.none
        · exact Reports.other rfl
        · exact Reports.none
        · exact Reports.none
        · exact Reports.none
        · rename_i h1 h2 h3 h4 h5
          refine Reports.congr (Reports.accepts rfl rfl) ?_
          unfold wrongKind
          simp only)
        (Reports.ite Reports.none (Reports.other rfl)))
    · cases hk : c.kind <;> simp [unlessRefused, catalogConstruct]
  | function p plan n ps b r =>
    cases plan
    · apply Reports.congr
      · simp only [Checker.check]
        exact Reports.seq (Reports.quiet (Checker.codes_checkNamedDefinition _ _ _ _) rfl)
          (Reports.seq (Reports.quiet (Checker.codes_checkCaptureLast _) rfl) (returnType_kind c _ r))
      · cases r <;> simp [unlessRefused, wrongKind, typePositions, catalogConstruct]
    · other_cases [wrongKind, typePositions]
  | lambda p ps b r =>
    apply Reports.congr
    · simp only [Checker.check]
      exact Reports.seq (Reports.quiet (Checker.codes_checkCaptureLast _) rfl) (returnType_kind c _ r)
    · cases r <;> simp [unlessRefused, wrongKind, typePositions, catalogConstruct]
  | typeAlias p n t =>
    apply Reports.congr
    · simp only [Checker.check]
      reports [typeRef_kind c _ t]
    · simp [unlessRefused, wrongKind, typePositions, catalogConstruct]
  | namedDef p k => cases k <;> other_cases [wrongKind, typePositions]
  | _ => other_cases [wrongKind, typePositions]

end

/-! ## Not vacuous: programs that break the rules

Each program is parsed and validated; the code, and the offsets at which it is reported.
-/

def issuesOf (kind : CheckerKind) (code : VCode) (text : GoStr) : Option (List Nat) :=
  match parse { text } false with
  | .value e => match validateWith { kind, textLen := text.length } e with
    | .ok is => some ((is.filter fun i => i.code == code).map fun i => i.at_.pos.off)
    | .error _ => none
  | _ => none

example : issuesOf .puppet .multipleAttributesUnfold b!"notify { 'a': * => $x, * => $y, * => $z }" = some [23, 32] := by decide +kernel
example : issuesOf .tasks .multipleAttributesUnfold b!"notify { 'a': * => $x, * => $y, * => $z }" = some [23, 32] := by decide +kernel
example : issuesOf .puppet .notRvalue b!"$x = [1, class a {}]" = some [9] := by decide +kernel
example : issuesOf .puppet .notRvalue b!"File <| |> -> (class a {})" = some [15, 15] := by decide +kernel
example : issuesOf .puppet .reservedWord b!"$x = attr" = some [5] := by decide +kernel
example : issuesOf .puppet .futureReservedWord b!"type X = Application f() |$x| >> Consumes[1] {}" = some [9, 33] := by decide +kernel
example : issuesOf .puppet .illegalQueryExpression b!"File <| (a == 1 or b > 2) and c |>" = some [19] := by decide +kernel
example : issuesOf .puppet .notVirtualizable b!"@class { 'a': } @File { owner => 'x' } @notify { 'a': }" = some [0, 16] := by decide +kernel
example : issuesOf .tasks .notVirtualizable b!"@class { 'a': } @File { owner => 'x' }" = some [] := by decide +kernel
example : issuesOf .puppet .illegalAttributeAppend b!"file { 'a': mode +> 'x' } File['b'] { mode +> 'y' }" = some [12] := by decide +kernel
example : issuesOf .puppet .unsupportedOperatorInContext b!"File { * => $x }" = some [0] := by decide +kernel
example : issuesOf .puppet .illegalAssignmentContext b!"class a($x = [$y = 1, f() || { $z = 1 }]) { notice $x }" = some [14] := by decide +kernel
example : numericParameter (.parameter ⟨3, 2⟩ b!"1" none none false) = [.parameter ⟨3, 2⟩ b!"1" none none false] := rfl
example : issuesOf .puppet .unsupportedExpression b!"type Foo[a] = Bar type Runtime[a, b] = Bar" = some [5] := by decide +kernel
example : issuesOf .puppet .illegalSingleTypeMapping b!"type Runtime[a, b] = [/x/, 'y'] type Runtime[a, [/x/, 'y']] = [/x/, 'y']" = some [5] := by decide +kernel
example : issuesOf .puppet .illegalRegexpTypeMapping b!"type Runtime[a, b] = Bar type Runtime[a, [/x/, 'y']] = Bar" = some [30] := by decide +kernel
example : issuesOf .puppet .idemNotAllowedLast b!"class a { notice 1 [1] } class b { notice 1 }" = some [19] := by decide +kernel
example : issuesOf .puppet .reservedParameter b!"class a($title, $b, $name) {}" = some [0, 0] := by decide +kernel
example : issuesOf .puppet .reservedTypeName b!"class string {} type Any = String" = some [0, 21] := by decide +kernel
example : issuesOf .puppet .illegalDefinitionName b!"function b::c() {} class A::B {}" = some [19] := by decide +kernel
example : issuesOf .puppet .illegalHostnameChars b!"node 'a_b', 'a b' {}" = some [12] := by decide +kernel
example : issuesOf .puppet .illegalHostnameInterpolation b!"node \"a${b}\" {}" = some [5] := by decide +kernel
example : issuesOf .puppet .illegalClassref b!"a produces b {}" = some [0, 2] := by decide +kernel
example : issuesOf .puppet .illegalParameterName b!"class a($::b, $c) {} f() |$b::c| { }" = some [8, 26] := by decide +kernel
example : issuesOf .puppet .illegalExpression b!"type X = 1 type Y = Z[1] 1 <| |> $x.1" = some [9, 25, 36] := by decide +kernel

end PP.Props
