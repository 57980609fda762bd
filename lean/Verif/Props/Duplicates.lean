import Verif.Props.Validator

/-!
# C18, C19, C20, C22, C23, C25: exact reports

Each theorem says at which expressions an issue code is reported, as a list in document order.
`visited e` lists all expressions of `e` together with their containers (C09).
-/

namespace PP.Props
open PP.Expr

/-- The elements of a list that are equivalent to an earlier one; `before` are the elements in front. -/
def repeats {α} (same : α → α → Bool) (before : List α) : List α → List α
  | [] => []
  | x :: xs =>
    (if before.any (fun y => same y x) then [x] else []) ++ repeats same (before ++ [x]) xs

/-- `repeats` in words: the elements at those indices whose element is equivalent to one at a smaller index. -/
theorem repeats_spec {α} (same : α → α → Bool) (l : List α) :
    repeats same [] l = ((List.range l.length).filterMap fun i =>
      match l[i]? with
      | some x => if (l.take i).any (fun y => same y x) then some x else none
      | none => none) := by
  have gen : ∀ (xs before : List α), repeats same before xs = ((List.range xs.length).filterMap fun i =>
      match xs[i]? with
      | some x => if (before ++ xs.take i).any (fun y => same y x) then some x else none
      | none => none) := by
    intro xs
    induction xs with
    | nil => intro before; rfl
    | cons x xs ih =>
      intro before
      rw [repeats, ih, List.length_cons, List.range_succ_eq_map, List.filterMap_cons, List.filterMap_map]
      simp only [List.getElem?_cons_zero, List.take_zero, List.append_nil]
      have : (List.filterMap ((fun i => match (x :: xs)[i]? with
            | some y => if (before ++ (x :: xs).take i).any (fun z => same z y) then some y else none
            | none => none) ∘ Nat.succ) (List.range xs.length)) =
          (List.range xs.length).filterMap fun i => match xs[i]? with
            | some y => if (before ++ [x] ++ xs.take i).any (fun z => same z y) then some y else none
            | none => none := by
        congr 1
        funext i
        simp
      rw [this]
      by_cases h : (before.any fun y => same y x) = true
      · simp [h]
      · simp [h]
  simpa using gen l []

/-- The name of a parameter. -/
def nameOf : Expr → Option GoStr
  | .parameter _ n _ _ _ => some n
  | _ => none

/-- The parameter collects the remaining arguments (`*$x`). -/
def capturesRest : Expr → Bool
  | .parameter _ _ _ _ c => c
  | _ => false

/-! ## C18 -/

/-- Parameters whose name occurs earlier in the list. -/
def repeatedParameters (ps : List Expr) : List Expr := repeats (fun a b => nameOf a == nameOf b) [] ps

theorem checkUnique_reports (v : Checker) (seen : List GoStr) (before ps : List Expr)
    (hb : ∀ n, n ∈ seen ↔ ∃ b ∈ before, nameOf b = some n) :
    Reports (· == .duplicateParameter) (v.checkUnique seen ps)
      (repeats (fun a b => nameOf a == nameOf b) before ps) := by
  induction ps generalizing seen before with
  | nil => rw [Checker.checkUnique]; exact .none
  | cons p ps ih =>
    unfold Checker.checkUnique
    cases hp : p.param? with
    | none => exact .error
    | some nc =>
      obtain ⟨n, c⟩ := nc
      have hn : nameOf p = some n := by
        cases p <;> simp [Expr.param?] at hp
        simp [nameOf, hp.1]
      have hany : (before.any fun y => nameOf y == nameOf p) = seen.contains n := by
        rw [Bool.eq_iff_iff, List.any_eq_true, List.contains_iff_mem, hb]
        simp [hn]
      simp only [repeats, hany]
      split
      · rename_i hc
        refine (Reports.accept rfl (severityOf_fixed _ _ (by simp) (by simp))).seq (ih seen _ ?_)
        intro m
        rw [hb]
        constructor
        · rintro ⟨b, h1, h2⟩; exact ⟨b, by simp [h1], h2⟩
        · rintro ⟨b, h1, h2⟩
          rcases List.mem_append.1 h1 with h1 | h1
          · exact ⟨b, h1, h2⟩
          · rw [List.mem_singleton.1 h1, hn] at h2
            cases h2
            exact (hb n).1 (List.contains_iff_mem.1 hc)
      · rw [List.nil_append]
        apply ih
        intro m
        rw [List.mem_cons, hb]
        constructor
        · rintro (rfl | ⟨b, h1, h2⟩)
          · exact ⟨p, by simp, hn⟩
          · exact ⟨b, by simp [h1], h2⟩
        · rintro ⟨b, h1, h2⟩
          rcases List.mem_append.1 h1 with h1 | h1
          · exact .inr ⟨b, h1, h2⟩
          · rw [List.mem_singleton.1 h1, hn] at h2
            cases h2; exact .inl rfl

/-- Where duplicate parameters are looked for: in functions, in classes and defines (which only the
Puppet validator accepts) and in the parameters of an EPP template; not in plans and lambdas. -/
def duplicateParameters (kind : CheckerKind) : List Expr × Expr → List Expr
  | (_, .function _ false _ ps _ _) => repeatedParameters ps
  | (_, .namedDef _ k _ ps _) =>
    if kind = .puppet ∧ k ≠ .application then repeatedParameters ps else []
  | (path, .epp ..) => match path.getLast? with
    | some (.lambda _ ps _ _) => repeatedParameters ps
    | _ => []
  | _ => []

theorem checkUnique_top (v : Checker) (ps : List Expr) :
    Reports (· == .duplicateParameter) (v.checkUnique [] ps) (repeatedParameters ps) :=
  checkUnique_reports v [] [] ps (by simp)

theorem namedDefinition_dup (v : Checker) (p e n ps) :
    Reports (· == .duplicateParameter) (v.checkNamedDefinition p e n ps) (repeatedParameters ps) := by
  unfold Checker.checkNamedDefinition
  refine (Checker.silent_of (Checker.codes_checkTop _ _) (by simp)).seqR (Reports.seqR ?_
    ((Checker.silent_of (Checker.codes_checkReservedTypeName _ _) (by simp)).seqR
      ((Checker.silent_of (Checker.codes_checkFutureReservedWord _ _) (by simp)).seqR (checkUnique_top v ps))))
  exact Checker.silent_of (l := [.illegalDefinitionName]) (by codes) (by simp)

/-- A catalog construct: the report of the Puppet check, nothing otherwise. -/
theorem catalogOp_or {pc : VCode → Bool} {v : Checker} {e m l} (h0 : pc .catalogOperationNotSupported = false)
    (h : Reports pc m l) : Reports pc (v.catalogOp e m) (if v.kind = .puppet then l else []) := by
  unfold Checker.catalogOp
  split
  · exact h
  · exact Checker.silent_of (l := [.catalogOperationNotSupported]) (by codes) (by simp [h0])

/-- C18: duplicate parameters are reported exactly at the parameters whose name occurs earlier. -/
theorem C18_duplicate_parameters (c : Checker) (e : Expr) (is : List Issue) (h : validateWith c e = .ok is) :
    ReportedAt is .duplicateParameter ((visited e).flatMap (duplicateParameters c.kind)) := by
  refine Reports.validate (pc := (· == .duplicateParameter)) ?_ is h
  intro path x
  cases x with
  | namedDef p k n ps b =>
    have hd : ∀ x : Expr, Reports (· == .duplicateParameter) (c.checkNamedDefinition path x n ps ⊹
        c.checkNoCapture x ps ⊹ c.checkReservedParams x ps ⊹ c.checkNoIdemLast x b) (repeatedParameters ps) := fun x =>
      (namedDefinition_dup c _ _ _ _).seqL
        ((Checker.silent_of (Checker.codes_checkNoCapture _) (by simp)).seqL
        ((Checker.silent_of (Checker.codes_checkReservedParams _ _) (by simp)).seqL
        (Checker.silent_of (Checker.codes_checkNoIdemLast _) (by simp))))
    cases k
    · have : Reports (· == .duplicateParameter) (c.check path (.namedDef p .application n ps b)) [] :=
        Checker.silent_check (by simp [Checker.codesOf])
      simpa [duplicateParameters] using this
    case define =>
      have : Reports (· == .duplicateParameter) (c.check path (.namedDef p .define n ps b)) (if c.kind = .puppet then (repeatedParameters ps) else []) :=
        catalogOp_or (v := c) (e := .namedDef p .define n ps b) rfl (hd (.namedDef p .define n ps b))
      simpa [duplicateParameters] using this
    case hostClass par =>
      have : Reports (· == .duplicateParameter) (c.check path (.namedDef p (.hostClass par) n ps b)) (if c.kind = .puppet then (repeatedParameters ps) else []) :=
        catalogOp_or (v := c) (e := .namedDef p (.hostClass par) n ps b) rfl (hd (.namedDef p (.hostClass par) n ps b))
      simpa [duplicateParameters] using this
  | function p plan n ps b r =>
    cases plan
    · exact (namedDefinition_dup c _ _ _ _).seqL ((Checker.silent_of (Checker.codes_checkCaptureLast _) (by simp)).seqL
        (Checker.silent_of (Checker.codes_checkReturnType _) (by simp)))
    · exact Checker.silent_check (by simp [Checker.codesOf])
  | epp p s b =>
    simp only [Checker.check, duplicateParameters]
    cases hl : path.getLast? with
    | none => exact .none
    | some l =>
      cases l <;> first
        | exact (Checker.silent_of (Checker.codes_checkNoCapture _) (by simp)).seqR (checkUnique_top c _)
        | exact .none
  | bin p k l r => cases k <;> exact Checker.silent_check (by simp [Checker.codesOf])
  | call p k => cases k <;> exact Checker.silent_check (by simp [Checker.codesOf])
  | _ => exact Checker.silent_check (by simp [Checker.codesOf])

/-- C18, the gap: in a plan duplicate parameters are not reported, `plan p($a, $a) {}`. -/
theorem C18_plan_duplicates_not_reported (c : Checker) (p q : Pos) (n : GoStr) (a : GoStr) (b : Expr) (path) :
    c.check path (.function p true n [.parameter q a none none false, .parameter q a none none false] b none) = vnone :=
  rfl

/-- The theorem is not vacuous: in `function f($a, $b, $a) {}` the third parameter is reported. -/
example : repeatedParameters [.parameter ⟨11, 2⟩ b!"a" none none false, .parameter ⟨15, 2⟩ b!"b" none none false,
    .parameter ⟨19, 2⟩ b!"a" none none false] = [.parameter ⟨19, 2⟩ b!"a" none none false] := by
  simp [repeatedParameters, repeats, nameOf]

/-! ## C19 -/

/-- The values of a case option. -/
def valuesOf : Expr → List Expr
  | .caseOption _ vs _ => vs
  | _ => []

/-- The selector entry matches `default`. -/
def isDefaultEntry : Expr → Bool
  | .selectorEntry _ m _ => m.isDefault
  | _ => false

/-- Every default after the first. -/
def superfluousDefaults : Expr → List Expr
  | .caseE _ _ os => ((os.flatMap valuesOf).filter Expr.isDefault).drop 1
  | .selector _ _ ss => (ss.filter isDefaultEntry).drop 1
  | _ => []

theorem checkDefaults_eq (found : Bool) (xs : List Expr) :
    Checker.checkDefaults found xs = ((xs.filter Expr.isDefault).drop (if found then 0 else 1),
      found || xs.any Expr.isDefault) := by
  induction xs generalizing found with
  | nil => simp [Checker.checkDefaults]
  | cons x xs ih =>
    unfold Checker.checkDefaults
    by_cases h : x.isDefault = true
    · simp only [h, if_true, ih, List.filter_cons, List.any_cons]
      cases found <;> simp
    · simp only [h, ih, List.filter_cons, List.any_cons]
      simp

theorem duplicateDefaults_forEach (v : Checker) (l : List Expr) :
    Reports (· == .duplicateDefault) (vforEach (fun d => v.accept .duplicateDefault d a) l) l := by
  have := Reports.forEach (pc := (· == .duplicateDefault)) (f := fun d => v.accept .duplicateDefault d a)
    (g := fun d => [d]) (es := l) fun e _ => Reports.accept rfl (severityOf_fixed _ _ (by simp) (by simp))
  simpa using this

theorem drop_append_filter (p : Expr → Bool) (found : Bool) (xs ys : List Expr) :
    ((xs.filter p).drop (if found then 0 else 1)) ++ ((ys.filter p).drop (if (found || xs.any p) then 0 else 1)) =
      ((xs ++ ys).filter p).drop (if found then 0 else 1) := by
  cases found
  · by_cases h : xs.any p = true
    · have : xs.filter p ≠ [] := by
        intro h'
        rw [List.filter_eq_nil_iff] at h'
        obtain ⟨x, hx, hp⟩ := List.any_eq_true.1 h
        exact h' x hx hp
      obtain ⟨a, l, hl⟩ := List.exists_cons_of_ne_nil this
      simp [h, hl]
    · have : xs.filter p = [] := by
        rw [List.filter_eq_nil_iff]
        intro x hx hp
        exact h (List.any_eq_true.2 ⟨x, hx, hp⟩)
      simp [h, this]
  · simp

theorem checkCaseOptions_reports (v : Checker) (found : Bool) (os : List Expr) :
    Reports (· == .duplicateDefault) (v.checkCaseOptions c0 found os)
      (((os.flatMap valuesOf).filter Expr.isDefault).drop (if found then 0 else 1)) := by
  induction os generalizing found with
  | nil => rw [Checker.checkCaseOptions]; simpa using Reports.none
  | cons o os ih =>
    unfold Checker.checkCaseOptions
    split
    · rename_i p vs t
      rw [checkDefaults_eq, List.flatMap_cons]
      simp only [valuesOf]
      rw [← drop_append_filter]
      exact (duplicateDefaults_forEach v _).seq (ih _)
    · exact .error

theorem checkSelectors_reports (v : Checker) (found : Bool) (ss : List Expr) :
    Reports (· == .duplicateDefault) (v.checkSelectors c0 found ss)
      ((ss.filter isDefaultEntry).drop (if found then 0 else 1)) := by
  induction ss generalizing found with
  | nil => rw [Checker.checkSelectors]; simpa using Reports.none
  | cons s ss ih =>
    unfold Checker.checkSelectors
    split
    · rename_i p m x
      rw [← List.singleton_append (l := ss), ← drop_append_filter]
      by_cases h : m.isDefault = true
      · have h1 : isDefaultEntry (.selectorEntry p m x) = true := h
        have hs := ih true
        simp only [h, if_true]
        cases found
        · simpa [h1] using Reports.none.seqR hs
        · simpa [h1] using (Reports.accept (v := v) rfl (severityOf_fixed _ .duplicateDefault (by simp) (by simp))).seq hs
      · have h1 : isDefaultEntry (.selectorEntry p m x) = false := by simpa [isDefaultEntry] using h
        simpa [h, h1] using ih found
    · exact .error

/-- C19: in a case or selector expression duplicate default is reported exactly at each default after
the first. -/
theorem C19_duplicate_defaults (c : Checker) (e : Expr) (is : List Issue) (h : validateWith c e = .ok is) :
    ReportedAt is .duplicateDefault ((subexpressions e).flatMap superfluousDefaults) := by
  rw [ReportedAt, ← flatMap_visited]
  refine Reports.validate (pc := (· == .duplicateDefault)) (g := fun x => superfluousDefaults x.2) ?_ is h
  intro path x
  cases x with
  | caseE p t os =>
    exact (Checker.silent_of (Checker.codes_checkRValue _) (by simp)).seqR (checkCaseOptions_reports c false os)
  | selector p l ss =>
    exact (Checker.silent_of (Checker.codes_checkRValue _) (by simp)).seqR (checkSelectors_reports c false ss)
  | namedDef p k => cases k <;> exact Checker.silent_check (by simp [Checker.codesOf])
  | function p plan => cases plan <;> exact Checker.silent_check (by simp [Checker.codesOf])
  | bin p k l r => cases k <;> exact Checker.silent_check (by simp [Checker.codesOf])
  | call p k => cases k <;> exact Checker.silent_check (by simp [Checker.codesOf])
  | _ => exact Checker.silent_check (by simp [Checker.codesOf])

/-- Not vacuous: two defaults in one case expression. -/
example : superfluousDefaults (.caseE ⟨0, 0⟩ (.undef ⟨0, 0⟩) [.caseOption ⟨0, 0⟩ [.dflt ⟨1, 1⟩] (.nop ⟨0, 0⟩),
    .caseOption ⟨0, 0⟩ [.undef ⟨2, 1⟩, .dflt ⟨3, 1⟩] (.nop ⟨0, 0⟩)]) = [.dflt ⟨3, 1⟩] := by
  rfl

/-! ## C20 -/

/-- The literal key of a hash entry, if it has one.  (As in the code, a list or hash key counts as the
text of its PN.) -/
def literalKey (feq : FloatVal → FloatVal → Bool) (ff : FloatVal → GoStr) : Expr → Option Value
  | .keyedEntry _ k _ => match toLiteral feq k with
    | .literal l => match k with
      | .list .. | .hash .. => match k.toPN with
        | .ok p => some (.str (p.format ff))
        | .error _ => none
      | _ => some l
    | _ => none
  | _ => none

/-- Both entries have literal keys, and these are equal. -/
def sameKey (feq : FloatVal → FloatVal → Bool) (ff : FloatVal → GoStr) (a b : Expr) : Bool :=
  match literalKey feq ff a, literalKey feq ff b with
  | some x, some y => y.keyEq feq x
  | _, _ => false

theorem hashKey_ok {v : Checker} {p k x r} (h : v.hashKey k = .ok r) :
    r = literalKey v.feq v.ff (.keyedEntry p k x) := by
  unfold Checker.hashKey at h
  unfold literalKey
  split at h
  · rename_i l hl
    simp only [hl]
    split at h
    · split at h
      · rename_i hp; cases h; simp [hp]
      · cases h
    · split at h
      · rename_i hp; cases h; simp [hp]
      · cases h
    · rename_i h1 h2
      split at h
      · cases h
        split
        · rename_i heq; exact absurd rfl (h1 _ _)
        · rename_i heq; exact absurd rfl (h2 _ _)
        · rfl
      · cases h
  · cases h; rename_i hl; simp [hl]
  · cases h

theorem checkHash_reports (v : Checker) (hf : FloatEq v.feq) (hs : v.severityOf .duplicateKey ≠ .ignore)
    (seen : List Value) (before es : List Expr)
    (h1 : ∀ k ∈ seen, ∃ b ∈ before, literalKey v.feq v.ff b = some k)
    (h2 : ∀ b ∈ before, ∀ k, literalKey v.feq v.ff b = some k → ∃ k' ∈ seen, k.keyEq v.feq k' = true ∨ k = k') :
    Reports (· == .duplicateKey) (v.checkHash seen es) (repeats (sameKey v.feq v.ff) before es) := by
  induction es generalizing seen before with
  | nil => rw [Checker.checkHash]; exact .none
  | cons e es ih =>
    unfold Checker.checkHash
    split
    · rename_i p key val
      cases hk : v.hashKey key with
      | error x => exact .error
      | ok r =>
        have hr := hashKey_ok (p := p) (x := val) hk
        simp only [repeats]
        cases r with
        | none =>
          have : (before.any fun y => sameKey v.feq v.ff y (.keyedEntry p key val)) = false := by
            rw [List.any_eq_false]
            intro b _
            unfold sameKey
            rw [← hr]
            cases literalKey v.feq v.ff b <;> simp
          simp only [this]
          refine ih seen _ (fun k hk => ?_) (fun b hb k hbk => ?_)
          · obtain ⟨b, hb, hb'⟩ := h1 k hk
            exact ⟨b, by simp [hb], hb'⟩
          · rcases List.mem_append.1 hb with hb | hb
            · exact h2 b hb k hbk
            · rw [List.mem_singleton.1 hb, ← hr] at hbk; cases hbk
        | some l =>
          have hany : (before.any fun y => sameKey v.feq v.ff y (.keyedEntry p key val)) =
              seen.any (fun k => l.keyEq v.feq k) := by
            rw [Bool.eq_iff_iff, List.any_eq_true, List.any_eq_true]
            constructor
            · rintro ⟨b, hb, hb'⟩
              simp only [sameKey, ← hr] at hb'
              cases hbk : literalKey v.feq v.ff b with
              | none => simp [hbk] at hb'
              | some k =>
                simp only [hbk] at hb'
                obtain ⟨k', hk', h'⟩ := h2 b hb k hbk
                rcases h' with h' | rfl
                · exact ⟨k', hk', keyEq_trans hf hb' h'⟩
                · exact ⟨k, hk', hb'⟩
            · rintro ⟨k, hk, hk'⟩
              obtain ⟨b, hb, hb'⟩ := h1 k hk
              exact ⟨b, hb, by simp [sameKey, hb', ← hr, hk']⟩
          simp only [hany]
          by_cases hd : seen.any (fun k => l.keyEq v.feq k) = true
          · simp only [hd, if_true, bind, Except.bind]
            split
            · refine (Reports.accept rfl hs).seq (ih seen _ (fun k hk => ?_) (fun b hb k hbk => ?_))
              · obtain ⟨b, hb, hb'⟩ := h1 k hk
                exact ⟨b, by simp [hb], hb'⟩
              · rcases List.mem_append.1 hb with hb | hb
                · exact h2 b hb k hbk
                · rw [List.mem_singleton.1 hb, ← hr] at hbk
                  cases hbk
                  obtain ⟨k', hk', h'⟩ := List.any_eq_true.1 hd
                  exact ⟨k', hk', .inl h'⟩
            · exact .error
          · simp only [hd, bind, Except.bind, Bool.false_eq_true, if_false]
            refine ih (l :: seen) _ (fun k hk => ?_) (fun b hb k hbk => ?_)
            · rcases List.mem_cons.1 hk with rfl | hk
              · exact ⟨_, by simp, hr.symm⟩
              · obtain ⟨b, hb, hb'⟩ := h1 k hk
                exact ⟨b, by simp [hb], hb'⟩
            · rcases List.mem_append.1 hb with hb | hb
              · obtain ⟨k', hk', h'⟩ := h2 b hb k hbk
                exact ⟨k', by simp [hk'], h'⟩
              · rw [List.mem_singleton.1 hb, ← hr] at hbk
                cases hbk
                exact ⟨l, by simp, .inr rfl⟩
    · exact .error

/-- The entries of a hash whose literal key equals an earlier literal key. -/
def repeatedKeys (feq : FloatVal → FloatVal → Bool) (ff : FloatVal → GoStr) : Expr → List Expr
  | .hash _ es => repeats (sameKey feq ff) [] es
  | _ => []

/-- C20: duplicate key is reported exactly at the entries whose literal key equals an earlier literal
key of the same hash (unless the strictness turns the check off, C13). -/
theorem C20_duplicate_keys (c : Checker) (hf : FloatEq c.feq) (hs : c.kind ≠ .puppet ∨ c.strict ≠ .off)
    (e : Expr) (is : List Issue) (h : validateWith c e = .ok is) :
    ReportedAt is .duplicateKey ((subexpressions e).flatMap (repeatedKeys c.feq c.ff)) := by
  have hs' : c.severityOf .duplicateKey ≠ .ignore := by
    unfold Checker.severityOf
    by_cases hk : c.kind = .puppet
    · simp only [hk, if_true]
      cases hst : c.strict <;> simp_all [Strictness.severity]
    · simp [hk, Strictness.severity]
  rw [ReportedAt, ← flatMap_visited]
  refine Reports.validate (pc := (· == .duplicateKey)) (g := fun x => repeatedKeys c.feq c.ff x.2) ?_ is h
  intro path x
  cases x with
  | hash p es => exact checkHash_reports c hf hs' [] [] es (by simp) (by simp)
  | namedDef p k => cases k <;> exact Checker.silent_check (by simp [Checker.codesOf])
  | function p plan => cases plan <;> exact Checker.silent_check (by simp [Checker.codesOf])
  | bin p k l r => cases k <;> exact Checker.silent_check (by simp [Checker.codesOf])
  | call p k => cases k <;> exact Checker.silent_check (by simp [Checker.codesOf])
  | _ => exact Checker.silent_check (by simp [Checker.codesOf])

/-- C20, a false positive: the string `'a'` and the regular expression `/a/` count as the same key. -/
theorem C20_string_and_regexp_conflated (feq : FloatVal → FloatVal → Bool) (ff : FloatVal → GoStr) (p q r s : Pos) (x y : Expr) :
    sameKey feq ff (.keyedEntry p (.string q b!"a") x) (.keyedEntry r (.regexp s b!"a") y) = true := by
  simp [sameKey, literalKey, toLiteral, toLit, Value.keyEq]

/-! ## C23 -/

/-- Parameters with `*` where it is only allowed on the last one. -/
def capturesRestNotLast : Expr → List Expr
  | .function _ false _ ps _ _ => ps.dropLast.filter capturesRest
  | .lambda _ ps _ _ => ps.dropLast.filter capturesRest
  | _ => []

/-- Parameters with `*` where it is not allowed at all. -/
def capturesRestForbidden (kind : CheckerKind) : List Expr × Expr → List Expr
  | (_, .namedDef _ k _ ps _) =>
    if kind = .puppet ∧ k ≠ .application then ps.filter capturesRest else []
  | (path, .epp ..) => match path.getLast? with
    | some (.lambda _ ps _ _) => ps.filter capturesRest
    | _ => []
  | _ => []

theorem capture_param {p : Expr} : capturesRest p = true ↔ ∃ n, p.param? = some (n, true) := by
  cases p <;> simp [capturesRest, Expr.param?]

theorem checkCaptureLast_reports (v : Checker) : (ps : List Expr) →
    Reports (· == .capturesRestNotLast) (v.checkCaptureLast ps) (ps.dropLast.filter capturesRest)
  | [] => by rw [Checker.checkCaptureLast]; exact .none
  | [_] => by rw [Checker.checkCaptureLast]; exact .none
  | p :: q :: ps => by
    rw [Checker.checkCaptureLast, List.dropLast_cons_of_ne_nil (by simp)]
    rw [show ∀ l : List Expr, (p :: l).filter capturesRest = [p].filter capturesRest ++ l.filter capturesRest from
      fun l => by rw [← List.filter_append]; rfl]
    refine Reports.seq ?_ (checkCaptureLast_reports v (q :: ps))
    by_cases h : capturesRest p = true
    · obtain ⟨n, hn⟩ := capture_param.1 h
      simp only [hn, h, List.filter_cons, if_true, List.filter_nil]
      exact .accept rfl (severityOf_fixed _ _ (by simp) (by simp))
    · simp only [h, List.filter_cons, List.filter_nil]
      split
      · rename_i hn; exact absurd (capture_param.2 ⟨_, hn⟩) h
      · exact .none

theorem checkNoCapture_reports (v : Checker) (ps : List Expr) :
    Reports (· == .capturesRestNotSupported) (v.checkNoCapture c0 ps) (ps.filter capturesRest) := by
  rw [← flatMap_filter]
  apply Reports.forEach
  intro p _
  by_cases h : capturesRest p = true
  · obtain ⟨n, hn⟩ := capture_param.1 h
    simp only [hn, h, if_true]
    exact .accept rfl (severityOf_fixed _ _ (by simp) (by simp))
  · simp only [h]
    split
    · rename_i hn; exact absurd (capture_param.2 ⟨_, hn⟩) h
    · exact .none

/-- C23: captures-rest-not-last is reported exactly at the parameters of functions and lambdas that have
`*` and are not last. -/
theorem C23_captures_rest_not_last (c : Checker) (e : Expr) (is : List Issue) (h : validateWith c e = .ok is) :
    ReportedAt is .capturesRestNotLast ((subexpressions e).flatMap capturesRestNotLast) := by
  rw [ReportedAt, ← flatMap_visited]
  refine Reports.validate (pc := (· == .capturesRestNotLast)) (g := fun x => capturesRestNotLast x.2) ?_ is h
  intro path x
  cases x with
  | lambda p ps b r =>
    exact (checkCaptureLast_reports c ps).seqL (Checker.silent_of (Checker.codes_checkReturnType _) (by simp))
  | function p plan n ps b r =>
    cases plan
    · exact (Checker.silent_of (Checker.codes_checkNamedDefinition _ _ _ _) (by simp)).seqR
        ((checkCaptureLast_reports c ps).seqL (Checker.silent_of (Checker.codes_checkReturnType _) (by simp)))
    · exact Checker.silent_check (by simp [Checker.codesOf])
  | namedDef p k => cases k <;> exact Checker.silent_check (by simp [Checker.codesOf])
  | bin p k l r => cases k <;> exact Checker.silent_check (by simp [Checker.codesOf])
  | call p k => cases k <;> exact Checker.silent_check (by simp [Checker.codesOf])
  | _ => exact Checker.silent_check (by simp [Checker.codesOf])

/-- C23: captures-rest-not-supported is reported exactly at the parameters of classes, defines and EPP
templates that have `*`. -/
theorem C23_captures_rest_not_supported (c : Checker) (e : Expr) (is : List Issue) (h : validateWith c e = .ok is) :
    ReportedAt is .capturesRestNotSupported ((visited e).flatMap (capturesRestForbidden c.kind)) := by
  refine Reports.validate (pc := (· == .capturesRestNotSupported)) ?_ is h
  intro path x
  cases x with
  | namedDef p k n ps b =>
    have hd : ∀ x : Expr, Reports (· == .capturesRestNotSupported) (c.checkNamedDefinition path x n ps ⊹
        c.checkNoCapture x ps ⊹ c.checkReservedParams x ps ⊹ c.checkNoIdemLast x b) (ps.filter capturesRest) := fun x =>
      (Checker.silent_of (Checker.codes_checkNamedDefinition _ _ _ _) (by simp)).seqR
        ((checkNoCapture_reports c ps).seqL
        ((Checker.silent_of (Checker.codes_checkReservedParams _ _) (by simp)).seqL
        (Checker.silent_of (Checker.codes_checkNoIdemLast _) (by simp))))
    cases k
    · have : Reports (· == .capturesRestNotSupported) (c.check path (.namedDef p .application n ps b)) [] :=
        Checker.silent_check (by simp [Checker.codesOf])
      simpa [capturesRestForbidden] using this
    case define =>
      have : Reports (· == .capturesRestNotSupported) (c.check path (.namedDef p .define n ps b)) (if c.kind = .puppet then (ps.filter capturesRest) else []) :=
        catalogOp_or (v := c) (e := .namedDef p .define n ps b) rfl (hd (.namedDef p .define n ps b))
      simpa [capturesRestForbidden] using this
    case hostClass par =>
      have : Reports (· == .capturesRestNotSupported) (c.check path (.namedDef p (.hostClass par) n ps b)) (if c.kind = .puppet then (ps.filter capturesRest) else []) :=
        catalogOp_or (v := c) (e := .namedDef p (.hostClass par) n ps b) rfl (hd (.namedDef p (.hostClass par) n ps b))
      simpa [capturesRestForbidden] using this
  | epp p s b =>
    simp only [Checker.check, capturesRestForbidden]
    cases hl : path.getLast? with
    | none => exact .none
    | some l =>
      cases l <;> first
        | exact (checkNoCapture_reports c _).seqL (Checker.silent_of (Checker.codes_checkUnique _ _) (by simp))
        | exact .none
  | function p plan => cases plan <;> exact Checker.silent_check (by simp [Checker.codesOf])
  | bin p k l r => cases k <;> exact Checker.silent_check (by simp [Checker.codesOf])
  | call p k => cases k <;> exact Checker.silent_check (by simp [Checker.codesOf])
  | _ => exact Checker.silent_check (by simp [Checker.codesOf])

/-! ## C25 -/

mutual
/-- The targets of an assignment: the elements of a list, of lists in the list and so on, or the left
side itself. -/
def targets : Expr → List Expr
  | .list _ es => targetsOf es
  | e => [e]
def targetsOf : List Expr → List Expr
  | [] => []
  | e :: es => targets e ++ targetsOf es
end

/-- An index access, `$a[1]`. -/
def isAccess : Expr → Bool
  | .access .. => true
  | _ => false

/-- A variable with a qualified name, `$a::b`. -/
def isQualifiedVariable : Expr → Bool
  | .un _ .variable (.qname _ n) => hasDoubleColon n
  | _ => false

/-- A variable without a name, `$1`. -/
def isNumericVariable : Expr → Bool
  | .un _ .variable e => !e.isQName
  | _ => false

mutual
theorem checkAssign_reports (v : Checker) (pc : VCode → Bool) : (e : Expr) →
    Reports pc (v.checkAssign e) ((targets e).filter fun x =>
      pc .illegalAssignmentViaIndex && isAccess x || pc .crossScopeAssignment && isQualifiedVariable x ||
      pc .illegalNumericAssignment && isNumericVariable x)
  | .list _ es => by rw [Checker.checkAssign, targets]; exact checkAssignAll_reports v pc es
  | .access p o ks => by
    simp only [Checker.checkAssign, targets, isAccess, isQualifiedVariable, isNumericVariable, List.filter_cons, List.filter_nil]
    cases h : pc .illegalAssignmentViaIndex
    · simpa using Checker.silent_of (l := [.illegalAssignmentViaIndex]) (by codes) (by simp [h])
    · simpa using Reports.accept h (severityOf_fixed _ _ (by simp) (by simp))
  | .un p k n => by
    cases k <;> try (simp only [Checker.checkAssign, targets, isAccess, isQualifiedVariable, isNumericVariable]; simpa using Reports.none)
    simp only [Checker.checkAssign, targets]
    by_cases hq : ∃ q s, n = .qname q s
    · obtain ⟨q, s, rfl⟩ := hq
      simp only [isAccess, isQualifiedVariable, isNumericVariable, Expr.isQName, List.filter_cons, List.filter_nil]
      by_cases hd : hasDoubleColon s = true
      · simp only [hd, if_true]
        cases h : pc .crossScopeAssignment
        · simpa using Checker.silent_of (l := [.crossScopeAssignment]) (by codes) (by simp [h])
        · simpa using Reports.accept h (severityOf_fixed _ _ (by simp) (by simp))
      · simp only [hd]
        simpa using Reports.none
    · have h1 : isQualifiedVariable (.un p .variable n) = false := by
        cases n <;> simp_all [isQualifiedVariable]
      have h2 : isNumericVariable (.un p .variable n) = true := by
        cases n <;> simp_all [isNumericVariable, Expr.isQName]
      split
      · exact absurd ⟨_, _, rfl⟩ hq
      simp only [isAccess, h1, h2, List.filter_cons, List.filter_nil]
      cases h : pc .illegalNumericAssignment
      · simpa using Checker.silent_of (l := [.illegalNumericAssignment]) (by codes) (by simp [h])
      · simpa using Reports.accept h (severityOf_fixed _ _ (by simp) (by simp))
  | .bin .. | .query .. | .attributeOp .. | .attributesOp .. | .block .. | .call ..
  | .capabilityMapping .. | .caseE .. | .caseOption .. | .collect .. | .concat .. | .epp .. | .heredoc ..
  | .ifE .. | .keyedEntry .. | .lambda .. | .boolean .. | .dflt _ | .float .. | .hash .. | .integer ..
  | .string .. | .undef _ | .nop _ | .namedDef .. | .function .. | .node .. | .parameter ..
  | .program .. | .qname .. | .qref .. | .regexp .. | .renderString .. | .reserved .. | .resource ..
  | .resourceBody .. | .resourceDefaults .. | .resourceOverride .. | .selector .. | .selectorEntry ..
  | .site .. | .typeAlias .. | .typeDefinition .. | .typeMapping .. | .step .. | .commaSep .. => by
    simp only [Checker.checkAssign, targets, isAccess, isQualifiedVariable, isNumericVariable]
    simpa using Reports.none
theorem checkAssignAll_reports (v : Checker) (pc : VCode → Bool) : (es : List Expr) →
    Reports pc (v.checkAssignAll es) ((targetsOf es).filter fun x =>
      pc .illegalAssignmentViaIndex && isAccess x || pc .crossScopeAssignment && isQualifiedVariable x ||
      pc .illegalNumericAssignment && isNumericVariable x)
  | [] => by rw [Checker.checkAssignAll, targetsOf]; exact .none
  | e :: es => by
    rw [Checker.checkAssignAll, targetsOf, List.filter_append]
    exact (checkAssign_reports v pc e).seq (checkAssignAll_reports v pc es)
end

/-- The targets of an `=` assignment. -/
def assignmentTargets : Expr → List Expr
  | .bin _ (.assignment op) lhs _ => if op = b!"=" then targets lhs else []
  | _ => []

theorem assign_code (c : Checker) (pc : VCode → Bool) (hpc : ∀ code, pc code = true →
      code = .illegalAssignmentViaIndex ∨ code = .crossScopeAssignment ∨ code = .illegalNumericAssignment)
    (e : Expr) (is : List Issue) (h : validateWith c e = .ok is) :
    (is.filter fun i => pc i.code).map Issue.at_ = ((subexpressions e).flatMap assignmentTargets).filter fun x =>
      pc .illegalAssignmentViaIndex && isAccess x || pc .crossScopeAssignment && isQualifiedVariable x ||
      pc .illegalNumericAssignment && isNumericVariable x := by
  have hno : ∀ code, code ≠ .illegalAssignmentViaIndex → code ≠ .crossScopeAssignment →
      code ≠ .illegalNumericAssignment → pc code = false := by
    intro code h1 h2 h3
    cases hc : pc code with
    | false => rfl
    | true => rcases hpc code hc with h | h | h <;> contradiction
  rw [List.filter_flatMap, ← flatMap_visited]
  refine Reports.validate (pc := pc) (g := fun x => (assignmentTargets x.2).filter fun x =>
      pc .illegalAssignmentViaIndex && isAccess x || pc .crossScopeAssignment && isQualifiedVariable x ||
      pc .illegalNumericAssignment && isNumericVariable x) ?_ is h
  intro path x
  cases x with
  | bin p k l r =>
    cases k
    case assignment op =>
      simp only [Checker.check, assignmentTargets]
      split
      · exact checkAssign_reports c pc l
      · exact Checker.silent_of (l := [.appendsDeletesNoLongerSupported]) (by codes)
          (by simp [hno .appendsDeletesNoLongerSupported])
    all_goals exact Checker.silent_check (by simp [Checker.codesOf, hno])
  | namedDef p k => cases k <;> exact Checker.silent_check (by simp [Checker.codesOf, hno])
  | function p plan => cases plan <;> exact Checker.silent_check (by simp [Checker.codesOf, hno])
  | call p k => cases k <;> exact Checker.silent_check (by simp [Checker.codesOf, hno])
  | _ => exact Checker.silent_check (by simp [Checker.codesOf, hno])

/-- C25: for `=` assignments one issue is reported per index access among the targets, ... -/
theorem C25_index_targets (c : Checker) (e : Expr) (is : List Issue) (h : validateWith c e = .ok is) :
    ReportedAt is .illegalAssignmentViaIndex (((subexpressions e).flatMap assignmentTargets).filter isAccess) := by
  have := assign_code c (· == .illegalAssignmentViaIndex) (by intro code h; simp at h; simp [h]) e is h
  simpa [ReportedAt, show ∀ a b : VCode, (a == b) = decide (a = b) from fun _ _ => rfl] using this

/-- ... one per qualified variable, ... -/
theorem C25_qualified_targets (c : Checker) (e : Expr) (is : List Issue) (h : validateWith c e = .ok is) :
    ReportedAt is .crossScopeAssignment (((subexpressions e).flatMap assignmentTargets).filter isQualifiedVariable) := by
  have := assign_code c (· == .crossScopeAssignment) (by intro code h; simp at h; simp [h]) e is h
  simpa [ReportedAt, show ∀ a b : VCode, (a == b) = decide (a = b) from fun _ _ => rfl] using this

/-- ... and one per numeric variable; in particular none for plain variables. -/
theorem C25_numeric_targets (c : Checker) (e : Expr) (is : List Issue) (h : validateWith c e = .ok is) :
    ReportedAt is .illegalNumericAssignment (((subexpressions e).flatMap assignmentTargets).filter isNumericVariable) := by
  have := assign_code c (· == .illegalNumericAssignment) (by intro code h; simp at h; simp [h]) e is h
  simpa [ReportedAt, show ∀ a b : VCode, (a == b) = decide (a = b) from fun _ _ => rfl] using this

/-- Not vacuous: the targets of `[$a, [$b::c, $d[1]]] = ...`. -/
example : assignmentTargets (.bin ⟨0, 0⟩ (.assignment b!"=") (.list ⟨0, 0⟩ [.un ⟨1, 2⟩ .variable (.qname ⟨1, 2⟩ b!"a"),
    .list ⟨0, 0⟩ [.un ⟨2, 2⟩ .variable (.qname ⟨2, 2⟩ b!"b::c")]]) (.undef ⟨0, 0⟩)) =
    [.un ⟨1, 2⟩ .variable (.qname ⟨1, 2⟩ b!"a"), .un ⟨2, 2⟩ .variable (.qname ⟨2, 2⟩ b!"b::c")] := by
  simp [assignmentTargets, targets, targetsOf]

end PP.Props
