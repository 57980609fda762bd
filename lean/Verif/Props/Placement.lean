import Verif.Props.Duplicates

/-!
# C21, C22: expressions without effect, definitions in the wrong place
-/

namespace PP.Props
open PP.Expr

/-! ## C21 -/

/-- The statements that are reported as having no effect: in each block the first one, except the last
statement of the block, that counts as a pure value. -/
def forgottenValues : Expr → List Expr
  | .block _ ss => (ss.dropLast.filter isIdem).take 1
  | _ => []

theorem checkBlock_reports (v : Checker) (hs : v.severityOf .idemExpressionNotLast ≠ .ignore) : (ss : List Expr) →
    Reports (· == .idemExpressionNotLast) (v.checkBlock ss) ((ss.dropLast.filter isIdem).take 1)
  | [] => by rw [Checker.checkBlock]; exact .none
  | [_] => by rw [Checker.checkBlock]; exact .none
  | s :: t :: ss => by
    rw [Checker.checkBlock, List.dropLast_cons_of_ne_nil (by simp), List.filter_cons]
    by_cases h : isIdem s = true
    · simp only [h, if_true, List.take_succ_cons, List.take_zero]
      exact .accept rfl hs
    · simp only [h]
      exact checkBlock_reports v hs (t :: ss)

theorem adjustable_severity (c : Checker) (hs : c.kind ≠ .puppet ∨ c.strict ≠ .off) :
    c.severityOf .duplicateKey ≠ .ignore ∧ c.severityOf .idemExpressionNotLast ≠ .ignore := by
  unfold Checker.severityOf
  by_cases hk : c.kind = .puppet
  · simp only [hk, if_true]
    cases hst : c.strict <;> simp_all [Strictness.severity]
  · simp [hk, Strictness.severity]

/-- C21: where a value that is produced and forgotten is reported. -/
theorem C21_reported_at (c : Checker) (hs : c.kind ≠ .puppet ∨ c.strict ≠ .off)
    (e : Expr) (is : List Issue) (h : validateWith c e = .ok is) :
    ReportedAt is .idemExpressionNotLast ((subexpressions e).flatMap forgottenValues) := by
  have hs' := (adjustable_severity c hs).2
  rw [ReportedAt, ← flatMap_visited]
  refine Reports.validate (pc := (· == .idemExpressionNotLast)) (g := fun x => forgottenValues x.2) ?_ is h
  intro path x
  cases x with
  | block p ss => exact checkBlock_reports c hs' ss
  | namedDef p k => cases k <;> exact Checker.silent_check (by simp [Checker.codesOf])
  | function p plan => cases plan <;> exact Checker.silent_check (by simp [Checker.codesOf])
  | bin p k l r => cases k <;> exact Checker.silent_check (by simp [Checker.codesOf])
  | call p k => cases k <;> exact Checker.silent_check (by simp [Checker.codesOf])
  | _ => exact Checker.silent_check (by simp [Checker.codesOf])

/-- The expressions that are evaluated as statements of `e`, or as the tests that select them: what
blocks, conditionals, case expressions and parentheses contain, transitively. -/
inductive Evaluated : Expr → Expr → Prop where
  | here (e) : Evaluated e e
  | block {p ss s x} : s ∈ ss → Evaluated s x → Evaluated (.block p ss) x
  | test {p u c t e x} : Evaluated c x → Evaluated (.ifE p u c t e) x
  | thenE {p u c t e x} : Evaluated t x → Evaluated (.ifE p u c t e) x
  | elseE {p u c t e x} : Evaluated e x → Evaluated (.ifE p u c t e) x
  | control {p t os x} : Evaluated t x → Evaluated (.caseE p t os) x
  | option {p t os o x} : o ∈ os → Evaluated o x → Evaluated (.caseE p t os) x
  | value {p vs t v x} : v ∈ vs → Evaluated v x → Evaluated (.caseOption p vs t) x
  | body {p vs t x} : Evaluated t x → Evaluated (.caseOption p vs t) x
  | paren {p e x} : Evaluated e x → Evaluated (.un p .paren e) x

/-- Evaluating the expression changes state or emits text by itself: an assignment, a match (sets `$0`,
`$1`, ...), a relationship, a call, a resource expression, a collector, a definition, rendering. -/
def HasEffect : Expr → Prop
  | .bin _ (.assignment _) .. | .bin _ (.match _) .. | .bin _ (.relationship _) .. => True
  | .call .. => True
  | .resource .. | .resourceDefaults .. | .resourceOverride .. => True
  | .collect .. => True
  | .namedDef .. | .function .. | .node .. | .site .. | .typeAlias .. | .typeDefinition .. | .typeMapping ..
  | .capabilityMapping .. | .step .. => True
  | .un _ .render _ | .renderString .. => True
  | _ => False

theorem isIdemAll_mem {es : List Expr} (h : isIdemAll es = true) : ∀ e ∈ es, isIdem e = true := by
  induction es with
  | nil => simp
  | cons y ys ih =>
    simp only [isIdemAll, Bool.and_eq_true] at h
    exact List.forall_mem_cons.2 ⟨h.1, ih h.2⟩

theorem isIdem_sound (e x : Expr) (h : isIdem e = true) (he : Evaluated e x) : ¬ HasEffect x := by
  induction he with
  | here e =>
    cases e with
    | bin p k l r => cases k <;> simp [isIdem, HasEffect] at *
    | un p k y => cases k <;> simp [isIdem, HasEffect] at *
    | _ => simp [isIdem, HasEffect] at *
  | block hm hx ih => rw [isIdem] at h; exact ih (isIdemAll_mem h _ hm)
  | test hx ih => simp only [isIdem, Bool.and_eq_true] at h; exact ih h.1.1
  | thenE hx ih => simp only [isIdem, Bool.and_eq_true] at h; exact ih h.1.2
  | elseE hx ih => simp only [isIdem, Bool.and_eq_true] at h; exact ih h.2
  | control hx ih => simp only [isIdem, Bool.and_eq_true] at h; exact ih h.1
  | option hm hx ih => simp only [isIdem, Bool.and_eq_true] at h; exact ih (isIdemAll_mem h.2 _ hm)
  | value hm hx ih => simp only [isIdem, Bool.and_eq_true] at h; exact ih (isIdemAll_mem h.1 _ hm)
  | body hx ih => simp only [isIdem, Bool.and_eq_true] at h; exact ih h.2
  | paren hx ih => rw [isIdem] at h; exact ih h

/-- Parts of other expressions, and expressions that only a whole source can be: no statement of a block is one. -/
def IsPart : Expr → Prop
  | .query .. | .attributeOp .. | .attributesOp .. | .epp .. | .keyedEntry .. | .lambda .. | .parameter .. | .program ..
  | .resourceBody .. | .selectorEntry .. | .commaSep .. => True
  | _ => False

theorem isIdem_part (e x : Expr) (h : isIdem e = true) (he : Evaluated e x) : ¬ IsPart x := by
  induction he with
  | here e =>
    cases e with
    | bin p k l r => cases k <;> simp [isIdem, IsPart] at *
    | un p k y => cases k <;> simp [isIdem, IsPart] at *
    | _ => simp [isIdem, IsPart] at *
  | block hm hx ih => rw [isIdem] at h; exact ih (isIdemAll_mem h _ hm)
  | test hx ih => simp only [isIdem, Bool.and_eq_true] at h; exact ih h.1.1
  | thenE hx ih => simp only [isIdem, Bool.and_eq_true] at h; exact ih h.1.2
  | elseE hx ih => simp only [isIdem, Bool.and_eq_true] at h; exact ih h.2
  | control hx ih => simp only [isIdem, Bool.and_eq_true] at h; exact ih h.1
  | option hm hx ih => simp only [isIdem, Bool.and_eq_true] at h; exact ih (isIdemAll_mem h.2 _ hm)
  | value hm hx ih => simp only [isIdem, Bool.and_eq_true] at h; exact ih (isIdemAll_mem h.1 _ hm)
  | body hx ih => simp only [isIdem, Bool.and_eq_true] at h; exact ih h.2
  | paren hx ih => rw [isIdem] at h; exact ih h

theorem isIdemAll_false {es : List Expr} (h : isIdemAll es = false) : ∃ e ∈ es, isIdem e = false := by
  induction es with
  | nil => simp [isIdemAll] at h
  | cons y ys ih =>
    simp only [isIdemAll, Bool.and_eq_false_iff] at h
    rcases h with h | h
    · exact ⟨y, List.mem_cons_self .., h⟩
    · obtain ⟨e, he, h⟩ := ih h
      exact ⟨e, List.mem_cons_of_mem _ he, h⟩

theorem isIdem_complete (e : Expr) : isIdem e = false → ∃ x, Evaluated e x ∧ (HasEffect x ∨ IsPart x) := by
  induction e using kidsInduction with
  | step e ih =>
    intro h
    cases e with
    | block p ss =>
      rw [isIdem] at h
      obtain ⟨s, hs, h⟩ := isIdemAll_false h
      obtain ⟨x, h1, h2⟩ := ih s hs h
      exact ⟨x, .block hs h1, h2⟩
    | caseE p t os =>
      simp only [isIdem, Bool.and_eq_false_iff] at h
      rcases h with h | h
      · obtain ⟨x, h1, h2⟩ := ih t (List.mem_cons_self ..) h
        exact ⟨x, .control h1, h2⟩
      · obtain ⟨o, ho, h⟩ := isIdemAll_false h
        obtain ⟨x, h1, h2⟩ := ih o (List.mem_cons_of_mem _ ho) h
        exact ⟨x, .option ho h1, h2⟩
    | caseOption p vs t =>
      simp only [isIdem, Bool.and_eq_false_iff] at h
      rcases h with h | h
      · obtain ⟨o, ho, h⟩ := isIdemAll_false h
        obtain ⟨x, h1, h2⟩ := ih o (List.mem_append_left _ ho) h
        exact ⟨x, .value ho h1, h2⟩
      · obtain ⟨x, h1, h2⟩ := ih t (List.mem_append_right _ (List.mem_singleton.2 rfl)) h
        exact ⟨x, .body h1, h2⟩
    | ifE p u c t e =>
      simp only [isIdem, Bool.and_eq_false_iff] at h
      rcases h with (h | h) | h
      · obtain ⟨x, h1, h2⟩ := ih c (by simp [kids]) h
        exact ⟨x, .test h1, h2⟩
      · obtain ⟨x, h1, h2⟩ := ih t (by simp [kids]) h
        exact ⟨x, .thenE h1, h2⟩
      · obtain ⟨x, h1, h2⟩ := ih e (by simp [kids]) h
        exact ⟨x, .elseE h1, h2⟩
    | un p k y =>
      cases k
      case paren =>
        rw [isIdem] at h
        obtain ⟨x, h1, h2⟩ := ih y (by simp [kids]) h
        exact ⟨x, .paren h1, h2⟩
      all_goals first | (simp [isIdem] at h; done) | exact ⟨_, .here _, .inl trivial⟩
    | bin p k l r =>
      cases k
      all_goals first | (simp [isIdem] at h; done) | exact ⟨_, .here _, .inl trivial⟩
    | _ => first | (simp [isIdem] at h; done) | exact ⟨_, .here _, .inl trivial⟩ | exact ⟨_, .here _, .inr trivial⟩

/-- C21: which statements of a block are reported: the first one, other than the last statement, in which nothing that is evaluated
as a statement or test has an effect. -/
theorem C21_reported_iff (p : Pos) (ss : List Expr) (x : Expr) : x ∈ forgottenValues (.block p ss) ↔
    ∃ before after, ss = before ++ x :: after ∧ after ≠ [] ∧ (∀ y, Evaluated x y → ¬ (HasEffect y ∨ IsPart y)) ∧
      ∀ b ∈ before, ∃ y, Evaluated b y ∧ (HasEffect y ∨ IsPart y) := by
  have key : ∀ z, isIdem z = true ↔ ∀ y, Evaluated z y → ¬ (HasEffect y ∨ IsPart y) := by
    intro z
    constructor
    · intro h y hy hp
      exact hp.elim (isIdem_sound z y h hy) (isIdem_part z y h hy)
    · intro h
      cases hz : isIdem z with
      | true => rfl
      | false =>
        obtain ⟨y, h1, h2⟩ := isIdem_complete z hz
        exact absurd h2 (h y h1)
  simp only [forgottenValues]
  induction ss with
  | nil => simp
  | cons s ss ih =>
    cases ss with
    | nil =>
      constructor
      · simp
      · rintro ⟨before, after, h1, h2, -⟩
        cases before with
        | nil => cases h1; exact absurd rfl h2
        | cons b bs => simp at h1
    | cons t ts =>
      rw [List.dropLast_cons_of_ne_nil (by simp), List.filter_cons]
      by_cases hs : isIdem s = true
      · rw [if_pos hs]
        simp only [List.take_succ_cons, List.take_zero, List.mem_singleton]
        constructor
        · rintro rfl
          exact ⟨[], t :: ts, rfl, by simp, (key _).1 hs, fun _ h => nomatch h⟩
        · rintro ⟨before, after, h1, h2, h3, h4⟩
          cases before with
          | nil => cases h1; rfl
          | cons b bs =>
            rw [List.cons_append, List.cons.injEq] at h1
            obtain ⟨rfl, -⟩ := h1
            obtain ⟨y, h5, h6⟩ := h4 _ (List.mem_cons_self ..)
            exact absurd h6 ((key _).1 hs y h5)
      · rw [if_neg hs]
        refine ih.trans ?_
        constructor
        · rintro ⟨before, after, h1, h2, h3, h4⟩
          refine ⟨s :: before, after, by rw [h1]; rfl, h2, h3, ?_⟩
          intro b hb
          rcases List.mem_cons.1 hb with rfl | hb
          · exact isIdem_complete _ (by simpa using hs)
          · exact h4 b hb
        · rintro ⟨before, after, h1, h2, h3, h4⟩
          cases before with
          | nil => cases h1; exact absurd ((key _).2 h3) hs
          | cons b bs =>
            rw [List.cons_append, List.cons.injEq] at h1
            obtain ⟨rfl, h1⟩ := h1
            exact ⟨bs, after, h1, h2, h3, fun b hb => h4 b (List.mem_cons_of_mem _ hb)⟩

/-- C21: what is reported as having no effect is not itself an effectful
expression, and neither is anything evaluated as a statement (or test) inside it.  Effects
nested in operands, elements, keys and arguments are the exception, see `C21_effect_reported_as_forgotten`. -/
theorem C21_no_effect (c : Checker) (e : Expr) (is : List Issue) (h : validateWith c e = .ok is) :
    ∀ i ∈ is, i.code = .idemExpressionNotLast → ∀ x, Evaluated i.at_ x → ¬ HasEffect x := by
  intro i hi hc
  by_cases hs : c.kind ≠ .puppet ∨ c.strict ≠ .off
  · have hr := C21_reported_at c hs e is h
    have hm : i.at_ ∈ (subexpressions e).flatMap forgottenValues := by
      rw [← hr]
      exact List.mem_map_of_mem (List.mem_filter.2 ⟨hi, by simp [hc]⟩)
    obtain ⟨y, -, hy⟩ := List.mem_flatMap.1 hm
    cases y with
    | block p ss =>
      have := List.mem_of_mem_take hy
      exact fun x => isIdem_sound _ x (List.mem_filter.1 this).2
    | _ => simp [forgottenValues] at hy
  · simp only [ne_eq, not_or, Decidable.not_not] at hs
    exact absurd ⟨hs.1, hs.2⟩ ((C12_severity c e is h i hi).2.1 (.inr hc)).2.2

/-- C21, what does not hold: `[f()]` followed by another statement is reported, although it calls `f`
(and likewise an assignment inside an index, `$x[$y = 1]`). -/
theorem C21_effect_reported_as_forgotten : ∃ (p : Pos) (arr : Expr) (is : List Issue),
    validateWith {} (.block p [arr, .undef p]) = .ok is ∧
    (∃ i ∈ is, i.code = .idemExpressionNotLast ∧ i.at_ = arr) ∧
    ∃ x ∈ subexpressions arr, HasEffect x := by
  refine ⟨⟨0, 0⟩, .list ⟨0, 0⟩ [.call ⟨0, 0⟩ .named true (.qname ⟨0, 0⟩ b!"f") [] none], _, rfl, ?_, ?_⟩
  · exact ⟨_, List.mem_cons_self .., rfl, rfl⟩
  · exact ⟨_, List.mem_cons_of_mem _ (List.mem_cons_self ..), trivial⟩

/-- Not vacuous: in `$x; (1 + 2); f()` the first statement is reported. -/
example : forgottenValues (.block ⟨0, 0⟩ [.un ⟨0, 1⟩ .variable (.qname ⟨0, 1⟩ b!"x"), .un ⟨3, 1⟩ .paren (.undef ⟨4, 0⟩),
    .call ⟨0, 0⟩ .named true (.qname ⟨0, 0⟩ b!"f") [] none]) = [.un ⟨0, 1⟩ .variable (.qname ⟨0, 1⟩ b!"x")] := rfl

/-! ## C22 -/

/-- Definitions whose place is checked by the validator of this kind, and may be nested in classes. -/
def nestable (kind : CheckerKind) : Expr → Bool
  | .namedDef _ .define .. | .namedDef _ (.hostClass _) .. | .node .. => kind = .puppet
  | _ => false

/-- Definitions whose place is checked, that may not be nested. -/
def absolute : Expr → Bool
  | .function _ false .. | .typeAlias .. | .typeMapping .. => true
  | _ => false

def isBlock : Expr → Bool
  | .block .. => true
  | _ => false

def isProgram : Expr → Bool
  | .program .. => true
  | _ => false

def isClass : Expr → Bool
  | .namedDef _ (.hostClass _) .. => true
  | _ => false

/-- The nearest container, given the containers innermost first, that is not a block is a class or the
program (or there is none). -/
def inClassOrProgram (containers : List Expr) : Bool :=
  match (containers.dropWhile isBlock).head? with
  | none => true
  | some c => isClass c || isProgram c

/-- No container at all, directly in a class or the program, or in the block of the program. -/
def directlyInProgram (containers : List Expr) : Bool :=
  match containers with
  | [] => true
  | c :: rest => isClass c || isProgram c || (isBlock c && (rest.head?.any isProgram))

/-- Not top level: `path` are the containers, outermost first. -/
def misplaced (kind : CheckerKind) (x : List Expr × Expr) : List Expr :=
  if nestable kind x.2 && !inClassOrProgram x.1.reverse ||
     absolute x.2 && !directlyInProgram x.1.reverse && !(x.1.getLast?.any isBlock) then [x.2] else []

/-- In a block, but not in that of the program. -/
def misplacedInBlock (x : List Expr × Expr) : List Expr :=
  if absolute x.2 && !directlyInProgram x.1.reverse && x.1.getLast?.any isBlock then [x.2] else []

theorem fixed_top (v : Checker) : v.severityOf .notTopLevel ≠ .ignore ∧ v.severityOf .notAbsoluteTopLevel ≠ .ignore :=
  ⟨severityOf_fixed _ _ (by simp) (by simp), severityOf_fixed _ _ (by simp) (by simp)⟩

theorem checkTop_nestable (v : Checker) (e : Expr) (he : Checker.neverNested e = false) : (cs : List Expr) →
    Reports (· == .notTopLevel) (v.checkTop e cs) (if inClassOrProgram cs then [] else [e]) ∧
    Reports (· == .notAbsoluteTopLevel) (v.checkTop e cs) []
  | [] => ⟨.none, .none⟩
  | c :: rest => by
    have hb : ∀ p ss, inClassOrProgram (.block p ss :: rest) = inClassOrProgram rest := by
      intro p ss; rfl
    unfold Checker.checkTop
    split
    · exact ⟨.none, .none⟩
    · exact ⟨.none, .none⟩
    · rename_i p ss
      rw [hb]
      have := checkTop_nestable v e he rest
      cases rest with
      | nil => simp only [he]; exact this
      | cons d rest =>
        cases d <;> simp only [he] <;> exact this
    · rename_i h1 h2 h3
      have hc : isClass c = false := by
        unfold isClass
        split
        · exact absurd rfl (h1 _ _ _ _ _)
        · rfl
      have hp : isProgram c = false := by
        unfold isProgram
        split
        · exact absurd rfl (h2 _ _ _)
        · rfl
      have hbl : isBlock c = false := by
        unfold isBlock
        split
        · exact absurd rfl (h3 _ _)
        · rfl
      have : inClassOrProgram (c :: rest) = false := by
        simp [inClassOrProgram, hbl, hc, hp]
      rw [this]
      exact ⟨.accept rfl (fixed_top v).1, Checker.silent_of (l := [.notTopLevel]) (by codes) (by simp)⟩

theorem checkTop_absolute (v : Checker) (e : Expr) (he : Checker.neverNested e = true) (cs : List Expr) :
    Reports (· == .notTopLevel) (v.checkTop e cs)
      (if !directlyInProgram cs && !(cs.head?.any isBlock) then [e] else []) ∧
    Reports (· == .notAbsoluteTopLevel) (v.checkTop e cs)
      (if !directlyInProgram cs && cs.head?.any isBlock then [e] else []) := by
  cases cs with
  | nil => exact ⟨.none, .none⟩
  | cons c rest =>
    unfold Checker.checkTop
    split
    · exact ⟨.none, .none⟩
    · exact ⟨.none, .none⟩
    · rename_i p ss
      cases rest with
      | nil =>
        simp only [he, if_true]
        exact ⟨Checker.silent_of (l := [.notAbsoluteTopLevel]) (by codes) (by simp), .accept rfl (fixed_top v).2⟩
      | cons d rest =>
        cases d
        case program => 
          simp only [Checker.checkTop]
          exact ⟨.none, .none⟩
        all_goals
          simp only [he, if_true]
          exact ⟨Checker.silent_of (l := [.notAbsoluteTopLevel]) (by codes) (by simp), .accept rfl (fixed_top v).2⟩
    · rename_i h1 h2 h3
      have hc : isClass c = false := by
        unfold isClass
        split
        · exact absurd rfl (h1 _ _ _ _ _)
        · rfl
      have hp : isProgram c = false := by
        unfold isProgram
        split
        · exact absurd rfl (h2 _ _ _)
        · rfl
      have hbl : isBlock c = false := by
        unfold isBlock
        split
        · exact absurd rfl (h3 _ _)
        · rfl
      simp only [directlyInProgram, hc, hp, hbl, List.head?_cons, Option.any_some]
      exact ⟨.accept rfl (fixed_top v).1, Checker.silent_of (l := [.notTopLevel]) (by codes) (by simp)⟩

private theorem top_codes (v : Checker) (pc : VCode → Bool) (hpc : pc = (· == .notTopLevel) ∨ pc = (· == .notAbsoluteTopLevel))
    (path e n ps l) (h : Reports pc (v.checkTop e path.reverse) l) :
    Reports pc (v.checkNamedDefinition path e n ps) l := by
  unfold Checker.checkNamedDefinition
  refine h.seqL (Reports.seqL (Checker.silent_of (l := [.illegalDefinitionName]) (by codes) ?_)
    ((Checker.silent_of (Checker.codes_checkReservedTypeName _ _) ?_).seqL
    ((Checker.silent_of (Checker.codes_checkFutureReservedWord _ _) ?_).seqL
    (Checker.silent_of (Checker.codes_checkUnique _ _) ?_)))) <;> rcases hpc with rfl | rfl <;> simp

private theorem C22_both (c : Checker) (pc : VCode → Bool) (g : List Expr × Expr → List Expr)
    (hpc : pc = (· == .notTopLevel) ∧ g = misplaced c.kind ∨ pc = (· == .notAbsoluteTopLevel) ∧ g = misplacedInBlock)
    (e : Expr) : Reports pc (validateWith c e) ((visited e).flatMap g) := by
  apply Reports.validate
  intro path x
  have hpc' : pc = (· == .notTopLevel) ∨ pc = (· == .notAbsoluteTopLevel) := by
    rcases hpc with ⟨h, -⟩ | ⟨h, -⟩ <;> simp [h]
  have silent : ∀ {m l}, Checker.Codes l m → (∀ x ∈ l, x ≠ .notTopLevel ∧ x ≠ .notAbsoluteTopLevel) → Reports pc m [] := by
    intro m l h1 h2
    refine Checker.silent_of h1 ?_
    intro x hx
    have := h2 x hx
    rcases hpc' with rfl | rfl <;> simp [this]
  have hnest : ∀ x, Checker.neverNested x = false → absolute x = false → nestable .puppet x = true → c.kind = .puppet →
      Reports pc (c.checkTop x path.reverse) (g (path, x)) := by
    intro x h1 h2 h3 h4
    obtain ⟨k1, k2⟩ := checkTop_nestable c x h1 path.reverse
    rcases hpc with ⟨rfl, rfl⟩ | ⟨rfl, rfl⟩
    · simp only [misplaced, h2, h3, h4]
      cases hc : inClassOrProgram path.reverse <;> simpa [hc] using k1
    · simpa [misplacedInBlock, h2] using k2
  have habs : ∀ x, Checker.neverNested x = true → absolute x = true → nestable c.kind x = false →
      Reports pc (c.checkTop x path.reverse) (g (path, x)) := by
    intro x h1 h2 h3
    obtain ⟨k1, k2⟩ := checkTop_absolute c x h1 path.reverse
    rcases hpc with ⟨rfl, rfl⟩ | ⟨rfl, rfl⟩
    · simpa [misplaced, h2, h3] using k1
    · simpa [misplacedInBlock, h2] using k2
  have hother : absolute x = false → nestable c.kind x = false → g (path, x) = [] := by
    intro h1 h2
    rcases hpc with ⟨rfl, rfl⟩ | ⟨rfl, rfl⟩ <;> simp [misplaced, misplacedInBlock, h1, h2]
  have hcat : ∀ m x, Reports pc m (g (path, x)) → (c.kind ≠ .puppet → g (path, x) = []) →
      Reports pc (c.catalogOp x m) (g (path, x)) := by
    intro m x h1 h2
    unfold Checker.catalogOp
    split
    · exact h1
    · rename_i hk
      rw [h2 hk]
      exact silent (l := [.catalogOperationNotSupported]) (by codes) (by simp)
  have hdef : ∀ x n ps b, nestable .puppet x = true → absolute x = false → Checker.neverNested x = false →
      (c.kind ≠ .puppet → nestable c.kind x = false) →
      Reports pc (c.catalogOp x (c.checkNamedDefinition path x n ps ⊹ c.checkNoCapture x ps ⊹
        c.checkReservedParams x ps ⊹ c.checkNoIdemLast x b)) (g (path, x)) := by
    intro x n ps b h1 h2 h3 h4
    by_cases hk : c.kind = .puppet
    · exact hcat _ _ ((top_codes c pc hpc' _ _ _ _ _ (hnest x h3 h2 h1 hk)).seqL
        ((silent (Checker.codes_checkNoCapture _) (by simp)).seqL
        ((silent (Checker.codes_checkReservedParams _ _) (by simp)).seqL
        (silent (Checker.codes_checkNoIdemLast _) (by simp))))) (absurd hk)
    · have : g (path, x) = [] := by
        rcases hpc with ⟨rfl, rfl⟩ | ⟨rfl, rfl⟩ <;> simp [misplaced, misplacedInBlock, h2, h4 hk]
      unfold Checker.catalogOp
      rw [if_neg hk, this]
      exact silent (l := [.catalogOperationNotSupported]) (by codes) (by simp)
  have sil : ∀ x, absolute x = false → nestable c.kind x = false →
      (∀ k ∈ Checker.codesOf x, k ≠ .notTopLevel ∧ k ≠ .notAbsoluteTopLevel) → g (path, x) = [] →
      Reports pc (c.check path x) (g (path, x)) := by
    intro x h1 h2 h3 h4
    rw [h4]
    refine Checker.silent_check fun k hk => ?_
    have := h3 k hk
    rcases hpc' with rfl | rfl <;> simp [this]
  cases x with
  | namedDef p k n ps b =>
    cases k with
    | application => exact sil _ rfl rfl (by simp [Checker.codesOf]) (hother rfl rfl)
    | define => exact hdef _ n ps b rfl rfl rfl (by intro h; simp [nestable, h])
    | hostClass par => exact hdef _ n ps b rfl rfl rfl (by intro h; simp [nestable, h])
  | node p pa hs b => 
    by_cases hk : c.kind = .puppet
    · refine hcat _ _ ?_ (absurd hk)
      exact (silent (Checker.codes_checkHostname _) (by simp)).seqR ((hnest _ rfl rfl rfl hk).seqL
        (silent (Checker.codes_checkNoIdemLast _) (by simp)))
    · have : g (path, .node p pa hs b) = [] := by
        rcases hpc with ⟨rfl, rfl⟩ | ⟨rfl, rfl⟩ <;> simp [misplaced, misplacedInBlock, absolute, nestable, hk]
      rw [this]
      simp only [Checker.check, Checker.catalogOp, if_neg hk]
      exact silent (l := [.catalogOperationNotSupported]) (by codes) (by simp)
  | function p plan n ps b r =>
    cases plan with
    | true => exact sil _ rfl rfl (by simp [Checker.codesOf]) (hother rfl rfl)
    | false =>
      exact (top_codes c pc hpc' _ _ _ _ _ (habs _ rfl rfl rfl)).seqL
        ((silent (Checker.codes_checkCaptureLast _) (by simp)).seqL
        (silent (Checker.codes_checkReturnType _) (by simp)))
  | typeAlias p n t =>
    exact (habs _ rfl rfl rfl).seqL (Reports.seqL (silent (l := [.illegalDefinitionName]) (by codes) (by simp))
      ((silent (Checker.codes_checkReservedTypeName _ _) (by simp)).seqL
        (silent (Checker.codes_checkTypeRef _) (by simp))))
  | typeMapping p t m =>
    exact (habs _ rfl rfl rfl).seqL (silent (Checker.codes_checkTypeMapping _ _ _) (by simp))
  | bin p k l r => cases k <;> exact sil _ rfl rfl (by simp [Checker.codesOf]) (hother rfl rfl)
  | call p k => cases k <;> exact sil _ rfl rfl (by simp [Checker.codesOf]) (hother rfl rfl)
  | _ => exact sil _ rfl rfl (by simp [Checker.codesOf]) (hother rfl rfl)

/-- C22: not-top-level is reported exactly at the classes, defines and nodes (Puppet validator) whose
nearest container other than a block is neither a class nor the program, and at the functions, type
aliases and type mappings whose container is neither the program, a class nor a block. -/
theorem C22_not_top_level (c : Checker) (e : Expr) (is : List Issue) (h : validateWith c e = .ok is) :
    ReportedAt is .notTopLevel ((visited e).flatMap (misplaced c.kind)) :=
  C22_both c _ _ (.inl ⟨rfl, rfl⟩) e is h

/-- C22: not-absolute-top-level is reported exactly at the functions, type aliases and type mappings that
are in a block other than the program's. -/
theorem C22_not_absolute_top_level (c : Checker) (e : Expr) (is : List Issue) (h : validateWith c e = .ok is) :
    ReportedAt is .notAbsoluteTopLevel ((visited e).flatMap misplacedInBlock) :=
  C22_both c _ _ (.inr ⟨rfl, rfl⟩) e is h

/-- Not vacuous: `if true { class a {} }` is misplaced, `class b { class a {} }` is not;
`class b { function f() {} }` is. -/
example (p : Pos) (a f : Expr) (ha : a = .namedDef p (.hostClass []) b!"a" [] (.block p []))
    (hf : f = .function p false b!"f" [] (.block p []) none) :
    (visited (.program p (.block p [.ifE p false (.undef p) (.block p [a]) (.nop p)]) [])).flatMap (misplaced .puppet) = [a] ∧
    (visited (.program p (.block p [.namedDef p (.hostClass []) b!"b" [] (.block p [a])]) [])).flatMap (misplaced .puppet) = [] ∧
    (visited (.program p (.block p [.namedDef p (.hostClass []) b!"b" [] (.block p [f])]) [])).flatMap misplacedInBlock = [f] ∧
    (visited (.program p (.block p [f]) [])).flatMap misplacedInBlock = [] := by
  subst ha hf
  exact ⟨rfl, rfl, rfl, rfl⟩

end PP.Props
