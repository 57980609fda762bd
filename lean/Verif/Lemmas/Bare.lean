import Verif.Lemmas.Feed
import Verif.Lemmas.Eval
import Verif.Spec.Bare

/-! # Trees without positions, and first tokens of phrases -/
namespace PP
open PP.Spec

theorem bareL_eq (es : List Expr) : bareL es = es.map bare := by
  induction es with
  | nil => simp [bareL]
  | cons e es ih => simp [bareL, ih]

@[simp] theorem bareL_append (a b : List Expr) : bareL (a ++ b) = bareL a ++ bareL b := by simp [bareL_eq]
@[simp] theorem bareL_nil : bareL [] = [] := by simp [bareL]
@[simp] theorem bareL_cons (e : Expr) (es : List Expr) : bareL (e :: es) = bare e :: bareL es := by simp [bareL]
@[simp] theorem bareO_none : bareO none = none := by simp [bareO]
@[simp] theorem bareO_some (e : Expr) : bareO (some e) = some (bare e) := by simp [bareO]

@[simp] theorem bare_setPos (p : Pos) (e : Expr) : bare (e.setPos p) = bare e := by
  cases e <;> simp [Expr.setPos, bare]

/-- Neither `a.b` nor a list with commas. -/
def plain : Expr → Bool
  | .bin _ .namedAccess _ _ => false
  | .commaSep .. => false
  | _ => true

theorem plain_bare (e : Expr) : plain (bare e) = plain e := by
  cases e <;> simp only [bare] <;> first | rfl | (rename_i k _ _; cases k <;> rfl)

theorem isNamedAccess_of {e : Expr} (h : plain e = true) : isNamedAccess e = false := by
  cases e <;> first | rfl | (rename_i k _ _; cases k <;> first | rfl | exact absurd h (by simp [plain]))

theorem isKeyedEntry_bare (e : Expr) : isPair (bare e) = isKeyedEntry e := by
  cases e <;> simp only [bare] <;> rfl

theorem statementFunctions_eq : statementFunctions = statementCalls := rfl

theorem isStatementCall_bare (e : Expr) : isStatementName (bare e) = isStatementCall e := by
  cases e <;> simp only [bare] <;> rfl

theorem bare_setRval (v : Bool) (e : Expr) : bare (setRval v e) = withRval v (bare e) := by
  cases e <;> try (simp only [setRval, bare, withRval]; done)
  rename_i k _ _ _ _
  cases k <;> simp only [setRval, bare, withRval]

theorem bare_newHash (es : List Expr) : bare (newHash es) = .hash z (bareL es) := by
  simp only [newHash, bare]

theorem bareL_process (es h : List Expr) : bareL (processHashEntries es h) = gatherFrom (bareL h) (bareL es) := by
  induction es generalizing h with
  | nil => cases h <;> simp [processHashEntries, gatherFrom, bare_newHash]
  | cons e es ih =>
    cases h with
    | nil =>
      simp only [processHashEntries, bareL_nil, bareL_cons, gatherFrom, isKeyedEntry_bare]
      split
      · rw [ih]; simp
      · simp [ih]
    | cons c cs =>
      simp only [processHashEntries, bareL_cons, gatherFrom, isKeyedEntry_bare]
      split
      · rw [ih]; simp
      · simp [ih, bare_newHash]

theorem gather_noPair {es : List Expr} (h : es.any isPair = false) : gather es = es := by
  unfold gather
  induction es with
  | nil => rfl
  | cons e es ih =>
    simp only [List.any_cons, Bool.or_eq_false_iff] at h
    simp only [gatherFrom, h.1, List.isEmpty_nil]
    simp [ih h.2]

theorem bareL_join (es : List Expr) : bareL (joinHashEntries es) = gather (bareL es) := by
  unfold joinHashEntries
  split
  · exact bareL_process es []
  · next h =>
    rw [gather_noPair]
    rw [bareL_eq, List.any_map]
    rw [Bool.not_eq_true] at h
    rw [← h]
    congr 1
    funext e
    exact isKeyedEntry_bare e

theorem convertLhs_plain {e : Expr} (h : plain e = true) : convertLhs e = e := by
  cases e <;> try (simp only [convertLhs]; done)
  rename_i k _ _
  cases k <;> first | (simp only [convertLhs]; done) | exact absurd h (by simp [plain])

theorem convertLhs_named (q : Pos) (l r : Expr) :
    bare (convertLhs (.bin q .namedAccess l r)) = method (bare (convertLhs l)) (bare r) [] none := by
  simp [convertLhs, bare, method]

theorem local_eq (n : GoStr) : local_ n = trimPrefix b!"::" n := by
  unfold local_ trimPrefix
  split
  · rfl
  · next h =>
    rw [if_neg]
    intro hp
    rw [List.isPrefixOf_iff_prefix] at hp
    obtain ⟨r, rfl⟩ := hp
    exact h r rfl

theorem qualified_eq (l : List GoStr) : qualified l = joinStr b!"::" l := by
  induction l with
  | nil => rfl
  | cons a l ih =>
    cases l with
    | nil => rfl
    | cons b l => simp only [qualified, joinStr, ih]

theorem dottedWith_eq (l : List GoStr) : dottedWith l = joinStr b!"." l := by
  induction l with
  | nil => rfl
  | cons a l ih =>
    cases l with
    | nil => rfl
    | cons b l => simp only [dottedWith, joinStr, ih]

theorem spell_eq {k : Tok} (h : k.isKeyword = true) (hd : k ≠ .kDefault) : k.str = spell k := by
  cases k <;> first | rfl | exact absurd h (by decide) | exact absurd rfl hd

end PP
