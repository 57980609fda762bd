import Verif.Validator
import Verif.Lemmas.Ast

/-! # Lemmas about validation: which issues a check can produce. -/

namespace PP

/-! ## Sequencing -/

theorem seq_ok {a b : VM} {r : List Issue} (h : a ⊹ b = .ok r) :
    ∃ x y, a = .ok x ∧ b = .ok y ∧ r = x ++ y := by
  cases a with
  | error e => cases h
  | ok x =>
    cases b with
    | error e => cases h
    | ok y => cases h; exact ⟨x, y, rfl, rfl, rfl⟩

theorem seq_vnone (a : VM) : a ⊹ vnone = a := by
  cases a with
  | error e => rfl
  | ok x => simp [VM.seq, vnone, bind, Except.bind, pure, Except.pure]

theorem vnone_seq (a : VM) : vnone ⊹ a = a := by
  cases a <;> rfl

theorem seq_assoc (a b c : VM) : (a ⊹ b) ⊹ c = a ⊹ b ⊹ c := by
  cases a <;> cases b <;> cases c <;> simp [VM.seq, bind, Except.bind, pure, Except.pure]

theorem vforEach_append (f : Expr → VM) (as bs : List Expr) :
    vforEach f (as ++ bs) = vforEach f as ⊹ vforEach f bs := by
  induction as with
  | nil => exact (vnone_seq _).symm
  | cons a as ih => rw [List.cons_append, vforEach, ih, vforEach, seq_assoc]

/-- All checks of a list of visits. -/
def checkVisits (c : Checker) : List (List Expr × Expr) → VM
  | [] => vnone
  | x :: xs => c.check x.1 x.2 ⊹ checkVisits c xs

theorem foldlM_visit (xs : List (List Expr × Expr)) (v : Validator) :
    (xs.foldlM Validator.visit v).map Validator.issues = (.ok v.issues ⊹ checkVisits v.checker xs) := by
  induction xs generalizing v with
  | nil => simp [checkVisits, seq_vnone]; rfl
  | cons x xs ih =>
    rw [List.foldlM_cons, checkVisits]
    cases h : v.checker.check x.1 x.2 with
    | error p =>
      have : v.visit x = .error p := by simp [Validator.visit, h]; rfl
      rw [this]; rfl
    | ok is =>
      have : v.visit x = .ok { v with path := x.1, subject := some x.2, issues := v.issues ++ is } := by
        simp [Validator.visit, h]; rfl
      rw [this]
      change (List.foldlM Validator.visit { v with path := x.1, subject := some x.2, issues := v.issues ++ is } xs).map _ = _
      rw [ih]
      cases checkVisits v.checker xs <;> simp [VM.seq, bind, Except.bind, pure, Except.pure]

/-- Everything `Validate` checks: the expression and what `AllContents` visits. -/
def visited (e : Expr) : List (List Expr × Expr) := ([], e) :: e.allContents []

theorem validateWith_eq (c : Checker) (e : Expr) : validateWith c e = checkVisits c (visited e) := by
  have := foldlM_visit (visited e) { checker := c }
  unfold validateWith Validator.validate
  rw [← vnone_seq (checkVisits c (visited e))]
  rw [show (vnone : VM) = .ok [] from rfl, ← this]
  cases h : List.foldlM Validator.visit { checker := c } (visited e) <;>
    (unfold visited at h; simp only [h]; rfl)

theorem checkVisits_ok {c : Checker} {xs : List (List Expr × Expr)} {r : List Issue} (h : checkVisits c xs = .ok r) :
    ∃ iss : List (List Issue), r = iss.flatten ∧ iss.length = xs.length ∧
      ∀ i (hi : i < xs.length), ∃ is, iss[i]? = some is ∧ c.check xs[i].1 xs[i].2 = .ok is := by
  induction xs generalizing r with
  | nil => cases h; exact ⟨[], rfl, rfl, by simp⟩
  | cons x xs ih =>
    obtain ⟨a, b, h1, h2, rfl⟩ := seq_ok h
    obtain ⟨iss, rfl, hl, hi⟩ := ih h2
    refine ⟨a :: iss, rfl, by simp [hl], ?_⟩
    intro i hi'
    cases i with
    | zero => exact ⟨a, rfl, h1⟩
    | succ i => simpa using hi i (by simpa using hi')

/-! ## Every issue satisfies ... -/

/-- All issues a check produces satisfy `Q`. -/
def AllIssues (Q : Issue → Prop) (m : VM) : Prop := ∀ is, m = .ok is → ∀ i ∈ is, Q i

theorem AllIssues.none {Q} : AllIssues Q vnone := by
  intro is h i hi; cases h; cases hi

theorem AllIssues.okNil {Q} : AllIssues Q (.ok []) := AllIssues.none

theorem AllIssues.error {Q p} : AllIssues Q (.error p) := by
  intro is h; cases h

theorem AllIssues.seq {Q a b} (ha : AllIssues Q a) (hb : AllIssues Q b) : AllIssues Q (a ⊹ b) := by
  intro is h i hi
  obtain ⟨x, y, h1, h2, rfl⟩ := seq_ok h
  rcases List.mem_append.1 hi with hi | hi
  · exact ha x h1 i hi
  · exact hb y h2 i hi

theorem AllIssues.forEach {Q f} {es : List Expr} (h : ∀ e ∈ es, AllIssues Q (f e)) : AllIssues Q (vforEach f es) := by
  induction es with
  | nil => exact .none
  | cons e es ih =>
    exact (h e (List.mem_cons_self ..)).seq (ih fun x hx => h x (List.mem_cons_of_mem _ hx))

theorem AllIssues.accept {Q} {v : Checker} {code e args} (h : Q ⟨code, v.severityOf code, e, args⟩) :
    AllIssues Q (v.accept code e args) := by
  intro is h' i hi
  unfold Checker.accept at h'
  simp only at h'
  split at h' <;> cases h'
  · cases hi
  · rw [List.mem_singleton.1 hi]; exact h

theorem AllIssues.visits {Q} {c : Checker} {xs : List (List Expr × Expr)}
    (h : ∀ x ∈ xs, AllIssues Q (c.check x.1 x.2)) : AllIssues Q (checkVisits c xs) := by
  induction xs with
  | nil => exact .none
  | cons x xs ih =>
    exact (h x (List.mem_cons_self ..)).seq (ih fun y hy => h y (List.mem_cons_of_mem _ hy))

theorem AllIssues.mono {Q R : Issue → Prop} {m} (h : AllIssues Q m) (hq : ∀ i, Q i → R i) : AllIssues R m :=
  fun is he i hi => hq i (h is he i hi)

/-! ## The uniform equation of `checkIllegalAssignment` -/

namespace Checker
variable (v : Checker)

theorem checkIllegalAssignments_eq : (es : List Expr) →
    v.checkIllegalAssignments es = vforEach v.checkIllegalAssignment es
  | [] => by simp [checkIllegalAssignments, vforEach, vnone]
  | e :: es => by simp [checkIllegalAssignments, vforEach, checkIllegalAssignments_eq es]

theorem checkIllegalAssignmentOpt_eq (o : Option Expr) :
    v.checkIllegalAssignmentOpt o = vforEach v.checkIllegalAssignment o.toList := by
  cases o <;> simp [checkIllegalAssignmentOpt, vforEach, vnone]

/-- An assignment expression. -/
def _root_.PP.Expr.isAssignment : Expr → Bool
  | .bin _ (.assignment _) _ _ => true
  | _ => false

def _root_.PP.Expr.isLambda : Expr → Bool
  | .lambda .. => true
  | _ => false

/-- `checkIllegalAssignment`, validator/checker.go:654-664, as written there: an assignment is reported,
a lambda is skipped, everything else is searched through `Contents`. -/
theorem checkIllegalAssignment_eq (e : Expr) : v.checkIllegalAssignment e =
    if e.isAssignment then v.accept .illegalAssignmentContext e []
    else if e.isLambda then vnone
    else vforEach v.checkIllegalAssignment e.kids := by
  cases e with
  | bin p k l r =>
    cases k <;> simp [checkIllegalAssignment, Expr.isAssignment, Expr.isLambda, Expr.kids, vforEach] <;> rfl
  | _ =>
    simp [checkIllegalAssignment, Expr.isAssignment, Expr.isLambda, Expr.kids, vforEach_append,
      checkIllegalAssignments_eq, checkIllegalAssignmentOpt_eq, vforEach] <;> try rfl

end Checker
end PP
