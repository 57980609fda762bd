import Verif.Lemmas.Range6

/-! # Byte ranges of nodes: type names, lists and hashes start with their first token -/
namespace PP.Rg
open PP

section
variable {env : Env} {s t : St} {self : Self} {e : Expr}

theorem wp_any {α : Type} {x : P α} {Q : α → St → Prop} (h : ∀ a t, Q a t) : wp env x Q tt s := by
  unfold wp
  split
  · exact h _ _
  · exact trivial

theorem wp_and {α : Type} {x : P α} {Q R : α → St → Prop} (h1 : wp env x Q tt s) (h2 : wp env x R tt s) :
    wp env x (fun a t => Q a t ∧ R a t) tt s := by
  unfold wp at *
  split
  · next h => rw [h] at h1 h2; exact ⟨h1, h2⟩
  · exact trivial

/-- The token does not carry a literal. -/
def NoLit (s : St) : Prop := ∀ e, s.val = .expr e → isLit e = false

theorem In.noLit {b m : Nat} (h : In env b m s) : NoLit s := fun e he => (h.val e he).2.2.2.2

def T (s : St) (e : Expr) (_ : St) : Prop := isLit e = true → s.tsp ≤ e.pos.off
def U (e : Expr) (e' : Expr) (_ : St) : Prop := isLit e' = true → e' = e
def N (e : Expr) (_ : St) : Prop := isLit e = false

variable (env)
def TPre : NT → St → Prop
  | .assignment, s | .expression, s | .binary _, s | .unary, s | .primary, s | .atom, s => NoLit s
  | _, _ => True

def TPost : (n : NT) → St → Out n → St → Prop
  | .assignment, s, e, t | .expression, s, e, t | .binary _, s, e, t | .unary, s, e, t | .primary, s, e, t | .atom, s, e, t => T s e t
  | .assignLoop e, _, e', t | .selLoop e, _, e', t | .binLoop _ e, _, e', t | .primLoop e, _, e', t => U e e' t
  | .resourceExpr .., _, e, t | .ifExpr _, _, e, t => N e t
  | _, _, _, _ => True

def HT (self : Self) : Prop := ∀ n s, TPre n s → wp env (self n) (TPost n s) tt s
variable {env}

theorem T.ofN (h : N e t) : T s e t := fun h' => by rw [h] at h'; cases h'

theorem TU {x : P Expr} {n : Expr → P Expr} (h : wp env x (T s) tt s) (h2 : ∀ e t, wp env (n e) (U e) tt t) :
    wp env (x >>= n) (T s) tt s := by
  rw [wp_bind]
  refine wp_imp h fun e t ht => wp_imp (h2 e t) fun e' t' hu hl => ?_
  have := hu hl
  subst this
  exact ht hl

/-- The calls do not matter. -/
macro "skip1" : tactic => `(tactic| refine wp_any fun _ _ => ?_)

theorem N.ofFree {x : P Expr} (h : ∀ s, wp env x N tt s) : wp env x (T s) tt s := wp_imp (h s) fun _ _ h => T.ofN h

theorem addDefinition_N (h : isLit e = false) : wp env (addDefinition e) N tt s := h

theorem wp_free {α β : Type} {x : P α} {f : α → P β} {Q : β → St → Prop} (h : ∀ a s, wp env (f a) Q tt s) : wp env (x >>= f) Q tt s := by
  rw [wp_bind]; exact wp_any h

/-- Step over everything up to the result. -/
macro "nn" : tactic => `(tactic| repeat' first
  | exact trivial
  | (refine addDefinition_N ?_; rfl)
  | (refine wp_free fun _ _ => ?_)
  | (rw [wp_pure]; rfl)
  | (intro _)
  | split)

theorem collect_N {l : Expr} : ∀ s, wp env (collectExpression self l) N tt s := by
  intro s; unfold collectExpression; nn

theorem call_N {f : Expr} : ∀ s, wp env (callFunctionExpression self f) N tt s := by
  intro s; unfold callFunctionExpression; nn
  
theorem functionDefinition_N {p : Bool} : ∀ s, wp env (functionDefinition self p) N tt s := by
  intro s; unfold functionDefinition; nn
theorem nodeDefinition_N : ∀ s, wp env (nodeDefinition self) N tt s := by
  intro s; unfold nodeDefinition; nn
theorem siteDefinition_N : ∀ s, wp env (siteDefinition self) N tt s := by
  intro s; unfold siteDefinition; nn
theorem resourceDefinition_N {p : Bool} : ∀ s, wp env (resourceDefinition self p) N tt s := by
  intro s; unfold resourceDefinition; nn
theorem classExpression_N {p : Nat} : ∀ s, wp env (classExpression self p) N tt s := by
  intro s; unfold classExpression; nn
theorem typeDefinitionBody_N {p : Nat} {n q : GoStr} : ∀ s, wp env (typeDefinitionBody self p n q) N tt s := by
  intro s; unfold typeDefinitionBody; nn
theorem typeAliasOrDefinition_N : ∀ s, wp env (typeAliasOrDefinition self) N tt s := by
  intro s; unfold typeAliasOrDefinition; nn
  all_goals exact typeDefinitionBody_N _
theorem caseExpression_N : ∀ s, wp env (caseExpression self) N tt s := by
  intro s; unfold caseExpression; nn
theorem ifBody_N {u : Bool} : ∀ s, wp env (ifBody self u) N tt s := by
  intro s; unfold ifBody; nn
theorem capabilityMapping_N {c : Expr} {k : GoStr} : ∀ s, wp env (capabilityMapping self c k) N tt s := by
  intro s; unfold capabilityMapping; nn
theorem selectorsExpression_N {c : Expr} : ∀ s, wp env (selectorsExpression self c) N tt s := by
  intro s; unfold selectorsExpression; nn
theorem stepDeclaration_N {a : Nat} {st : StepStyle} {n : GoStr} {b : Bool} : ∀ s, wp env (stepDeclaration self a st n b) N tt s := by
  intro s; unfold stepDeclaration; nn
theorem resourceExprBody_N {a : Nat} {f : Expr} {k : Form} : ∀ s, wp env (resourceExprBody self a f k) N tt s := by
  intro s; unfold resourceExprBody; nn

theorem U.ofN {e' : Expr} (h : N e' t) : U e e' t := fun h' => by rw [h] at h'; cases h'
theorem U.trans {e' e'' : Expr} {t' : St} (h : N e' t) (h2 : U e' e'' t') : U e e'' t' := fun h' => by
  have := h2 h'; subst this; rw [h] at h'; cases h'

theorem leaf_T (h : T s e t) : wp env (leaf self e) (T s) tt t := by
  unfold leaf
  exact wp_free fun _ _ => h

theorem N.ofFree' {x : P Expr} (h : ∀ s, wp env x N tt s) : wp env x (T s) tt t := wp_imp (h t) fun _ _ h => T.ofN h

set_option maxHeartbeats 1000000 in
theorem atomBody_T (hs : NoLit s) (H : HT env self) : wp env (atomBody self) (T s) tt s := by
  unfold atomBody
  rw [wp_bind, wp_getS]
  dsimp only
  split
  all_goals repeat' first
    | exact trivial
    | exact N.ofFree' caseExpression_N
    | exact N.ofFree' functionDefinition_N
    | exact N.ofFree' nodeDefinition_N
    | exact N.ofFree' siteDefinition_N
    | exact N.ofFree' resourceDefinition_N
    | exact wp_imp (H (.ifExpr _) s trivial) fun _ _ h => T.ofN h
    | exact N.ofFree' classExpression_N
    | exact N.ofFree' typeAliasOrDefinition_N
    | (refine leaf_T ?_; intro hl; cases hl; done)
    | (refine leaf_T ?_; intro _; exact Nat.le_refl _)
    | (refine leaf_T ?_; intro hl; rw [hs _ (by assumption)] at hl; cases hl)
    | (rw [wp_pure]; intro hl; cases hl; done)
    | (rw [wp_pure]; intro _; exact Nat.le_refl _)
    | (rw [wp_bind, wp_here])
    | (refine wp_free fun _ _ => ?_)
    | split

theorem setPos_lit {p : Pos} : isLit (e.setPos p) = isLit e := by cases e <;> rfl

theorem unaryBody_T (hs : NoLit s) (H : HT env self) : wp env (unaryBody self) (T s) tt s := by
  unfold unaryBody
  rw [wp_bind, wp_getS]
  dsimp only
  split
  all_goals repeat' first
    | exact trivial
    | exact wp_imp (H (.resourceExpr _ _ _) _ trivial) fun _ _ h => T.ofN h
    | exact H .primary s hs
    | (rw [wp_pure]; intro hl; cases hl; done)
    | (rw [wp_pure]; intro _; rw [setPos_pos]; exact Nat.le_refl _)
    | (rw [wp_bind, wp_here])
    | (refine wp_free fun _ _ => ?_)
    | split

theorem primLoopBody_U (H : HT env self) : wp env (primLoopBody self e) (U e) tt s := by
  unfold primLoopBody
  rw [wp_bind, wp_curTok]
  split
  · rw [wp_bind]
    exact wp_imp (call_N _) fun e' t h => wp_imp (H (.primLoop e') t trivial) fun _ _ h2 => U.trans h h2
  · rw [wp_bind]
    exact wp_imp (call_N _) fun e' t h => wp_imp (H (.primLoop e') t trivial) fun _ _ h2 => U.trans h h2
  · rw [wp_bind]
    exact wp_imp (collect_N _) fun e' t h => wp_imp (H (.primLoop e') t trivial) fun _ _ h2 => U.trans h h2
  · rw [wp_bind]
    exact wp_imp (collect_N _) fun e' t h => wp_imp (H (.primLoop e') t trivial) fun _ _ h2 => U.trans h h2
  · refine wp_free fun _ _ => wp_free fun _ _ => wp_free fun p t => wp_free fun _ t => ?_
    refine wp_imp (H (.primLoop _) t trivial) fun _ _ h2 => U.trans (t := t) ?_ h2
    show isLit _ = false
    split <;> rfl
  · refine wp_free fun _ _ => wp_free fun _ _ => ?_
    split
    · refine wp_free fun _ _ => wp_free fun _ _ => wp_free fun _ _ => wp_free fun _ _ => wp_free fun _ t => ?_
      exact wp_imp (H (.primLoop _) t trivial) fun _ _ h2 => U.trans (t := t) (by rfl) h2
    · refine wp_free fun _ _ => wp_free fun _ t => ?_
      exact wp_imp (H (.primLoop _) t trivial) fun _ _ h2 => U.trans (t := t) (by rfl) h2
  · split
    · exact U.ofN (t := s) rfl
    · exact fun _ => rfl

theorem step_T (H : HT env self) : HT env (step self) := by
  intro n s h
  cases n
  all_goals try (exact wp_any fun _ _ => trivial)
  · -- assignment
    refine TU ?_ fun e t => H (.assignLoop e) t trivial
    unfold stepOrResource
    rw [wp_bind, wp_getEnv, wp_bind, wp_getPos]
    refine TU (n := fun e => if env.workflow = true then _ else pure e) ?_ ?_
    · unfold resource
      refine TU (H .expression s h) fun e t => ?_
      rw [wp_bind, wp_curTok]
      split
      · exact wp_imp (H (.resourceExpr _ _ _) t trivial) fun _ _ h => U.ofN h
      · exact fun _ => rfl
    · intro e t
      repeat' first
        | exact wp_imp (stepDeclaration_N _) fun _ _ h => U.ofN h
        | exact fun _ => rfl
        | (refine wp_free fun _ _ => ?_)
        | split
  · -- assignLoop
    next e =>
    show wp env (assignLoopBody self e) (U e) tt s
    unfold assignLoopBody
    rw [wp_bind, wp_curTok]
    split
    · refine wp_free fun _ _ => wp_free fun _ _ => wp_free fun _ _ => wp_free fun _ t => ?_
      exact wp_imp (H (.assignLoop _) t trivial) fun _ _ h2 => U.trans (t := t) (by rfl) h2
    · exact fun _ => rfl
  · -- expression
    refine TU (H (.binary .or) s h) fun e t => ?_
    rw [wp_bind]
    refine wp_imp (H (.selLoop e) t trivial) fun e' t' h => ?_
    rw [wp_bind, wp_curTok]
    split
    · refine wp_free fun _ _ => ?_
      split
      · exact wp_imp (capabilityMapping_N _) fun _ _ h => U.ofN h
      · exact h
    · exact h
  · -- selLoop
    next e =>
    show wp env (selLoopBody self e) (U e) tt s
    unfold selLoopBody
    rw [wp_bind, wp_curTok]
    split
    · rw [wp_bind]
      exact wp_imp (selectorsExpression_N _) fun e' t h => wp_imp (H (.selLoop e') t trivial) fun _ _ h2 => U.trans h h2
    · exact fun _ => rfl
  · -- binary
    next l =>
    refine TU ?_ fun e t => H (.binLoop l e) t trivial
    unfold operand
    cases l
    · exact H .assignment s h
    all_goals first | exact H (.binary _) s h | exact H .unary s h
  · -- binLoop
    next l e =>
    show wp env (binLoopBody self l e) (U e) tt s
    unfold binLoopBody
    rw [wp_bind, wp_curTok]
    split
    · refine wp_free fun _ _ => wp_free fun _ _ => wp_free fun _ _ => wp_free fun _ t => ?_
      exact wp_imp (H (.binLoop _ _) t trivial) fun _ _ h2 => U.trans (t := t) (by rfl) h2
    · exact fun _ => rfl
  · exact unaryBody_T h H
  · exact TU (H .atom s h) fun e t => H (.primLoop e) t trivial
  · exact primLoopBody_U H
  · exact atomBody_T h H
  · exact ifBody_N _
  · exact resourceExprBody_N _

theorem run_T (f : Nat) : HT env (run f) := by
  induction f with
  | zero => intro n s _; exact trivial
  | succ f ih => exact step_T ih
end
end PP.Rg
