import Verif.Lemmas.Qual5

/-! # Qualified names: definitions that push their name, and whole runs -/
namespace PP.Qu
open PP PP.Props

section
variable {env : Env} {base ns ms ls : List GoStr} {self : Self}
variable (H : HS env base self)
include H

theorem Ok.classExpression {start : Nat} : Ok env base ns (PP.classExpression self start) ns (Named ns) := by
  unfold PP.classExpression
  refine Ok.withBase fun hb => ?_
  ok
  all_goals
    rename_i hq _ _
    subst hq
    exact Ok.addDefinition (.hostClass ‹AllN _ _› ‹Named _ _›)

theorem Ok.functionDefinition {plan : Bool} : Ok env base ns (PP.functionDefinition self plan) ns (Named ns) := by
  refine Ok.withBase fun hb => ?_
  cases plan
  · unfold PP.functionDefinition
    simp only [Bool.false_eq_true, if_false]
    ok
  · unfold PP.functionDefinition
    simp only [if_true]
    ok
    all_goals exact Ok.addDefinition (.plan ‹AllN _ _› ‹OptN _ _› ‹Named _ _›)
macro_rules | `(tactic| okl) => `(tactic| first
  | (with_reducible refine Ok.classExpression ?_; assumption) | (with_reducible refine Ok.functionDefinition ?_; assumption))

/-- The block of a step that does not push its name. -/
theorem Ok.stepBlock {start : Nat} {style : StepStyle} (hs : style ≠ .workflow) :
    Ok env base ns (PP.stepBlock self start style) ns (OptN ns) := by
  unfold PP.stepBlock
  cases style
  case workflow => exact absurd rfl hs
  all_goals ok
  refine Ok.pureO ?_
  nm
  all_goals exact named_toDeferredList ‹_›

theorem Ok.stepBlockW {start : Nat} {n : GoStr} (hb : base <+: ns) :
    Ok env base (ns ++ [n]) (PP.stepBlock self start .workflow) ns (OptN (ns ++ [n])) := by
  unfold PP.stepBlock
  ok

theorem Ok.stepDeclaration {start : Nat} {style : StepStyle} {n : GoStr} {top : Bool} :
    Ok env base ns (PP.stepDeclaration self start style n top) ns (Named ns) := by
  refine Ok.withBase fun hb => ?_
  unfold PP.stepDeclaration
  by_cases hs : style = .workflow
  · subst hs
    simp only [if_true]
    have hbl := fun start => Ok.stepBlockW (start := start) (n := n) H hb
    ok
    all_goals
      refine Ok.bind (hbl _) fun b hb' => Ok.bind Ok.qualifiedName fun q hq => Ok.bind Ok.here fun p _ => ?_
      subst hq
      first
        | exact Ok.addDefinition (.workflow (show OptN (ns ++ [n]) _ by nm) hb')
        | exact Ok.pureN (.workflow (show OptN (ns ++ [n]) _ by nm) hb')
  · simp only [if_neg hs]
    have hbl := fun start => Ok.stepBlock (ns := ns) (start := start) H hs
    ok
    all_goals
      refine Ok.bind (hbl _) fun b hb' => Ok.bind Ok.qualifiedName fun q hq => Ok.bind Ok.here fun p _ => ?_
      subst hq
      first
        | exact Ok.addDefinition (.step hs (show OptN ns _ by nm) hb')
        | exact Ok.pureN (.step hs (show OptN ns _ by nm) hb')
macro_rules | `(tactic| okl) => `(tactic| (with_reducible refine Ok.stepDeclaration ?_; assumption))

theorem Ok.stepOrResource : Ok env base ns (PP.stepOrResource self) ns (Named ns) := by
  unfold PP.stepOrResource
  ok
macro_rules | `(tactic| okl) => `(tactic| (with_reducible refine Ok.stepOrResource ?_; assumption))

theorem Ok.assignmentBody : Ok env base ns (PP.assignmentBody self) ns (Named ns) := by
  unfold PP.assignmentBody
  ok

theorem Ok.atomBody : Ok env base ns (PP.atomBody self) ns (Named ns) := by
  unfold PP.atomBody
  ok

theorem Ok.stepExpression : Ok env base ns (PP.stepExpression self) ns (Named ns) := by
  unfold PP.stepExpression
  ok
macro_rules | `(tactic| okl) => `(tactic| (with_reducible refine Ok.stepExpression ?_; assumption))

theorem Ok.activitiesBody {acc : List Expr} (h : AllN ns acc) : Ok env base ns (PP.activitiesBody self acc) ns (AllN ns) := by
  unfold PP.activitiesBody
  ok

theorem step_HS : HS env base (step self) := by
  intro n ns hp
  cases n with
  | nextToken => exact Ok.nextTokenBody H
  | delim => exact Ok.delimBody H hp
  | escapes => exact Ok.escapesBody H hp
  | parse => exact Ok.parseBody H
  | stmts => exact Ok.stmtsBody H hp
  | commaArgs => exact Ok.commaArgsBody H hp
  | exprs => exact Ok.exprsBody H hp
  | assignment => exact Ok.assignmentBody H
  | assignLoop => exact Ok.assignLoopBody H hp
  | expression => exact Ok.expressionBody H
  | selLoop => exact Ok.selLoopBody H hp
  | binary => exact Ok.binaryBody H
  | binLoop => exact Ok.binLoopBody H hp
  | unary => exact Ok.unaryBody H
  | primary => exact Ok.primaryBody H
  | primLoop => exact Ok.primLoopBody H hp
  | atom => exact Ok.atomBody H
  | ifExpr => exact Ok.ifBody H
  | caseOptions => exact Ok.caseOptionsBody H hp
  | resourceExpr => exact Ok.resourceExprBody H hp
  | resourceBodies => exact Ok.resourceBodiesBody H hp.1 hp.2
  | attrOps => exact Ok.attrOpsBody H hp
  | hostnames => exact Ok.hostnamesBody H hp
  | dottedName => exact Ok.dottedNameBody H
  | activities => exact Ok.activitiesBody H hp
  | eppLoop => exact Ok.eppLoopBody H hp

omit H in
theorem run_HS (f : Nat) : HS env base (run f) := by
  induction f with
  | zero => exact fun _ _ _ => Ok.timeout
  | succ f ih => exact step_HS ih

omit H in
theorem Ok.asEppLambda {e : Expr} (h : Named ns e) : Ok env base ns (PP.asEppLambda e) ns (Named ns) := by
  unfold PP.asEppLambda mkEpp
  ok
macro_rules | `(tactic| okl) => `(tactic| (with_reducible refine Ok.asEppLambda ?_; nm; done))

theorem Ok.parseEpp : Ok env base ns (PP.parseEpp self) ns (Named ns) := by
  unfold PP.parseEpp mkEpp
  ok
macro_rules | `(tactic| okl) => `(tactic| (with_reducible refine Ok.parseEpp ?_; assumption))

theorem Ok.parseTop {b : Bool} : Ok env base ns (PP.parseTop self b) ns (Named ns) := by
  unfold PP.parseTop
  ok

/-- What a run of the parser gives. -/
theorem parseProgram_named {b : Bool} {s t : St} {e : Expr} (hv : ∀ x, s.val = .expr x → Any x)
    (hp : PP.parseProgram self b env s = .ok e t) (hb : base = s.names) :
    Named s.names e ∧ t.names = s.names ∧ (∀ x, t.val = .expr x → Any x) ∧ ∀ d ∈ t.defs, ∃ ns, s.names <+: ns ∧ Named ns d := by
  subst hb
  let u : St := { s with pos := 0, defs := [], nls := none }
  have hi : I s.names u := ⟨hv, (fun _ h => nomatch h), List.prefix_refl _⟩
  have hrest : PP.parseProgram self b env s = (do
      let e ← PP.parseTop self b
      if b then Pure.pure e
      else do
        let s ← PP.getS
        Pure.pure (.program ⟨0, s.pos⟩ e s.defs)) env u := rfl
  rw [hrest] at hp
  have hok : Ok env s.names s.names (do
      let e ← PP.parseTop self b
      if b then Pure.pure e
      else do
        let s ← PP.getS
        Pure.pure (.program ⟨0, s.pos⟩ e s.defs)) s.names (Named s.names) := by
    refine Ok.bind (Ok.parseTop H) fun e he => ?_
    ok
  obtain ⟨h1, h2, h3⟩ := hok u e t hi rfl hp
  exact ⟨h3, h2, h1.val, h1.defs⟩
end
end PP.Qu
