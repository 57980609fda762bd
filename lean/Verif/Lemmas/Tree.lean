import Verif.Lemmas.Parse9
import Verif.Props.ToPN

/-!
# Everything inside a parse result

`Tree env D e`: `e` occurs in a tree built by the parser.  `Node` describes the nodes by role; a few
contained expressions (parameter lists and property hashes of workflow steps, bodies of workflows, the
wrapping of a template) have no role of their own.
-/
namespace PP
open PP.Expr PP.Props

inductive Tree (env : Env) (D : List Expr) : Expr → Prop
  | node {σ e} : Node env D σ e → Tree env D e
  | paramList {q es} : okPos env q → AllN env D .param es → Tree env D (.list q es)
  | propHash {q es} : okPos env q → AllN env D .prop es → Tree env D (.hash q es)
  | acts {q es} : okPos env q → env.workflow = true → AllN env D .activity es → Tree env D (.block q es)
  | epp {q b} : okPos env q → env.epp = true → Node env D .block b → Tree env D (.epp q true b)
  | eppLambda {p ps q b} : okPos env p → okPos env q → env.epp = true → AllN env D .param ps →
      Node env D .block b → Tree env D (.lambda p ps (.epp q true b) none)
  | program {p b} : okPos env p → TopBody env D b → Tree env D (.program p b D)

section
variable {env : Env} {D : List Expr}

theorem TopBody.tree {e : Expr} (h : TopBody env D e) : Tree env D e := by
  rcases h with ⟨-, h⟩ | ⟨he, p, ps, q, b, rfl, h1, h2, h3, h4⟩
  · exact .node h
  · exact .eppLambda h1 h2 he h3 h4

theorem Node.kids {σ : Role} {e : Expr} (h : Node env D σ e) : ∀ k ∈ e.kids, Tree env D k := by
  induction h with
  | operand _ ih => exact ih
  | stmt _ ih => exact ih
  | elseBlock _ ih => exact ih
  | elseIf _ ih => exact ih
  | step _ _ _ ih => exact ih
  | activityFunction _ ih => exact ih
  | activityStep h1 h2 hw h3 h4 h5 h6 h7 h8 =>
    intro k hk
    rename_i st q es d _ _ _ _
    simp only [Expr.kids, List.mem_append, Option.mem_toList] at hk
    rcases hk with hk | hk
    · split at hk
      · cases hk
      · cases hk; exact .propHash h2 h3
    · cases hst : decide (st = .workflow)
      · cases hst2 : decide (st = .resource)
        · exact .node (h4 k hk (by simpa using hst) (by simpa using hst2))
        · exact .node (h5 k hk (by simpa using hst2))
      · obtain ⟨r, acts, rfl⟩ := h6 k hk (by simpa using hst)
        exact .acts (h7 r acts hk (by simpa using hst)) hw (h8 r acts hk (by simpa using hst))
  | prop _ h1 h2 h3 =>
    intro k hk
    simp only [Expr.kids, List.mem_cons, List.not_mem_nil, or_false] at hk
    rcases hk with rfl | rfl
    · exact .node h2
    · exact .node h3
  | propList _ h1 h2 h3 h4 =>
    intro k hk
    simp only [Expr.kids, List.mem_cons, List.not_mem_nil, or_false] at hk
    rcases hk with rfl | rfl
    · exact .node h2
    · exact .paramList h3 h4
  | propHash _ h1 h2 h3 h4 =>
    intro k hk
    simp only [Expr.kids, List.mem_cons, List.not_mem_nil, or_false] at hk
    rcases hk with rfl | rfl
    · exact .node h2
    · exact .propHash h3 h4
  | namedVar h1 h2 =>
    intro k hk
    simp only [Expr.kids, List.mem_singleton] at hk
    subst hk; exact .node (.qname h2)
  | numVar h1 h2 =>
    intro k hk
    simp only [Expr.kids, List.mem_singleton] at hk
    subst hk; exact .node (.integer h2)
  | queryNop h1 _ h2 =>
    intro k hk
    simp only [Expr.kids, List.mem_singleton] at hk
    subst hk; exact .node (.elseNop h2)
  | heredocString h1 h2 =>
    intro k hk
    simp only [Expr.kids, List.mem_singleton] at hk
    subst hk; exact .node (.string h2)
  | heredocConcat h1 h2 h3 =>
    intro k hk
    simp only [Expr.kids, List.mem_singleton] at hk
    subst hk; exact .node (.concat h2 h3)
  | _ =>
    intro k hk
    simp only [Expr.kids, List.mem_append, List.mem_cons, List.not_mem_nil, or_false, Option.mem_toList] at hk
    try grind [Tree.node]

theorem Tree.kids {e : Expr} (h : Tree env D e) : ∀ k ∈ e.kids, Tree env D k := by
  cases h with
  | node h => exact h.kids
  | paramList _ h => exact fun k hk => .node (h k hk)
  | propHash _ h => exact fun k hk => .node (h k hk)
  | acts _ _ h => exact fun k hk => .node (h k hk)
  | epp _ _ h => 
    intro k hk
    simp only [Expr.kids, List.mem_singleton] at hk
    subst hk; exact .node h
  | eppLambda h1 h2 he h3 h4 =>
    intro k hk
    simp only [Expr.kids, List.mem_append, List.mem_cons, Option.toList_none, List.not_mem_nil, or_false] at hk
    rcases hk with hk | rfl
    · exact .node (h3 k hk)
    · exact .epp h2 he h4
  | program _ h =>
    intro k hk
    simp only [Expr.kids, List.mem_singleton] at hk
    subst hk; exact h.tree

/-- Everything contained in a tree is a tree. -/
theorem Tree.sub {e : Expr} (h : Tree env D e) : ∀ x ∈ subexpressions e, Tree env D x := by
  induction e using kidsInduction with
  | step e ih =>
    rw [subexpressions, List.forall_mem_cons, allContents_kids]
    refine ⟨h, fun x hx => ?_⟩
    obtain ⟨k, hk, hx⟩ := List.mem_flatMap.1 hx
    exact ih k hk (h.kids k hk) x hx

/-- A parse result is a tree; so are the definitions. -/
theorem parsed_tree {env : Env} {s : St} {single : Bool} {e : Expr} {t : St}
    (h : parseFrom env s single = (.value e, t)) : Tree env t.defs e ∧ Done env s t := by
  have h1 := parseFrom_spec env s single
  rw [h] at h1
  obtain ⟨h1, h2⟩ := h1
  refine ⟨?_, h1⟩
  split at h2
  · split at h2
    · exact .node h2.1
    · exact h2.tree
  · obtain ⟨b, rfl, h2⟩ := h2
    exact .program (Nat.zero_le _) h2

end
end PP
