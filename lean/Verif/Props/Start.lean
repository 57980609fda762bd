import Verif.Lemmas.Tree
import Verif.Spec.Start
import Verif.Props.Seen

/-!
# C58: nodes start where their construct starts
-/
namespace PP.Props
open PP

theorem _root_.PP.Tree.starts {env : Env} {D : List Expr} {e : Expr} (h : Tree env D e) : Starts env.text env.workflow e := by
  cases h with
  | node h => exact h.starts
  | eppLambda => exact .inl rfl
  | _ => trivial

/-- C58: every node of a tree that the parser gives starts at the word or symbol that introduces it, or where its first
part starts. -/
theorem C58_starts {env : Env} {s t : St} {single : Bool} {e : Expr} (h : parseFrom env s single = (.value e, t)) :
    ∀ x ∈ subexpressions e, Starts env.text env.workflow x :=
  fun x hx => ((parsed_tree h).1.sub x hx).starts

/-- C58: the same for the definitions of a program. -/
theorem C58_definitions {env : Env} {s t : St} {p : Pos} {b : Expr} {ds : List Expr}
    (h : parseFrom env s false = (.value (.program p b ds), t)) :
    ∀ d ∈ ds, ∀ x ∈ subexpressions d, Starts env.text env.workflow x := by
  have h1 := parseFrom_spec env s false
  rw [h] at h1
  obtain ⟨h1, h2⟩ := h1
  rw [if_neg (by decide)] at h2
  obtain ⟨b', h3, -⟩ := h2
  cases h3
  exact fun d hd x hx => ((Tree.node (h1.defs d hd).2).sub x hx).starts

/-- The offsets of the nodes of a result, with the outermost first. -/
def offsets (o : Outcome) (keep : Expr → Bool) : List Nat :=
  match o with
  | .value e => (subexpressions e).filterMap fun x => if keep x then some x.off else none
  | _ => []

def isCall : Expr → Bool
  | .call .. => true
  | _ => false

/-- Words and symbols: `if` at 0, `!` at 3, the lambda at 15, `case` at 31. -/
example : offsets (parse { text := b!"if !$a { f(1) |$x| { $x } }    case $b { 1: { } }" } false)
    (fun | .ifE .. | .un _ .not _ | .lambda .. | .caseE .. => true | _ => false) = [0, 3, 14, 31] := by decide +kernel

/-- The exceptions of `Leads`: an access and a call start at the sign of their number, which starts after it. -/
example : offsets (parse { text := b!" -1[2]" } false) (fun | .integer .. | .access .. => true | _ => false) = [1, 2, 4] ∧
    offsets (parse { text := b!" +1 .abs" } false) (fun | .integer .. | .call .. => true | _ => false) = [1, 2] := by decide +kernel

/-- The exception of interpolation: the calls start at the text before `${`, the variable inside. -/
example : offsets (parse { text := b!"\"a${$x.foo.bar}\"" } false) (fun | .call .. => true | _ => false) = [1, 1] ∧
    offsets (parse { text := b!"\"a${$x.foo.bar}\"" } false) (fun | .un _ .variable _ => true | _ => false) = [4] := by decide +kernel

/-- The exception of steps: a property starts after its key. -/
example : offsets (parse { text := b!"workflow w { parameters => ($x) }", workflow := true } false)
    (fun | .keyedEntry .. => true | _ => false) = [23] := by decide +kernel

/-- The specification excludes wrong offsets. -/
example : ¬ Starts b!"  if a {}" false (.ifE ⟨1, 0⟩ false (.undef ⟨5, 0⟩) (.undef ⟨5, 0⟩) (.undef ⟨5, 0⟩)) ∧
    ¬ Starts b!"f() |$x| {}" false (.lambda ⟨3, 0⟩ [] (.block ⟨9, 0⟩ []) none) := by
  refine ⟨fun h => ?_, fun h => ?_⟩
  · rcases h with ⟨t, h⟩ | ⟨t, h⟩ <;> exact absurd (congrArg List.head? h) (by simp)
  · rcases h with h | ⟨t, h⟩
    · cases h
    · exact absurd (congrArg List.head? h) (by simp)

end PP.Props
