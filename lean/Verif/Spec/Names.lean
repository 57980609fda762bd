import Verif.Ast

/-!
# How declared names are qualified

`Named ns e`: what is declared in `e` bears the names it should bear if `ns` are the names of the constructs around `e`, outermost
first.  A class, a step and a capability mapping that are written with the name `n` are called `ns` and `n`, joined by `::`; what is
written in a class, a plan or a workflow has one more name around it.

In a string the names around may be others: see `C33_violated_in_string`.
-/
namespace PP.Props

/-- Constructs that bear a qualified name or qualify the names inside, and interpolated parts of strings. -/
def qualifies : Expr → Bool
  | .namedDef _ (.hostClass _) .. => true
  | .function _ plan .. => plan
  | .step .. => true
  | .capabilityMapping .. => true
  | .un _ .text _ => true
  | _ => false

/-- Names joined by `::`. -/
def qualified : List GoStr → GoStr
  | [] => []
  | [n] => n
  | n :: ns => n ++ b!"::" ++ qualified ns

inductive Named : List GoStr → Expr → Prop
  /-- `class n(ps) { b }` -/
  | hostClass {ns n p parent ps b} : (∀ x ∈ ps, Named (ns ++ [n]) x) → Named (ns ++ [n]) b →
      Named ns (.namedDef p (.hostClass parent) (qualified (ns ++ [n])) ps b)
  /-- `plan n(ps) >> rt { b }`: a plan keeps its name, but qualifies what is inside. -/
  | plan {ns n p ps b rt} : (∀ x ∈ ps, Named (ns ++ [n]) x) → (∀ x ∈ rt, Named (ns ++ [n]) x) → Named (ns ++ [n]) b →
      Named ns (.function p true n ps b rt)
  /-- `workflow n { props } { d }` -/
  | workflow {ns n p props d} : (∀ x ∈ props, Named (ns ++ [n]) x) → (∀ x ∈ d, Named (ns ++ [n]) x) →
      Named ns (.step p (qualified (ns ++ [n])) .workflow props d)
  /-- other steps -/
  | step {ns n p style props d} : style ≠ .workflow → (∀ x ∈ props, Named ns x) → (∀ x ∈ d, Named ns x) →
      Named ns (.step p (qualified (ns ++ [n])) style props d)
  /-- `component produces n { ms }` -/
  | mapping {ns n p kind c ms} : Named ns c → (∀ x ∈ ms, Named ns x) →
      Named ns (.capabilityMapping p kind (qualified (ns ++ [n])) c ms)
  /-- `${x}` in a string: the names around it need not be those around the string, see `C33_violated_in_string`. -/
  | interpolation {ns ms p x} : Named ms x → Named ns (.un p .text x)
  | other {ns e} : qualifies e = false → (∀ k ∈ e.kids, Named ns k) → Named ns e

end PP.Props
