import Verif.Ast

/-!
# What becomes of lists of arguments and lists of statements

Specifications for C44 and C45.
-/
namespace PP.Spec

/-- `key => value` -/
inductive Pair : Expr → Prop
  | mk (p k v) : Pair (.keyedEntry p k v)

/-- The end of a node. -/
def endOf (e : Expr) : Int := e.off + e.len

/-- `Gathered es r`: in `r` every longest run of pairs of `es` is one hash that reaches from its first to its last pair, and
everything else is as in `es`. -/
inductive Gathered : List Expr → List Expr → Prop
  | nil : Gathered [] []
  | other {e es r} : ¬ Pair e → Gathered es r → Gathered (e :: es) (e :: r)
  | run {first last pairs p es r} : (∀ e ∈ pairs, Pair e) → pairs.head? = some first → pairs.getLast? = some last →
      p.off = first.off → endOf (.hash p pairs) = endOf last → (∀ e, es.head? = some e → ¬ Pair e) → Gathered es r →
      Gathered (pairs ++ es) (.hash p pairs :: r)

/-- The name of a function that can be called without parentheses. -/
inductive StatementName : Expr → Prop
  | mk (p n) : n ∈ [b!"require", b!"realize", b!"include", b!"contain", b!"tag", b!"debug", b!"info", b!"notice", b!"warning",
      b!"err", b!"fail", b!"import", b!"break", b!"next", b!"return"] → StatementName (.qname p n)

/-- A call as a statement (`v = false`) or as a value; nothing else has such a mark. -/
inductive Marked (v : Bool) : Expr → Expr → Prop
  | call (p w f args lam) : Marked v (.call p .named w f args lam) (.call p .named v f args lam)
  | other {e} : (∀ p w f args lam, e ≠ .call p .named w f args lam) → Marked v e e

/-- The arguments of a call without parentheses: what follows the name, or the elements of the list `a, b, c`. -/
inductive Arguments : Expr → List Expr → Prop
  | list (p es) : Arguments (.commaSep p es) es
  | single {e e'} : (∀ p es, e ≠ .commaSep p es) → Marked true e e' → Arguments e [e']

/-- `Statements es r`: the statements `r` of a block in which the expressions `es` follow each other.  The name of a
statement function takes the following expression as its argument, except at the end of the block. -/
inductive Statements : List Expr → List Expr → Prop
  | nil : Statements [] []
  | name {m} : StatementName m → Statements [m] [m]
  | call {m e args es r p} : StatementName m → Arguments e args → p.off = m.off →
      (p.off : Int) + p.len = endOf e → Statements es r →
      Statements (m :: e :: es) (.call p .named false m args none :: r)
  | other {e e' es r} : ¬ StatementName e → Marked false e e' → Statements es r → Statements (e :: es) (e' :: r)

end PP.Spec
