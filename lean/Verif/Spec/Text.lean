import Verif.Props.PN
import Verif.Props.Validator

/-!
# The strings in a tree

`strings e` are the strings that a node itself carries: names, operators and texts.
-/
namespace PP.Props

/-- The operator of a binary expression, where it is kept as a string. -/
def opString : BinKind → List GoStr
  | .arithmetic o | .assignment o | .comparison o | .match o | .relationship o => [o]
  | .and | .or | .in | .namedAccess => []

/-- The name of a parent class. -/
def parentString : DefKind → List GoStr
  | .hostClass p => [p]
  | .application | .define => []

/-- The strings of one node. -/
def strings : Expr → List GoStr
  | .bin _ k _ _ => opString k
  | .attributeOp _ op name _ => [op, name]
  | .capabilityMapping _ kind cap _ _ => [kind, cap]
  | .heredoc _ syntx _ => [syntx]
  | .string _ v | .regexp _ v | .renderString _ v => [v]
  | .namedDef _ k name _ _ => name :: parentString k
  | .function _ _ name _ _ _ => [name]
  | .parameter _ name _ _ _ => [name]
  | .qname _ name => [name]
  | .qref _ name downcased => [name, downcased]
  | .reserved _ word _ => [word]
  | .typeAlias _ name _ => [name]
  | .typeDefinition _ name parent _ => [name, parent]
  | .step _ name _ _ _ => [name]
  | _ => []

/-- All strings in `e` are UTF-8. -/
def Utf8Tree (e : Expr) : Prop := ∀ x ∈ subexpressions e, ∀ w ∈ strings x, ValidUtf8 w

/-- The definitions that a program lists. -/
def listed : Expr → List Expr
  | .program _ _ ds => ds
  | _ => []

end PP.Props
