import Verif.Ast

/-!
# The operators and keywords that a tree keeps as text
-/
namespace PP.Spec

/-- The operators, in the classes that the parser makes of them. -/
def operators : List (GoStr × BinKind) :=
  [(b!"and", .and), (b!"or", .or), (b!"in", .in), (b!".", .namedAccess)] ++
  [b!"+", b!"-", b!"*", b!"/", b!"%", b!"<<", b!">>"].map (fun o => (o, .arithmetic o)) ++
  [b!"=", b!"+=", b!"-="].map (fun o => (o, .assignment o)) ++
  [b!"==", b!"!=", b!"<", b!">", b!"<=", b!">="].map (fun o => (o, .comparison o)) ++
  [b!"=~", b!"!~"].map (fun o => (o, .match o)) ++
  [b!"->", b!"~>", b!"<-", b!"<~"].map (fun o => (o, .relationship o))

/-- The words and operators kept in a node are the ones of the language. -/
def KnownWords : Expr → Prop
  | .bin _ k _ _ => ∃ o, (o, k) ∈ operators
  | .attributeOp _ op _ _ => op = b!"=>" ∨ op = b!"+>"
  | .capabilityMapping _ kind _ _ _ => kind = b!"produces" ∨ kind = b!"consumes"
  | .reserved _ _ future => future = false
  | .epp _ paramsSpecified _ => paramsSpecified = true
  | _ => True

end PP.Spec
