import Verif.Spec.Bare

/-!
# What the printed AST tells

Positions and the list of definitions are not printed, `elsif` is printed as `else` with an `if` in it, and the list that a
dangling comma makes (F23) as an array.
-/
namespace PP.Spec

/-- `elsif ...` as `else { if ... }`. -/
def elseBlock : Expr → Expr
  | .ifE p u c t e => .block z [.ifE p u c t e]
  | e => e

mutual
/-- The tree with every position replaced by `z`, `elsif` written as `else { if ... }`, dangling commas as arrays and a
program as its body. -/
def canon : Expr → Expr
  | .access _ a b => .access z (canon a) (canonL b)
  | .bin _ a b c => .bin z a (canon b) (canon c)
  | .un _ a b => .un z a (canon b)
  | .query _ a b => .query z a (canon b)
  | .attributeOp _ a b c => .attributeOp z a b (canon c)
  | .attributesOp _ a => .attributesOp z (canon a)
  | .block _ a => .block z (canonL a)
  | .call _ a b c d e => .call z a b (canon c) (canonL d) (canonO e)
  | .capabilityMapping _ a b c d => .capabilityMapping z a b (canon c) (canonL d)
  | .caseE _ a b => .caseE z (canon a) (canonL b)
  | .caseOption _ a b => .caseOption z (canonL a) (canon b)
  | .collect _ a b c => .collect z (canon a) (canon b) (canonL c)
  | .concat _ a => .concat z (canonL a)
  | .epp _ a b => .epp z a (canon b)
  | .heredoc _ a b => .heredoc z a (canon b)
  | .ifE _ a b c d => .ifE z a (canon b) (canon c) (elseBlock (canon d))
  | .keyedEntry _ a b => .keyedEntry z (canon a) (canon b)
  | .lambda _ a b c => .lambda z (canonL a) (canon b) (canonO c)
  | .boolean _ a => .boolean z a
  | .dflt _ => .dflt z
  | .float _ a => .float z a
  | .hash _ a => .hash z (canonL a)
  | .integer _ a b => .integer z a b
  | .list _ a => .list z (canonL a)
  | .string _ a => .string z a
  | .undef _ => .undef z
  | .nop _ => .nop z
  | .namedDef _ a b c d => .namedDef z a b (canonL c) (canon d)
  | .function _ a b c d e => .function z a b (canonL c) (canon d) (canonO e)
  | .node _ a b c => .node z (canonO a) (canonL b) (canon c)
  | .parameter _ a b c d => .parameter z a (canonO b) (canonO c) d
  | .program _ a _ => canon a
  | .qname _ a => .qname z a
  | .qref _ a b => .qref z a b
  | .regexp _ a => .regexp z a
  | .renderString _ a => .renderString z a
  | .reserved _ a b => .reserved z a b
  | .resource _ a b c => .resource z a (canon b) (canonL c)
  | .resourceBody _ a b => .resourceBody z (canon a) (canonL b)
  | .resourceDefaults _ a b c => .resourceDefaults z a (canon b) (canonL c)
  | .resourceOverride _ a b c => .resourceOverride z a (canon b) (canonL c)
  | .selector _ a b => .selector z (canon a) (canonL b)
  | .selectorEntry _ a b => .selectorEntry z (canon a) (canon b)
  | .site _ a => .site z (canon a)
  | .typeAlias _ a b => .typeAlias z a (canon b)
  | .typeDefinition _ a b c => .typeDefinition z a b (canon c)
  | .typeMapping _ a b => .typeMapping z (canon a) (canon b)
  | .step _ a b c d => .step z a b (canonO c) (canonO d)
  | .commaSep _ a => .list z (canonL a)
def canonL : List Expr → List Expr
  | [] => []
  | e :: es => canon e :: canonL es
def canonO : Option Expr → Option Expr
  | none => none
  | some e => some (canon e)
end

/-- What a program consists of; other expressions as they are. -/
def topBody : Expr → Expr
  | .program _ b _ => b
  | e => e

/-- A node that is printed in a way of its own: no `elsif`, no dangling comma, no program. -/
def AsWritten : Expr → Prop
  | .program .. | .commaSep .. | .ifE _ _ _ _ (.ifE ..) => False
  | _ => True

end PP.Spec
