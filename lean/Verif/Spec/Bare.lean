import Verif.Spec.Grammar

/-! # Trees without positions -/
namespace PP.Spec

mutual
/-- The tree with every position replaced by `z`. -/
def bare : Expr → Expr
  | .access _ a b => .access z (bare a) (bareL b)
  | .bin _ a b c => .bin z a (bare b) (bare c)
  | .un _ a b => .un z a (bare b)
  | .query _ a b => .query z a (bare b)
  | .attributeOp _ a b c => .attributeOp z a b (bare c)
  | .attributesOp _ a => .attributesOp z (bare a)
  | .block _ a => .block z (bareL a)
  | .call _ a b c d e => .call z a b (bare c) (bareL d) (bareO e)
  | .capabilityMapping _ a b c d => .capabilityMapping z a b (bare c) (bareL d)
  | .caseE _ a b => .caseE z (bare a) (bareL b)
  | .caseOption _ a b => .caseOption z (bareL a) (bare b)
  | .collect _ a b c => .collect z (bare a) (bare b) (bareL c)
  | .concat _ a => .concat z (bareL a)
  | .epp _ a b => .epp z a (bare b)
  | .heredoc _ a b => .heredoc z a (bare b)
  | .ifE _ a b c d => .ifE z a (bare b) (bare c) (bare d)
  | .keyedEntry _ a b => .keyedEntry z (bare a) (bare b)
  | .lambda _ a b c => .lambda z (bareL a) (bare b) (bareO c)
  | .boolean _ a => .boolean z a
  | .dflt _ => .dflt z
  | .float _ a => .float z a
  | .hash _ a => .hash z (bareL a)
  | .integer _ a b => .integer z a b
  | .list _ a => .list z (bareL a)
  | .string _ a => .string z a
  | .undef _ => .undef z
  | .nop _ => .nop z
  | .namedDef _ a b c d => .namedDef z a b (bareL c) (bare d)
  | .function _ a b c d e => .function z a b (bareL c) (bare d) (bareO e)
  | .node _ a b c => .node z (bareO a) (bareL b) (bare c)
  | .parameter _ a b c d => .parameter z a (bareO b) (bareO c) d
  | .program _ a b => .program z (bare a) (bareL b)
  | .qname _ a => .qname z a
  | .qref _ a b => .qref z a b
  | .regexp _ a => .regexp z a
  | .renderString _ a => .renderString z a
  | .reserved _ a b => .reserved z a b
  | .resource _ a b c => .resource z a (bare b) (bareL c)
  | .resourceBody _ a b => .resourceBody z (bare a) (bareL b)
  | .resourceDefaults _ a b c => .resourceDefaults z a (bare b) (bareL c)
  | .resourceOverride _ a b c => .resourceOverride z a (bare b) (bareL c)
  | .selector _ a b => .selector z (bare a) (bareL b)
  | .selectorEntry _ a b => .selectorEntry z (bare a) (bare b)
  | .site _ a => .site z (bare a)
  | .typeAlias _ a b => .typeAlias z a (bare b)
  | .typeDefinition _ a b c => .typeDefinition z a b (bare c)
  | .typeMapping _ a b => .typeMapping z (bare a) (bare b)
  | .step _ a b c d => .step z a b (bareO c) (bareO d)
  | .commaSep _ a => .commaSep z (bareL a)
def bareL : List Expr → List Expr
  | [] => []
  | e :: es => bare e :: bareL es
def bareO : Option Expr → Option Expr
  | none => none
  | some e => some (bare e)
end

end PP.Spec
