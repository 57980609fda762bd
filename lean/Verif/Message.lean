import Verif.Validator

/-!
# Messages (validator/issues.go:47-155, parser/label.go)

The texts of the issues, the arguments they ask for and the names of the kinds of expressions.  The texts are filled by
the issue library (github.com/lyraproj/issue), which is not part of the repository: how it prints an argument is a
parameter here.
-/
namespace PP

/-- The formatters of the issue library that are used in validator/issues.go:47-155. -/
inductive Format where
  | label | anOrA | ucAnOrA
deriving DecidableEq, Repr

/-- The messages, validator/issues.go:47-155. -/
def VCode.template : VCode → GoStr
  | .appendsDeletesNoLongerSupported => b!"The operator '%{operator}' is no longer supported. See http://links.puppet.com/remove-plus-equals"
  | .capturesRestNotLast => b!"Parameter $%{param} is not last, and has 'captures rest'"
  | .capturesRestNotSupported => b!"Parameter $%{param} has 'captures rest' - not supported in %{container}"
  | .catalogOperationNotSupported => b!"The catalog operation '%{operation}' is only available when compiling a catalog"
  | .crossScopeAssignment => b!"Illegal attempt to assign to '%{name}'. Cannot assign to variables in other namespaces"
  | .duplicateDefault => b!"This %{container} already has a 'default' entry - this is a duplicate"
  | .duplicateKey => b!"The key '%{key}' is declared more than once"
  | .duplicateParameter => b!"The parameter '%{param}' is declared more than once in the parameter list"
  | .futureReservedWord => b!"Use of future reserved word: '%{word}'"
  | .idemExpressionNotLast => b!"This %{expression} has no effect. A value was produced and then forgotten (one or more preceding expressions may have the wrong form)"
  | .idemNotAllowedLast => b!"This %{expression} has no effect. %{container} can not end with a value-producing expression without other effect"
  | .illegalAssignmentContext => b!"Assignment not allowed here"
  | .illegalAssignmentViaIndex => b!"Illegal attempt to assign via [index/key]. Not an assignable reference"
  | .illegalAttributeAppend => b!"Illegal +> operation on attribute %{attr}. This operator can not be used in %{expression}"
  | .illegalClassref => b!"Illegal type reference. The given name '%{name}' does not conform to the naming rule"
  | .illegalDefinitionName => b!"Unacceptable name. The name '%{name}' is unacceptable as the name of %{value}"
  | .illegalExpression => b!"Illegal expression. %{expression} is unacceptable as %{feature} in %{container}"
  | .illegalHostnameChars => b!"The hostname '%{hostname}' contains illegal characters (only letters, digits, '_', '-', and '.' are allowed)"
  | .illegalHostnameInterpolation => b!"An interpolated expression is not allowed in a hostname of a node"
  | .illegalNumericAssignment => b!"Illegal attempt to assign to the numeric match result variable '$%{var}'. Numeric variables are not assignable"
  | .illegalNumericParameter => b!"The numeric parameter name '$%{name}' cannot be used (clashes with numeric match result variables)"
  | .illegalParameterName => b!"Illegal parameter name. The given name '%{name}' does not conform to the naming rule /^[a-z_]\\w*$/"
  | .illegalQueryExpression => b!"Illegal query expression. %{expression} cannot be used in a query"
  | .illegalRegexpTypeMapping => b!"Illegal type mapping. Expected a Tuple[Regexp,String] on the left side, got %{expression}"
  | .illegalSingleTypeMapping => b!"Illegal type mapping. Expected a Type on the left side, got %{expression}"
  | .invalidStepStyle => b!"Expected one of 'for', 'function', 'guard', 'resource', or 'workflow'. Got '%{style}'"
  | .multipleAttributesUnfold => b!"Unfolding of attributes from Hash can only be used once per resource body"
  | .notAbsoluteTopLevel => b!"%{value} may only appear at top level"
  | .notRvalue => b!"Invalid use of expression. %{value} does not produce a value"
  | .notTopLevel => b!"Classes, definitions, and nodes may only appear at top level or inside other classes"
  | .notVirtualizable => b!"Resource Defaults/Overrides are not virtualizable"
  | .reservedParameter => b!"The parameter $%{param} redefines a built in parameter in %{container}"
  | .reservedTypeName => b!"The name: '%{name}' is already defined by Puppet and can not be used as the name of %{expression}"
  | .reservedWord => b!"Use of reserved word: %{word}, must be quoted if intended to be a String value"
  | .unsupportedExpression => b!"Expressions of type %{expression} are not supported in this version of Puppet"
  | .unsupportedOperatorInContext => b!"The operator '%{operator}' in %{value} is not supported"
  | .workflowOperationNotSupported => b!"The workflow operation '%{operation}' is only available when compiling workflows"

/-- The formatters of the arguments (`issue.HF`), validator/issues.go:47-155. -/
def VCode.formats : VCode → List (GoStr × Format)
  | .capturesRestNotSupported => [(b!"container", .anOrA)]
  | .duplicateDefault => [(b!"container", .label)]
  | .idemExpressionNotLast => [(b!"expression", .label)]
  | .idemNotAllowedLast => [(b!"expression", .label), (b!"container", .ucAnOrA)]
  | .illegalAttributeAppend => [(b!"expression", .anOrA)]
  | .illegalDefinitionName => [(b!"value", .anOrA)]
  | .illegalExpression => [(b!"expression", .ucAnOrA), (b!"container", .anOrA)]
  | .illegalQueryExpression => [(b!"expression", .ucAnOrA)]
  | .illegalRegexpTypeMapping => [(b!"expression", .anOrA)]
  | .illegalSingleTypeMapping => [(b!"expression", .anOrA)]
  | .notAbsoluteTopLevel => [(b!"value", .ucAnOrA)]
  | .notRvalue => [(b!"value", .ucAnOrA)]
  | .reservedParameter => [(b!"container", .anOrA)]
  | .reservedTypeName => [(b!"expression", .anOrA)]
  | .unsupportedExpression => [(b!"expression", .anOrA)]
  | .unsupportedOperatorInContext => [(b!"value", .anOrA)]
  | _ => []

/-- A part of a message: a byte, or `%{key}`.  In the texts of validator/issues.go:47-155. -/
inductive Piece where
  | byte (b : UInt8)
  | key (k : GoStr)
deriving DecidableEq, Repr

/-- The pieces of a text of validator/issues.go:47-155; the first argument is the key that is being read.  The syntax
is that of the issue library. -/
def pieces : Option GoStr → GoStr → List Piece
  | none, a :: b :: s =>
    if a == c%'%' && b == c%'{' then pieces (some []) s else .byte a :: pieces none (b :: s)
  | none, [a] => [.byte a]
  | none, [] => []
  | some k, a :: s => if a == c%'}' then .key k :: pieces none s else pieces (some (k ++ [a])) s
  | some _, [] => []

/-- The key of a piece of a text of validator/issues.go:47-155. -/
def Piece.key? : Piece → Option GoStr
  | .key k => some k
  | _ => none

/-- The keys that a message asks for, validator/issues.go:47-155. -/
def VCode.keys (c : VCode) : List GoStr := (pieces none c.template).filterMap Piece.key?

/-- A message (`Reported.String` of the issue library, used in validator/validator.go:94) with `render` for the way
the library prints an argument; `none`: the message asks for an argument that is not there. -/
def Issue.message (render : Option Format → Arg → GoStr) (i : Issue) : Option GoStr :=
  (pieces none i.code.template).foldr (fun p r => match p with
    | .byte b => r.map (b :: ·)
    | .key k => match i.args.lookup k, r with
      | some a, some r => some (render (i.code.formats.lookup k) a ++ r)
      | _, _ => none) (some [])

/-- `Label` of a class with an operator, e.g. parser/label.go:15. -/
def opLabel (op : GoStr) : GoStr := b!"'" ++ op ++ b!"' expression"

/-- `Label`, parser/label.go:8-78.  Classes without a method have the one of `Positioned` (line 8); a `PlanDefinition`
has the one of the embedded `FunctionDefinition`, a `commaSeparatedList` the one of the embedded `LiteralList`. -/
def Expr.label : Expr → GoStr
  | .step .. => b!"Step"
  | .access .. => b!"'[]' expression"
  | .bin _ k _ _ => match k with
    | .and => b!"'and' expression"
    | .or => b!"'or' expression"
    | .in => b!"'in' expression"
    | .namedAccess => b!"'.' expression"
    | .arithmetic op | .assignment op | .comparison op | .match op | .relationship op => opLabel op
  | .un _ k _ => match k with
    | .not => b!"'!' expression"
    | .paren => b!"Positioned"
    | .render => b!"Epp Interpolated Expression"
    | .text => b!"Text expression"
    | .minus => b!"Unary Minus"
    | .unfold => b!"Unfold"
    | .variable => b!"Variable"
  | .query _ true _ => b!"Exported Query"
  | .query _ false _ => b!"Virtual Query"
  | .attributeOp _ op _ _ => opLabel op
  | .attributesOp .. => b!"AttributesOperation"
  | .block .. => b!"Block Expression"
  | .call _ k _ _ _ _ => match k with
    | .function => b!"Positioned"
    | .method => b!"Method Call"
    | .named => b!"Function Call"
  | .capabilityMapping .. => b!"Capability Mapping"
  | .caseE .. => b!"'case' statement"
  | .caseOption .. => b!"CaseOption"
  | .collect .. => b!"CollectExpression"
  | .concat .. => b!"Concatenated String"
  | .epp .. => b!"Epp Template"
  | .heredoc .. => b!"Heredoc"
  | .ifE _ false _ _ _ => b!"'if' statement"
  | .ifE _ true _ _ _ => b!"'unless' statement"
  | .keyedEntry .. => b!"Hash Entry"
  | .lambda .. => b!"Positioned"
  | .boolean .. => b!"Literal Boolean"
  | .dflt _ => b!"'default' expression"
  | .float .. => b!"Literal Float"
  | .hash .. => b!"Hash Expression"
  | .integer .. => b!"Literal Integer"
  | .list .. => b!"Array expression"
  | .string .. => b!"Literal String"
  | .undef _ => b!"'undef' expression"
  | .nop _ => b!"Nop"
  | .namedDef _ k _ _ _ => match k with
    | .application => b!"Application"
    | .define => b!"'define' expression"
    | .hostClass _ => b!"Host Class Definition"
  | .function .. => b!"Function Definition"
  | .node .. => b!"Node Definition"
  | .parameter .. => b!"Parameter Definition"
  | .program .. => b!"Program"
  | .qname .. => b!"Name"
  | .qref .. => b!"Type-Name"
  | .regexp .. => b!"Regular Expression"
  | .renderString .. => b!"Epp Text"
  | .reserved _ w _ => b!"Reserved Word '" ++ w ++ b!"'"
  | .resource .. => b!"Resource Statement"
  | .resourceBody .. => b!"Resource Instance Definition"
  | .resourceDefaults .. => b!"Resource Defaults Expression"
  | .resourceOverride .. => b!"Resource Override"
  | .selector .. => b!"Selector expression"
  | .selectorEntry .. => b!"Selector option"
  | .site .. => b!"Site Definition"
  | .typeAlias .. => b!"Type Alias"
  | .typeDefinition .. => b!"Type Definition"
  | .typeMapping .. => b!"Type Mapping"
  | .commaSep .. => b!"Array expression"

end PP
