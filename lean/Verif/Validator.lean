import Verif.Literal

/-!
# Validators (validator/validator.go, checker.go, tasks_checker.go, workflow_checker.go)
-/

namespace PP

/-- Issue codes, validator/issues.go:8-45. -/
inductive VCode where
  | appendsDeletesNoLongerSupported | capturesRestNotLast | capturesRestNotSupported
  | catalogOperationNotSupported | crossScopeAssignment | duplicateDefault | duplicateKey
  | duplicateParameter | futureReservedWord | idemExpressionNotLast | idemNotAllowedLast
  | illegalAssignmentContext | illegalAssignmentViaIndex | illegalAttributeAppend | illegalClassref
  | illegalDefinitionName | illegalExpression | illegalHostnameChars | illegalHostnameInterpolation
  | illegalNumericAssignment | illegalNumericParameter | illegalParameterName | illegalQueryExpression
  | illegalRegexpTypeMapping | illegalSingleTypeMapping | invalidStepStyle | multipleAttributesUnfold
  | notAbsoluteTopLevel | notRvalue | notTopLevel | notVirtualizable | reservedParameter
  | reservedTypeName | reservedWord | unsupportedExpression | unsupportedOperatorInContext
  | workflowOperationNotSupported
deriving DecidableEq, Repr, Inhabited

/-- `issue.Severity` of the issue library (github.com/lyraproj/issue), in increasing order.  Used in validator/validator.go:11-15. -/
inductive Severity where
  | ignore | deprecation | warning | error
deriving DecidableEq, Repr, Inhabited

/-- The order of the severities as integers.  Used in validator/validator.go:78-95. -/
def Severity.rank : Severity → Nat
  | .ignore => 1 | .deprecation => 2 | .warning => 3 | .error => 4

/-- `Strictness`, validator/validator.go:11-15, 43. -/
inductive Strictness where
  | off | warning | error
deriving DecidableEq, Repr, Inhabited

/-- The constants of validator/validator.go:11-15. -/
def Strictness.severity : Strictness → Severity
  | .off => .ignore | .warning => .warning | .error => .error

/-- `Strict`, validator/validator.go:52-63; `none` is the panic. -/
def strict (s : GoStr) : Option Strictness :=
  let l := toLowerGo s
  if l = b!"" then some .off
  else if l = b!"off" then some .off
  else if l = b!"warning" then some .warning
  else if l = b!"error" then some .error
  else none

/-- `Strictness.String`, validator/validator.go:65-76. -/
def Strictness.toStr : Strictness → GoStr
  | .off => b!"off" | .warning => b!"warning" | .error => b!"error"

/-- The value of an argument of a message (`issue.H`, e.g. validator/checker.go:252). -/
inductive Arg where
  /-- an expression -/
  | node (e : Expr)
  /-- `nil`: the container of an expression that is validated alone (validator/validator.go:99-105) -/
  | absent
  /-- a Go string -/
  | text (s : GoStr)
  /-- an int64 -/
  | int (n : Int)
  /-- `String()` of an expression, its text in the source (parser/expression.go:617-619) -/
  | source (e : Expr)

/-- An interface value that may be `nil`, e.g. validator/checker.go:247. -/
def Arg.opt : Option Expr → Arg
  | some e => .node e
  | none => .absent

/-- `issue.Reported` as built by `Accept`, validator/validator.go:94: code, severity, arguments of the message
and location. -/
structure Issue where
  code : VCode
  severity : Severity
  at_ : Expr
  args : List (GoStr × Arg)

/-- Which checker: `basicChecker`, `tasksChecker`, `workflowChecker`.  validator/checker.go:77-79, validator/tasks_checker.go:8-10 and validator/workflow_checker.go:8-10. -/
inductive CheckerKind where
  | puppet | tasks | workflow
deriving DecidableEq, Repr, Inhabited

/-- Why validation panics.  The places are in validator/checker.go:333-726, see each. -/
inductive VPanic where
  /-- `ToLiteral` panics (validator/checker.go:397, 637) -/
  | literal (e : LitErr)
  /-- `key.ToPN()` panics (validator/checker.go:400) -/
  | toPN (p : Expr.PNPanic)
  /-- `key.String()` slices the source out of bounds (validator/checker.go:403, parser/expression.go:617-619) -/
  | slice
  /-- a type assertion fails (validator/checker.go:333, 396, 522, 676, 685, 726, 638) -/
  | assertion
deriving Repr

/-- The immutable part of a validator, plus the runtime functions it relies on.  validator/checker.go:77-79. -/
structure Checker where
  kind : CheckerKind := .puppet
  strict : Strictness := .error
  /-- length of the source the locator of the expressions refers to -/
  textLen : Nat := 0
  /-- Go's `==` on the float64 values of two float literals -/
  feq : FloatVal → FloatVal → Bool := fun a b => a == b
  /-- rendering of floats, see `PN.format` -/
  ff : FloatVal → GoStr := fun v => v.text

/-- A check either panics or appends issues.  Calls of `Accept`, validator/validator.go:88-96. -/
abbrev VM := Except VPanic (List Issue)

/-- Two checks after each other.  Go's `;`, not a function (e.g. validator/checker.go:138 ff). -/
def VM.seq (a b : VM) : VM := do
  let x ← a
  let y ← b
  return x ++ y

infixr:60 " ⊹ " => VM.seq

/-- A loop of checks.  Go's `for range`, e.g. validator/checker.go:395. -/
def vforEach (f : Expr → VM) : List Expr → VM
  | [] => .ok []
  | e :: es => f e ⊹ vforEach f es

/-- No issues.  not a function (e.g. validator/checker.go:138 ff). -/
def vnone : VM := .ok []

/-! ## The regular expressions of validator/checker.go:12-32 -/

/-- `\w`.  In the expressions of validator/checker.go:12-32. -/
def isWordByte (b : UInt8) : Bool :=
  isLetterOrDigit b.toNat

/-- `[A-Z]` in validator/checker.go:12-32. -/
def isUpperByte (b : UInt8) : Bool := isUppercaseLetter b.toNat
/-- `[a-z]` in validator/checker.go:12-32. -/
def isLowerByte (b : UInt8) : Bool := isLowercaseLetter b.toNat

/-- `::` occurs (DoubleColonExpr, validator/checker.go:12). -/
def hasDoubleColon : GoStr → Bool
  | a :: b :: s => (a == c%':' && b == c%':') || hasDoubleColon (b :: s)
  | _ => false

/-- `[first][\w]*(?:::[first][\w]*)*\z`; `start` says that a segment must start here.  validator/checker.go:12-32. -/
def segments (first : UInt8 → Bool) : Bool → GoStr → Bool
  | true, b :: s => first b && segments first false s
  | true, [] => false
  | false, [] => true
  | false, b :: s =>
    if isWordByte b then segments first false s
    else if b == c%':' then match s with
      | c :: t => c == c%':' && segments first true t
      | [] => false
    else false

/-- ClassrefExt, validator/checker.go:16. -/
def classrefExt (s : GoStr) : Bool :=
  match s with
  | a :: b :: t => if a == c%':' && b == c%':' then segments isUpperByte true t else segments isUpperByte true s
  | _ => segments isUpperByte true s

/-- ClassrefExtDecl, validator/checker.go:19. -/
def classrefExtDecl (s : GoStr) : Bool := segments isUpperByte true s

/-- ClassrefDecl, validator/checker.go:23. -/
def classrefDecl (s : GoStr) : Bool := segments isLowerByte true s

/-- IllegalHostnameChars, validator/checker.go:27: some character other than `-`, `.` and `\w`.  (A byte
of a multi-byte or invalid character is never one of these.) -/
def illegalHostnameChars (s : GoStr) : Bool :=
  s.any fun b => !(b == c%'-' || b == c%'.' || isWordByte b)

/-- ParamName, validator/checker.go:30. -/
def paramName : GoStr → Bool
  | [] => false
  | b :: s => (isLowerByte b || b == c%'_') && s.all isWordByte

/-- StartsWithNumber, validator/checker.go:32. -/
def startsWithNumber : GoStr → Bool
  | b :: _ => isDecimalDigit b.toNat
  | [] => false

/-- ReservedTypeNames, validator/checker.go:34-64. -/
def reservedTypeNames : List GoStr :=
  [b!"type", b!"any", b!"unit", b!"scalar", b!"boolean", b!"numeric", b!"integer", b!"float", b!"collection",
   b!"array", b!"hash", b!"tuple", b!"struct", b!"variant", b!"optional", b!"enum", b!"regexp", b!"pattern",
   b!"runtime", b!"init", b!"object", b!"sensitive", b!"semver", b!"semverrange", b!"string", b!"timestamp",
   b!"timespan", b!"typeset"]

/-- FutureReservedWords, validator/checker.go:66-70. -/
def futureReservedWords : List GoStr := [b!"application", b!"produces", b!"consumes"]

/-- ReservedParameters, validator/checker.go:72-75. -/
def reservedParameters : List GoStr := [b!"name", b!"title"]

/-! ## Type switches -/

namespace Expr

/-- implements `parser.UnaryExpression` (ToUnaryExpression, parser/expression.go:1502-2058): its operand. -/
def unaryOperand? : Expr → Option Expr
  | un _ _ e => some e
  | _ => none

/-- implements `parser.BinaryExpression` (Lhs and Rhs, parser/expression.go:808-814). -/
def isBinary : Expr → Bool
  | bin .. => true
  | _ => false

/-- implements `parser.LiteralValue`, see `toLit`.  `LiteralValue`, parser/expression.go:137-142. -/
def isLiteralValue : Expr → Bool
  | boolean .. | dflt _ | float .. | integer .. | string .. | undef _ | qname .. | qref .. | regexp ..
  | renderString .. | reserved .. => true
  | _ => false

/-- implements `parser.AbstractResource` (Form, parser/expression.go:690). -/
def isAbstractResource : Expr → Bool
  | resource .. | resourceDefaults .. | resourceOverride .. => true
  | _ => false

/-- Type test `*parser.QualifiedReference`, e.g. validator/checker.go:550. -/
def isQref : Expr → Bool
  | qref .. => true
  | _ => false

/-- Type test `*parser.LiteralDefault`, e.g. validator/checker.go:333. -/
def isDefault : Expr → Bool
  | dflt _ => true
  | _ => false

/-- Type test `*parser.CollectExpression`, validator/checker.go:153. -/
def isCollect : Expr → Bool
  | collect .. => true
  | _ => false

/-- `VariableExpression.Index` of a variable with this operand, parser/expression.go:2025-2031. -/
def index : Expr → Int
  | integer _ _ i => i
  | _ => 0

/-- Name of a `*parser.Parameter`.  parser/expression.go:365-371. -/
def param? : Expr → Option (GoStr × Bool)
  | parameter _ n _ _ c => some (n, c)
  | _ => none

end Expr

mutual
/-- `isIdem`, validator/checker.go:806-834, with `idemBlockExpression` 856-863, `idemCaseExpression`
865-875, `idemCaseOption` 877-884 and `idemIfExpression` 886-888. -/
def isIdem : Expr → Bool
  | .access .. | .concat .. | .heredoc .. | .list .. | .hash .. | .nop _ | .selector .. => true
  | .block _ ss => isIdemAll ss
  | .caseE _ t os => isIdem t && isIdemAll os
  | .caseOption _ vs t => isIdemAll vs && isIdem t
  | .ifE _ _ c t e => isIdem c && isIdem t && isIdem e
  | .un _ .paren e => isIdem e
  | .un _ .render _ => false
  | .renderString .. => false
  | .bin _ k _ _ => match k with
    | .assignment _ | .relationship _ | .match _ => false
    | _ => true
  | .un .. => true
  | .boolean .. | .dflt _ | .float .. | .integer .. | .string .. | .undef _ | .qname .. | .qref ..
  | .regexp .. | .reserved .. => true
  | _ => false

/-- The loops of validator/checker.go:856-884. -/
def isIdemAll : List Expr → Bool
  | [] => true
  | e :: es => isIdem e && isIdemAll es
end

namespace Checker
variable (v : Checker)

/-- The severities map after `initialize` (validator/checker.go:218-223; tasks and workflow checkers
pass StrictError, tasks_checker.go:12-16, workflow_checker.go:12-16) and the lookup in `Accept`
(validator/validator.go:89-92). -/
def severityOf (code : VCode) : Severity :=
  let s := if v.kind = .puppet then v.strict else .error
  match code with
  | .futureReservedWord => .deprecation
  | .duplicateKey => s.severity
  | .idemExpressionNotLast => s.severity
  | _ => .error

/-- `Accept`, validator/validator.go:88-96. -/
def accept (code : VCode) (e : Expr) (args : List (GoStr × Arg)) : VM :=
  let s := v.severityOf code
  if s = .ignore then .ok [] else .ok [⟨code, s, e, args⟩]

/-- `checkRValue`, validator/checker.go:745-752. -/
def checkRValue : Expr → VM
  | .un _ _ e => checkRValue e
  | e => if e.isDefinition || e.isCollect then v.accept .notRvalue e [(b!"value", .node e)] else vnone

/-- `checkRelation`, validator/checker.go:715-722. -/
def checkRelation (e : Expr) : VM :=
  match e with
  | .collect .. => vnone
  | .bin _ (.relationship _) _ _ => vnone
  | e => v.checkRValue e

mutual
/-- `checkAssign`, validator/checker.go:593-613. -/
def checkAssign : Expr → VM
  | .access p o ks => v.accept .illegalAssignmentViaIndex (.access p o ks) []
  | .list _ es => checkAssignAll es
  | .un p .variable n => match n with
    | .qname _ name =>
      if hasDoubleColon name then v.accept .crossScopeAssignment (.un p .variable n) [(b!"name", .text name)] else vnone
    | _ => v.accept .illegalNumericAssignment (.un p .variable n) [(b!"var", .int n.index)]
  | _ => vnone

/-- The loop over list elements in `checkAssign`, validator/checker.go:598-601. -/
def checkAssignAll : List Expr → VM
  | [] => vnone
  | e :: es => checkAssign e ⊹ checkAssignAll es
end

/-- `checkCaptureLast`, validator/checker.go:615-622: all but the last parameter. -/
def checkCaptureLast : List Expr → VM
  | [] => vnone
  | [_] => vnone
  | p :: q :: ps =>
    (match p.param? with
      | some (n, true) => v.accept .capturesRestNotLast p [(b!"param", .text n)]
      | _ => vnone) ⊹ checkCaptureLast (q :: ps)

/-- `checkNoCapture`, validator/checker.go:666-673. -/
def checkNoCapture (container : Expr) (ps : List Expr) : VM :=
  vforEach (fun p => match p.param? with
    | some (n, true) => v.accept .capturesRestNotSupported p [(b!"name", .text n), (b!"container", .node container)]
    | _ => vnone) ps

/-- `checkFutureReservedWord`, validator/checker.go:624-628. -/
def checkFutureReservedWord (e : Expr) (w : GoStr) : VM :=
  if futureReservedWords.contains w then v.accept .futureReservedWord e [(b!"word", .text w)] else vnone

/-- `checkReservedTypeName`, validator/checker.go:733-737. -/
def checkReservedTypeName (e : Expr) (w : GoStr) : VM :=
  if reservedTypeNames.contains (toLowerGo w) then v.accept .reservedTypeName e [(b!"name", .text w), (b!"expression", .node e)] else vnone

/-- `checkHostnameString`, validator/checker.go:648-652. -/
def checkHostnameString (e : Expr) (s : GoStr) : VM :=
  if illegalHostnameChars s then v.accept .illegalHostnameChars e [(b!"hostname", .text s)] else vnone

/-- One round of the loop in `checkHostname`, validator/checker.go:630-646. -/
def checkHostname1 (h : Expr) : VM :=
  match h with
  | .concat .. => match toLiteral v.feq h with
    | .literal (.str s) => v.checkHostnameString h s
    | .literal _ => .error .assertion
    | .notLiteral => v.accept .illegalHostnameInterpolation h []
    | .panic k => .error (.literal k)
  | .string _ s => v.checkHostnameString h s
  | _ => vnone

/-- `checkHostname`, validator/checker.go:630-646. -/
def checkHostname (hs : List Expr) : VM := vforEach v.checkHostname1 hs

mutual
/-- `checkIllegalAssignment`, validator/checker.go:654-664.  It recurses through `Contents`; the cases
spell out `Expr.kids` for structural recursion (`checkIllegalAssignment_eq` in `Lemmas/Validator.lean`
recovers the uniform definition). -/
def checkIllegalAssignment : Expr → VM
  | .bin p k l r => match k with
    | .assignment op => v.accept .illegalAssignmentContext (.bin p (.assignment op) l r) []
    | _ => checkIllegalAssignment l ⊹ checkIllegalAssignment r ⊹ vnone
  | .lambda .. => vnone
  | .access _ o ks => checkIllegalAssignment o ⊹ checkIllegalAssignments ks
  | .un _ _ e => checkIllegalAssignment e ⊹ vnone
  | .query _ _ e => checkIllegalAssignment e ⊹ vnone
  | .attributeOp _ _ _ e => checkIllegalAssignment e ⊹ vnone
  | .attributesOp _ e => checkIllegalAssignment e ⊹ vnone
  | .block _ es => checkIllegalAssignments es
  | .call _ _ _ f as l => checkIllegalAssignment f ⊹ checkIllegalAssignments as ⊹ checkIllegalAssignmentOpt l
  | .capabilityMapping _ _ _ c ms => checkIllegalAssignment c ⊹ checkIllegalAssignments ms
  | .caseE _ t os => checkIllegalAssignment t ⊹ checkIllegalAssignments os
  | .caseOption _ vs t => checkIllegalAssignments vs ⊹ checkIllegalAssignment t ⊹ vnone
  | .collect _ t q ops => checkIllegalAssignment t ⊹ checkIllegalAssignment q ⊹ checkIllegalAssignments ops
  | .concat _ es => checkIllegalAssignments es
  | .epp _ _ b => checkIllegalAssignment b ⊹ vnone
  | .heredoc _ _ t => checkIllegalAssignment t ⊹ vnone
  | .ifE _ _ c t e => checkIllegalAssignment c ⊹ checkIllegalAssignment t ⊹ checkIllegalAssignment e ⊹ vnone
  | .keyedEntry _ k e => checkIllegalAssignment k ⊹ checkIllegalAssignment e ⊹ vnone
  | .hash _ es => checkIllegalAssignments es
  | .list _ es => checkIllegalAssignments es
  | .namedDef _ _ _ ps b => checkIllegalAssignments ps ⊹ checkIllegalAssignment b ⊹ vnone
  | .function _ _ _ ps b r => checkIllegalAssignments ps ⊹ checkIllegalAssignmentOpt r ⊹ checkIllegalAssignment b ⊹ vnone
  | .node _ p hs b => checkIllegalAssignmentOpt p ⊹ checkIllegalAssignments hs ⊹ checkIllegalAssignment b ⊹ vnone
  | .parameter _ _ d t _ => checkIllegalAssignmentOpt t ⊹ checkIllegalAssignmentOpt d
  | .program _ b _ => checkIllegalAssignment b ⊹ vnone
  | .resource _ _ t bs => checkIllegalAssignment t ⊹ checkIllegalAssignments bs
  | .resourceBody _ t ops => checkIllegalAssignment t ⊹ checkIllegalAssignments ops
  | .resourceDefaults _ _ t ops => checkIllegalAssignment t ⊹ checkIllegalAssignments ops
  | .resourceOverride _ _ r ops => checkIllegalAssignment r ⊹ checkIllegalAssignments ops
  | .selector _ l ss => checkIllegalAssignment l ⊹ checkIllegalAssignments ss
  | .selectorEntry _ m e => checkIllegalAssignment m ⊹ checkIllegalAssignment e ⊹ vnone
  | .site _ b => checkIllegalAssignment b ⊹ vnone
  | .typeAlias _ _ t => checkIllegalAssignment t ⊹ vnone
  | .typeDefinition _ _ _ b => checkIllegalAssignment b ⊹ vnone
  | .typeMapping _ t m => checkIllegalAssignment t ⊹ checkIllegalAssignment m ⊹ vnone
  | .step _ _ _ ps d => checkIllegalAssignmentOpt ps ⊹ checkIllegalAssignmentOpt d
  | .commaSep _ es => checkIllegalAssignments es
  | .boolean .. | .dflt _ | .float .. | .integer .. | .string .. | .undef _ | .nop _ | .qname .. | .qref ..
  | .regexp .. | .renderString .. | .reserved .. => vnone

/-- The children that `AllContents` reaches, `DeepVisit` parser/expression.go:656-672. -/
def checkIllegalAssignments : List Expr → VM
  | [] => vnone
  | e :: es => checkIllegalAssignment e ⊹ checkIllegalAssignments es

/-- An optional child, `DeepVisit` parser/expression.go:656-672. -/
def checkIllegalAssignmentOpt : Option Expr → VM
  | none => vnone
  | some e => checkIllegalAssignment e ⊹ vnone
end

/-- `endsWithIdem`, validator/checker.go:792-801. -/
def endsWithIdem (ss : List Expr) : Option Expr :=
  match ss.getLast? with
  | some l => if isIdem l then some l else none
  | none => none

/-- `checkNoIdemLast`, validator/checker.go:675-680. -/
def checkNoIdemLast (e body : Expr) : VM :=
  match body with
  | .block _ ss => match endsWithIdem ss with
    | some x => v.accept .idemNotAllowedLast x [(b!"expression", .node x), (b!"container", .node e)]
    | none => vnone
  | _ => .error .assertion

/-- `checkParameterNameUniqueness`, validator/checker.go:682-692; `seen` are the keys of `unique`. -/
def checkUnique (seen : List GoStr) : List Expr → VM
  | [] => vnone
  | p :: ps => match p.param? with
    | none => .error .assertion
    | some (n, _) =>
      if seen.contains n then v.accept .duplicateParameter p [(b!"param", .text n)] ⊹ checkUnique seen ps
      else checkUnique (n :: seen) ps

/-- `checkQuery`, validator/checker.go:694-713. -/
def checkQuery : Expr → VM
  | .bin p k l r => match k with
    | .comparison op =>
      if op = b!"==" ∨ op = b!"!=" then vnone
      else v.accept .illegalQueryExpression (.bin p (.comparison op) l r) [(b!"expression", .node (.bin p (.comparison op) l r))]
    | .and => checkQuery l ⊹ checkQuery r
    | .or => checkQuery l ⊹ checkQuery r
    | k => v.accept .illegalQueryExpression (.bin p k l r) [(b!"expression", .node (.bin p k l r))]
  | .un p k e => match k with
    | .paren => checkQuery e
    | .variable => vnone
    | k => v.accept .illegalQueryExpression (.un p k e) [(b!"expression", .node (.un p k e))]
  | .qname .. | .integer .. | .float .. | .string .. | .boolean .. => vnone
  | e => v.accept .illegalQueryExpression e [(b!"expression", .node e)]

/-- `checkReservedParams`, validator/checker.go:724-731: reported at the container. -/
def checkReservedParams (container : Expr) : List Expr → VM
  | [] => vnone
  | p :: ps => match p.param? with
    | none => .error .assertion
    | some (n, _) =>
      (if reservedParameters.contains n then v.accept .reservedParameter container [(b!"param", .text n), (b!"container", .node container)] else vnone) ⊹
        checkReservedParams container ps

/-- `checkTypeRef`, validator/checker.go:779-790. -/
def checkTypeRef (function r : Expr) : VM :=
  let n := match r with
    | .access _ o _ => o
    | r => r
  match n with
  | .qref _ _ d => v.checkFutureReservedWord r d
  | _ => v.accept .illegalExpression r
    [(b!"expression", .node r), (b!"feature", .text b!"a type reference"), (b!"container", .node function)]

/-- `checkReturnType`, validator/checker.go:739-743. -/
def checkReturnType (function : Expr) : Option Expr → VM
  | none => vnone
  | some r => v.checkTypeRef function r

/-- Definitions that may not be nested in a block, validator/checker.go:766. -/
def neverNested : Expr → Bool
  | .function _ plan .. => !plan
  | .typeAlias .. | .typeDefinition .. | .typeMapping .. => true
  | _ => false

/-- `checkTop`, validator/checker.go:754-777, with `Container` and `ContainerOf`
(validator/validator.go:99-119).  The last argument lists the containers of `e`, innermost first: a
container is identified by its place in the path (`ContainerOf` compares pointers, and the pointers on
a path are different). -/
def checkTop (e : Expr) : List Expr → VM
  | [] => vnone
  | c :: rest => match c with
    | .namedDef _ (.hostClass _) .. => vnone
    | .program .. => vnone
    | .block .. => match rest with
      | .program .. :: _ => checkTop e rest
      | _ => if neverNested e then v.accept .notAbsoluteTopLevel e [(b!"value", .node e)] else checkTop e rest
    | _ => v.accept .notTopLevel e []

/-- `checkNamedDefinition`, validator/checker.go:424-432. -/
def checkNamedDefinition (path : List Expr) (e : Expr) (name : GoStr) (params : List Expr) : VM :=
  v.checkTop e path.reverse ⊹
  (if classrefDecl name then vnone else
    v.accept .illegalDefinitionName e [(b!"name", .text name), (b!"value", .node e)]) ⊹
  v.checkReservedTypeName e name ⊹
  v.checkFutureReservedWord e name ⊹
  v.checkUnique [] params

/-- `checkAttributeOperation`, validator/checker.go:245-255. -/
def checkAttributeOperation (path : List Expr) (e : Expr) (op name : GoStr) : VM :=
  if op = b!"+>" then
    match path.getLast? with
    | some (.collect ..) => vnone
    | some (.resourceOverride ..) => vnone
    | p => v.accept .illegalAttributeAppend e [(b!"attr", .text name), (b!"expression", .opt p)]
  else vnone

/-- `checkAttributesOperation`, validator/checker.go:257-264: reported at the container. -/
def checkAttributesOperation (path : List Expr) (operand : Expr) : VM :=
  (match path.getLast? with
    | some c => match c with
      | .resource .. | .resourceDefaults .. | .resourceOverride .. | .collect .. | .capabilityMapping .. =>
        v.accept .unsupportedOperatorInContext c [(b!"operator", .text b!"* =>"), (b!"value", .node c)]
      | _ => vnone
    | none => vnone) ⊹ v.checkRValue operand

/-- `checkBlockExpression`, validator/checker.go:271-279: the first idem statement that is not last. -/
def checkBlock : List Expr → VM
  | [] => vnone
  | [_] => vnone
  | s :: t :: ss => if isIdem s then v.accept .idemExpressionNotLast s [(b!"expression", .node s)] else checkBlock (t :: ss)

/-- `checkCallNamedFunctionExpression`, validator/checker.go:281-297. -/
def checkCallNamed (e functor : Expr) : VM :=
  match functor with
  | .qname .. => vnone
  | .qref .. => vnone
  | .access _ (.qref ..) _ => vnone
  | f => v.accept .illegalExpression f
    [(b!"expression", .node f), (b!"feature", .text b!"function name"), (b!"container", .node e)]

/-- `checkCapabilityMapping`, validator/checker.go:299-327. -/
def checkCapabilityMapping (e : Expr) (capability : GoStr) (component : Expr) : VM :=
  (match component with
    | .qref .. => vnone
    | .qname _ n => v.accept .illegalClassref component [(b!"name", .text n)]
    | .access _ (.qref ..) [.string ..] => vnone
    | .access _ (.qref ..) [.qname ..] => vnone
    | .access _ (.qref ..) [.qref ..] => vnone
    | _ => v.accept .illegalExpression component
        [(b!"expression", .node component), (b!"feature", .text b!"capability mapping"), (b!"container", .node e)]) ⊹
  (if classrefExt capability then vnone else v.accept .illegalClassref e [(b!"name", .text capability)])

/-- The inner loop of `checkCaseExpression`, validator/checker.go:334-341: issues and `foundDefault`. -/
def checkDefaults (found : Bool) : List Expr → List Expr × Bool
  | [] => ([], found)
  | x :: xs =>
    if x.isDefault then
      let (is, f) := checkDefaults true xs
      (if found then x :: is else is, f)
    else checkDefaults found xs

/-- The outer loop of `checkCaseExpression`, validator/checker.go:332-342. -/
def checkCaseOptions (e : Expr) (found : Bool) : List Expr → VM
  | [] => vnone
  | o :: os => match o with
    | .caseOption _ vs _ =>
      let (dups, f) := checkDefaults found vs
      vforEach (fun d => v.accept .duplicateDefault d [(b!"container", .node e)]) dups ⊹ checkCaseOptions e f os
    | _ => .error .assertion

/-- The loop of `checkSelectorExpression`, validator/checker.go:521-530. -/
def checkSelectors (e : Expr) (seen : Bool) : List Expr → VM
  | [] => vnone
  | s :: ss => match s with
    | .selectorEntry _ m _ =>
      if m.isDefault then
        (if seen then v.accept .duplicateDefault s [(b!"container", .node e)] else vnone) ⊹ checkSelectors e true ss
      else checkSelectors e seen ss
    | _ => .error .assertion

/-- `Positioned.String`, parser/expression.go:617-619: whether the slice expression is in bounds. -/
def stringOk (e : Expr) : Bool :=
  decide (0 ≤ e.len) && decide ((e.off : Int) + e.len ≤ v.textLen)

/-- The literal key looked up in `unique` (validator/checker.go:397-401); `none` when the key is not
literal. -/
def hashKey (key : Expr) : Except VPanic (Option Value) :=
  match toLiteral v.feq key with
  | .literal l => match key with
    | .list .. | .hash .. => match key.toPN with
      | .ok p => .ok (some (.str (p.format v.ff)))
      | .error x => .error (.toPN x)
    | _ => if l.hashable then .ok (some l) else .error (.literal .unhashable)
  | .notLiteral => .ok none
  | .panic k => .error (.literal k)

/-- `checkLiteralHash`, validator/checker.go:393-409; `seen` are the keys of `unique`. -/
def checkHash (seen : List Value) : List Expr → VM
  | [] => vnone
  | entry :: es => match entry with
    | .keyedEntry _ key _ => do
      match ← v.hashKey key with
      | none => checkHash seen es
      | some l =>
        if seen.any (fun k => l.keyEq v.feq k) then
          if v.stringOk key then v.accept .duplicateKey entry [(b!"key", .source key)] ⊹ checkHash seen es
          else .error .slice
        else checkHash (l :: seen) es
    | _ => .error .assertion

/-- The loop of `checkResourceBody`, validator/checker.go:470-481. -/
def checkUnfolds (seen : Bool) : List Expr → VM
  | [] => vnone
  | ao :: ops => match ao with
    | .attributesOp .. =>
      if seen then v.accept .multipleAttributesUnfold ao [] ⊹ checkUnfolds true ops
      else checkUnfolds true ops
    | _ => checkUnfolds seen ops

/-- `isPatternWithReplacement`, validator/checker.go:836-845. -/
def isPatternWithReplacement : Expr → Bool
  | .list _ [.regexp .., .string ..] => true
  | _ => false

/-- `isTypeRef`, validator/checker.go:847-854. -/
def isTypeRef : Expr → Bool
  | .access _ o _ => o.isQref
  | e => e.isQref

/-- `checkTypeMapping` after `checkTop`, validator/checker.go:547-579. -/
def checkTypeMapping (e lhs rhs : Expr) : VM :=
  let lhsType : Nat := match lhs with
    | .access _ (.qref _ name _) keys =>
      if name = b!"Runtime" then
        match keys with
        | [_, k] => if isPatternWithReplacement k then 2 else 1
        | _ => 1
      else 0
    | _ => 0
  if lhsType = 0 then v.accept .unsupportedExpression e [(b!"expression", .node e)]
  else if isPatternWithReplacement rhs then
    if lhsType = 1 then v.accept .illegalSingleTypeMapping e [(b!"expression", .node e)] else vnone
  else if isTypeRef rhs then
    if lhsType = 2 then v.accept .illegalRegexpTypeMapping e [(b!"expression", .node e)] else vnone
  else if lhsType = 1 then v.accept .illegalSingleTypeMapping e [(b!"expression", .node e)]
  else v.accept .illegalRegexpTypeMapping e [(b!"expression", .node e)]

/-- `illegalTasksExpression` when the checker is a tasks or workflow checker (tasks_checker.go:22-68),
otherwise the check of `basicChecker`. -/
def catalogOp (e : Expr) (basic : VM) : VM :=
  if v.kind = .puppet then basic else v.accept .catalogOperationNotSupported e [(b!"operation", .node e)]

/-- `Check`, validator/checker.go:131-212, with the method of the checker's type
(validator/checker.go:229-588, tasks_checker.go:26-68, workflow_checker.go:22-47).  `path` are the
containers of the expression, outermost first. -/
def check (path : List Expr) (e : Expr) : VM :=
  match e with
  | .step .. =>
    -- workflow_checker.go:22-35: all four styles are accepted; checker.go:229-231 otherwise
    if v.kind = .workflow then vnone else v.accept .workflowOperationNotSupported e [(b!"operation", .node e)]
  | .namedDef _ k name params body => match k with
    | .application => v.catalogOp e vnone
    | .hostClass _ => v.catalogOp e (v.checkNamedDefinition path e name params ⊹ v.checkNoCapture e params ⊹
        v.checkReservedParams e params ⊹ v.checkNoIdemLast e body)
    | .define => v.catalogOp e (v.checkNamedDefinition path e name params ⊹ v.checkNoCapture e params ⊹
        v.checkReservedParams e params ⊹ v.checkNoIdemLast e body)
  | .bin _ k lhs rhs => match k with
    | .assignment op =>
      if op = b!"=" then v.checkAssign lhs else v.accept .appendsDeletesNoLongerSupported e [(b!"operator", .text op)]
    | .namedAccess => if rhs.isQName then vnone else v.accept .illegalExpression rhs
        [(b!"expression", .node rhs), (b!"feature", .text b!"method name"), (b!"container", .opt path.getLast?)]
    | .relationship _ => v.catalogOp e (v.checkRelation lhs ⊹ v.checkRelation rhs)
    | _ => v.checkRValue lhs ⊹ v.checkRValue rhs
  | .attributeOp _ op name _ => v.checkAttributeOperation path e op name
  | .attributesOp _ x => v.checkAttributesOperation path x
  | .block _ ss => v.checkBlock ss
  | .call _ .named _ f _ _ => v.checkCallNamed e f
  | .capabilityMapping _ _ capability component _ =>
    v.catalogOp e (v.checkCapabilityMapping e capability component)
  | .caseE _ t os => v.checkRValue t ⊹ v.checkCaseOptions e false os
  | .caseOption _ vs _ => vforEach v.checkRValue vs
  | .collect _ t _ _ => v.catalogOp e (if t.isQref then vnone else v.accept .illegalExpression t
      [(b!"expression", .node t), (b!"feature", .text b!"type name"), (b!"container", .node e)])
  | .epp .. => match path.getLast? with
    | some (.lambda p ps b r) => v.checkNoCapture (.lambda p ps b r) ps ⊹ v.checkUnique [] ps
    | _ => vnone
  | .function _ false name params _ ret =>
    v.checkNamedDefinition path e name params ⊹ v.checkCaptureLast params ⊹ v.checkReturnType e ret
  | .ifE _ _ t _ _ => v.checkRValue t
  | .keyedEntry _ k x => v.checkRValue k ⊹ v.checkRValue x
  | .lambda _ ps _ ret => v.checkCaptureLast ps ⊹ v.checkReturnType e ret
  | .hash _ es => v.checkHash [] es
  | .list _ es => vforEach v.checkRValue es
  | .node _ _ hs body =>
    v.catalogOp e (v.checkHostname hs ⊹ v.checkTop e path.reverse ⊹ v.checkNoIdemLast e body)
  | .parameter _ name value _ _ =>
    (if startsWithNumber name then v.accept .illegalNumericParameter e [(b!"name", .text name)]
      else if paramName name then vnone else v.accept .illegalParameterName e [(b!"name", .text name)]) ⊹
    (match value with
      | some x => v.checkIllegalAssignment x
      | none => vnone)
  | .reserved _ w future => if future then v.accept .futureReservedWord e [(b!"word", .text w)]
    else v.accept .reservedWord e [(b!"word", .text w)]
  | .resourceBody _ _ ops => v.checkUnfolds false ops
  | .resourceDefaults _ form _ _ =>
    v.catalogOp e (if form = .regular then vnone else v.accept .notVirtualizable e [])
  | .resource _ form typeName _ =>
    v.catalogOp e (if form = .regular then vnone else match typeName with
      | .qname _ n => if n = b!"class" then v.accept .notVirtualizable e [] else vnone
      | _ => vnone)
  | .resourceOverride _ form _ _ =>
    v.catalogOp e (if form = .regular then vnone else v.accept .notVirtualizable e [])
  | .selectorEntry _ m _ => v.checkRValue m
  | .selector _ l ss => v.checkRValue l ⊹ v.checkSelectors e false ss
  | .site .. => v.catalogOp e vnone
  | .typeAlias _ name t =>
    v.checkTop e path.reverse ⊹
    (if classrefExtDecl name then vnone else
      v.accept .illegalDefinitionName e [(b!"name", .text name), (b!"value", .node e)]) ⊹
    v.checkReservedTypeName e name ⊹ v.checkTypeRef e t
  | .typeMapping _ t m => v.checkTop e path.reverse ⊹ v.checkTypeMapping e t m
  | .query _ _ x => v.checkQuery x
  | .un _ _ x => v.checkRValue x
  | _ => vnone

end Checker

/-- A validator with its mutable part, validator/validator.go:34-41. -/
structure Validator where
  checker : Checker
  issues : List Issue := []
  path : List Expr := []
  subject : Option Expr := none

namespace Validator

/-- `setPathAndSubject` followed by `v.Validate(expr)`, validator/validator.go:129-132, 164-165,
checker.go:214-216. -/
def visit (v : Validator) (c : List Expr × Expr) : Except VPanic Validator := do
  let is ← v.checker.check c.1 c.2
  return { v with path := c.1, subject := some c.2, issues := v.issues ++ is }

/-- `Validate(v, e)`, validator/validator.go:157-167: `Clear` (125-127), the expression itself, then
everything `AllContents` visits. -/
def validate (v : Validator) (e : Expr) : Except VPanic Validator :=
  (([], e) :: e.allContents []).foldlM visit { v with issues := [] }

end Validator

/-- `NewChecker` / `NewTasksChecker` / `NewWorkflowChecker` and `Validate`: the issues of
`ValidatePuppet`, `ValidateTasks` and `ValidateWorkflow`, validator/validator.go:135-153. -/
def validateWith (c : Checker) (e : Expr) : Except VPanic (List Issue) := do
  let v ← Validator.validate { checker := c } e
  return v.issues

end PP
