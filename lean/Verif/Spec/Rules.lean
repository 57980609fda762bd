import Verif.Literal
import Verif.Lemmas.Ast

/-!
# Specification: the rules of the validators

For each issue code that is not specified elsewhere: the places, in an expression `x`, at which the rule is
broken.  Nothing here uses the checkers of `Verif/Validator.lean`.  The rules are those of the language
reference as the checkers of validator/checker.go implement them; where an implementation choice is visible
(an issue is reported at the containing expression, a rule looks through some expressions and not through
others) it is stated here.
-/

namespace PP.Rules
open PP.Expr

/-! ## Names -/

def isLower (b : UInt8) : Bool := decide (97 ≤ b.toNat) && decide (b.toNat ≤ 122)
def isUpper (b : UInt8) : Bool := decide (65 ≤ b.toNat) && decide (b.toNat ≤ 90)
def isDigit (b : UInt8) : Bool := decide (48 ≤ b.toNat) && decide (b.toNat ≤ 57)
/-- A letter, a digit or `_`. -/
def isWord (b : UInt8) : Bool := isLower b || isUpper b || isDigit b || b.toNat == 95

/-- A part of a qualified name: a first letter of the given kind, then word characters. -/
def isSegment (first : UInt8 → Bool) : GoStr → Bool
  | [] => false
  | b :: s => first b && s.all isWord

/-- The parts of a qualified name with `::` between them. -/
def joined : List GoStr → GoStr
  | [] => []
  | [s] => s
  | s :: t :: r => s ++ b!"::" ++ joined (t :: r)

/-- `a::b::c`: one or more parts. -/
def IsName (first : UInt8 → Bool) (n : GoStr) : Prop :=
  ∃ parts : List GoStr, parts ≠ [] ∧ (∀ p ∈ parts, isSegment first p = true) ∧ n = joined parts

/-- The name of a parameter: a lower case letter or `_`, then word characters. -/
def isParameterName : GoStr → Bool
  | [] => false
  | b :: s => (isLower b || b.toNat == 95) && s.all isWord

/-- The name begins with a digit. -/
def isNumericName : GoStr → Bool
  | [] => false
  | b :: _ => isDigit b

/-- Names of types of the language, that nothing else can be called. -/
def typeNames : List GoStr :=
  [b!"any", b!"array", b!"boolean", b!"collection", b!"enum", b!"float", b!"hash", b!"init", b!"integer",
   b!"numeric", b!"object", b!"optional", b!"pattern", b!"regexp", b!"runtime", b!"scalar", b!"semver",
   b!"semverrange", b!"sensitive", b!"string", b!"struct", b!"timespan", b!"timestamp", b!"tuple", b!"type",
   b!"typeset", b!"unit", b!"variant"]

/-- Words that the language will reserve. -/
def futureWords : List GoStr := [b!"application", b!"consumes", b!"produces"]

/-- Classes, defines and functions have these parameters already. -/
def takenParameters : List GoStr := [b!"title", b!"name"]

/-! ## Definitions -/

/-- Name and parameters of a class, define or function. -/
def namedDefinition? : Expr → Option (GoStr × List Expr)
  | .namedDef _ .application .. => none
  | .namedDef _ _ name ps _ => some (name, ps)
  | .function _ false name ps _ _ => some (name, ps)
  | _ => none

open Classical in
/-- `illegalDefinitionName`: classes, defines and functions have lower case names, type aliases upper case
names. -/
noncomputable def badDefinitionName (x : Expr) : List Expr :=
  match x with
  | .typeAlias _ n _ => if IsName isUpper n then [] else [x]
  | x => match namedDefinition? x with
    | some (n, _) => if IsName isLower n then [] else [x]
    | none => []

/-- `reservedTypeName`: a definition has the name of a type, in any case. -/
def definedTypeName (x : Expr) : List Expr :=
  match x with
  | .typeAlias _ n _ => if toLowerGo n ∈ typeNames then [x] else []
  | x => match namedDefinition? x with
    | some (n, _) => if toLowerGo n ∈ typeNames then [x] else []
    | none => []

/-- Where a type is written: what a function or lambda returns and what an alias stands for. -/
def typePositions : Expr → List Expr
  | .function _ false _ _ _ (some r) => [r]
  | .lambda _ _ _ (some r) => [r]
  | .typeAlias _ _ t => [t]
  | _ => []

/-- A type is written `Name` or `Name[...]`; its name in lower case. -/
def typeName? : Expr → Option GoStr
  | .access _ (.qref _ _ d) _ => some d
  | .qref _ _ d => some d
  | _ => none

/-- A type whose name will be reserved. -/
def namesFutureWord (t : Expr) : Bool :=
  match typeName? t with
  | some n => decide (n ∈ futureWords)
  | none => false

/-- `futureReservedWord`: a definition, a type or a word of the program uses a word that will be reserved. -/
def usesFutureWord (x : Expr) : List Expr :=
  (match x with
    | .reserved _ _ true => [x]
    | _ => []) ++
  (match namedDefinition? x with
    | some (n, _) => if n ∈ futureWords then [x] else []
    | none => []) ++
  (typePositions x).filter namesFutureWord

/-- `reservedWord`. -/
def usesReservedWord (x : Expr) : List Expr :=
  match x with
  | .reserved _ _ false => [x]
  | _ => []

/-- The last expression of a body, when it is a value. -/
def lastValue (isValue : Expr → Bool) : Expr → List Expr
  | .block _ ss => ss.getLast?.toList.filter isValue
  | _ => []

/-- `idemNotAllowedLast`: the body of a class, define or node ends with a value.  Which expressions count as
values is a parameter; C21 says what the validators take for a value. -/
def endsWithValue (isValue : Expr → Bool) : Expr → List Expr
  | .namedDef _ .application .. => []
  | .namedDef _ _ _ _ body => lastValue isValue body
  | .node _ _ _ body => lastValue isValue body
  | _ => []

def isTakenParameter : Expr → Bool
  | .parameter _ n _ _ _ => decide (n ∈ takenParameters)
  | _ => false

/-- `reservedParameter`: reported at the class or define, once for each such parameter. -/
def takesReservedParameter (x : Expr) : List Expr :=
  match x with
  | .namedDef _ .application .. => []
  | .namedDef _ _ _ ps _ => (ps.filter isTakenParameter).map fun _ => x
  | _ => []

/-- `illegalNumericParameter`. -/
def numericParameter (x : Expr) : List Expr :=
  match x with
  | .parameter _ n _ _ _ => if isNumericName n then [x] else []
  | _ => []

/-- `illegalParameterName`: any other name that is not one of a parameter. -/
def badParameterName (x : Expr) : List Expr :=
  match x with
  | .parameter _ n _ _ _ => if isNumericName n || isParameterName n then [] else [x]
  | _ => []

/-- The outermost assignments in an expression, except those in lambdas. -/
def assignmentsIn (e : Expr) : List Expr :=
  match e with
  | .bin _ (.assignment _) .. => [e]
  | .lambda .. => []
  | e => e.kids.attach.flatMap fun k => assignmentsIn k.1
termination_by sizeOf e
decreasing_by exact Expr.sizeOf_kid k.2

/-- `illegalAssignmentContext`: the default value of a parameter assigns a variable. -/
def assignsInDefault : Expr → List Expr
  | .parameter _ _ (some v) _ _ => assignmentsIn v
  | _ => []

/-! ## Nodes -/

/-- Allowed in the name of a host. -/
def isHostByte (b : UInt8) : Bool := isWord b || b.toNat == 45 || b.toNat == 46

/-- A host name given as a string with other characters; a string with interpolations is what it evaluates
to when all of them are literal. -/
def isBadHostname (feq : FloatVal → FloatVal → Bool) (h : Expr) : Bool :=
  match h with
  | .string _ s => !s.all isHostByte
  | .concat .. => match toLiteral feq h with
    | .literal (.str s) => !s.all isHostByte
    | _ => false
  | _ => false

/-- A host name with interpolations that are not all literal. -/
def isComputedHostname (feq : FloatVal → FloatVal → Bool) (h : Expr) : Bool :=
  match h with
  | .concat .. => match toLiteral feq h with
    | .notLiteral => true
    | _ => false
  | _ => false

def hostsOf : Expr → List Expr
  | .node _ _ hosts _ => hosts
  | _ => []

/-- `illegalHostnameChars`. -/
def badHostnames (feq : FloatVal → FloatVal → Bool) (x : Expr) : List Expr := (hostsOf x).filter (isBadHostname feq)

/-- `illegalHostnameInterpolation`. -/
def computedHostnames (feq : FloatVal → FloatVal → Bool) (x : Expr) : List Expr :=
  (hostsOf x).filter (isComputedHostname feq)

/-! ## Values -/

/-- Operands of unary operators, parentheses included, are looked at instead of the operation. -/
def innermost : Expr → Expr
  | .un _ _ e => innermost e
  | e => e

/-- Definitions and collectors have no value. -/
def hasNoValue : Expr → Bool
  | .namedDef .. | .function .. | .node .. | .site .. | .typeAlias .. | .typeDefinition .. | .typeMapping ..
  | .capabilityMapping .. | .step .. => true
  | .collect .. => true
  | _ => false

/-- Operands of a relationship that are relationships or collectors may have no value. -/
def relatedValue : Expr → Bool
  | .collect .. => false
  | .bin _ (.relationship _) _ _ => false
  | _ => true

/-- Where a value is needed. -/
def valuePositions : Expr → List Expr
  | .bin _ (.assignment _) _ _ => []
  | .bin _ .namedAccess _ _ => []
  | .bin _ (.relationship _) l r => [l, r].filter relatedValue
  | .bin _ _ l r => [l, r]
  | .un _ _ e => [e]
  | .attributesOp _ e => [e]
  | .ifE _ _ test _ _ => [test]
  | .caseE _ test _ => [test]
  | .caseOption _ vs _ => vs
  | .selector _ l _ => [l]
  | .selectorEntry _ m _ => [m]
  | .list _ es => es
  | .keyedEntry _ k v => [k, v]
  | _ => []

/-- `notRvalue`. -/
def noValueWhereNeeded (x : Expr) : List Expr := ((valuePositions x).map innermost).filter hasNoValue

/-- `illegalExpression`: something else where a function name, a type or the name of a method is needed. -/
def wrongKind (x : Expr) : List Expr :=
  match x with
  | .bin _ .namedAccess _ name => match name with
    | .qname .. => []
    | _ => [name]
  | .call _ .named _ f _ _ => match f with
    | .qname .. => []
    | f => if (typeName? f).isSome then [] else [f]
  | .collect _ t _ _ => match t with
    | .qref .. => []
    | _ => [t]
  | .capabilityMapping _ _ _ component _ => match component with
    | .qref .. => []
    | .qname .. => []           -- reported as `illegalClassref`
    | .access _ (.qref ..) [.string ..] => []
    | .access _ (.qref ..) [.qname ..] => []
    | .access _ (.qref ..) [.qref ..] => []
    | _ => [component]
  | x => (typePositions x).filter fun t => (typeName? t).isNone

/-- A capability is named with an upper case name, `::` may come before it. -/
def IsCapability (n : GoStr) : Prop := IsName isUpper n ∨ ∃ m, n = b!"::" ++ m ∧ IsName isUpper m

open Classical in
/-- `illegalClassref`: the component is named in lower case, or the capability is not named in upper case. -/
noncomputable def badClassref (x : Expr) : List Expr :=
  match x with
  | .capabilityMapping _ _ capability component _ =>
    (match component with
      | .qname .. => [component]
      | _ => []) ++ if IsCapability capability then [] else [x]
  | _ => []

/-! ## Resources and collectors -/

/-- `* => ...` -/
def isUnfold : Expr → Bool
  | .attributesOp .. => true
  | _ => false

/-- `multipleAttributesUnfold`: the second and following `* =>` of a resource. -/
def moreUnfolds : Expr → List Expr
  | .resourceBody _ _ ops => (ops.filter isUnfold).drop 1
  | _ => []

/-- `notVirtualizable`: `@` or `@@` before resource defaults, an override or a class. -/
def virtualClass (x : Expr) : List Expr :=
  match x with
  | .resource _ form (.qname _ n) _ => if form ≠ .regular ∧ n = b!"class" then [x] else []
  | .resourceDefaults _ form _ _ => if form ≠ .regular then [x] else []
  | .resourceOverride _ form _ _ => if form ≠ .regular then [x] else []
  | _ => []

/-- `illegalAttributeAppend`: `+>` somewhere else than in a collector or in an override. -/
def badAppend (x : List Expr × Expr) : List Expr :=
  match x.2 with
  | .attributeOp _ op _ _ =>
    if op = b!"+>" then match x.1.getLast? with
      | some (.collect ..) => []
      | some (.resourceOverride ..) => []
      | _ => [x.2]
    else []
  | _ => []

/-- Its attributes are set one by one: `* => ...` is for the bodies of resources. -/
def noUnfold : Expr → Bool
  | .resource .. | .resourceDefaults .. | .resourceOverride .. | .collect .. | .capabilityMapping .. => true
  | _ => false

/-- `unsupportedOperatorInContext`: reported at the construct that has the `* => ...`. -/
def misplacedUnfold (x : List Expr × Expr) : List Expr :=
  match x.2 with
  | .attributesOp .. => x.1.getLast?.toList.filter noUnfold
  | _ => []

/-- The conditions of a query: what `and`, `or` and parentheses put together. -/
def conditions : Expr → List Expr
  | .bin _ .and l r => conditions l ++ conditions r
  | .bin _ .or l r => conditions l ++ conditions r
  | .un _ .paren e => conditions e
  | e => [e]

/-- What may be a condition. -/
def isCondition : Expr → Bool
  | .bin _ (.comparison op) _ _ => op == b!"==" || op == b!"!="
  | .un _ .variable _ => true
  | .qname .. | .integer .. | .float .. | .string .. | .boolean .. => true
  | _ => false

/-- `illegalQueryExpression`. -/
def badConditions : Expr → List Expr
  | .query _ _ q => (conditions q).filter fun c => !isCondition c
  | _ => []

/-- `appendsDeletesNoLongerSupported`: `+=` and `-=`. -/
def appendsOrDeletes (x : Expr) : List Expr :=
  match x with
  | .bin _ (.assignment op) _ _ => if op = b!"=" then [] else [x]
  | _ => []

/-! ## Type mappings -/

/-- `[/pattern/, 'replacement']` -/
def isReplacement : Expr → Bool
  | .list _ [.regexp .., .string ..] => true
  | _ => false

/-- What is mapped: `Runtime[x, [/pattern/, 'replacement']]` (the names that match, `some true`) or any other
`Runtime[...]` (one name, `some false`). -/
def mapped? : Expr → Option Bool
  | .access _ (.qref _ name _) keys =>
    if name = b!"Runtime" then
      some (match keys with
        | [_, k] => isReplacement k
        | _ => false)
    else none
  | _ => none

/-- `unsupportedExpression`: only `Runtime[...]` can be mapped. -/
def unmappable (x : Expr) : List Expr :=
  match x with
  | .typeMapping _ t _ => if mapped? t = none then [x] else []
  | _ => []

/-- `illegalSingleTypeMapping`: one name is mapped to a type. -/
def badSingleMapping (x : Expr) : List Expr :=
  match x with
  | .typeMapping _ t m => if mapped? t = some false ∧ typeName? m = none then [x] else []
  | _ => []

/-- `illegalRegexpTypeMapping`: the names that match are mapped to a pattern with its replacement. -/
def badPatternMapping (x : Expr) : List Expr :=
  match x with
  | .typeMapping _ t m => if mapped? t = some true ∧ isReplacement m = false then [x] else []
  | _ => []

end PP.Rules
