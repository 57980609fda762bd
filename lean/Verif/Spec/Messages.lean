import Verif.Message
import Verif.Lemmas.Location

/-!
# What the message of an issue must say

`Describes feq root code at args`: in an issue with this code that is located at the expression `at`, the arguments of
the message are about `at`: its name, its operator, its word, itself, or the expression of the program `root` it
belongs to.  One clause per code (two or more where an issue has several causes).
-/
namespace PP

/-- The expression a member of the program `root` is a part of, as the validator knows it: nothing for the program
itself, and the function that a plan is built on for a part of a plan. -/
inductive PartOf (root x : Expr) : Arg → Prop
  | root : x = root → PartOf root x .absent
  | inside (y : Expr) : Within y root → x ∈ y.kids → PartOf root x (.node y.receiver)

/-- Parameters of a construct. -/
def Expr.params : Expr → List Expr
  | .namedDef _ _ _ ps _ | .function _ _ _ ps _ _ | .lambda _ ps _ _ => ps
  | _ => []

/-- Body of a class, a definition or a node. -/
def Expr.body? : Expr → Option Expr
  | .namedDef _ _ _ _ b | .node _ _ _ b => some b
  | _ => none

/-- Return type of a function or a lambda, or the type of an alias. -/
def Expr.typeIn? : Expr → Option Expr
  | .function _ _ _ _ _ r | .lambda _ _ _ r => r
  | .typeAlias _ _ t => some t
  | _ => none

/-- Name of a definition. -/
def Expr.defName? : Expr → Option GoStr
  | .namedDef _ _ n _ _ | .function _ _ n _ _ _ | .typeAlias _ n _ => some n
  | _ => none

inductive Describes (feq : FloatVal → FloatVal → Bool) (root : Expr) : VCode → Expr → List (GoStr × Arg) → Prop
  | appends (p op l r) : Describes feq root .appendsDeletesNoLongerSupported (.bin p (.assignment op) l r)
      [(b!"operator", .text op)]
  | capturesRestNotLast (p n v t) : Describes feq root .capturesRestNotLast (.parameter p n v t true)
      [(b!"param", .text n)]
  | capturesRestNotSupported (p n v t c) : Within c root → .parameter p n v t true ∈ c.params →
      Describes feq root .capturesRestNotSupported (.parameter p n v t true)
        [(b!"name", .text n), (b!"container", .node c)]
  | catalogOperation (e) : Describes feq root .catalogOperationNotSupported e [(b!"operation", .node e)]
  | crossScope (p q n) : Describes feq root .crossScopeAssignment (.un p .variable (.qname q n)) [(b!"name", .text n)]
  | caseDefault (p t os q vs b e) : Within (.caseE p t os) root → .caseOption q vs b ∈ os → e ∈ vs → e.isDefault = true →
      Describes feq root .duplicateDefault e [(b!"container", .node (.caseE p t os))]
  | selectorDefault (p l ss q m x) : Within (.selector p l ss) root → .selectorEntry q m x ∈ ss → m.isDefault = true →
      Describes feq root .duplicateDefault (.selectorEntry q m x) [(b!"container", .node (.selector p l ss))]
  | duplicateKey (p k x) : Describes feq root .duplicateKey (.keyedEntry p k x) [(b!"key", .source k)]
  | duplicateParameter (p n v t c) : Describes feq root .duplicateParameter (.parameter p n v t c)
      [(b!"param", .text n)]
  | futureWord (p w) : Describes feq root .futureReservedWord (.reserved p w true) [(b!"word", .text w)]
  | futureName (e w) : e.defName? = some w → Describes feq root .futureReservedWord e [(b!"word", .text w)]
  | futureType (p n w) : Describes feq root .futureReservedWord (.qref p n w) [(b!"word", .text w)]
  | futureTypeAccess (p q n w ks) : Describes feq root .futureReservedWord (.access p (.qref q n w) ks)
      [(b!"word", .text w)]
  | idemNotLast (e) : Describes feq root .idemExpressionNotLast e [(b!"expression", .node e)]
  | idemLast (c p ss e) : Within c root → c.body? = some (.block p ss) → ss.getLast? = some e →
      Describes feq root .idemNotAllowedLast e [(b!"expression", .node e), (b!"container", .node c)]
  | assignmentContext (e) : Describes feq root .illegalAssignmentContext e []
  | assignmentViaIndex (e) : Describes feq root .illegalAssignmentViaIndex e []
  | attributeAppend (p op n x a) : PartOf root (.attributeOp p op n x) a →
      Describes feq root .illegalAttributeAppend (.attributeOp p op n x) [(b!"attr", .text n), (b!"expression", a)]
  | classrefComponent (p n) : Describes feq root .illegalClassref (.qname p n) [(b!"name", .text n)]
  | classrefCapability (p k n c ms) : Describes feq root .illegalClassref (.capabilityMapping p k n c ms)
      [(b!"name", .text n)]
  | definitionName (e n) : e.defName? = some n → Describes feq root .illegalDefinitionName e
      [(b!"name", .text n), (b!"value", .node e)]
  | functionName (p r f as l) : Within (.call p .named r f as l) root → Describes feq root .illegalExpression f
      [(b!"expression", .node f), (b!"feature", .text b!"function name"), (b!"container", .node (.call p .named r f as l))]
  | typeReference (c t) : Within c root → c.typeIn? = some t → Describes feq root .illegalExpression t
      [(b!"expression", .node t), (b!"feature", .text b!"a type reference"), (b!"container", .node c)]
  | component (p k n c ms) : Within (.capabilityMapping p k n c ms) root → Describes feq root .illegalExpression c
      [(b!"expression", .node c), (b!"feature", .text b!"capability mapping"),
        (b!"container", .node (.capabilityMapping p k n c ms))]
  | methodName (p l r a) : Within (.bin p .namedAccess l r) root → PartOf root (.bin p .namedAccess l r) a →
      Describes feq root .illegalExpression r
        [(b!"expression", .node r), (b!"feature", .text b!"method name"), (b!"container", a)]
  | typeName (p t q ops) : Within (.collect p t q ops) root → Describes feq root .illegalExpression t
      [(b!"expression", .node t), (b!"feature", .text b!"type name"), (b!"container", .node (.collect p t q ops))]
  | hostname (p s) : Describes feq root .illegalHostnameChars (.string p s) [(b!"hostname", .text s)]
  | hostnameParts (e s) : toLiteral feq e = .literal (.str s) →
      Describes feq root .illegalHostnameChars e [(b!"hostname", .text s)]
  | hostnameInterpolation (e) : Describes feq root .illegalHostnameInterpolation e []
  | numericAssignment (p q r i) : Describes feq root .illegalNumericAssignment (.un p .variable (.integer q r i))
      [(b!"var", .int i)]
  | otherAssignment (p n) : n.isQName = false → (∀ q r i, n ≠ .integer q r i) →
      Describes feq root .illegalNumericAssignment (.un p .variable n) [(b!"var", .int 0)]
  | numericParameter (p n v t c) : Describes feq root .illegalNumericParameter (.parameter p n v t c)
      [(b!"name", .text n)]
  | parameterName (p n v t c) : Describes feq root .illegalParameterName (.parameter p n v t c) [(b!"name", .text n)]
  | query (e) : Describes feq root .illegalQueryExpression e [(b!"expression", .node e)]
  | regexpMapping (e) : Describes feq root .illegalRegexpTypeMapping e [(b!"expression", .node e)]
  | singleMapping (e) : Describes feq root .illegalSingleTypeMapping e [(b!"expression", .node e)]
  | unfolds (e) : Describes feq root .multipleAttributesUnfold e []
  | absoluteTop (e) : Describes feq root .notAbsoluteTopLevel e [(b!"value", .node e)]
  | rvalue (e) : Describes feq root .notRvalue e [(b!"value", .node e)]
  | top (e) : Describes feq root .notTopLevel e []
  | virtualizable (e) : Describes feq root .notVirtualizable e []
  | reservedParameter (e p n v t c) : .parameter p n v t c ∈ e.params → Describes feq root .reservedParameter e
      [(b!"param", .text n), (b!"container", .node e)]
  | reservedType (e n) : e.defName? = some n → Describes feq root .reservedTypeName e
      [(b!"name", .text n), (b!"expression", .node e)]
  | reservedWord (p w) : Describes feq root .reservedWord (.reserved p w false) [(b!"word", .text w)]
  | unsupported (e) : Describes feq root .unsupportedExpression e [(b!"expression", .node e)]
  | operatorInContext (e) : Describes feq root .unsupportedOperatorInContext e
      [(b!"operator", .text b!"* =>"), (b!"value", .node e)]
  | workflowOperation (e) : Describes feq root .workflowOperationNotSupported e [(b!"operation", .node e)]

end PP
