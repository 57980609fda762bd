import Verif.Spec.Grammar

/-!
# Syntax errors

Which error does a text have that is not a program, and where?  `Wrong` lists the places in which a token is missing or unexpected;
`Bad` finds such a place inside of larger phrases.  The tokens are `ts ++ rest`: up to the end of `ts` they are the beginning of a phrase, the first
token of `rest` (or the end of the text, if `rest` is empty) is the one at which the error is found.
-/
namespace PP.Spec

/-- Where an error is reported. -/
inductive Where where
  /-- at the first character of the first token of `rest` -/
  | start
  /-- after the first token of `rest` -/
  | after
  /-- not specified -/
  | somewhere

/-- The first token. -/
def next : List T → Tok
  | [] => .end_
  | t :: _ => t.tok

/-- Tokens that cannot start an expression. -/
def cannotStart : Tok → Bool
  | .subtract | .add | .not | .multiply | .at_ | .atat
  | .lp | .wslp | .lb | .listStart | .lc | .boolean | .integer | .float | .string | .heredoc | .concatenatedString | .regexp
  | .typeName | .identifier | .variable | .kAttr | .kPrivate | .kDefault | .kUndef | .kCase | .kIf | .kUnless | .kClass | .kType | .kPlan
  | .kFunction | .kNode | .kDefine | .kApplication | .kSite | .renderString | .renderExpr => false
  | _ => true

/-- Tokens that (may) continue a primary expression. -/
def morePrimary : Tok → Bool
  | .lp | .pipe | .lcollect | .llcollect | .lb | .listStart | .dot | .kElse | .kElsif => true
  | _ => false

/-- Tokens that continue the condition of `if`. -/
def moreOr (t : Tok) : Bool :=
  match t with
  | .kOr | .kAnd | .less | .lessEqual | .greater | .greaterEqual | .equal | .notEqual | .lshift | .rshift | .add | .subtract
  | .multiply | .divide | .remainder | .match_ | .notMatch | .kIn => true
  | t => morePrimary t

/-- Tokens that continue a value. -/
def moreExpr (t : Tok) : Bool :=
  match t with
  | .qmark | .kProduces | .kConsumes => true
  | t => moreOr t

/-- Tokens that continue a statement (besides of a comma). -/
def moreRel (t : Tok) : Bool :=
  match t with
  | .lc | .assign | .addAssign | .subtractAssign | .inEdge | .inEdgeSub | .outEdge | .outEdgeSub => true
  | t => moreExpr t

/-- Tokens that continue an element of a list. -/
def moreElem : Elem → Tok → Bool
  | .selEntry, t => moreExpr t
  | .value, t => moreExpr t
  | _, t => moreRel t || t == .farrow

/-- Kinds of phrases in which something is wrong. -/
inductive K where
  | bin (l : Lvl) | opd (l : Lvl) | assign | res | expr | unary | primary | atom | key
  | elem (k : Elem)
  /-- a list up to the token `close` -/
  | many (k : Elem) (close : Tok)
  | block
  /-- statements up to the token `close` -/
  | stmts (close : Tok)
  | commas
  | ifRest (isUnless : Bool)
  | options
  | bodies
  /-- attributes up to a `}` or, if `semi`, up to a semicolon -/
  | attrs (semi : Bool)
  | attr
  | lambda | ret | typ | params | hosts | host | segs

/-- What can be called: phrases that are followed by `(`, `|`, `[`, `.`, `<|`. -/
inductive Called (ns : List GoStr) : Bool → List T → Prop
  | callee {c e ts} : G ns (.callee c) e ts → Called ns c ts
  | dotted {lr ts} : G ns .dotted lr ts → Called ns false ts

/-- The error for a token that is not the name of a class. -/
def nameIssue : Tok → Option Code
  | .typeName | .identifier => none
  | .string | .concatenatedString => some .parseQuotedNotValidName
  | .kClass => some .parseClassNotValidHere
  | _ => some .parseExpectedClassName

/-- Keywords that define something with the name of a class. -/
def definesName : Tok → Bool
  | .kDefine | .kApplication => true
  | _ => false

/-- The names of attributes. -/
def namesAttribute : Tok → Bool
  | .identifier | .kAnd | .kApplication | .kAttr | .kCase | .kClass | .kConsumes | .kDefault | .kDefine | .kFunction | .kIf | .kIn
  | .kInherits | .kElse | .kElsif | .kNode | .kOr | .kPlan | .kPrivate | .kProduces | .kSite | .kType | .kUndef | .kUnless => true
  | _ => false

/-- The tokens around a query. -/
def closes : T → Option Tok
  | .sym .lcollect => some .rcollect
  | .sym .llcollect => some .rrcollect
  | _ => none

/-- The host names. -/
def startsHost : Tok → Bool
  | .identifier | .typeName | .integer | .float | .regexp | .string | .kDefault | .concatenatedString | .heredoc => true
  | _ => false

/-- The parts of a host name. -/
def startsSegment : Tok → Bool
  | .identifier | .typeName | .integer | .float => true
  | _ => false

/-- The error for a token that is not the name of a function or a plan. -/
def functionIssue : Tok → Option Code
  | .kFunction => some .parseExpectedNameAfterFunction
  | .kPlan => some .parseExpectedNameAfterPlan
  | _ => none

/-- The name of a type of resources. -/
def namesResource : Expr → Bool
  | .qname _ n => !statementFunctions.contains n
  | _ => false

/-- Neither the type nor a reference to a resource. -/
def noResource : Expr → Bool
  | .qname .. | .qref .. | .access .. => false
  | _ => true

/-- After `ts`, inside of a phrase of kind `K`, the first token of `rest` is wrong. -/
inductive Wrong (rest : List T) : List GoStr → K → List T → Code → Where → Prop
  -- no expression
  | start {ns} : cannotStart (next rest) = true → Wrong rest ns .atom [] .lexUnexpectedToken .start
  -- `+` is not a unary operator
  | plus {ns r} : rest = y .add :: r → StartsNot isNumber r → Wrong rest ns .unary [] .lexUnexpectedToken .after
  -- missing tokens
  | paren {ns t e ts} : isParen t = true → G ns (.bin .rel) e ts → moreRel (next rest) = false → next rest ≠ .rp →
      Wrong rest ns .atom (t :: ts) .parseExpectedToken .start
  | brace {ns} : next rest ≠ .lc → Wrong rest ns .block [] .parseExpectedToken .start
  | caseBrace {ns e te} : G ns .expr e te → moreExpr (next rest) = false → next rest ≠ .lc →
      Wrong rest ns .atom (w .kCase :: te) .parseExpectedToken .start
  | hiddenBrace {ns t f e te} : hiddenForm t = some f → G ns .primary e te → morePrimary (next rest) = false → next rest ≠ .lc →
      Wrong rest ns .unary (t :: te) .parseExpectedToken .start
  | query {ns c te t close e tq} : Called ns c te → closes t = some close → G ns .expr e tq → moreExpr (next rest) = false → next rest ≠ close →
      Wrong rest ns .primary (te ++ t :: tq) .parseExpectedToken .start
  | attrsEnd {ns semi a ta} : G ns .attr a ta → moreExpr (next rest) = false → next rest ≠ .comma → next rest ≠ .rc →
      (semi = true → next rest ≠ .semicolon) → Wrong rest ns (.attrs semi) ta .parseExpectedToken .start
  | attrsSemicolon {ns} : next rest = .semicolon → Wrong rest ns (.attrs false) [] .parseExpectedToken .start
  | selArrow {ns k tk} : G ns .expr k tk → moreExpr (next rest) = false → next rest ≠ .farrow →
      Wrong rest ns (.elem .selEntry) tk .parseExpectedToken .start
  | splatArrow {ns} : next rest ≠ .farrow → Wrong rest ns .attr [y .multiply] .parseExpectedToken .start
  | mappingBrace {ns e c k t n te} : G ns .sel e te → component ns e = some c → k = .kProduces ∨ k = .kConsumes → definitionName t = some n →
      next rest ≠ .lc → Wrong rest ns .expr (te ++ [w k, t]) .parseExpectedToken .start
  | typeBrace {ns n p} : next rest ≠ .lc → Wrong rest ns .atom [w .kType, .type n, w .kInherits, .type p] .parseExpectedToken .start
  | nodeBrace {ns h th} : G ns .host h th → next rest ≠ .comma → next rest ≠ .dot → next rest ≠ .kInherits → next rest ≠ .lc →
      Wrong rest ns .hosts th .parseExpectedToken .start
  -- lists
  | separator {ns k close e te} : G ns (.elem k) e te → moreElem k (next rest) = false → next rest ≠ .comma → next rest ≠ close →
      Wrong rest ns (.many k close) te .parseExpectedOneOfTokens .start
  | arrow {ns k tk} : G ns .key k tk → moreRel (next rest) = false → next rest ≠ .farrow →
      Wrong rest ns (.elem .entry) tk .parseExpectedFarrowAfterKey .after
  | variable {ns ty tt} : G ns .optTyp ty tt → morePrimary (next rest) = false → next rest ≠ .typeName → next rest ≠ .variable →
      next rest ≠ .multiply → Wrong rest ns (.elem .param) tt .parseExpectedVariable .after
  | variableRest {ns ty tt} : G ns .optTyp ty tt → next rest ≠ .variable → Wrong rest ns (.elem .param) (tt ++ [y .multiply]) .parseExpectedVariable .after
  -- attributes
  | attrName {ns} : namesAttribute (next rest) = false → next rest ≠ .multiply → Wrong rest ns .attr [] .parseExpectedAttributeName .start
  | attrArrow {ns t n} : attributeOf t = some n → next rest ≠ .farrow → next rest ≠ .parrow → Wrong rest ns .attr [t] .parseInvalidAttribute .after
  -- resources
  | title {ns e x te tx} : G ns (.resType false) e te → namesResource e = true → G ns .expr x tx → StartsNot isStar tx → moreExpr (next rest) = false →
      next rest ≠ .colon → Wrong rest ns .res (te ++ y .lc :: tx) .parseResourceWithoutTitle .somewhere
  | resource {ns e x te tx} : G ns .expr e te → noResource e = true → G ns .expr x tx → StartsNot isStar tx → moreExpr (next rest) = false →
      next rest ≠ .colon → Wrong rest ns .res (te ++ y .lc :: tx) .parseInvalidResource .somewhere
  | laterTitle {ns e ops x te ta tx} : G ns .expr e te → StartsNot isStar te → G ns .attrs ops ta → G ns .expr x tx → moreExpr (next rest) = false →
      next rest ≠ .colon → next rest ≠ .rc → Wrong rest ns .bodies (te ++ y .colon :: (ta ++ y .semicolon :: tx)) .parseExpectedTitle .somewhere
  -- elsif
  | elsif {ns c b tc tb} : G ns (.bin .or) c tc → G ns .block b tb → next rest = .kElsif →
      Wrong rest ns (.ifRest true) (tc ++ tb) .parseElsifInUnless .after
  -- names
  | className {ns c} : nameIssue (next rest) = some c → next rest ≠ .lc → Wrong rest ns .atom [w .kClass] c .start
  | parentName {ns n t ps tp c} : definitionName t = some n → G (ns ++ [local_ n]) .params ps tp → nameIssue (next rest) = some c → next rest ≠ .kDefault →
      Wrong rest ns .atom (w .kClass :: t :: (tp ++ [w .kInherits])) c .start
  | defineName {ns k c} : definesName k = true → nameIssue (next rest) = some c → Wrong rest ns .atom [w k] c .start
  | functionName {ns k c} : functionIssue k = some c → next rest ≠ .identifier → next rest ≠ .typeName → Wrong rest ns .atom [w k] c .start
  | mappingName {ns e x k te c} : G ns .sel e te → component ns e = some x → k = .kProduces ∨ k = .kConsumes → nameIssue (next rest) = some c →
      Wrong rest ns .expr (te ++ [w k]) c .start
  | host {ns} : startsHost (next rest) = false → Wrong rest ns .host [] .parseExpectedHostname .after
  | segment {ns} : startsSegment (next rest) = false → Wrong rest ns .segs [] .parseExpectedNameOrNumberAfterDot .after
  -- types
  | typeName {ns} : next rest ≠ .typeName → Wrong rest ns .typ [] .parseExpectedTypeName .after
  | typeParent {ns n} : next rest ≠ .typeName → Wrong rest ns .atom [w .kType, .type n, w .kInherits] .parseInheritsMustBeTypeName .after
  | typeAlias {ns n} : next rest ≠ .lb → next rest ≠ .listStart → next rest ≠ .assign → next rest ≠ .kInherits → next rest ≠ .lc →
      Wrong rest ns .atom [w .kType, .type n] .lexUnexpectedToken .after
  | typeMapping {ns n es te} : G ns (.many .arg) es te → next rest ≠ .assign →
      Wrong rest ns .atom (w .kType :: .type n :: y .lb :: (te ++ [y .rb])) .parseExpectedTypeNameAfterType .after

/-- A phrase of kind `K` starts with `ts` and goes wrong at the first token of `rest`. -/
inductive Bad (rest : List T) (c : Code) (p : Where) : List GoStr → K → List T → Prop
  | here {ns k ts} : Wrong rest ns k ts c p → Bad rest c p ns k ts
  -- operators
  | operand {ns l ts} : Bad rest c p ns (.opd l) ts → Bad rest c p ns (.bin l) ts
  | binary {ns l a t k ta tb} : G ns (.bin l) a ta → operator l t = some k → Bad rest c p ns (.opd l) tb → Bad rest c p ns (.bin l) (ta ++ t :: tb)
  | opdRel {ns ts} : Bad rest c p ns .assign ts → Bad rest c p ns (.opd .rel) ts
  | opdTighter {ns l l' ts} : tighter l = some l' → Bad rest c p ns (.bin l') ts → Bad rest c p ns (.opd l) ts
  | opdIn {ns ts} : Bad rest c p ns .unary ts → Bad rest c p ns (.opd .in_) ts
  | noAssign {ns ts} : Bad rest c p ns .res ts → Bad rest c p ns .assign ts
  | assign {ns a t op ta tb} : G ns .res a ta → assignOperator t = some op → Bad rest c p ns .assign tb → Bad rest c p ns .assign (ta ++ t :: tb)
  -- resources
  | noResource {ns ts} : Bad rest c p ns .expr ts → Bad rest c p ns .res ts
  | resource {ns e te tb} : G ns (.resType false) e te → Bad rest c p ns .bodies tb → Bad rest c p ns .res (te ++ y .lc :: tb)
  | defaults {ns e te ta} : G ns .expr e te → isDefaults e = true ∨ isOverride e = true → Begins (ta ++ rest) → Bad rest c p ns (.attrs false) ta →
      Bad rest c p ns .res (te ++ .brace :: ta)
  | bodyTitle {ns te} : Bad rest c p ns .expr te → next (te ++ rest) ≠ .multiply → Bad rest c p ns .bodies te
  | bodyAttrs {ns e te ta} : G ns .expr e te → StartsNot isStar te → Bad rest c p ns (.attrs true) ta → Bad rest c p ns .bodies (te ++ y .colon :: ta)
  | bodies {ns e ops te ta tb} : G ns .expr e te → StartsNot isStar te → G ns .attrs ops ta → Bad rest c p ns .bodies tb → next (tb ++ rest) ≠ .rc →
      Bad rest c p ns .bodies (te ++ y .colon :: (ta ++ y .semicolon :: tb))
  | attr {ns semi ta} : Bad rest c p ns .attr ta → next (ta ++ rest) ≠ .semicolon → next (ta ++ rest) ≠ .rc → Bad rest c p ns (.attrs semi) ta
  | attrs {ns semi a ta tb} : G ns .attr a ta → Bad rest c p ns (.attrs semi) tb → Bad rest c p ns (.attrs semi) (ta ++ y .comma :: tb)
  | attrValue {ns n op t u te} : attributeOf t = some n → attributeOperator u = some op → Bad rest c p ns .expr te → Bad rest c p ns .attr (t :: u :: te)
  | attrSplat {ns te} : Bad rest c p ns .expr te → Bad rest c p ns .attr (y .multiply :: y .farrow :: te)
  -- values
  | value {ns ts} : Bad rest c p ns (.bin .or) ts → Bad rest c p ns .expr ts
  | selector {ns e ts te} : G ns .sel e ts → Bad rest c p ns (.many .selEntry .rc) te → Bad rest c p ns .expr (ts ++ y .qmark :: y .selc :: te)
  | selectOne {ns e ts te} : G ns .sel e ts → Bad rest c p ns (.elem .selEntry) te → next (te ++ rest) ≠ .selc → Bad rest c p ns .expr (ts ++ y .qmark :: te)
  | mapping {ns e x k t n te to} : G ns .sel e te → component ns e = some x → k = .kProduces ∨ k = .kConsumes → definitionName t = some n →
      Bad rest c p ns (.attrs false) to → Bad rest c p ns .expr (te ++ w k :: t :: y .lc :: to)
  -- unary operators
  | primary {ns ts} : Bad rest c p ns .primary ts → Bad rest c p ns .unary ts
  | not {ns ts} : Bad rest c p ns .unary ts → Bad rest c p ns .unary (y .not :: ts)
  | splat {ns ts} : Bad rest c p ns .unary ts → Bad rest c p ns .unary (y .multiply :: ts)
  | minus {ns ts} : Bad rest c p ns .primary ts → StartsNot isNumber (ts ++ rest) → Bad rest c p ns .unary (y .subtract :: ts)
  | hiddenType {ns t f ts} : hiddenForm t = some f → Bad rest c p ns .primary ts → Bad rest c p ns .unary (t :: ts)
  | hidden {ns t f e te tb} : hiddenForm t = some f → G ns (.resType true) e te → Bad rest c p ns .bodies tb →
      Bad rest c p ns .unary (t :: (te ++ y .lc :: tb))
  | hiddenDefaults {ns t f e te ta} : hiddenForm t = some f → G ns .primary e te → isDefaults e = true ∨ isOverride e = true → Begins (ta ++ rest) →
      Bad rest c p ns (.attrs false) ta → Bad rest c p ns .unary (t :: (te ++ .brace :: ta))
  -- calls, access
  | atom {ns ts} : Bad rest c p ns .atom ts → Bad rest c p ns .primary ts
  | args {ns d tf ta} : Called ns d tf → Bad rest c p ns (.many .arg .rp) ta → Bad rest c p ns .primary (tf ++ y .lp :: ta)
  | argsLambda {ns d as tf ta tl} : Called ns d tf → G ns (.many .arg) as ta → Bad rest c p ns .lambda tl →
      Bad rest c p ns .primary (tf ++ y .lp :: (ta ++ y .rp :: tl))
  | callLambda {ns tf tl} : Called ns false tf → Bad rest c p ns .lambda tl → Bad rest c p ns .primary (tf ++ tl)
  | access {ns d te tk} : Called ns d te → Bad rest c p ns (.many .arg .rb) tk → Bad rest c p ns .primary (te ++ y .lb :: tk)
  | dot {ns d te ts} : Called ns d te → Bad rest c p ns .atom ts → next (ts ++ rest) ≠ .kType → Bad rest c p ns .primary (te ++ y .dot :: ts)
  | query {ns d te t close tq} : Called ns d te → closes t = some close → Bad rest c p ns .expr tq → next (tq ++ rest) ≠ close →
      Bad rest c p ns .primary (te ++ t :: tq)
  | queryAttrs {ns d te q tq to} : Called ns d te → G ns .query q tq → Bad rest c p ns (.attrs false) to →
      Bad rest c p ns .primary (te ++ (tq ++ y .lc :: to))
  -- lists
  | elem {ns k close ts} : Bad rest c p ns (.elem k) ts → next (ts ++ rest) ≠ close → Bad rest c p ns (.many k close) ts
  | elems {ns k close e te ts} : G ns (.elem k) e te → Bad rest c p ns (.many k close) ts → Bad rest c p ns (.many k close) (te ++ y .comma :: ts)
  | key {ns ts} : Bad rest c p ns (.bin .rel) ts → StartsNot isKeyWord (ts ++ rest) → Bad rest c p ns .key ts
  | arg {ns ts} : Bad rest c p ns .key ts → Bad rest c p ns (.elem .arg) ts
  | argValue {ns k tk tv} : G ns .key k tk → Bad rest c p ns .key tv → Bad rest c p ns (.elem .arg) (tk ++ y .farrow :: tv)
  | entry {ns ts} : Bad rest c p ns .key ts → Bad rest c p ns (.elem .entry) ts
  | entryValue {ns k tk tv} : G ns .key k tk → Bad rest c p ns .key tv → Bad rest c p ns (.elem .entry) (tk ++ y .farrow :: tv)
  | selEntry {ns ts} : Bad rest c p ns .expr ts → Bad rest c p ns (.elem .selEntry) ts
  | selEntryValue {ns k tk tv} : G ns .expr k tk → Bad rest c p ns .expr tv → Bad rest c p ns (.elem .selEntry) (tk ++ y .farrow :: tv)
  | caseValue {ns ts} : Bad rest c p ns .expr ts → Bad rest c p ns (.elem .value) ts
  | paramType {ns n te} : Bad rest c p ns (.many .arg .rb) te → Bad rest c p ns (.elem .param) (.type n :: y .lb :: te)
  | paramDefault {ns ty tt v te} : G ns .optTyp ty tt → Bad rest c p ns .expr te → Bad rest c p ns (.elem .param) (tt ++ .var v :: y .assign :: te)
  | paramRestDefault {ns ty tt v te} : G ns .optTyp ty tt → Bad rest c p ns .expr te →
      Bad rest c p ns (.elem .param) (tt ++ y .multiply :: .var v :: y .assign :: te)
  -- atoms
  | paren {ns t ts} : isParen t = true → Bad rest c p ns (.bin .rel) ts → Bad rest c p ns .atom (t :: ts)
  | list {ns t ts} : isBracket t = true → Bad rest c p ns (.many .arg .rb) ts → Bad rest c p ns .atom (t :: ts)
  | hash {ns ts} : Bad rest c p ns (.many .entry .rc) ts → Bad rest c p ns .atom (y .lc :: ts)
  | if_ {ns ts} : Bad rest c p ns (.ifRest false) ts → Bad rest c p ns .atom (w .kIf :: ts)
  | unless_ {ns ts} : Bad rest c p ns (.ifRest true) ts → Bad rest c p ns .atom (w .kUnless :: ts)
  | condition {ns u ts} : Bad rest c p ns (.bin .or) ts → Bad rest c p ns (.ifRest u) ts
  | then_ {ns u e te tb} : G ns (.bin .or) e te → Bad rest c p ns .block tb → moreOr (next (tb ++ rest)) = false → Bad rest c p ns (.ifRest u) (te ++ tb)
  | else_ {ns u e b te tb ts} : G ns (.bin .or) e te → G ns .block b tb → Bad rest c p ns .block ts →
      Bad rest c p ns (.ifRest u) (te ++ (tb ++ w .kElse :: ts))
  | elsif {ns e b te tb ts} : G ns (.bin .or) e te → G ns .block b tb → Bad rest c p ns (.ifRest false) ts →
      Bad rest c p ns (.ifRest false) (te ++ (tb ++ w .kElsif :: ts))
  | caseTest {ns ts} : Bad rest c p ns .expr ts → Bad rest c p ns .atom (w .kCase :: ts)
  | case {ns e te to} : G ns .expr e te → Bad rest c p ns .options to → Bad rest c p ns .atom (w .kCase :: (te ++ y .lc :: to))
  | optionValues {ns ts} : Bad rest c p ns (.many .value .colon) ts → Bad rest c p ns .options ts
  | optionBlock {ns vs tv tb} : G ns (.many .value) vs tv → Bad rest c p ns .block tb → Bad rest c p ns .options (tv ++ y .colon :: tb)
  | options {ns vs b tv tb to} : G ns (.many .value) vs tv → G ns .block b tb → Bad rest c p ns .options to → next (to ++ rest) ≠ .rc →
      Bad rest c p ns .options (tv ++ y .colon :: (tb ++ to))
  -- lambdas and parameters
  | lambdaParams {ns ts} : Bad rest c p ns (.many .param .pipeEnd) ts → Bad rest c p ns .lambda (y .pipe :: ts)
  | lambdaRet {ns ps tp ts} : G ns (.many .param) ps tp → Bad rest c p ns .ret ts → Bad rest c p ns .lambda (y .pipe :: (tp ++ y .pipeEnd :: ts))
  | lambdaBlock {ns ps r tp tr tb} : G ns (.many .param) ps tp → G ns .ret r tr → Bad rest c p ns .block tb → morePrimary (next (tb ++ rest)) = false →
      next (tb ++ rest) ≠ .rshift → Bad rest c p ns .lambda (y .pipe :: (tp ++ y .pipeEnd :: (tr ++ tb)))
  | ret {ns ts} : Bad rest c p ns .typ ts → Bad rest c p ns .ret (y .rshift :: ts)
  | typ {ns n te} : Bad rest c p ns (.many .arg .rb) te → Bad rest c p ns .typ (.type n :: y .lb :: te)
  | params {ns t ts} : isParen t = true → Bad rest c p ns (.many .param .rp) ts → Bad rest c p ns .params (t :: ts)
  -- definitions
  | classParams {ns n t ts} : definitionName t = some n → Bad rest c p (ns ++ [local_ n]) .params ts → Bad rest c p ns .atom (w .kClass :: t :: ts)
  | classBlock {ns n q ps t tp tq tb} : definitionName t = some n → G (ns ++ [local_ n]) .params ps tp → G (ns ++ [local_ n]) .parent q tq →
      Bad rest c p (ns ++ [local_ n]) .block tb → next (tb ++ rest) ≠ .lp → next (tb ++ rest) ≠ .wslp → next (tb ++ rest) ≠ .kInherits →
      Bad rest c p ns .atom (w .kClass :: t :: (tp ++ (tq ++ tb)))
  | defineParams {ns k n t ts} : definesName k = true → definitionName t = some n → Bad rest c p ns .params ts → Bad rest c p ns .atom (w k :: t :: ts)
  | defineBlock {ns k n ps t tp tb} : definesName k = true → definitionName t = some n → G ns .params ps tp → Bad rest c p ns .block tb →
      next (tb ++ rest) ≠ .lp → next (tb ++ rest) ≠ .wslp → Bad rest c p ns .atom (w k :: t :: (tp ++ tb))
  | functionParams {ns n t ts} : definitionName t = some n → Bad rest c p ns .params ts → Bad rest c p ns .atom (w .kFunction :: t :: ts)
  | functionRet {ns n ps t tp ts} : definitionName t = some n → G ns .params ps tp → Bad rest c p ns .ret ts →
      Bad rest c p ns .atom (w .kFunction :: t :: (tp ++ ts))
  | functionBlock {ns n ps r t tp tr tb} : definitionName t = some n → G ns .params ps tp → G ns .ret r tr → Bad rest c p ns .block tb →
      morePrimary (next (tb ++ rest)) = false → next (tb ++ rest) ≠ .wslp → next (tb ++ rest) ≠ .rshift →
      Bad rest c p ns .atom (w .kFunction :: t :: (tp ++ (tr ++ tb)))
  | planParams {ns n t ts} : definitionName t = some n → Bad rest c p (ns ++ [n]) .params ts → Bad rest c p ns .atom (w .kPlan :: t :: ts)
  | planRet {ns n ps t tp ts} : definitionName t = some n → G (ns ++ [n]) .params ps tp → Bad rest c p (ns ++ [n]) .ret ts →
      Bad rest c p ns .atom (w .kPlan :: t :: (tp ++ ts))
  | planBlock {ns n ps r t tp tr tb} : definitionName t = some n → G (ns ++ [n]) .params ps tp → G (ns ++ [n]) .ret r tr →
      Bad rest c p (ns ++ [n]) .block tb → morePrimary (next (tb ++ rest)) = false → next (tb ++ rest) ≠ .wslp → next (tb ++ rest) ≠ .rshift →
      Bad rest c p ns .atom (w .kPlan :: t :: (tp ++ (tr ++ tb)))
  | nodeHosts {ns ts} : Bad rest c p ns .hosts ts → Bad rest c p ns .atom (w .kNode :: ts)
  | nodeParent {ns hs th ts} : G ns .hosts hs th → Bad rest c p ns .host ts → Bad rest c p ns .atom (w .kNode :: (th ++ w .kInherits :: ts))
  | nodeBlock {ns hs th tb} : G ns .hosts hs th → Bad rest c p ns .block tb → next (tb ++ rest) = .lc → Bad rest c p ns .atom (w .kNode :: (th ++ tb))
  | nodeParentBlock {ns hs h th tp tb} : G ns .hosts hs th → G ns .host h tp → Bad rest c p ns .block tb → next (tb ++ rest) ≠ .dot →
      Bad rest c p ns .atom (w .kNode :: (th ++ w .kInherits :: (tp ++ tb)))
  | hosts {ns ts} : Bad rest c p ns .host ts → Bad rest c p ns .hosts ts
  | moreHosts {ns h th ts} : G ns .host h th → Bad rest c p ns .hosts ts → next (ts ++ rest) ≠ .kInherits → next (ts ++ rest) ≠ .lc →
      Bad rest c p ns .hosts (th ++ y .comma :: ts)
  | hostName {ns t x ts} : segmentOf t = some x → Bad rest c p ns .segs ts → Bad rest c p ns .host (t :: y .dot :: ts)
  | segs {ns t x ts} : segmentOf t = some x → Bad rest c p ns .segs ts → Bad rest c p ns .segs (t :: y .dot :: ts)
  | site {ns ts} : Bad rest c p ns .block ts → Bad rest c p ns .atom (w .kSite :: ts)
  -- definitions of types
  | typeAlias {ns n ts} : Bad rest c p ns .expr ts → Bad rest c p ns .atom (w .kType :: .type n :: y .assign :: ts)
  | typeExtends {ns n q ts} : Bad rest c p ns .expr (y .lc :: ts) →
      Bad rest c p ns .atom (w .kType :: .type n :: y .assign :: .type q :: y .lc :: ts)
  | typeDefinition {ns n ts} : Bad rest c p ns (.stmts .rc) ts → Bad rest c p ns .atom (w .kType :: .type n :: y .lc :: ts)
  | typeInherits {ns n q ts} : Bad rest c p ns (.stmts .rc) ts →
      Bad rest c p ns .atom (w .kType :: .type n :: w .kInherits :: .type q :: y .lc :: ts)
  | typeArgs {ns n ts} : Bad rest c p ns (.many .arg .rb) ts → Bad rest c p ns .atom (w .kType :: .type n :: y .lb :: ts)
  | typeMapping {ns n es te ts} : G ns (.many .arg) es te → Bad rest c p ns .expr ts →
      Bad rest c p ns .atom (w .kType :: .type n :: y .lb :: (te ++ y .rb :: y .assign :: ts))
  -- blocks and statements
  | block {ns ts} : Bad rest c p ns (.stmts .rc) ts → Bad rest c p ns .block (y .lc :: ts)
  | comma {ns ts} : Bad rest c p ns (.bin .rel) ts → Bad rest c p ns .commas ts
  | commas {ns e te ts} : G ns (.bin .rel) e te → Bad rest c p ns .commas ts → Bad rest c p ns .commas (te ++ y .comma :: ts)
  | stmt {ns close ts} : Bad rest c p ns .commas ts → next (ts ++ rest) ≠ close → Bad rest c p ns (.stmts close) ts
  | stmts {ns close es te semi ts} : G ns .commas es te → Semi semi → (semi = [] → next (ts ++ rest) ≠ .semicolon) → Apart (semi ++ (ts ++ rest)) →
      Bad rest c p ns (.stmts close) ts → Bad rest c p ns (.stmts close) (te ++ (semi ++ ts))
  | typeStmts {ns close e te semi ts} : G ns .typeDef e te → Semi semi → (semi = [] → next (ts ++ rest) ≠ .semicolon) → Apart (semi ++ (ts ++ rest)) →
      Bad rest c p ns (.stmts close) ts → Bad rest c p ns (.stmts close) (te ++ (semi ++ ts))

end PP.Spec
