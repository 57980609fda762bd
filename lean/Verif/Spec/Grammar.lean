import Verif.Monad

/-!
# The language: tokens, trees, grammar

A specification of Puppet programs that does not mention the parser.  Trees are `Expr` without positions (every position is
`z`).  `G ns n r ts`: inside of the classes (and plans) `ns`, the tokens `ts` are a phrase of kind `n` with the meaning `r`.
-/
namespace PP.Spec

/-- No position. -/
def z : Pos := ⟨0, 0⟩

/-- Tokens.  How they are written and where white space may or must be is specified in `Spec/Layout.lean`. -/
inductive T where
  /-- an integer literal with its radix -/
  | int (radix : Nat) (v : Int)
  /-- a floating point literal -/
  | float (text : GoStr)
  /-- a string without interpolation -/
  | str (v : GoStr)
  /-- a string with interpolation: its parts -/
  | interp (parts : List Expr)
  /-- a heredoc: its syntax and its text -/
  | heredoc (syntx : GoStr) (text : Expr)
  | bool (v : Bool)
  | dflt
  | regexp (v : GoStr)
  /-- `$name` -/
  | var (name : GoStr)
  /-- a lower case name that is not a keyword -/
  | name (w : GoStr)
  /-- in templates: text between the tags -/
  | render (text : GoStr)
  /-- in workflows: a lower case name that is the style of a step -/
  | style (k : StepStyle)
  /-- a type name -/
  | type (w : GoStr)
  /-- a keyword -/
  | word (k : Tok)
  /-- `-` or `+` directly followed by a digit -/
  | sign (k : Tok)
  /-- punctuation: `lp` is a `(` that is not the first token of its line, `wslp` one that is; `lb` is a `[` that directly
  follows the token before it, `listStart` one that does not -/
  | sym (k : Tok)
  /-- the `{` in front of the attributes of a resource default or a resource override -/
  | brace

/-- The token of the lexer. -/
def T.tok : T → Tok
  | .int .. => .integer
  | .float _ => .float
  | .str _ => .string
  | .interp _ => .concatenatedString
  | .heredoc .. => .heredoc
  | .bool _ => .boolean
  | .dflt => .kDefault
  | .regexp _ => .regexp
  | .var _ => .variable
  | .name _ => .identifier
  | .style _ => .identifier
  | .render _ => .renderString
  | .type _ => .typeName
  | .word k => k
  | .sign k => k
  | .sym k => k
  | .brace => .lc

/-- The spelling of the keywords. -/
def spell : Tok → GoStr
  | .kAnd => b!"and" | .kApplication => b!"application" | .kAttr => b!"attr" | .kCase => b!"case"
  | .kClass => b!"class" | .kConsumes => b!"consumes" | .kDefine => b!"define"
  | .kFunction => b!"function" | .kIf => b!"if" | .kIn => b!"in" | .kInherits => b!"inherits"
  | .kElse => b!"else" | .kElsif => b!"elsif" | .kNode => b!"node" | .kOr => b!"or" | .kPlan => b!"plan"
  | .kPrivate => b!"private" | .kProduces => b!"produces" | .kSite => b!"site" | .kType => b!"type"
  | .kUndef => b!"undef" | .kUnless => b!"unless"
  | _ => []

/-- The names of the styles of steps. -/
def styleName : StepStyle → GoStr
  | .action => b!"action"
  | .resource => b!"resource"
  | .stateHandler => b!"stateHandler"
  | .workflow => b!"workflow"

/-- Functions that are called without parentheses. -/
def statementFunctions : List GoStr :=
  [b!"require", b!"realize", b!"include", b!"contain", b!"tag", b!"debug", b!"info", b!"notice",
   b!"warning", b!"err", b!"fail", b!"import", b!"break", b!"next", b!"return"]

/-- The binary operators of each level with the node they make. -/
def operator : Lvl → T → Option BinKind
  | .rel, .sym .inEdge => some (.relationship b!"->")
  | .rel, .sym .inEdgeSub => some (.relationship b!"~>")
  | .rel, .sym .outEdge => some (.relationship b!"<-")
  | .rel, .sym .outEdgeSub => some (.relationship b!"<~")
  | .or, .word .kOr => some .or
  | .and, .word .kAnd => some .and
  | .compare, .sym .less => some (.comparison b!"<")
  | .compare, .sym .lessEqual => some (.comparison b!"<=")
  | .compare, .sym .greater => some (.comparison b!">")
  | .compare, .sym .greaterEqual => some (.comparison b!">=")
  | .equal, .sym .equal => some (.comparison b!"==")
  | .equal, .sym .notEqual => some (.comparison b!"!=")
  | .shift, .sym .lshift => some (.arithmetic b!"<<")
  | .shift, .sym .rshift => some (.arithmetic b!">>")
  | .additive, .sym .add => some (.arithmetic b!"+")
  | .additive, .sym .subtract => some (.arithmetic b!"-")
  | .additive, .sign .add => some (.arithmetic b!"+")
  | .additive, .sign .subtract => some (.arithmetic b!"-")
  | .mult, .sym .multiply => some (.arithmetic b!"*")
  | .mult, .sym .divide => some (.arithmetic b!"/")
  | .mult, .sym .remainder => some (.arithmetic b!"%")
  | .match_, .sym .match_ => some (.match b!"=~")
  | .match_, .sym .notMatch => some (.match b!"!~")
  | .in_, .word .kIn => some .in
  | _, _ => none

/-- The assignment operators. -/
def assignOperator : T → Option GoStr
  | .sym .assign => some b!"="
  | .sym .addAssign => some b!"+="
  | .sym .subtractAssign => some b!"-="
  | _ => none

/-- The tokens that are expressions by themselves. -/
def leafOf : T → Option Expr
  | .int r v => some (.integer z r v)
  | .float v => some (.float z ⟨false, v⟩)
  | .str v => some (.string z v)
  | .interp ps => some (.concat z ps)
  | .heredoc sy e => some (.heredoc z sy e)
  | .bool v => some (.boolean z v)
  | .dflt => some (.dflt z)
  | .regexp v => some (.regexp z v)
  | .var v => some (.un z .variable (.qname z v))
  | .name w => some (.qname z w)
  | .style k => some (.qname z (styleName k))
  | .render v => some (.renderString z v)
  | .type w => some (.qref z w (toLowerAscii w))
  | .word .kUndef => some (.undef z)
  | .word .kAttr => some (.reserved z b!"attr" false)
  | .word .kPrivate => some (.reserved z b!"private" false)
  | _ => none

/-- Kinds of elements of comma separated lists. -/
inductive Elem where
  /-- an argument or an element of a list: a value or `key => value` -/
  | arg
  /-- `key => value` of a hash -/
  | entry
  /-- `value => value` of a selector -/
  | selEntry
  /-- a value of a case option -/
  | value
  | param
  /-- a property of a step -/
  | prop
  /-- an attribute of the state of a resource step -/
  | state
  /-- a value that a step returns -/
  | output
  /-- the name of an attribute -/
  | alias

/-- Kinds of phrases. -/
inductive N where
  /-- operands and operators of a level -/
  | bin (l : Lvl)
  /-- the operands of a level -/
  | opd (l : Lvl)
  | assign
  | res
  | expr
  | sel
  | unary
  | primary
  /-- a primary expression; `called`: it ends with the arguments of a call that has no lambda -/
  | prim (called : Bool)
  /-- what is called or accessed -/
  | callee (called : Bool)
  /-- a primary expression that ends with `.name` -/
  | dotted
  | atom
  | key
  | elem (k : Elem)
  | many (k : Elem)
  | block
  | stmts
  | commas
  | ifRest (isUnless : Bool)
  | elseRest (isUnless : Bool)
  | options
  /-- the type of a resource; `hidden`: the resource is virtual or exported -/
  | resType (hidden : Bool)
  | bodies
  | attrs
  | attr
  | query
  | lambda
  | ret
  | typ
  | optTyp
  | dfltVal
  | params
  /-- a definition of a type, or `<%= expression` in a template -/
  | typeDef
  /-- the parent of a class -/
  | parent
  | hosts
  | host
  /-- the parts of a host name -/
  | segs
  /-- the parent of a node -/
  | nodeParent
  /-- the properties of the step `n` -/
  | stepHead (n : GoStr)
  /-- how often the step `n` is repeated -/
  | iteration (n : GoStr)
  | stepBody (k : StepStyle)
  /-- the steps and functions of a workflow -/
  | activities
  /-- where a step finds a value that it returns -/
  | source

/-- The meaning of a phrase: a tree, a list of trees, ... -/
@[reducible] def Res : N → Type
  | .dotted => Expr × Expr
  | .many _ | .stmts | .commas | .options | .bodies | .attrs | .params | .hosts | .stepHead _ | .iteration _ | .activities => List Expr
  | .ret | .optTyp | .dfltVal | .nodeParent | .stepBody _ | .source => Option Expr
  | .parent => GoStr
  | .segs => List GoStr
  | _ => Expr

/-- The next tighter level of operators. -/
def tighter : Lvl → Option Lvl
  | .rel => none
  | .or => some .and
  | .and => some .compare
  | .compare => some .equal
  | .equal => some .shift
  | .shift => some .additive
  | .additive => some .mult
  | .mult => some .match_
  | .match_ => some .in_
  | .in_ => none

/-- `key => value` in a list of arguments. -/
def isPair : Expr → Bool
  | .keyedEntry .. => true
  | _ => false

/-- Adjacent `key => value` arguments form a hash; `h` are the pairs before. -/
def gatherFrom : List Expr → List Expr → List Expr
  | h, [] => if h.isEmpty then [] else [.hash z h]
  | h, e :: es =>
    if isPair e then gatherFrom (h ++ [e]) es
    else (if h.isEmpty then [] else [.hash z h]) ++ e :: gatherFrom [] es

def gather (es : List Expr) : List Expr := gatherFrom [] es

/-- A call of a method. -/
def method (l r : Expr) (args : List Expr) (lam : Option Expr) : Expr :=
  .call z .method true (.bin z .namedAccess l r) args lam

/-- A call of a function as a value or as a statement. -/
def withRval (v : Bool) : Expr → Expr
  | .call p .named _ f args lam => .call p .named v f args lam
  | e => e

/-- The name of a function that is called without parentheses. -/
def isStatementName : Expr → Bool
  | .qname _ n => statementFunctions.contains n
  | _ => false

/-- The name of a member after a dot. -/
def memberOf : T → Option Expr
  | .name w => some (.qname z w)
  | .style k => some (.qname z (styleName k))
  | .word .kType => some (.qname z b!"type")
  | _ => none

/-- Keywords that are names in front of `=>` and as arguments. -/
def keyOf : T → Option Expr
  | .word .kType => some (.qname z b!"type")
  | .word .kFunction => some (.qname z b!"function")
  | .word .kPlan => some (.qname z b!"plan")
  | .word .kApplication => some (.qname z b!"application")
  | .word .kConsumes => some (.qname z b!"consumes")
  | .word .kProduces => some (.qname z b!"produces")
  | .word .kSite => some (.qname z b!"site")
  | _ => none

/-- The name of an attribute. -/
def attributeOf : T → Option GoStr
  | .name w => some w
  | .style k => some (styleName k)
  | .dflt => some b!"default"
  | .word k => if (spell k).isEmpty then none else some (spell k)
  | _ => none

/-- `=>` and `+>`. -/
def attributeOperator : T → Option GoStr
  | .sym .farrow => some b!"=>"
  | .sym .parrow => some b!"+>"
  | _ => none

/-- The name of a class, a define, a function. -/
def definitionName : T → Option GoStr
  | .name w => some w
  | .style k => some (styleName k)
  | .type w => some w
  | _ => none

/-- A leading `::` is left out. -/
def local_ (n : GoStr) : GoStr :=
  match n with
  | 58 :: 58 :: r => r
  | r => r

/-- `a::b::c`. -/
def qualified : List GoStr → GoStr
  | [] => []
  | [n] => n
  | n :: m :: r => n ++ b!"::" ++ qualified (m :: r)

/-- The component of a capability mapping: a keyword is the name of a component in the current class. -/
def component (ns : List GoStr) : Expr → Option Expr
  | .qname p n => some (.qname p n)
  | .qref p n d => some (.qref p n d)
  | .access p e ks => some (.access p e ks)
  | .reserved p n _ => some (.qname p (qualified (ns ++ [n])))
  | _ => none

/-- The name of the parent class. -/
def parentOf : T → Option GoStr
  | .dflt => some b!"default"
  | t => definitionName t

/-- Hosts that are written as a string, a pattern or `default`. -/
def hostOf : T → Option Expr
  | .str v => some (.string z v)
  | .regexp v => some (.regexp z v)
  | .dflt => some (.dflt z)
  | _ => none

/-- A part of a host name. -/
def segmentOf : T → Option GoStr
  | .name w => some w
  | .style k => some (styleName k)
  | .type w => some w
  | .int _ v => some (intToDec v)
  | _ => none

/-- `a.b.c`. -/
def dottedWith : List GoStr → GoStr
  | [] => []
  | [n] => n
  | n :: m :: r => n ++ b!"." ++ dottedWith (m :: r)

/-- The reference to the type `Object`. -/
def object : Expr := .qref z b!"Object" b!"object"

/-- The type that a type alias stands for: a hash, and a list of one element, are the initializer of an object type. -/
def aliased : Expr → Expr
  | .list p es => match es with
    | [e] => .access z object [e]
    | es => .list p es
  | .hash p es => .access z object [.hash p es]
  | e => e

/-- The type `p { ... }` on the right side of a type alias: the hash is the initializer of `Object` or `TypeSet`; the name of another
type is the parent of an object type. -/
def extended (p : GoStr) (es : List Expr) : Expr :=
  let t : Expr := .qref z p (toLowerAscii p)
  if p = b!"Object" ∨ p = b!"TypeSet" then .access z t [.hash z es]
  else .access z object [.hash z (.keyedEntry z (.string z b!"parent") t :: es)]

/-- The arguments of a call without parentheses. -/
def statementArguments : List Expr → List Expr
  | [e] => [withRval true e]
  | es => es

/-- `Type { ... }` and `Resource[type] { ... }` are resource defaults. -/
def isDefaults : Expr → Bool
  | .qref .. => true
  | .access _ (.qref _ n _) [_] => n == b!"Resource"
  | _ => false

/-- `Type[title] { ... }` is a resource override. -/
def isOverride : Expr → Bool
  | .access p e ks => !isDefaults (.access p e ks)
  | _ => false

/-- Virtual and exported resources. -/
def hiddenForm : T → Option Form
  | .sym .at_ => some .virtual
  | .sym .atat => some .exported
  | _ => none

/-- The names of attributes that are expressions, too. -/
def plainName : T → Bool
  | .name _ | .style _ | .dflt | .word .kUndef | .word .kAttr | .word .kPrivate | .word .kType => true
  | _ => false

/-- How the attributes of resource defaults and overrides begin: the other keywords are not allowed as the name of the first
attribute. -/
def Begins : List T → Prop
  | .sym .multiply :: _ => True
  | t :: u :: _ => plainName t = true ∧ (attributeOperator u).isSome = true
  | _ => False

/-- `Deferred.new(args)`: a value that is computed later. -/
def deferredNew (args : List Expr) : Expr := method (.qref z b!"Deferred" b!"deferred") (.qname z b!"new") args none

mutual
/-- In the state of a resource step variables and calls of functions (and types) stand for values that are computed later. -/
def deferred : Expr → Expr
  | .list _ es => .list z (deferredL es)
  | .hash _ es => .hash z (deferredL es)
  | .keyedEntry _ k v => .keyedEntry z (deferred k) (deferred v)
  | .call _ .named _ (.qname _ n) args _ => deferredNew [.string z n, .list z (deferredL args)]
  | .call _ .named _ (.qref _ n d) args _ => deferredNew [.qname z b!"new", .list z (.qref z n d :: deferredL args)]
  | .un _ .variable (.qname _ n) => deferredNew [.string z (b!"$" ++ n)]
  | .un _ .variable _ => deferredNew [.string z b!"$"]
  | e => e
def deferredL : List Expr → List Expr
  | [] => []
  | e :: es => deferred e :: deferredL es
end

/-- The hash of properties of a step, if there are any. -/
def asHash (es : List Expr) : Option Expr := if es.isEmpty then none else some (.hash z es)

/-- The functions that repeat a step. -/
def isIterator (f : GoStr) : Bool := [b!"times", b!"range", b!"each"].contains f

/-- The property that tells how a step is repeated: by the function `f` with the parameters `ps`, for the variables `vs`; the result
is called `n`. -/
def iterationProperty (n f : GoStr) (ps vs : List Expr) : Expr :=
  .keyedEntry z (.qname z b!"iteration") (.hash z
    [.keyedEntry z (.qname z b!"name") (.qname z n), .keyedEntry z (.qname z b!"function") (.qname z f),
     .keyedEntry z (.qname z b!"params") (.list z ps), .keyedEntry z (.qname z b!"vars") (.list z vs)])

/-- The name of a workflow is a part of the names of its steps. -/
def inside (ns : List GoStr) (k : StepStyle) (n : GoStr) : List GoStr := if k = .workflow then ns ++ [n] else ns

/-- Optional semicolon. -/
def Semi (ts : List T) : Prop := ts = [] ∨ ts = [.sym .semicolon]

/-- Parentheses around an expression or parameters; brackets around a list. -/
def isParen : T → Bool
  | .sym .lp | .sym .wslp => true
  | _ => false
def isBracket : T → Bool
  | .sym .lb | .sym .listStart => true
  | _ => false

/-- Tokens that would continue the expression before them. -/
def continues : Tok → Bool
  | .lp | .pipe | .lcollect | .llcollect | .lb | .listStart | .dot                      -- calls, access
  | .kOr | .kAnd | .less | .lessEqual | .greater | .greaterEqual | .equal | .notEqual | .lshift | .rshift | .add | .subtract
  | .multiply | .divide | .remainder | .match_ | .notMatch | .kIn                       -- operators
  | .inEdge | .inEdgeSub | .outEdge | .outEdgeSub
  | .qmark | .kProduces | .kConsumes | .lc | .assign | .addAssign | .subtractAssign | .comma
  | .kElse | .kElsif => true
  | _ => false

/-- The first token (if there is one) does not continue the expression before it. -/
def Apart (ts : List T) : Prop := ∀ t, ts.head? = some t → continues t.tok = false

/-- The first token is not `t`. -/
def StartsNot (p : T → Bool) (ts : List T) : Prop := ∀ t, ts.head? = some t → p t = false

/-- These keywords are names in places where `keyOf` applies. -/
def isKeyWord (t : T) : Bool := (keyOf (.word t.tok)).isSome
def isStar (t : T) : Bool := t.tok == .multiply
def isNumber : T → Bool
  | .int .. | .float _ => true
  | _ => false

abbrev y (k : Tok) : T := .sym k
abbrev w (k : Tok) : T := .word k

/-- The grammar. -/
inductive G : List GoStr → (n : N) → Res n → List T → Prop
  -- operators, all of them left associative
  | operand {ns l e ts} : G ns (.opd l) e ts → G ns (.bin l) e ts
  | binary {ns l a b t k ta tb} : G ns (.bin l) a ta → operator l t = some k → G ns (.opd l) b tb →
      G ns (.bin l) (.bin z k a b) (ta ++ t :: tb)
  | opdRel {ns e ts} : G ns .assign e ts → G ns (.opd .rel) e ts
  | opdTighter {ns l l' e ts} : tighter l = some l' → G ns (.bin l') e ts → G ns (.opd l) e ts
  | opdIn {ns e ts} : G ns .unary e ts → G ns (.opd .in_) e ts
  -- assignment, right associative
  | noAssign {ns e ts} : G ns .res e ts → G ns .assign e ts
  | assign {ns a b t op ta tb} : G ns .res a ta → assignOperator t = some op → G ns .assign b tb →
      G ns .assign (.bin z (.assignment op) a b) (ta ++ t :: tb)
  -- resources
  | noResource {ns e ts} : G ns .expr e ts → (∀ k, ts ≠ [.style k]) → G ns .res e ts
  | resType {ns e ts} : G ns .expr e ts → G ns (.resType false) e ts
  | hiddenType {ns e ts} : G ns .primary e ts → G ns (.resType true) e ts
  | resClass {ns h} : G ns (.resType h) (.qname z b!"class") [w .kClass]
  | resource {ns e bs te tb} : G ns (.resType false) e te → G ns .bodies bs tb →
      G ns .res (.resource z .regular e bs) (te ++ y .lc :: (tb ++ [y .rc]))
  | defaults {ns e ops te ta} : G ns .expr e te → isDefaults e = true → G ns .attrs ops ta → Begins ta →
      G ns .res (.resourceDefaults z .regular e ops) (te ++ .brace :: (ta ++ [y .rc]))
  | override {ns e ops te ta} : G ns .expr e te → isOverride e = true → G ns .attrs ops ta → Begins ta →
      G ns .res (.resourceOverride z .regular e ops) (te ++ .brace :: (ta ++ [y .rc]))
  | collect {ns c e q te tq} : G ns (.prim c) e te → G ns .query q tq →
      G ns .res (.collect z e q []) (te ++ tq)
  | collectOps {ns c e q ops te tq to} : G ns (.prim c) e te → G ns .query q tq → G ns .attrs ops to →
      G ns .res (.collect z e q ops) (te ++ (tq ++ y .lc :: (to ++ [y .rc])))
  | allVirtual {ns} : G ns .query (.query z false (.nop z)) [y .lcollect, y .rcollect]
  | allExported {ns} : G ns .query (.query z true (.nop z)) [y .llcollect, y .rrcollect]
  | someVirtual {ns e te} : G ns .expr e te → G ns .query (.query z false e) (y .lcollect :: (te ++ [y .rcollect]))
  | someExported {ns e te} : G ns .expr e te → G ns .query (.query z true e) (y .llcollect :: (te ++ [y .rrcollect]))
  | body {ns e ops te ta semi} : G ns .expr e te → StartsNot isStar te → G ns .attrs ops ta → Semi semi →
      G ns .bodies [.resourceBody z e ops] (te ++ y .colon :: (ta ++ semi))
  | bodies {ns e ops bs te ta tb} : G ns .expr e te → StartsNot isStar te → G ns .attrs ops ta → G ns .bodies bs tb →
      G ns .bodies (.resourceBody z e ops :: bs) (te ++ y .colon :: (ta ++ y .semicolon :: tb))
  | noAttr {ns} : G ns .attrs [] []
  | lastAttr {ns a ta} : G ns .attr a ta → G ns .attrs [a] ta
  | attrs {ns a as ta tb} : G ns .attr a ta → G ns .attrs as tb → G ns .attrs (a :: as) (ta ++ y .comma :: tb)
  | attr {ns e name op t u te} : attributeOf t = some name → attributeOperator u = some op → G ns .expr e te →
      G ns .attr (.attributeOp z op name e) (t :: u :: te)
  | attrSplat {ns e te} : G ns .expr e te → G ns .attr (.attributesOp z e) (y .multiply :: y .farrow :: te)
  -- steps of workflows
  | step {ns k t n ps b tp tb} : attributeOf t = some n → continues t.tok = false → G (inside ns k n) (.stepHead n) ps tp →
      G (inside ns k n) (.stepBody k) b tb →
      G ns .res (.step z (qualified (ns ++ [n])) k (asHash ps) b) (.style k :: t :: (tp ++ tb))
  | stepHead {ns n ps is tp ti} : G ns (.many .prop) ps tp → G ns (.iteration n) is ti →
      G ns (.stepHead n) (ps ++ is) (y .lc :: (tp ++ y .rc :: ti))
  | noIteration {ns n} : G ns (.iteration n) [] []
  | iteration {ns n f p ps vs tp tv} : isIterator f = true → isParen p = true → G ns (.many .param) ps tp → G ns (.many .param) vs tv →
      G ns (.iteration n) [iterationProperty n f ps vs] (.name f :: p :: (tp ++ y .rp :: y .pipe :: (tv ++ [y .pipeEnd])))
  | namedIteration {ns n m f p ps vs tp tv} : isIterator f = true → isParen p = true → G ns (.many .param) ps tp → G ns (.many .param) vs tv →
      G ns (.iteration n) [iterationProperty m f ps vs]
        (.var m :: y .assign :: .name f :: p :: (tp ++ y .rp :: y .pipe :: (tv ++ [y .pipeEnd])))
  | workflowBody {ns as ta} : G ns .activities as ta →
      G ns (.stepBody .workflow) (if as.isEmpty then none else some (.block z as)) (y .lc :: (ta ++ [y .rc]))
  | resourceBody {ns es te} : G ns (.many .state) es te → G ns (.stepBody .resource) (asHash (deferredL es)) (y .lc :: (te ++ [y .rc]))
  | actionBody {ns k b tb} : k = .action ∨ k = .stateHandler → G ns .block b tb → G ns (.stepBody k) (some b) tb
  | noActivity {ns} : G ns .activities [] []
  | activity {ns k t n ps b as tp tb ta} : attributeOf t = some n → G (inside ns k n) (.stepHead n) ps tp → G (inside ns k n) (.stepBody k) b tb →
      G ns .activities as ta →
      G ns .activities (.step z (qualified (ns ++ [n])) k (asHash ps) b :: as) (.style k :: t :: (tp ++ (tb ++ ta)))
  | lastActivity {ns k t n ps tp} : k = .workflow ∨ k = .resource → attributeOf t = some n → G (inside ns k n) (.stepHead n) ps tp →
      G ns .activities [.step z (qualified (ns ++ [n])) k (asHash ps) none] (.style k :: t :: tp)
  | helper {ns e as te ta} : G ns .atom e (w .kFunction :: te) → G ns .activities as ta → G ns .activities (e :: as) (w .kFunction :: (te ++ ta))
  | propParameters {ns p ps tp} : isParen p = true → G ns (.many .param) ps tp →
      G ns (.elem .prop) (.keyedEntry z (.qname z b!"parameters") (.list z ps)) (.name b!"parameters" :: y .farrow :: p :: (tp ++ [y .rp]))
  | propReturns {ns p ps tp} : isParen p = true → G ns (.many .output) ps tp →
      G ns (.elem .prop) (.keyedEntry z (.qname z b!"returns") (.list z ps)) (.name b!"returns" :: y .farrow :: p :: (tp ++ [y .rp]))
  | prop {ns t n v tv} : attributeOf t = some n → n ≠ b!"parameters" → n ≠ b!"returns" → G ns .key v tv →
      G ns (.elem .prop) (.keyedEntry z (.qname z n) v) (t :: y .farrow :: tv)
  | state {ns t n v tv} : attributeOf t = some n → G ns .expr v tv → G ns (.elem .state) (.keyedEntry z (.qname z n) v) (t :: y .farrow :: tv)
  | output {ns ty d v tt td} : G ns .optTyp ty tt → G ns .source d td → G ns (.elem .output) (.parameter z v d ty false) (tt ++ .var v :: td)
  | noSource {ns} : G ns .source none []
  | source {ns t n} : attributeOf t = some n → G ns .source (some (.string z n)) [y .assign, t]
  | sources {ns p es te} : isParen p = true → G ns (.many .alias) es te → G ns .source (some (.list z es)) (y .assign :: p :: (te ++ [y .rp]))
  | alias {ns t n} : attributeOf t = some n → G ns (.elem .alias) (.string z n) [t]
  -- selectors
  | noSelector {ns e ts} : G ns (.bin .or) e ts → G ns .sel e ts
  | selector {ns e es ts te} : G ns .sel e ts → G ns (.many .selEntry) es te →
      G ns .sel (.selector z e es) (ts ++ y .qmark :: y .selc :: (te ++ [y .rc]))
  | sel {ns e ts} : G ns .sel e ts → G ns .expr e ts
  | selectOne {ns e f ts te} : G ns .sel e ts → G ns (.elem .selEntry) f te →
      G ns .expr (.selector z e [f]) (ts ++ y .qmark :: te)
  -- mappings of capabilities
  | mapping {ns e c k t n ops te to} : G ns .sel e te → component ns e = some c → k = .kProduces ∨ k = .kConsumes →
      definitionName t = some n → G ns .attrs ops to →
      G ns .expr (.capabilityMapping z (spell k) (qualified (ns ++ [n])) c ops) (te ++ w k :: t :: y .lc :: (to ++ [y .rc]))
  -- unary operators
  | primary {ns e ts} : G ns .primary e ts → G ns .unary e ts
  | not {ns e ts} : G ns .unary e ts → G ns .unary (.un z .not e) (y .not :: ts)
  | splat {ns e ts} : G ns .unary e ts → G ns .unary (.un z .unfold e) (y .multiply :: ts)
  | minus {ns e ts} : G ns .primary e ts → StartsNot isNumber ts → G ns .unary (.un z .minus e) (y .subtract :: ts)
  | negative {ns r v} : 0 ≤ v → G ns .unary (.integer z r (-v)) [.sign .subtract, .int r v]
  | negativeFloat {ns v} : G ns .unary (.float z ⟨true, v⟩) [.sign .subtract, .float v]
  | positiveFloat {ns v} : G ns .unary (.float z ⟨false, v⟩) [.sign .add, .float v]
  | positive {ns r v} : G ns .unary (.integer z r v) [.sign .add, .int r v]
  | virtual {ns e bs te tb} : G ns (.resType true) e te → G ns .bodies bs tb →
      G ns .unary (.resource z .virtual e bs) (y .at_ :: (te ++ y .lc :: (tb ++ [y .rc])))
  | exported {ns e bs te tb} : G ns (.resType true) e te → G ns .bodies bs tb →
      G ns .unary (.resource z .exported e bs) (y .atat :: (te ++ y .lc :: (tb ++ [y .rc])))
  | hiddenDefaults {ns t f e ops te ta} : hiddenForm t = some f → G ns .primary e te → isDefaults e = true → G ns .attrs ops ta → Begins ta →
      G ns .unary (.resourceDefaults z f e ops) (t :: (te ++ .brace :: (ta ++ [y .rc])))
  | hiddenOverride {ns t f e ops te ta} : hiddenForm t = some f → G ns .primary e te → isOverride e = true → G ns .attrs ops ta → Begins ta →
      G ns .unary (.resourceOverride z f e ops) (t :: (te ++ .brace :: (ta ++ [y .rc])))
  -- calls, access
  | prim {ns c e ts} : G ns (.prim c) e ts → G ns .primary e ts
  | dottedEnd {ns l r ts} : G ns .dotted (l, r) ts → G ns .primary (method l r [] none) ts
  | atom {ns e ts} : G ns .atom e ts → G ns (.prim false) e ts
  | callee {ns c e ts} : G ns (.prim c) e ts → G ns (.callee c) e ts
  | typeCallee {ns} : G ns (.callee false) (.qname z b!"type") [w .kType]
  | call {ns c f as tf ta} : G ns (.callee c) f tf → G ns (.many .arg) as ta →
      G ns (.prim true) (.call z .named true f (gather as) none) (tf ++ y .lp :: (ta ++ [y .rp]))
  | callLambda {ns c f as l tf ta tl} : G ns (.callee c) f tf → G ns (.many .arg) as ta → G ns .lambda l tl →
      G ns (.prim false) (.call z .named true f (gather as) (some l)) (tf ++ y .lp :: (ta ++ y .rp :: tl))
  | lambdaCall {ns f l tf tl} : G ns (.callee false) f tf → G ns .lambda l tl →
      G ns (.prim false) (.call z .named true f [] (some l)) (tf ++ tl)
  | methodCall {ns l r as tf ta} : G ns .dotted (l, r) tf → G ns (.many .arg) as ta →
      G ns (.prim true) (method l r (gather as) none) (tf ++ y .lp :: (ta ++ [y .rp]))
  | methodLambda {ns l r as b tf ta tl} : G ns .dotted (l, r) tf → G ns (.many .arg) as ta → G ns .lambda b tl →
      G ns (.prim false) (method l r (gather as) (some b)) (tf ++ y .lp :: (ta ++ y .rp :: tl))
  | lambdaMethod {ns l r b tf tl} : G ns .dotted (l, r) tf → G ns .lambda b tl →
      G ns (.prim false) (method l r [] (some b)) (tf ++ tl)
  | access {ns c e ks te tk} : G ns (.callee c) e te → isStatementName e = false → G ns (.many .arg) ks tk →
      G ns (.prim false) (.access z e (gather ks)) (te ++ y .lb :: (tk ++ [y .rb]))
  | dot {ns c l r t tl} : G ns (.callee c) l tl → memberOf t = some r → G ns .dotted (l, r) (tl ++ [y .dot, t])
  | dots {ns l r r' t tl} : G ns .dotted (l, r) tl → memberOf t = some r' →
      G ns .dotted (method l r [] none, r') (tl ++ [y .dot, t])
  -- comma separated lists, with an optional comma at the end
  | none {ns k} : G ns (.many k) [] []
  | one {ns k e te} : G ns (.elem k) e te → G ns (.many k) [e] te
  | more {ns k e es te ts} : G ns (.elem k) e te → G ns (.many k) es ts → G ns (.many k) (e :: es) (te ++ y .comma :: ts)
  | keyRel {ns e ts} : G ns (.bin .rel) e ts → StartsNot isKeyWord ts → G ns .key e ts
  | keyWord {ns e t} : keyOf t = some e → G ns .key e [t]
  | arg {ns e ts} : G ns .key e ts → G ns (.elem .arg) e ts
  | argPair {ns k v tk tv} : G ns .key k tk → G ns .key v tv → G ns (.elem .arg) (.keyedEntry z k v) (tk ++ y .farrow :: tv)
  | entry {ns k v tk tv} : G ns .key k tk → G ns .key v tv → G ns (.elem .entry) (.keyedEntry z k v) (tk ++ y .farrow :: tv)
  | selEntry {ns k v tk tv} : G ns .expr k tk → G ns .expr v tv →
      G ns (.elem .selEntry) (.selectorEntry z k v) (tk ++ y .farrow :: tv)
  | value {ns e ts} : G ns .expr e ts → G ns (.elem .value) e ts
  | param {ns ty d v tt td} : G ns .optTyp ty tt → G ns .dfltVal d td →
      G ns (.elem .param) (.parameter z v d ty false) (tt ++ .var v :: td)
  | paramRest {ns ty d v tt td} : G ns .optTyp ty tt → G ns .dfltVal d td →
      G ns (.elem .param) (.parameter z v d ty true) (tt ++ y .multiply :: .var v :: td)
  -- atoms
  | leaf {ns t e} : leafOf t = some e → G ns .atom e [t]
  | paren {ns e t ts} : isParen t = true → G ns (.bin .rel) e ts → G ns .atom (.un z .paren e) (t :: (ts ++ [y .rp]))
  | list {ns es t ts} : isBracket t = true → G ns (.many .arg) es ts → G ns .atom (.list z (gather es)) (t :: (ts ++ [y .rb]))
  | hash {ns es ts} : G ns (.many .entry) es ts → G ns .atom (.hash z es) (y .lc :: (ts ++ [y .rc]))
  | if_ {ns e ts} : G ns (.ifRest false) e ts → G ns .atom e (w .kIf :: ts)
  | unless_ {ns e ts} : G ns (.ifRest true) e ts → G ns .atom e (w .kUnless :: ts)
  | ifRest {ns u c b e tc tb te} : G ns (.bin .or) c tc → G ns .block b tb → G ns (.elseRest u) e te →
      G ns (.ifRest u) (.ifE z u c b e) (tc ++ (tb ++ te))
  | noElse {ns u} : G ns (.elseRest u) (.nop z) []
  | else_ {ns u b tb} : G ns .block b tb → G ns (.elseRest u) b (w .kElse :: tb)
  | elsif {ns e te} : G ns (.ifRest false) e te → G ns (.elseRest false) e (w .kElsif :: te)
  | case {ns e os te to} : G ns .expr e te → G ns .options os to →
      G ns .atom (.caseE z e os) (w .kCase :: (te ++ y .lc :: (to ++ [y .rc])))
  | option {ns vs b tv tb} : G ns (.many .value) vs tv → G ns .block b tb →
      G ns .options [.caseOption z vs b] (tv ++ y .colon :: tb)
  | options {ns vs b os tv tb to} : G ns (.many .value) vs tv → G ns .block b tb → G ns .options os to →
      G ns .options (.caseOption z vs b :: os) (tv ++ y .colon :: (tb ++ to))
  -- lambdas and parameters
  | lambda {ns ps r b tp tr tb} : G ns (.many .param) ps tp → G ns .ret r tr → G ns .block b tb →
      G ns .lambda (.lambda z ps b r) (y .pipe :: (tp ++ y .pipeEnd :: (tr ++ tb)))
  | noRet {ns} : G ns .ret none []
  | ret {ns e te} : G ns .typ e te → G ns .ret (some e) (y .rshift :: te)
  | typ {ns n} : G ns .typ (.qref z n (toLowerAscii n)) [.type n]
  | typArgs {ns n es te} : G ns (.many .arg) es te →
      G ns .typ (.access z (.qref z n (toLowerAscii n)) (gather es)) (.type n :: y .lb :: (te ++ [y .rb]))
  | noTyp {ns} : G ns .optTyp none []
  | optTyp {ns e te} : G ns .typ e te → G ns .optTyp (some e) te
  | noDflt {ns} : G ns .dfltVal none []
  | dfltVal {ns e te} : G ns .expr e te → G ns .dfltVal (some e) (y .assign :: te)
  | noParams {ns} : G ns .params [] []
  | params {ns ps t tp} : isParen t = true → G ns (.many .param) ps tp → G ns .params ps (t :: (tp ++ [y .rp]))
  -- definitions
  | class_ {ns n p ps b t tp tq tb} : definitionName t = some n → G (ns ++ [local_ n]) .params ps tp → G (ns ++ [local_ n]) .parent p tq →
      G (ns ++ [local_ n]) .block b tb →
      G ns .atom (.namedDef z (.hostClass p) (qualified (ns ++ [local_ n])) ps b) (w .kClass :: t :: (tp ++ (tq ++ tb)))
  | noParent {ns} : G ns .parent [] []
  | parent {ns n t} : parentOf t = some n → G ns .parent n [w .kInherits, t]
  | define {ns n ps b t tp tb} : definitionName t = some n → G ns .params ps tp → G ns .block b tb →
      G ns .atom (.namedDef z .define n ps b) (w .kDefine :: t :: (tp ++ tb))
  | application {ns n ps b t tp tb} : definitionName t = some n → G ns .params ps tp → G ns .block b tb →
      G ns .atom (.namedDef z .application n ps b) (w .kApplication :: t :: (tp ++ tb))
  | function {ns n ps r b t tp tr tb} : definitionName t = some n → G ns .params ps tp → G ns .ret r tr → G ns .block b tb →
      G ns .atom (.function z false n ps b r) (w .kFunction :: t :: (tp ++ (tr ++ tb)))
  | plan {ns n ps r b t tp tr tb} : definitionName t = some n → G (ns ++ [n]) .params ps tp → G (ns ++ [n]) .ret r tr →
      G (ns ++ [n]) .block b tb →
      G ns .atom (.function z true n ps b r) (w .kPlan :: t :: (tp ++ (tr ++ tb)))
  | node {ns hs p b th tp tb} : G ns .hosts hs th → G ns .nodeParent p tp → G ns .block b tb →
      G ns .atom (.node z p hs b) (w .kNode :: (th ++ (tp ++ tb)))
  | noNodeParent {ns} : G ns .nodeParent none []
  | nodeParent {ns h th} : G ns .host h th → G ns .nodeParent (some h) (w .kInherits :: th)
  | lastHost {ns h th} : G ns .host h th → G ns .hosts [h] th
  | lastHostComma {ns h th} : G ns .host h th → G ns .hosts [h] (th ++ [y .comma])
  | hosts {ns h hs th ts} : G ns .host h th → G ns .hosts hs ts → G ns .hosts (h :: hs) (th ++ y .comma :: ts)
  | host {ns t e} : hostOf t = some e → G ns .host e [t]
  | hostName {ns ss ts} : G ns .segs ss ts → G ns .host (.string z (dottedWith ss)) ts
  | seg {ns t x} : segmentOf t = some x → G ns .segs [x] [t]
  | segs {ns t x ss ts} : segmentOf t = some x → G ns .segs ss ts → G ns .segs (x :: ss) (t :: y .dot :: ts)
  | site {ns b tb} : G ns .block b tb → G ns .atom (.site z b) (w .kSite :: tb)
  -- blocks and statements
  | block {ns ss ts} : G ns .stmts ss ts → G ns .block (.block z ss) (y .lc :: (ts ++ [y .rc]))
  | noStmt {ns} : G ns .stmts [] []
  | stmt {ns e ss te semi ts} : G ns (.bin .rel) e te → isStatementName e = false → Semi semi → Apart (semi ++ ts) →
      G ns .stmts ss ts → G ns .stmts (withRval false e :: ss) (te ++ (semi ++ ts))
  | stmtCall {ns n as ss ta semi ts} : n ∈ statementFunctions → G ns .commas as ta → Apart ta → Semi semi → Apart (semi ++ ts) →
      G ns .stmts ss ts →
      G ns .stmts (.call z .named false (.qname z n) (statementArguments as) none :: ss) (.name n :: (ta ++ (semi ++ ts)))
  | stmtName {ns n semi} : n ∈ statementFunctions → Semi semi → G ns .stmts [.qname z n] (.name n :: semi)
  | typeStmt {ns e ss te semi ts} : G ns .typeDef e te → Semi semi → Apart (semi ++ ts) → G ns .stmts ss ts →
      G ns .stmts (e :: ss) (te ++ (semi ++ ts))
  | typeAlias {ns n e te} : G ns .expr e te →
      G ns .typeDef (.typeAlias z n (aliased e)) (w .kType :: .type n :: y .assign :: te)
  | typeExtends {ns n p es te} : G ns (.many .entry) es te →
      G ns .typeDef (.typeAlias z n (extended p es)) (w .kType :: .type n :: y .assign :: .type p :: y .lc :: (te ++ [y .rc]))
  /-- `<%= expression` in a template -/
  | rendered {ns e te} : G ns .expr e te → G ns .typeDef (.un z .render e) (y .renderExpr :: te)
  | typeDefinition {ns n b tb} : G ns .block b tb → G ns .typeDef (.typeDefinition z n [] b) (w .kType :: .type n :: tb)
  | typeInherits {ns n p b tb} : G ns .block b tb →
      G ns .typeDef (.typeDefinition z n p b) (w .kType :: .type n :: w .kInherits :: .type p :: tb)
  | typeMapping {ns n es e te tm} : G ns (.many .arg) es te → G ns .expr e tm →
      G ns .typeDef (.typeMapping z (.access z (.qref z n (toLowerAscii n)) (gather es)) e)
        (w .kType :: .type n :: y .lb :: (te ++ y .rb :: y .assign :: tm))
  | comma {ns e te} : G ns (.bin .rel) e te → G ns .commas [e] te
  | commas {ns e es te ts} : G ns (.bin .rel) e te → G ns .commas es ts → G ns .commas (e :: es) (te ++ y .comma :: ts)

end PP.Spec
