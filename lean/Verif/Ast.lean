import Verif.PN

/-!
# Ast: the expression model (parser/expression.go, parser/factory.go, parser/workflow.go)

Every concrete Go struct that implements `Expression` is one constructor (or one kind of a
constructor for structs that embed the same abstract struct).  A nil interface is `none`.

Simplifications
* The locator pointer of `Positioned` is left out: all nodes of one parse share one locator.
* Only fields that the parser can leave nil are optional.  `Body()` of definitions and lambdas is
  always set by the parser, so the `!= nil` tests in `definitionPN`, `LambdaExpression.ToPN` and
  `NodeDefinition.ToPN` are true.
* Node identity is not modelled; in-place updates (`updateOffsetAndLength`, `rvalRequired`) are
  functional updates of the one reference that exists at that moment.
-/

namespace PP

/-- `Positioned`, parser/expression.go:539-543: byte offset and byte length.  The length is an
integer: the code computes negative lengths in some places. -/
structure Pos where
  off : Nat
  len : Int
deriving DecidableEq, Repr, Inhabited

/-- Structs embedding `binaryExpression`, parser/expression.go:518-522. -/
inductive BinKind where
  | and | or | in | namedAccess
  | arithmetic (op : GoStr)
  | assignment (op : GoStr)
  | comparison (op : GoStr)
  | match (op : GoStr)
  | relationship (op : GoStr)
deriving DecidableEq, Repr, Inhabited

/-- Structs embedding `unaryExpression`, parser/expression.go:550-553. -/
inductive UnKind where
  | not | paren | render | text | minus | unfold | variable
deriving DecidableEq, Repr, Inhabited

/-- Structs embedding `callExpression`, parser/expression.go:524-530. -/
inductive CallKind where
  | function | method | named
deriving DecidableEq, Repr, Inhabited

/-- `ResourceForm`, parser/expression.go:73 and 556-560. -/
inductive Form where
  | virtual | exported | regular
deriving DecidableEq, Repr, Inhabited

/-- Structs embedding `namedDefinition` (parser/expression.go:532-537) that have no return type. -/
inductive DefKind where
  | application
  | define
  | hostClass (parent : GoStr)
deriving DecidableEq, Repr, Inhabited

/-- `StepStyle`, parser/workflow.go:5-10. -/
inductive StepStyle where
  | action | resource | stateHandler | workflow
deriving DecidableEq, Repr, Inhabited

/-- The `Expression` implementations, parser/expression.go:146-553, parser/workflow.go:12-18 and
`commaSeparatedList`, parser/parser.go:23-25. -/
inductive Expr where
  | access (p : Pos) (operand : Expr) (keys : List Expr)
  | bin (p : Pos) (k : BinKind) (lhs rhs : Expr)
  | un (p : Pos) (k : UnKind) (e : Expr)
  /-- `ExportedQuery` (true) and `VirtualQuery` (false) -/
  | query (p : Pos) (exported : Bool) (e : Expr)
  | attributeOp (p : Pos) (op name : GoStr) (value : Expr)
  | attributesOp (p : Pos) (e : Expr)
  | block (p : Pos) (statements : List Expr)
  | call (p : Pos) (k : CallKind) (rval : Bool) (functor : Expr) (args : List Expr) (lambda : Option Expr)
  | capabilityMapping (p : Pos) (kind capability : GoStr) (component : Expr) (mappings : List Expr)
  | caseE (p : Pos) (test : Expr) (options : List Expr)
  | caseOption (p : Pos) (values : List Expr) (thenE : Expr)
  | collect (p : Pos) (rtype query : Expr) (ops : List Expr)
  | concat (p : Pos) (segments : List Expr)
  | epp (p : Pos) (paramsSpecified : Bool) (body : Expr)
  | heredoc (p : Pos) (syntx : GoStr) (text : Expr)
  /-- `IfExpression` and `UnlessExpression` -/
  | ifE (p : Pos) (isUnless : Bool) (test thenE elseE : Expr)
  | keyedEntry (p : Pos) (key value : Expr)
  | lambda (p : Pos) (params : List Expr) (body : Expr) (ret : Option Expr)
  | boolean (p : Pos) (v : Bool)
  | dflt (p : Pos)
  | float (p : Pos) (v : FloatVal)
  | hash (p : Pos) (entries : List Expr)
  | integer (p : Pos) (radix : Nat) (v : Int)
  | list (p : Pos) (elements : List Expr)
  | string (p : Pos) (v : GoStr)
  | undef (p : Pos)
  | nop (p : Pos)
  | namedDef (p : Pos) (k : DefKind) (name : GoStr) (params : List Expr) (body : Expr)
  /-- `FunctionDefinition` and `PlanDefinition` -/
  | function (p : Pos) (plan : Bool) (name : GoStr) (params : List Expr) (body : Expr) (ret : Option Expr)
  | node (p : Pos) (parent : Option Expr) (hostMatches : List Expr) (body : Expr)
  | parameter (p : Pos) (name : GoStr) (value type : Option Expr) (capturesRest : Bool)
  | program (p : Pos) (body : Expr) (definitions : List Expr)
  | qname (p : Pos) (name : GoStr)
  | qref (p : Pos) (name downcased : GoStr)
  | regexp (p : Pos) (v : GoStr)
  | renderString (p : Pos) (v : GoStr)
  | reserved (p : Pos) (word : GoStr) (future : Bool)
  | resource (p : Pos) (form : Form) (typeName : Expr) (bodies : List Expr)
  | resourceBody (p : Pos) (title : Expr) (ops : List Expr)
  | resourceDefaults (p : Pos) (form : Form) (typeRef : Expr) (ops : List Expr)
  | resourceOverride (p : Pos) (form : Form) (resources : Expr) (ops : List Expr)
  | selector (p : Pos) (lhs : Expr) (selectors : List Expr)
  | selectorEntry (p : Pos) (matching value : Expr)
  | site (p : Pos) (body : Expr)
  | typeAlias (p : Pos) (name : GoStr) (type : Expr)
  | typeDefinition (p : Pos) (name parent : GoStr) (body : Expr)
  | typeMapping (p : Pos) (type mapping : Expr)
  | step (p : Pos) (name : GoStr) (style : StepStyle) (properties definition : Option Expr)
  /-- `commaSeparatedList`, parser/parser.go:23-25 -/
  | commaSep (p : Pos) (elements : List Expr)
deriving Inhabited

namespace Expr

/-- `Positioned` part of a node.  parser/expression.go:539-543. -/
def pos : Expr → Pos
  | access p .. | bin p .. | un p .. | query p .. | attributeOp p .. | attributesOp p .. | block p ..
  | call p .. | capabilityMapping p .. | caseE p .. | caseOption p .. | collect p .. | concat p ..
  | epp p .. | heredoc p .. | ifE p .. | keyedEntry p .. | lambda p .. | boolean p .. | dflt p
  | float p .. | hash p .. | integer p .. | list p .. | string p .. | undef p | nop p | namedDef p ..
  | function p .. | node p .. | parameter p .. | program p .. | qname p .. | qref p .. | regexp p ..
  | renderString p .. | reserved p .. | resource p .. | resourceBody p .. | resourceDefaults p ..
  | resourceOverride p .. | selector p .. | selectorEntry p .. | site p .. | typeAlias p ..
  | typeDefinition p .. | typeMapping p .. | step p .. | commaSep p .. => p

/-- `updateOffsetAndLength`, parser/expression.go:651-654. -/
def setPos (q : Pos) : Expr → Expr
  | access _ a b => access q a b
  | bin _ a b c => bin q a b c
  | un _ a b => un q a b
  | query _ a b => query q a b
  | attributeOp _ a b c => attributeOp q a b c
  | attributesOp _ a => attributesOp q a
  | block _ a => block q a
  | call _ a b c d e => call q a b c d e
  | capabilityMapping _ a b c d => capabilityMapping q a b c d
  | caseE _ a b => caseE q a b
  | caseOption _ a b => caseOption q a b
  | collect _ a b c => collect q a b c
  | concat _ a => concat q a
  | epp _ a b => epp q a b
  | heredoc _ a b => heredoc q a b
  | ifE _ a b c d => ifE q a b c d
  | keyedEntry _ a b => keyedEntry q a b
  | lambda _ a b c => lambda q a b c
  | boolean _ a => boolean q a
  | dflt _ => dflt q
  | float _ a => float q a
  | hash _ a => hash q a
  | integer _ a b => integer q a b
  | list _ a => list q a
  | string _ a => string q a
  | undef _ => undef q
  | nop _ => nop q
  | namedDef _ a b c d => namedDef q a b c d
  | function _ a b c d e => function q a b c d e
  | node _ a b c => node q a b c
  | parameter _ a b c d => parameter q a b c d
  | program _ a b => program q a b
  | qname _ a => qname q a
  | qref _ a b => qref q a b
  | regexp _ a => regexp q a
  | renderString _ a => renderString q a
  | reserved _ a b => reserved q a b
  | resource _ a b c => resource q a b c
  | resourceBody _ a b => resourceBody q a b
  | resourceDefaults _ a b c => resourceDefaults q a b c
  | resourceOverride _ a b c => resourceOverride q a b c
  | selector _ a b => selector q a b
  | selectorEntry _ a b => selectorEntry q a b
  | site _ a => site q a
  | typeAlias _ a b => typeAlias q a b
  | typeDefinition _ a b c => typeDefinition q a b c
  | typeMapping _ a b => typeMapping q a b
  | step _ a b c d => step q a b c d
  | commaSep _ a => commaSep q a

/-- `ByteOffset`, `ByteLength`, parser/expression.go:635-641. -/
def off (e : Expr) : Nat := e.pos.off
/-- `ByteLength`, parser/expression.go:635-637. -/
def len (e : Expr) : Int := e.pos.len

/-- `IsNop`, parser/expression.go:633 and 1484. -/
def isNop : Expr → Bool
  | nop _ => true
  | _ => false

/-- Type test `*QualifiedName`, e.g. parser/lexer.go:1172. -/
def isQName : Expr → Bool
  | qname .. => true
  | _ => false

/-- The contained expressions of a node in the order in which `Contents` hands them to the
visitor: the arguments of `ShallowVisit` in each `Contents` method, flattened, nil left out
(parser/expression.go:694-2068, parser/workflow.go:20-26). -/
def kids : Expr → List Expr
  | access _ operand keys => operand :: keys                       -- 698
  | bin _ _ lhs rhs => [lhs, rhs]                                  -- 718, 746, 764, 1020, 1174, 1420, 1442, 1512, 1669
  | un _ _ e => [e]                                                -- 1498, 1565, 1683, 1905, 1987, 2005, 2052
  | query _ _ e => [e]                                             -- 1064, 2066
  | attributeOp _ _ _ v => [v]                                     -- 786
  | attributesOp _ e => [e]                                        -- 802
  | block _ ss => ss                                               -- 824
  | call _ _ _ f args lam => f :: args ++ lam.toList               -- 850, 870, 897
  | capabilityMapping _ _ _ c ms => c :: ms                        -- 933
  | caseE _ t os => t :: os                                        -- 957
  | caseOption _ vs t => vs ++ [t]                                 -- 975
  | collect _ t q ops => t :: q :: ops                             -- 999
  | concat _ ss => ss                                              -- 1034
  | epp _ _ b => [b]                                               -- 1052
  | heredoc _ _ t => [t]                                           -- 1115
  | ifE _ _ c t e => [c, t, e]                                     -- 1164, 2019
  | keyedEntry _ k v => [k, v]                                     -- 1192
  | lambda _ ps b r => ps ++ b :: r.toList                         -- 1214
  | hash _ es => es                                                -- 1322
  | list _ es => es                                                -- 1370
  | namedDef _ _ _ ps b => ps ++ [b]                               -- 732, 1136, 1833
  | function _ _ _ ps b r => ps ++ r.toList ++ [b]                 -- 1091
  | node _ parent hs b => parent.toList ++ hs ++ [b]               -- 1464
  | parameter _ _ v t _ => t.toList ++ v.toList                    -- 1526
  | program _ b _ => [b]                                           -- 1591
  | resource _ _ t bs => t :: bs                                   -- 1786
  | resourceBody _ t ops => t :: ops                               -- 1739
  | resourceDefaults _ _ t ops => t :: ops                         -- 1761
  | resourceOverride _ _ r ops => r :: ops                         -- 1816
  | selector _ l ss => l :: ss                                     -- 1865
  | selectorEntry _ m v => [m, v]                                  -- 1855
  | site _ b => [b]                                                -- 1885
  | typeAlias _ _ t => [t]                                         -- 1919
  | typeDefinition _ _ _ b => [b]                                  -- 1947
  | typeMapping _ t m => [t, m]                                    -- 1971
  | step _ _ _ ps d => ps.toList ++ d.toList                       -- workflow.go:24
  | commaSep _ es => es                                            -- 1370 (promoted from LiteralList)
  | boolean .. | dflt _ | float .. | integer .. | string .. | undef _ | nop _ | qname .. | qref ..
  | regexp .. | renderString .. | reserved .. => []

/-- The receiver that a `Contents`/`AllContents` method appends to the path.  It is the node itself,
except for the two classes that inherit the method from an embedded struct: a `PlanDefinition`
appends its embedded `FunctionDefinition` (parser/expression.go:361-363, 1087-1093) and a
`commaSeparatedList` its embedded `LiteralList` (parser/parser.go:23-25). -/
def receiver : Expr → Expr
  | function p _ n ps b r => function p false n ps b r
  | commaSep p es => list p es
  | e => e

/-- `Contents` as the list of visitor calls `(path, expr)`, with `ShallowVisit`,
parser/expression.go:662-677. -/
def contents (path : List Expr) (e : Expr) : List (List Expr × Expr) :=
  e.kids.map fun k => (path ++ [e.receiver], k)

mutual
/-- `AllContents` as the list of visitor calls `(path, expr)`: each class's `DeepVisit` call
(same line numbers as `kids`).  `DeepVisit` is parser/expression.go:656-672. -/
def allContents (path : List Expr) : Expr → List (List Expr × Expr)
  | access p o ks =>
    let cp := path ++ [access p o ks]
    (cp, o) :: allContents cp o ++ deepVisitList cp ks
  | bin p k l r =>
    let cp := path ++ [bin p k l r]
    (cp, l) :: allContents cp l ++ (cp, r) :: allContents cp r
  | un p k e =>
    let cp := path ++ [un p k e]
    (cp, e) :: allContents cp e
  | query p k e =>
    let cp := path ++ [query p k e]
    (cp, e) :: allContents cp e
  | attributeOp p o n v =>
    let cp := path ++ [attributeOp p o n v]
    (cp, v) :: allContents cp v
  | attributesOp p e =>
    let cp := path ++ [attributesOp p e]
    (cp, e) :: allContents cp e
  | block p ss => deepVisitList (path ++ [block p ss]) ss
  | call p k rv f args lam =>
    let cp := path ++ [call p k rv f args lam]
    (cp, f) :: allContents cp f ++ deepVisitList cp args ++ deepVisitOpt cp lam
  | capabilityMapping p k c comp ms =>
    let cp := path ++ [capabilityMapping p k c comp ms]
    (cp, comp) :: allContents cp comp ++ deepVisitList cp ms
  | caseE p t os =>
    let cp := path ++ [caseE p t os]
    (cp, t) :: allContents cp t ++ deepVisitList cp os
  | caseOption p vs t =>
    let cp := path ++ [caseOption p vs t]
    deepVisitList cp vs ++ (cp, t) :: allContents cp t
  | collect p t q ops =>
    let cp := path ++ [collect p t q ops]
    (cp, t) :: allContents cp t ++ (cp, q) :: allContents cp q ++ deepVisitList cp ops
  | concat p ss => deepVisitList (path ++ [concat p ss]) ss
  | epp p ps b =>
    let cp := path ++ [epp p ps b]
    (cp, b) :: allContents cp b
  | heredoc p s t =>
    let cp := path ++ [heredoc p s t]
    (cp, t) :: allContents cp t
  | ifE p u c t e =>
    let cp := path ++ [ifE p u c t e]
    (cp, c) :: allContents cp c ++ (cp, t) :: allContents cp t ++ (cp, e) :: allContents cp e
  | keyedEntry p k v =>
    let cp := path ++ [keyedEntry p k v]
    (cp, k) :: allContents cp k ++ (cp, v) :: allContents cp v
  | lambda p ps b r =>
    let cp := path ++ [lambda p ps b r]
    deepVisitList cp ps ++ (cp, b) :: allContents cp b ++ deepVisitOpt cp r
  | hash p es => deepVisitList (path ++ [hash p es]) es
  | list p es => deepVisitList (path ++ [list p es]) es
  | namedDef p k n ps b =>
    let cp := path ++ [namedDef p k n ps b]
    deepVisitList cp ps ++ (cp, b) :: allContents cp b
  | function p _ n ps b r =>
    let cp := path ++ [function p false n ps b r]
    deepVisitList cp ps ++ deepVisitOpt cp r ++ (cp, b) :: allContents cp b
  | node p parent hs b =>
    let cp := path ++ [node p parent hs b]
    deepVisitOpt cp parent ++ deepVisitList cp hs ++ (cp, b) :: allContents cp b
  | parameter p n v t c =>
    let cp := path ++ [parameter p n v t c]
    deepVisitOpt cp t ++ deepVisitOpt cp v
  | program p b ds =>
    let cp := path ++ [program p b ds]
    (cp, b) :: allContents cp b
  | resource p f t bs =>
    let cp := path ++ [resource p f t bs]
    (cp, t) :: allContents cp t ++ deepVisitList cp bs
  | resourceBody p t ops =>
    let cp := path ++ [resourceBody p t ops]
    (cp, t) :: allContents cp t ++ deepVisitList cp ops
  | resourceDefaults p f t ops =>
    let cp := path ++ [resourceDefaults p f t ops]
    (cp, t) :: allContents cp t ++ deepVisitList cp ops
  | resourceOverride p f t ops =>
    let cp := path ++ [resourceOverride p f t ops]
    (cp, t) :: allContents cp t ++ deepVisitList cp ops
  | selector p l ss =>
    let cp := path ++ [selector p l ss]
    (cp, l) :: allContents cp l ++ deepVisitList cp ss
  | selectorEntry p m v =>
    let cp := path ++ [selectorEntry p m v]
    (cp, m) :: allContents cp m ++ (cp, v) :: allContents cp v
  | site p b =>
    let cp := path ++ [site p b]
    (cp, b) :: allContents cp b
  | typeAlias p n t =>
    let cp := path ++ [typeAlias p n t]
    (cp, t) :: allContents cp t
  | typeDefinition p n pa b =>
    let cp := path ++ [typeDefinition p n pa b]
    (cp, b) :: allContents cp b
  | typeMapping p t m =>
    let cp := path ++ [typeMapping p t m]
    (cp, t) :: allContents cp t ++ (cp, m) :: allContents cp m
  | step p n s ps d =>
    let cp := path ++ [step p n s ps d]
    deepVisitOpt cp ps ++ deepVisitOpt cp d
  | commaSep p es => deepVisitList (path ++ [list p es]) es
  | boolean .. | dflt _ | float .. | integer .. | string .. | undef _ | nop _ | qname .. | qref ..
  | regexp .. | renderString .. | reserved .. => []
/-- `DeepVisit` on a `[]Expression` child, parser/expression.go:651-656. -/
def deepVisitList (cp : List Expr) : List Expr → List (List Expr × Expr)
  | [] => []
  | e :: es => (cp, e) :: allContents cp e ++ deepVisitList cp es
/-- `DeepVisit` on an `Expression` child that may be nil, parser/expression.go:648-651: the type
assertion fails on a nil interface and the child is skipped. -/
def deepVisitOpt (cp : List Expr) : Option Expr → List (List Expr × Expr)
  | none => []
  | some e => (cp, e) :: allContents cp e
end

/-- Implements `Definition` (has a `ToDefinition` method), parser/expression.go:81-86. -/
def isDefinition : Expr → Bool
  | namedDef .. | function .. | node .. | site .. | typeAlias .. | typeDefinition .. | typeMapping ..
  | capabilityMapping .. | step .. => true
  | _ => false

/-! ## ToPN -/

/-- Why `ToPN` panics.  pn/pn.go:101, parser/expression.go:2041-2046 and 2115-2132. -/
inductive PNPanic where
  /-- `pn.Map` rejects a key (pn/pn.go:101) -/
  | badKey (key : GoStr)
  /-- `NameOrIndex` on a variable that is neither named nor numbered (expression.go:2045) -/
  | badVariable
  /-- `parametersEntry` on something that is not a parameter (expression.go:2115) -/
  | badParameter
deriving DecidableEq, Repr

/-- Go panics as `Except`; not in the code (pn/pn.go:101 panics). -/
abbrev PNM := Except PNPanic

/-- `pn.Map`, pn/pn.go:98-106, as used below. -/
def mkMap (entries : List (GoStr × PN)) : PNM PN :=
  match entries.find? (fun e => !isKey e.1) with
  | some e => .error (.badKey e.1)
  | none => .ok (.map entries)

/-- The arguments of `binaryOp`, parser/expression.go:726 ff, lines given below. -/
def binOp : BinKind → GoStr
  | .and => b!"and"                -- 726
  | .or => b!"or"                  -- 1520
  | .in => b!"in"                  -- 1178
  | .namedAccess => b!"."          -- 1446
  | .arithmetic op => op           -- 750
  | .assignment op => op           -- 768
  | .comparison op => op           -- 1024
  | .match op => op                -- 1424
  | .relationship op => op         -- 1677

/-- parser/expression.go:557-559. -/
def formStr : Form → GoStr
  | .virtual => b!"virtual"
  | .exported => b!"exported"
  | .regular => b!"regular"

/-- parser/workflow.go:5-10. -/
def styleStr : StepStyle → GoStr
  | .action => b!"action"
  | .resource => b!"resource"
  | .stateHandler => b!"stateHandler"
  | .workflow => b!"workflow"

/-- `form` entry of the three resource classes, parser/expression.go:1768, 1798, 1823. -/
def formEntry (f : Form) : List (GoStr × PN) :=
  if f = .regular then [] else [(b!"form", .lit (.str (formStr f)))]

/-- The value of `pnBlockAsEntry`, parser/expression.go:2154-2159, given the PN `p` of the expression
`e`: the statements of a block, or a list with the one expression.  (The Go code recomputes the
statement list; `ToPN` of a block is the call `block` with exactly these statements.) -/
def blockEntry (e : Expr) (p : PN) : PN :=
  match e with
  | block .. => .list p.asParameters
  | _ => .list [p]

mutual
/-- The `ToPN` methods. Line numbers are those of parser/expression.go.  parser/expression.go:710-2074 and parser/workflow.go:46-60. -/
def toPN : Expr → PNM PN
  | access _ o ks => do                                            -- 710
    let o ← toPN o; let ks ← pnMap ks
    return .call b!"access" (o :: ks)
  | bin _ k l r => do                                              -- 2130 binaryOp
    let l ← toPN l; let r ← toPN r
    return .call (binOp k) [l, r]
  | un _ k e => match k with
    | .not => do return .call b!"!" [← toPN e]                     -- 1506
    | .paren => do return .call b!"paren" [← toPN e]               -- 1573
    | .render => do return .call b!"render" [← toPN e]             -- 1687
    | .text => do return .call b!"str" [← toPN e]                  -- 1909
    | .minus => do return .call b!"-" [← toPN e]                   -- 1999
    | .unfold => do return .call b!"unfold" [← toPN e]             -- 2013
    | .variable => match e with                                    -- 2056, NameOrIndex 2041
      | qname _ n => .ok (.call b!"var" [.lit (.str n)])
      | integer _ _ v => .ok (.call b!"var" [.lit (.int v)])
      | _ => .error .badVariable
  | query _ x e => do                                              -- 1076, 2074
    let n := if x then b!"exported-query" else b!"virtual-query"
    if e.isNop then return .call n []
    return .call n [← toPN e]
  | attributeOp _ op n v => do                                     -- 790
    return .call op [.lit (.str n), ← toPN v]
  | attributesOp _ e => do return .call b!"splat-hash" [← toPN e]  -- 806
  | block _ ss => do return .call b!"block" (← pnMap ss)           -- 828
  | call _ k rv f args lam => do                                   -- 854, 874, 901
    let n := match k with
      | .function => if rv then b!"call-lambda" else b!"invoke-lambda"
      | .method => if rv then b!"call-method" else b!"invoke-method"
      | .named => if rv then b!"call" else b!"invoke"
    let f ← toPN f
    let args ← pnMap args
    let lam ← optEntry b!"block" lam
    let m ← mkMap ([(b!"functor", f), (b!"args", PN.list args)] ++ lam)
    return m.asCall n
  | capabilityMapping _ kind cap comp ms => do                     -- 941
    let c ← toPN comp
    let ms ← pnMap ms
    return .call kind [c, .list (.lit (.str cap) :: ms)]
  | caseE _ t os => do                                             -- 961
    let t ← toPN t
    let os ← pnMap os
    return .call b!"case" [t, .list os]
  | caseOption _ vs t => do                                        -- 979
    let vs ← pnMap vs
    let t ← (toPN t).map (blockEntry t)
    mkMap [(b!"when", PN.list vs), (b!"then", t)]
  | collect _ t q ops => do                                        -- 1003
    let t ← toPN t
    let q ← toPN q
    let ops' ← pnMap ops
    let m ← mkMap ([(b!"type", t), (b!"query", q)] ++
      if ops.isEmpty then [] else [(b!"ops", PN.list ops')])
    return m.asCall b!"collect"
  | concat _ ss => do return .call b!"concat" (← pnMap ss)         -- 1038
  | epp _ _ b => do return (← toPN b).asCall b!"epp"               -- 1056
  | heredoc _ s t => do                                            -- 1119
    let t ← toPN t
    let m ← mkMap ((if s.isEmpty then [] else [(b!"syntax", PN.lit (.str s))]) ++ [(b!"text", t)])
    return m.asCall b!"heredoc"
  | ifE _ u c t e => do                                            -- 2081 pnIf
    let c ← toPN c
    let t' ← (toPN t).map (blockEntry t)
    let e' ← (toPN e).map (blockEntry e)
    let m ← mkMap ([(b!"test", c)] ++ (if t.isNop then [] else [(b!"then", t')])
      ++ (if e.isNop then [] else [(b!"else", e')]))
    return m.asCall (if u then b!"unless" else b!"if")
  | keyedEntry _ k v => do                                         -- 1196
    let k ← toPN k; let v ← toPN v
    return .call b!"=>" [k, v]
  | lambda _ ps b r => do                                          -- 1218
    let ps' ← paramsEntry ps
    let r ← optEntry b!"returns" r
    let b ← (toPN b).map (blockEntry b)
    let m ← mkMap (ps' ++ r ++ [(b!"body", b)])
    return m.asCall b!"lambda"
  | boolean _ v => .ok (.lit (.bool v))                            -- 1236
  | dflt _ => .ok (.call b!"default" [])                        -- 1266
  | float _ v => .ok (.lit (.float v))                             -- 1290
  | hash _ es => do return .call b!"hash" (← pnMap es)             -- 1326
  | integer _ r v =>                                               -- 1354
    if r = 10 then .ok (.lit (.int v))
    else do
      let m ← mkMap [(b!"radix", .lit (.int r)), (b!"value", .lit (.int v))]
      return m.asCall b!"int"
  | list _ es => do return .call b!"array" (← pnMap es)            -- 1374
  | string _ v => .ok (.lit (.str v))                              -- 1394
  | undef _ => .ok (.lit .nil)                                     -- 1410
  | nop _ => .ok (.call b!"nop" [])                                -- 1492
  | namedDef _ k n ps b => do                                      -- 740, 1144, 1841, 2093 definitionPN
    let (tn, parent) := match k with
      | .application => (b!"application", [])
      | .define => (b!"define", [])
      | .hostClass parent => (b!"class", parent)
    let ps' ← paramsEntry ps
    let b ← (toPN b).map (blockEntry b)
    let m ← mkMap ([(b!"name", PN.lit (.str n))]
      ++ (if parent.isEmpty then [] else [(b!"parent", PN.lit (.str parent))])
      ++ ps' ++ [(b!"body", b)])
    return m.asCall tn
  | function _ plan n ps b r => do                                 -- 1099, 1575, 2093 definitionPN
    let ps' ← paramsEntry ps
    let b ← (toPN b).map (blockEntry b)
    let r ← optEntry b!"returns" r
    let m ← mkMap ([(b!"name", PN.lit (.str n))] ++ ps' ++ [(b!"body", b)] ++ r)
    return m.asCall (if plan then b!"plan" else b!"function")
  | node _ parent hs b => do                                       -- 1472
    let hs ← pnMap hs
    let parent ← optEntry b!"parent" parent
    let b ← (toPN b).map (blockEntry b)
    let m ← mkMap ([(b!"matches", PN.list hs)] ++ parent ++ [(b!"body", b)])
    return m.asCall b!"node"
  | parameter _ n v t c => do                                      -- 1538
    let t ← optEntry b!"type" t
    let v ← optEntry b!"value" v
    let m ← mkMap ([(b!"name", PN.lit (.str n))] ++ t
      ++ (if c then [(b!"splat", PN.lit (.bool true))] else []) ++ v)
    return m.asCall b!"param"
  | program _ b _ => toPN b                                        -- 1595
  | qname _ n => .ok (.call b!"qn" [.lit (.str n)])                -- 1611
  | qref _ n _ => .ok (.call b!"qr" [.lit (.str n)])               -- 1643
  | regexp _ v => .ok (.call b!"regexp" [.lit (.str v)])           -- 1663
  | renderString _ v => .ok (.call b!"render-s" [.lit (.str v)])   -- 1701
  | reserved _ w _ => .ok (.call b!"reserved" [.lit (.str w)])     -- 1709
  | resource _ f t bs => do                                        -- 1790
    let t ← toPN t
    let bs ← pnMap bs
    let m ← mkMap ([(b!"type", t), (b!"bodies", PN.list (bs.flatMap PN.asParameters))] ++ formEntry f)
    return m.asCall b!"resource"
  | resourceBody _ t ops => do                                     -- 1743
    let t ← toPN t
    let ops ← pnMap ops
    let m ← mkMap [(b!"title", t), (b!"ops", .list ops)]
    return m.asCall b!"resource-body"
  | resourceDefaults _ f t ops => do                               -- 1765
    let t ← toPN t
    let ops ← pnMap ops
    let m ← mkMap ([(b!"type", t), (b!"ops", PN.list ops)] ++ formEntry f)
    return m.asCall b!"resource-defaults"
  | resourceOverride _ f r ops => do                               -- 1820
    let r ← toPN r
    let ops ← pnMap ops
    let m ← mkMap ([(b!"resources", r), (b!"ops", PN.list ops)] ++ formEntry f)
    return m.asCall b!"resource-override"
  | selector _ l ss => do                                          -- 1877
    let l ← toPN l
    let ss ← pnMap ss
    return .call b!"?" [l, .list ss]
  | selectorEntry _ m v => do                                      -- 1859
    let m ← toPN m; let v ← toPN v
    return .call b!"=>" [m, v]
  | site _ b => do return (← toPN b).asCall b!"site"               -- 1897
  | typeAlias _ n t => do return .call b!"type-alias" [.lit (.str n), ← toPN t]   -- 1927
  | typeDefinition _ n pa b => do                                  -- 1955
    return .call b!"type-definition" [.lit (.str n), .lit (.str pa), ← toPN b]
  | typeMapping _ t m => do                                        -- 1979
    let t ← toPN t; let m ← toPN m
    return .call b!"type-mapping" [t, m]
  | step _ n s ps d => do                                          -- workflow.go:46-58
    let ps ← optEntry b!"properties" ps
    let d ← optEntry b!"definition" d
    let m ← mkMap ([(b!"name", PN.lit (.str n)), (b!"style", PN.lit (.str (styleStr s)))] ++ ps ++ d)
    return m.asCall b!"step"
  | commaSep _ es => do return .call b!"array" (← pnMap es)        -- 1374 (promoted)
/-- `pnMap`, parser/expression.go:2142-2152. -/
def pnMap : List Expr → PNM (List PN)
  | [] => .ok []
  | e :: es => do return (← toPN e) :: (← pnMap es)
/-- `x.ToPN().WithName(name)` for an optional child: no entry when it is nil.  e.g. parser/expression.go:2103-2112. -/
def optEntry (name : GoStr) : Option Expr → PNM (List (GoStr × PN))
  | none => .ok []
  | some e => do return [(name, ← toPN e)]
/-- `parametersEntry(ps)` if there are parameters (parser/expression.go:1219-1221, 2103-2105, 2115-2132). -/
def paramsEntry : List Expr → PNM (List (GoStr × PN))
  | [] => .ok []
  | e :: es => do
    let x ← paramEntry e
    let xs ← paramEntries es
    return [(b!"params", ← mkMap (x :: xs))]
/-- The entries of `parametersEntry`, parser/expression.go:2115-2132: parameter name and a map of
its properties. -/
def paramEntries : List Expr → PNM (List (GoStr × PN))
  | [] => .ok []
  | e :: es => do
    let x ← paramEntry e
    return x :: (← paramEntries es)
/-- One entry of `parametersEntry`, parser/expression.go:2115-2132. -/
def paramEntry : Expr → PNM (GoStr × PN)
  | parameter _ n v t c => do
    let t ← optEntry b!"type" t
    let v ← optEntry b!"value" v
    let m ← mkMap (t ++ (if c then [(b!"splat", PN.lit (.bool true))] else []) ++ v)
    return (n, m)
  | _ => .error .badParameter
end

end Expr
end PP
