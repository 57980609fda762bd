import Verif.Lexer
import Verif.Locator

/-!
# Parser: parser/parser.go

`step` is one unfolding of the mutually recursive functions; `run` ties the knot with fuel.
-/
namespace PP

/-- `statementCalls`, parser/parser.go:30-48. -/
def statementCalls : List GoStr :=
  [b!"require", b!"realize", b!"include", b!"contain", b!"tag", b!"debug", b!"info", b!"notice",
   b!"warning", b!"err", b!"fail", b!"import", b!"break", b!"next", b!"return"]

/-- `workflowStyles`, parser/parser.go:50-55. -/
def workflowStyles : List (GoStr × StepStyle) :=
  [(b!"action", .action), (b!"resource", .resource), (b!"stateHandler", .stateHandler),
   (b!"workflow", .workflow)]

/-- `ctx.Pos() - start` as the length of a node that starts at `start`.  e.g. parser/parser.go:420. -/
def here (start : Nat) : P Pos := fun _ s => .ok ⟨start, (s.pos : Int) - start⟩ s

/-- `tokenString`, parser/parser.go:276-284. -/
def tokenString : P GoStr := fun _ s =>
  match s.val with
  | .nil => .ok s.tok.str s
  | .str v => .ok v s
  | _ => .fail (.crash .tokenString) s

/-- `assertToken`, parser/parser.go:269-274. -/
def assertToken (t : Tok) : P Unit := do
  let s ← getS
  if s.tok = t then pure () else issueAt s.tsp .parseExpectedToken

/-- `addDefinition`, parser/parser.go:1995-1998. -/
def addDefinition (e : Expr) : P Expr := do
  modS fun s => { s with defs := s.defs ++ [e] }
  pure e

/-- `qualifiedName`, parser/parser.go:1934-1936. -/
def qualifiedName (name : GoStr) : P GoStr := fun _ s => .ok (joinStr b!"::" (s.names ++ [name])) s

/-- Push and pop of the name stack, e.g. parser/parser.go:1875 and 1902. -/
def pushName (n : GoStr) : P Unit := modS fun s => { s with names := s.names ++ [n] }
/-- e.g. parser/parser.go:1902. -/
def popName : P Unit := modS fun s => { s with names := s.names.dropLast }

/-- `rvalRequired = v` for a `CallNamedFunctionExpression`.  parser/parser.go:307-309 and 318-325. -/
def setRval (v : Bool) : Expr → Expr
  | .call p .named _ f args lam => .call p .named v f args lam
  | e => e

/-- Is the expression a name of a statement call?  parser/parser.go:299. -/
def isStatementCall : Expr → Bool
  | .qname _ n => statementCalls.contains n
  | _ => false

/-- The arguments of a statement call, parser/parser.go:300-305, with line 308. -/
def statementArgs : Expr → List Expr
  | .commaSep _ es => es
  | e => [setRval true e]

/-- The loop of `transformCalls`, parser/parser.go:298-327: the new statements and whether the
check for commas is reached. -/
def transformLoop : Expr → List Expr → List Expr × Bool
  | memo, [] => ([setRval false memo], true)
  | memo, [e] =>
    if isStatementCall memo then
      ([.call ⟨memo.off, ((e.off : Int) + e.len) - memo.off⟩ .named false memo (statementArgs e) none], false)
    else ([setRval false memo, setRval false e], true)
  | memo, e :: m :: rest =>
    if isStatementCall memo then
      let r := transformLoop m rest
      (.call ⟨memo.off, ((e.off : Int) + e.len) - memo.off⟩ .named false memo (statementArgs e) none :: r.1, r.2)
    else
      let r := transformLoop e (m :: rest)
      (setRval false memo :: r.1, r.2)

/-- The first comma separated list among the statements.  parser/parser.go:329-338. -/
def firstComma : List Expr → Option (List Expr)
  | [] => none
  | .commaSep _ es :: _ => some es
  | _ :: r => firstComma r

/-- Raise PARSE_EXTRANEOUS_COMMA after the first element, parser/parser.go:329-338.  The location is
computed eagerly, so the reader may reject the text first. -/
def extraneousComma {α} (es : List Expr) : P α := do
  let env ← getEnv
  match es with
  | [] => crash .exprAssertion
  | f :: _ =>
    let p := (f.off : Int) + f.len
    match lineForOffset env.text p with
    | .error (.invalidUnicode q) => throwE (.invalidUnicode q)
    | .error .index => crash .index
    | .ok _ =>
      match posOnLine env.text p with
      | .error (.invalidUnicode q) => throwE (.invalidUnicode q)
      | .error .index => crash .index
      | .ok _ => throwE (.issue .parseExtraneousComma p.toNat)

/-- `transformCalls`, parser/parser.go:288-341. -/
def transformCalls : List Expr → P (List Expr)
  | [] => pure []
  | memo :: rest =>
    let r := transformLoop memo rest
    if r.2 then
      match firstComma r.1 with
      | some es => extraneousComma es
      | none => pure r.1
    else pure r.1

/-- `convertLhsToCall`, parser/parser.go:478-485, for a named access at `p` with the given parts. -/
def convertLhs (l : Expr) : Expr :=
  match l with
  | .bin q .namedAccess l' r' =>
    .call q .method true (.bin q .namedAccess (convertLhs l') r') [] none
  | e => e

/-- `convertLhsToCall`, parser/parser.go:478-485. -/
def convertLhsToCall (p : Pos) (l r : Expr) (args : List Expr) (lam : Option Expr) (q : Pos) : Expr :=
  .call q .method true (.bin p .namedAccess (convertLhs l) r) args lam

/-- `newHashWithoutBraces`, parser/parser.go:1582-1587 (the slice is never empty). -/
def newHash (entries : List Expr) : Expr :=
  let first := entries.headD (.nop ⟨0, 0⟩)
  let last := entries.getLastD (.nop ⟨0, 0⟩)
  .hash ⟨first.off, ((last.off : Int) + last.len) - first.off⟩ entries

/-- Type test `*KeyedEntry`, parser/parser.go:1549. -/
def isKeyedEntry : Expr → Bool
  | .keyedEntry .. => true
  | _ => false

/-- `processHashEntries`, parser/parser.go:1559-1580; the second argument is the collector (empty is
nil: it is created when its first element is added). -/
def processHashEntries : List Expr → List Expr → List Expr
  | [], [] => []
  | [], c :: cs => [newHash (c :: cs)]
  | e :: es, [] => if isKeyedEntry e then processHashEntries es [e] else e :: processHashEntries es []
  | e :: es, c :: cs =>
    if isKeyedEntry e then processHashEntries es ((c :: cs) ++ [e])
    else newHash (c :: cs) :: e :: processHashEntries es []

/-- `joinHashEntries`, parser/parser.go:1545-1555. -/
def joinHashEntries (es : List Expr) : List Expr :=
  if es.any isKeyedEntry then processHashEntries es [] else es

mutual
/-- `convertToDeferred`, parser/parser.go:1353-1387. -/
def toDeferred : Expr → Expr
  | .list p es => .list p (toDeferredList es)
  | .hash p es => .hash p (toDeferredList es)
  | .keyedEntry p k v => .keyedEntry p (toDeferred k) (toDeferred v)
  | .call p .named rv (.qname q n) args lam =>
    let _ := (rv, lam, q)
    deferredCall p [.string p n, .list ⟨p.off, 0⟩ (toDeferredList args)]
  | .call p .named rv (.qref q n d) args lam =>
    let _ := (rv, lam)
    deferredCall p [.qname ⟨p.off, 0⟩ b!"new", .list ⟨p.off, 0⟩ (.qref q n d :: toDeferredList args)]
  | .un p .variable (.qname q n) =>
    let _ := q
    deferredCall p [.string p (b!"$" ++ n)]
  | .un p .variable e =>
    let _ := e
    deferredCall p [.string p b!"$"]
  | e => e
/-- `convertSliceToDeferred`, parser/parser.go:1345-1351. -/
def toDeferredList : List Expr → List Expr
  | [] => []
  | e :: es => toDeferred e :: toDeferredList es
/-- `Deferred.new(args)`, parser/parser.go:1371-1373, 1376-1378 and 1383-1384. -/
def deferredCall (p : Pos) (args : List Expr) : Expr :=
  .call p .method true
    (.bin ⟨p.off, 0⟩ .namedAccess (.qref ⟨p.off, 0⟩ b!"Deferred" b!"deferred") (.qname ⟨p.off, 0⟩ b!"new"))
    args none
end

/-- `keyword`, parser/parser.go:1924-1932. -/
def keywordOf (t : Tok) : Option GoStr := if t.isKeyword then some t.str else none

section bodies
variable (self : Self)

/-- `ctx.nextToken()`.  parser/lexer.go:350-743. -/
abbrev nextTok : P Unit := self .nextToken
/-- `ctx.relationship()`.  parser/parser.go:412-424. -/
abbrev relationship : P Expr := self (.binary .rel)
/-- `ctx.expressions(endToken, producer)`, parser/parser.go:343-361. -/
abbrev expressions (endTok : Tok) (p : Producer) : P (List Expr) := self (.exprs endTok p [])
/-- `ctx.parse(endToken, false)`.  parser/parser.go:245-267. -/
abbrev parseBlock (endTok : Tok) : P Expr := self (.parse endTok false)

/-- `identifier`, parser/parser.go:1123-1138. -/
def identifier : P (Option GoStr) := do
  let s ← getS
  if s.tok = .identifier then do
    let n ← tokenString
    nextTok self
    pure (some n)
  else
    match keywordOf s.tok with
    | some w => do
      nextTok self
      pure (some w)
    | none => do
      setPos s.tsp
      pure none

/-- `identifierExpr`, parser/parser.go:1140-1156; note `start - ctx.Pos()`. -/
def identifierExpr : P (Option (GoStr × Expr)) := do
  let s ← getS
  if s.tok = .identifier then do
    let n ← tokenString
    nextTok self
    pure (some (n, .qname ⟨s.tsp, (s.tsp : Int) - s.pos⟩ n))
  else
    match keywordOf s.tok with
    | some w => do
      nextTok self
      pure (some (w, .qname ⟨s.tsp, (s.tsp : Int) - s.pos⟩ w))
    | none => do
      setPos s.tsp
      pure none

/-- `typeName`, parser/parser.go:1862-1869. -/
def typeName : P (Option Expr) := do
  let s ← getS
  if s.tok = .typeName then do
    let n ← tokenString
    let p ← here s.tsp
    nextTok self
    pure (some (.qref p n (toLowerAscii n)))
  else pure none

/-- `arrayExpression`, parser/parser.go:634-636. -/
def arrayExpression : P (List Expr) := do
  let es ← expressions self .rb .argument
  pure (joinHashEntries es)

/-- `parameterType`, parser/parser.go:1845-1860. -/
def parameterType : P Expr := do
  let start ← tokStart
  let tn ← typeName self
  match tn with
  | none => issue .parseExpectedTypeName
  | some t => do
    let tok ← curTok
    if tok = .lb then do
      nextTok self
      let args ← arrayExpression self
      let p ← here start
      nextTok self
      pure (.access p t args)
    else pure t

/-- `parameterList`, parser/parser.go:1747-1755. -/
def parameterList : P (List Expr) := do
  let t ← curTok
  if t = .lp ∨ t = .wslp then do
    nextTok self
    expressions self .rp .parameter
  else pure []

/-- The optional parameter list of a definition with its closing parenthesis, e.g.
parser/parser.go:1606-1612, 1644-1650, 1877-1884 and 1973-1980. -/
def optParameterList : P (List Expr) := do
  let t ← curTok
  if t = .lp ∨ t = .wslp then do
    let ps ← parameterList self
    nextTok self
    pure ps
  else pure []

/-- The optional return type, parser/parser.go:1531-1535, 1614-1618 and 1652-1656. -/
def optReturnType : P (Option Expr) := do
  let t ← curTok
  if t = .rshift then do
    nextTok self
    let e ← parameterType self
    pure (some e)
  else pure none

/-- `lambdaParameterList`, parser/parser.go:1757-1760. -/
def lambdaParameterList : P (List Expr) := do
  nextTok self
  expressions self .pipeEnd .parameter

/-- `{ statements }` with the current token at the opening brace; leaves the closing brace as the
current token: `assertToken(tokenLc); nextToken(); parse(tokenRc, false)`.  e.g. parser/parser.go:1536-1540. -/
def braces : P Expr := do
  assertToken .lc
  nextTok self
  parseBlock self .rc

/-- `lambda`, parser/parser.go:1527-1543. -/
def lambda : P Expr := do
  let start ← tokStart
  let ps ← lambdaParameterList self
  nextTok self
  let rt ← optReturnType self
  let block ← braces self
  let p ← here start
  nextTok self
  pure (.lambda p ps block rt)

/-- `callFunctionExpression`, parser/parser.go:1260-1279. -/
def callFunctionExpression (functor : Expr) : P Expr := do
  let start := functor.off
  let t ← curTok
  let (args, end_) ← if t ≠ .pipe then do
      nextTok self
      let es ← expressions self .rp .argument
      let p ← getPos
      nextTok self
      pure (joinHashEntries es, (p : Int))
    else pure ([], (start : Int) + functor.len)
  let t ← curTok
  let (block, end_) ← if t = .pipe then do
      let l ← lambda self
      pure (some l, (l.off : Int) + l.len)
    else pure (none, end_)
  match functor with
  | .bin p .namedAccess l r => pure (convertLhsToCall p l r args block ⟨start, end_ - start⟩)
  | _ => pure (.call ⟨start, end_ - start⟩ .named true functor args block)

/-- `handleKeyword(ctx.relationship)`, parser/parser.go:398-410. -/
def handleKeyword : P Expr := do
  let s ← getS
  if s.tok ∈ [.kType, .kFunction, .kPlan, .kApplication, .kConsumes, .kProduces, .kSite] then do
    let n ← tokenString
    let p ← here s.tsp
    nextTok self
    let t ← curTok
    if t = .lp then callFunctionExpression self (.qname p n) else pure (.qname p n)
  else relationship self

/-- `argument`, parser/parser.go:384-392. -/
def argument : P Expr := do
  let e ← handleKeyword self
  let t ← curTok
  if t = .farrow then do
    nextTok self
    let v ← handleKeyword self
    let p ← here e.off
    pure (.keyedEntry p e v)
  else pure e

/-- `keyedEntry`, parser/parser.go:638-646. -/
def keyedEntry : P Expr := do
  let k ← handleKeyword self
  let t ← curTok
  if t ≠ .farrow then issue .parseExpectedFarrowAfterKey
  else do
    nextTok self
    let v ← handleKeyword self
    let p ← here k.off
    pure (.keyedEntry p k v)

/-- `selectorEntry`, parser/parser.go:934-940. -/
def selectorEntry : P Expr := do
  let start ← tokStart
  let l ← self .expression
  assertToken .farrow
  nextTok self
  let v ← self .expression
  let p ← here start
  pure (.selectorEntry p l v)

/-- The variable name of a parameter, parser/parser.go:1776-1782 and 1819-1825. -/
def parameterName : P GoStr := do
  let s ← getS
  if s.tok ≠ .variable then issue .parseExpectedVariable
  else match s.val with
    | .str v => pure v
    | _ => issue .parseExpectedVariable

/-- `parameter`, parser/parser.go:1762-1791. -/
def parameter : P Expr := do
  let start ← tokStart
  let t ← curTok
  let ty ← if t = .typeName then do
      let e ← parameterType self
      pure (some e)
    else pure none
  let t ← curTok
  if t = .multiply then nextTok self
  let v ← parameterName
  nextTok self
  let t' ← curTok
  let d ← if t' = .assign then do
      nextTok self
      let e ← self .expression
      pure (some e)
    else pure none
  let p ← here start
  pure (.parameter p v d ty (t == .multiply))

/-- `attributeAlias`, parser/parser.go:1803-1809. -/
def attributeAlias : P Expr := do
  let s ← tokStart
  let i ← identifier self
  match i with
  | some n => pure (.string ⟨s, n.length⟩ n)
  | none => issue .parseExpectedAttributeName

/-- `returnParameter`, parser/parser.go:1811-1843; note `ps - ctx.Pos()`. -/
def returnParameter : P Expr := do
  let start ← tokStart
  let t ← curTok
  let ty ← if t = .typeName then do
      let e ← parameterType self
      pure (some e)
    else pure none
  let v ← parameterName
  nextTok self
  let t ← curTok
  let d ← if t = .assign then do
      nextTok self
      let t ← curTok
      if t = .lp ∨ t = .wslp then do
        let ps ← tokStart
        nextTok self
        let es ← expressions self .rp .attributeAlias
        let p ← getPos
        nextTok self
        pure (some (.list ⟨ps, (ps : Int) - p⟩ es))
      else do
        let e ← attributeAlias self
        pure (some e)
    else pure none
  let p ← here start
  pure (.parameter p v d ty false)

/-- `stepProperty`, parser/parser.go:1301-1332, with `returnParameters`, 1793-1801. -/
def stepProperty : P Expr := do
  let start ← getPos
  let k ← identifierExpr self
  match k with
  | none => issue .parseExpectedAttributeName
  | some (name, key) => do
    let t ← curTok
    if t ≠ .farrow then issue .parseExpectedFarrowAfterKey
    else do
      nextTok self
      let vstart ← getPos
      let value ← if name = b!"parameters" then do
          let ps ← parameterList self
          let p ← here vstart
          nextTok self
          pure (.list p ps)
        else if name = b!"returns" then do
          let t ← curTok
          let ps ← if t = .lp ∨ t = .wslp then do
              nextTok self
              expressions self .rp .returnParameter
            else pure []
          let p ← here vstart
          nextTok self
          pure (.list p ps)
        else handleKeyword self
      let p ← here start
      pure (.keyedEntry p key value)

/-- `stateAttribute`, parser/parser.go:1389-1403. -/
def stateAttribute : P Expr := do
  let start ← tokStart
  let k ← identifierExpr self
  match k with
  | none => issue .parseExpectedAttributeName
  | some (_, name) => do
    let t ← curTok
    if t = .farrow then do
      nextTok self
      let v ← self .expression
      let p ← here start
      pure (.keyedEntry p name v)
    else issue .parseInvalidAttribute

/-- The producers of `expressions`.  The calls of `expressions` (parser/parser.go:343-361). -/
def produce : Producer → P Expr
  | .argument => argument self
  | .keyedEntry => keyedEntry self
  | .selectorEntry => selectorEntry self
  | .expression => self .expression
  | .stepProperty => stepProperty self
  | .stateAttribute => stateAttribute self
  | .parameter => parameter self
  | .returnParameter => returnParameter self
  | .attributeAlias => attributeAlias self

/-- One round of the loop of `expressions`, parser/parser.go:345-360. -/
def exprsBody (endTok : Tok) (pr : Producer) (acc : List Expr) : P (List Expr) := do
  let t ← curTok
  if t = endTok then pure acc
  else do
    let e ← produce self pr
    let s ← getS
    if s.tok ≠ .comma then
      if s.tok ≠ endTok then issueAt s.tsp .parseExpectedOneOfTokens
      else pure (acc ++ [e])
    else do
      nextTok self
      self (.exprs endTok pr (acc ++ [e]))

/-- The loop of `syntacticStatement`, parser/parser.go:366-373. -/
def commaArgsBody (acc : List Expr) : P (List Expr) := do
  let t ← curTok
  if t = .comma then do
    nextTok self
    let e ← relationship self
    self (.commaArgs (acc ++ [e]))
  else pure acc

/-- `syntacticStatement`, parser/parser.go:363-378. -/
def syntacticStatement : P Expr := do
  let e ← relationship self
  let es ← self (.commaArgs [e])
  match es with
  | [_] => pure e
  | es => do
    let p ← here e.off
    pure (.commaSep p es)

/-- The loop of `parse`, parser/parser.go:259-264. -/
def stmtsBody (endTok : Tok) (acc : List Expr) : P (List Expr) := do
  let t ← curTok
  if t = endTok then pure acc
  else do
    let e ← syntacticStatement self
    let t ← curTok
    if t = .semicolon then nextTok self
    self (.stmts endTok (acc ++ [e]))

/-- `parse`, parser/parser.go:245-267. -/
def parseBody (endTok : Tok) (single : Bool) : P Expr := do
  let (_, start) ← skipWhite false
  setPos start
  if single then do
    let t ← curTok
    if t = endTok then pure (.undef ⟨start, 0⟩)
    else do
      let e ← relationship self
      assertToken endTok
      pure e
  else do
    let es ← self (.stmts endTok [])
    let es ← transformCalls es
    let p ← here start
    pure (.block p es)

/-- `className`, parser/parser.go:1906-1922. -/
def className : P GoStr := do
  let s ← getS
  if s.tok = .typeName ∨ s.tok = .identifier then do
    let n ← tokenString
    nextTok self
    pure n
  else if s.tok = .string ∨ s.tok = .concatenatedString then issueAt s.tsp .parseQuotedNotValidName
  else if s.tok = .kClass then issueAt s.tsp .parseClassNotValidHere
  else issueAt s.tsp .parseExpectedClassName

/-- `attributeOperation`, parser/parser.go:1094-1114. -/
def attributeOperation : P Expr := do
  let start ← tokStart
  let t ← curTok
  if t = .multiply then do
    nextTok self
    assertToken .farrow
    nextTok self
    let e ← self .expression
    let p ← here start
    pure (.attributesOp p e)
  else do
    let i ← identifier self
    match i with
    | none => issue .parseExpectedAttributeName
    | some name => do
      let t ← curTok
      if t = .farrow ∨ t = .parrow then do
        let op ← tokenString
        nextTok self
        let e ← self .expression
        let p ← here start
        pure (.attributeOp p op name e)
      else issue .parseInvalidAttribute

/-- One round of the loop of `attributeOperations`, parser/parser.go:1080-1091. -/
def attrOpsBody (acc : List Expr) : P (List Expr) := do
  let t ← curTok
  if t = .semicolon ∨ t = .rc then pure acc
  else do
    let e ← attributeOperation self
    let t ← curTok
    if t ≠ .comma then pure (acc ++ [e])
    else do
      nextTok self
      self (.attrOps (acc ++ [e]))

/-- `capabilityMapping`, parser/parser.go:1938-1956. -/
def capabilityMapping (component : Expr) (kind : GoStr) : P Expr := do
  let start ← tokStart
  nextTok self
  let capName ← className self
  assertToken .lc
  nextTok self
  let ms ← self (.attrOps [])
  assertToken .rc
  nextTok self
  let component ← match component with
    | .reserved p w _ => do
      let n ← qualifiedName w
      pure (.qname p n)
    | e => pure e
  let cap ← qualifiedName capName
  let p ← here start
  addDefinition (.capabilityMapping p kind cap component ms)

/-- Can the expression name the component of a capability mapping?  parser/parser.go:471. -/
def isComponent : Expr → Bool
  | .qname .. | .qref .. | .reserved .. | .access .. => true
  | _ => false

/-- `expression`, parser/parser.go:464-476 with `selectExpression`, 487-497. -/
def expressionBody : P Expr := do
  let e ← self (.binary .or)
  let e ← self (.selLoop e)
  let t ← curTok
  if t = .kProduces ∨ t = .kConsumes then do
    let cap ← tokenString
    if isComponent e then capabilityMapping self e cap else pure e
  else pure e

/-- `selectorsExpression`, parser/parser.go:916-932. -/
def selectorsExpression (test : Expr) : P Expr := do
  nextTok self
  let t ← curTok
  if t = .selc then do
    nextTok self
    let sels ← expressions self .rc .selectorEntry
    let p ← here test.off
    nextTok self
    pure (.selector p test sels)
  else do
    let sel ← selectorEntry self
    let p ← here test.off
    pure (.selector p test [sel])

/-- The loop of `selectExpression`, parser/parser.go:489-496. -/
def selLoopBody (e : Expr) : P Expr := do
  let t ← curTok
  if t = .qmark then do
    let e ← selectorsExpression self e
    self (.selLoop e)
  else pure e

/-- `identifier`-like step name, parser/parser.go:1292-1297. -/
def stepName : P GoStr := do
  let i ← identifier self
  match i with
  | some n => pure n
  | none => issue .parseExpectedStepName

/-- `stepStyle`, parser/parser.go:1281-1290. -/
def stepStyle : P StepStyle := do
  let t ← curTok
  if t = .identifier then do
    let w ← tokenString
    match lookupStr workflowStyles w with
    | some st => do
      nextTok self
      pure st
    | none => issue .parseExpectedStepStyle
  else issue .parseExpectedStepStyle

/-- The iteration clause of a step, parser/parser.go:1440-1486: the extra property, if any. -/
def stepIteration (name : GoStr) : P (List Expr) := do
  let t ← curTok
  let iterName ← if t = .variable then do
      let n ← tokenString
      nextTok self
      assertToken .assign
      nextTok self
      assertToken .identifier
      pure n
    else pure name
  let t ← curTok
  if t = .identifier then do
    let f ← tokenString
    if f = b!"times" ∨ f = b!"range" ∨ f = b!"each" then do
      let nl := f.length
      let fs ← tokStart
      let ps ← getPos
      nextTok self
      let iterParams ← parameterList self
      nextTok self
      let vs ← getPos
      let pl := (ps : Int) - vs
      let iterVars ← lambdaParameterList self
      nextTok self
      let e ← getPos
      let vl := (e : Int) - vs
      let fn := (e : Int) - fs
      let iter := Expr.hash ⟨fs, fn⟩
        [.keyedEntry ⟨fs, nl⟩ (.qname ⟨fs, 0⟩ b!"name") (.qname ⟨fs, nl⟩ iterName),
         .keyedEntry ⟨fs, nl⟩ (.qname ⟨fs, 0⟩ b!"function") (.qname ⟨fs, nl⟩ f),
         .keyedEntry ⟨ps, pl⟩ (.qname ⟨ps, 0⟩ b!"params") (.list ⟨ps, pl⟩ iterParams),
         .keyedEntry ⟨vs, vl⟩ (.qname ⟨vs, 0⟩ b!"vars") (.list ⟨vs, vl⟩ iterVars)]
      pure [.keyedEntry ⟨fs, fn⟩ (.qname ⟨fs, 0⟩ b!"iteration") iter]
    else issue .parseExpectedIteratorStyle
  else pure []

/-- The definition part of a step, parser/parser.go:1492-1519. -/
def stepBlock (start : Nat) (style : StepStyle) : P (Option Expr) := do
  let t ← curTok
  match style with
  | .workflow => do
    let b ← if t = .lc then do
        let hstart ← tokStart
        nextTok self
        let acts ← self (.activities [])
        nextTok self
        let p ← here hstart
        pure (if acts.isEmpty then none else some (.block p acts))
      else pure none
    popName
    pure b
  | .resource =>
    if t = .lc then do
      nextTok self
      let entries ← expressions self .rc .stateAttribute
      let p ← here start
      nextTok self
      pure (if entries.isEmpty then none else some (.hash p (toDeferredList entries)))
    else pure none
  | _ => do
    let b ← braces self
    nextTok self
    pure (some b)

/-- `stepDeclaration`, parser/parser.go:1424-1525. -/
def stepDeclaration (start : Nat) (style : StepStyle) (name : GoStr) (atTop : Bool) : P Expr := do
  if style = .workflow then pushName name
  let hstart ← tokStart
  assertToken .lc
  nextTok self
  let props ← expressions self .rc .stepProperty
  let hEnd ← getPos
  nextTok self
  let iter ← stepIteration self name
  let props := props ++ iter
  let properties := if props.isEmpty then none else some (.hash ⟨hstart, (hEnd : Int) - hstart⟩ props)
  let block ← stepBlock self start style
  let qn ← qualifiedName name
  let p ← here start
  let e := Expr.step p qn style properties block
  if atTop then addDefinition e else pure e

/-- `resource`, parser/parser.go:456-462. -/
def resource : P Expr := do
  let e ← self .expression
  let t ← curTok
  if t = .lc then self (.resourceExpr e.off e .regular) else pure e

/-- `step`, parser/parser.go:440-454. -/
def stepOrResource : P Expr := do
  let env ← getEnv
  let start ← getPos
  let e ← resource self
  if env.workflow then
    match e with
    | .qname _ s =>
      match lookupStr workflowStyles s with
      | some style => do
        let i ← identifier self
        match i with
        | some name => stepDeclaration self start style name true
        | none => pure e
      | none => pure e
    | _ => pure e
  else pure e

/-- `assignment`, parser/parser.go:426-438. -/
def assignmentBody : P Expr := do
  let e ← stepOrResource self
  self (.assignLoop e)

/-- The loop of `assignment`, parser/parser.go:428-437. -/
def assignLoopBody (e : Expr) : P Expr := do
  let t ← curTok
  if t = .assign ∨ t = .addAssign ∨ t = .subtractAssign then do
    let op ← tokenString
    nextTok self
    let r ← self .assignment
    let p ← here e.off
    self (.assignLoop (.bin p (.assignment op) e r))
  else pure e

/-- The operand of each operator level: the function called for both sides, parser/parser.go:413,
417, 500, 505, 513, 518, 526, 532, 541, 548, 557, 564, 573, 580, 589, 596, 605, 612, 621 and 626. -/
def Lvl.operand : Lvl → NT
  | .rel => .assignment
  | .or => .binary .and
  | .and => .binary .compare
  | .compare => .binary .equal
  | .equal => .binary .shift
  | .shift => .binary .additive
  | .additive => .binary .mult
  | .mult => .binary .match_
  | .match_ => .binary .in_
  | .in_ => .unary

/-- The call of the operand function.  parser/parser.go:412-632. -/
def operand (l : Lvl) : P Expr :=
  match l with
  | .rel => self .assignment
  | .or => self (.binary .and)
  | .and => self (.binary .compare)
  | .compare => self (.binary .equal)
  | .equal => self (.binary .shift)
  | .shift => self (.binary .additive)
  | .additive => self (.binary .mult)
  | .mult => self (.binary .match_)
  | .match_ => self (.binary .in_)
  | .in_ => self .unary

/-- The operator tokens of each level, parser/parser.go:416, 503, 516, 529, 545, 561, 577, 593, 609
and 624. -/
def Lvl.isOp : Lvl → Tok → Bool
  | .rel, .inEdge | .rel, .inEdgeSub | .rel, .outEdge | .rel, .outEdgeSub => true
  | .or, .kOr => true
  | .and, .kAnd => true
  | .compare, .less | .compare, .lessEqual | .compare, .greater | .compare, .greaterEqual => true
  | .equal, .equal | .equal, .notEqual => true
  | .shift, .lshift | .shift, .rshift => true
  | .additive, .add | .additive, .subtract => true
  | .mult, .multiply | .mult, .divide | .mult, .remainder => true
  | .match_, .match_ | .match_, .notMatch => true
  | .in_, .kIn => true
  | _, _ => false

/-- The node built for each level (same lines as `operand`).  parser/parser.go:412-632. -/
def Lvl.kind (l : Lvl) (op : GoStr) : BinKind :=
  match l with
  | .rel => .relationship op
  | .or => .or
  | .and => .and
  | .compare => .comparison op
  | .equal => .comparison op
  | .shift => .arithmetic op
  | .additive => .arithmetic op
  | .mult => .arithmetic op
  | .match_ => .match op
  | .in_ => .in

/-- `relationship`, `orExpression`, ..., `inExpression`: parser/parser.go:412-424 and 499-632.  All
have the same shape; `or`, `and` and `in` do not read the operator text, which is always a string. -/
def binaryBody (l : Lvl) : P Expr := do
  let e ← operand self l
  self (.binLoop l e)

/-- The loops in parser/parser.go:414-423 and 496-632. -/
def binLoopBody (l : Lvl) (e : Expr) : P Expr := do
  let t ← curTok
  if l.isOp t then do
    let op ← tokenString
    nextTok self
    let r ← operand self l
    let p ← here e.off
    self (.binLoop l (.bin p (l.kind op) e r))
  else pure e

/-- `unaryExpression`, parser/parser.go:652-704. -/
def unaryBody : P Expr := do
  let s ← getS
  let start := s.tsp
  match s.tok with
  | .subtract => do
    let (c, _) ← peek
    if isDecimalDigit c then do
      nextTok self
      let s ← getS
      if s.tok = .integer then
        match s.val with
        | .int v => setTokenValue s.tok (.int (negInt64 v))
        | _ => crash .valueAssertion
      else
        match s.val with
        | .flt v => setTokenValue s.tok (.flt { v with neg := !v.neg })
        | _ => crash .valueAssertion
      let e ← self .primary
      let p ← here start
      pure (e.setPos p)
    else do
      nextTok self
      let e ← self .primary
      let p ← here start
      pure (.un p .minus e)
  | .add => do
    let (c, _) ← peek
    if isDecimalDigit c then do
      nextTok self
      let e ← self .primary
      let p ← here start
      pure (e.setPos p)
    else issue .lexUnexpectedToken
  | .not => do
    nextTok self
    let e ← self .unary
    let p ← here start
    pure (.un p .not e)
  | .multiply => do
    nextTok self
    let e ← self .unary
    let p ← here start
    pure (.un p .unfold e)
  | .at_ => do
    nextTok self
    let e ← self .primary
    assertToken .lc
    self (.resourceExpr start e .virtual)
  | .atat => do
    nextTok self
    let e ← self .primary
    assertToken .lc
    self (.resourceExpr start e .exported)
  | _ => self .primary

/-- `collectExpression`, parser/parser.go:1158-1195. -/
def collectExpression (lhs : Expr) : P Expr := do
  let s ← getS
  let qs := s.tsp
  let virtual := s.tok = .lcollect
  let close : Tok := if virtual then .rcollect else .rrcollect
  nextTok self
  let s ← getS
  let q ← if s.tok = close then
      pure (.nop (if virtual then ⟨s.tsp, 0⟩ else ⟨qs, (s.tsp : Int) - qs⟩))
    else do
      let q ← self .expression
      assertToken close
      pure q
  nextTok self
  let p ← here qs
  let query := Expr.query p (!virtual) q
  let t ← curTok
  let ops ← if t ≠ .lc then pure []
    else do
      nextTok self
      let ops ← self (.attrOps [])
      assertToken .rc
      nextTok self
      pure ops
  let p ← here lhs.off
  pure (.collect p lhs query ops)

/-- `primaryExpression`, parser/parser.go:706-746. -/
def primaryBody : P Expr := do
  let e ← self .atom
  self (.primLoop e)

/-- The loop of `primaryExpression`, parser/parser.go:708-745. -/
def primLoopBody (e : Expr) : P Expr := do
  let t ← curTok
  match t with
  | .lp | .pipe => do
    let e ← callFunctionExpression self e
    self (.primLoop e)
  | .lcollect | .llcollect => do
    let e ← collectExpression self e
    self (.primLoop e)
  | .lb => do
    nextTok self
    let ps ← arrayExpression self
    let p ← here e.off
    let e' := if isStatementCall e then .call p .named false e [.list p ps] none else .access p e ps
    nextTok self
    self (.primLoop e')
  | .dot => do
    nextTok self
    let s ← getS
    let rhs ← if s.tok = .kType then do
        let n ← tokenString
        let p ← here s.tsp
        nextTok self
        pure (.qname p n)
      else self .atom
    let p ← here e.off
    self (.primLoop (.bin p .namedAccess e rhs))
  | _ =>
    match e with
    | .bin p .namedAccess l r => pure (convertLhsToCall p l r [] none p)
    | e => pure e

/-- `functionDefinition` and `planDefinition`, parser/parser.go:1593-1627 and 1629-1668. -/
def functionDefinition (plan : Bool) : P Expr := do
  let start ← tokStart
  nextTok self
  let s ← getS
  if ¬ (s.tok = .identifier ∨ s.tok = .typeName) then
    issueAt s.tsp (if plan then .parseExpectedNameAfterPlan else .parseExpectedNameAfterFunction)
  else do
    let name ← tokenString
    nextTok self
    if plan then pushName name
    let ps ← optParameterList self
    let rt ← optReturnType self
    let block ← braces self
    nextTok self
    if plan then popName
    let p ← here start
    addDefinition (.function p plan name ps block rt)

/-- `hostname`, parser/parser.go:1701-1722. -/
def hostname : P Expr := do
  let s ← getS
  match s.tok with
  | .identifier | .typeName | .integer | .float => self (.dottedName s.tsp [])
  | .regexp => do
    let v ← tokenString
    let p ← here s.tsp
    nextTok self
    pure (.regexp p v)
  | .string => do
    let v ← tokenString
    let p ← here s.tsp
    nextTok self
    pure (.string p v)
  | .kDefault => do
    let p ← here s.tsp
    nextTok self
    pure (.dflt p)
  | .concatenatedString | .heredoc =>
    match s.val with
    | .expr e => do
      nextTok self
      pure e
    | _ => crash .valueAssertion
  | _ => issue .parseExpectedHostname

/-- One segment of a dotted name, parser/parser.go:1729-1736. -/
def dottedSegment : P GoStr := do
  let env ← getEnv
  let s ← getS
  match s.tok with
  | .identifier | .typeName => tokenString
  | .integer =>
    match s.val with
    | .int v => pure (intToDec v)
    | _ => crash .valueAssertion
  | .float =>
    match s.val with
    | .flt v => pure (env.fmtFloat v)
    | _ => crash .valueAssertion
  | _ => issue .parseExpectedNameOrNumberAfterDot

/-- One round of the loop of `dottedName`, parser/parser.go:1724-1745. -/
def dottedNameBody (start : Nat) (names : List GoStr) : P Expr := do
  let seg ← dottedSegment
  nextTok self
  let t ← curTok
  if t ≠ .dot then do
    let p ← here start
    pure (.string p (joinStr b!"." (names ++ [seg])))
  else do
    nextTok self
    self (.dottedName start (names ++ [seg]))

/-- One round of the loop of `hostnames`, parser/parser.go:1686-1699. -/
def hostnamesBody (acc : List Expr) : P (List Expr) := do
  let h ← hostname self
  let t ← curTok
  if t ≠ .comma then pure (acc ++ [h])
  else do
    nextTok self
    let t ← curTok
    if t = .kInherits ∨ t = .lc then pure (acc ++ [h])
    else self (.hostnames (acc ++ [h]))

/-- `nodeDefinition`, parser/parser.go:1670-1684. -/
def nodeDefinition : P Expr := do
  let start ← tokStart
  nextTok self
  let hosts ← self (.hostnames [])
  let t ← curTok
  let parent ← if t = .kInherits then do
      nextTok self
      let h ← hostname self
      pure (some h)
    else pure none
  let block ← braces self
  nextTok self
  let p ← here start
  addDefinition (.node p parent hosts block)

/-- `siteDefinition`, parser/parser.go:1958-1966. -/
def siteDefinition : P Expr := do
  let start ← tokStart
  nextTok self
  let block ← braces self
  nextTok self
  let p ← here start
  addDefinition (.site p block)

/-- `resourceDefinition`, parser/parser.go:1968-1993. -/
def resourceDefinition (application : Bool) : P Expr := do
  let start ← tokStart
  nextTok self
  let name ← className self
  let ps ← optParameterList self
  let body ← braces self
  nextTok self
  let p ← here start
  addDefinition (.namedDef p (if application then .application else .define) name ps body)

/-- `classExpression`, parser/parser.go:1871-1904. -/
def classExpression (start : Nat) : P Expr := do
  let cn ← className self
  let name := trimPrefix b!"::" cn
  pushName name
  let ps ← optParameterList self
  let t ← curTok
  let parent ← if t = .kInherits then do
      nextTok self
      let t ← curTok
      if t = .kDefault then do
        nextTok self
        pure b!"default"
      else className self
    else pure []
  let body ← braces self
  nextTok self
  popName
  let qn ← qualifiedName name
  let p ← here start
  addDefinition (.namedDef p (.hostClass parent) qn ps body)

/-- A type reference to `Object`, parser/parser.go:1229 and 1234-1237. -/
def objectRef (start : Nat) : Expr := .qref ⟨start, 0⟩ b!"Object" b!"object"

/-- The right side of a type alias, parser/parser.go:1215-1238. -/
def typeAliasBody : P Expr := do
  let bs ← tokStart
  let body ← self .expression
  match body with
  | .qref q n d => do
    let t ← curTok
    if t = .lc then do
      let h ← self .expression
      match h with
      | .hash hp entries => do
        let p ← here bs
        if n = b!"Object" ∨ n = b!"TypeSet" then pure (.access p (.qref q n d) [.hash hp entries])
        else
          let pref := Expr.keyedEntry q (.string q b!"parent") (.qref q n d)
          pure (.access p (objectRef bs) [.hash p (pref :: entries)])
      | _ => crash .hashAssertion
    else pure body
  | .list q es =>
    match es with
    | [e] => do
      let p ← here bs
      pure (.access p (objectRef bs) [e])
    | es => pure (.list q es)
  | .hash q es => do
    let p ← here bs
    pure (.access p (objectRef bs) [.hash q es])
  | body => pure body

/-- A type definition after its name and parent, parser/parser.go:1249-1253. -/
def typeDefinitionBody (start : Nat) (name parent : GoStr) : P Expr := do
  nextTok self
  let body ← parseBlock self .rc
  nextTok self
  let p ← here start
  addDefinition (.typeDefinition p name parent body)

/-- `typeAliasOrDefinition`, parser/parser.go:1197-1258. -/
def typeAliasOrDefinition : P Expr := do
  let start ← tokStart
  let te ← parameterType self
  let t ← curTok
  match te with
  | .qref _ n _ =>
    if t = .assign then do
      nextTok self
      let body ← typeAliasBody self
      let p ← here start
      addDefinition (.typeAlias p n body)
    else if t = .kInherits then do
      nextTok self
      let tn ← typeName self
      match tn with
      | some (.qref _ parent _) => do
        assertToken .lc
        typeDefinitionBody self start n parent
      | some _ => crash .exprAssertion
      | none => issue .parseInheritsMustBeTypeName
    else if t = .lc then typeDefinitionBody self start n []
    else issue .lexUnexpectedToken
  | .access .. =>
    if t = .assign then do
      nextTok self
      let m ← self .expression
      let p ← here start
      addDefinition (.typeMapping p te m)
    else issue .parseExpectedTypeNameAfterType
  | _ => issue .parseExpectedTypeNameAfterType

/-- `caseOption`, parser/parser.go:964-973. -/
def caseOption : P Expr := do
  let start ← tokStart
  let vs ← expressions self .colon .expression
  nextTok self
  let block ← braces self
  nextTok self
  let p ← here start
  pure (.caseOption p vs block)

/-- One round of the loop of `caseOptions`, parser/parser.go:954-962. -/
def caseOptionsBody (acc : List Expr) : P (List Expr) := do
  let e ← caseOption self
  let t ← curTok
  if t = .rc then pure (acc ++ [e]) else self (.caseOptions (acc ++ [e]))

/-- `caseExpression`, parser/parser.go:942-952. -/
def caseExpression : P Expr := do
  let start ← tokStart
  nextTok self
  let test ← self .expression
  assertToken .lc
  nextTok self
  let opts ← self (.caseOptions [])
  let p ← here start
  nextTok self
  pure (.caseE p test opts)

/-- `ifExpression`, parser/parser.go:882-914. -/
def ifBody (unless_ : Bool) : P Expr := do
  let start ← tokStart
  nextTok self
  let c ← self (.binary .or)
  let thenE ← braces self
  nextTok self
  let s ← getS
  let elseE ← match s.tok with
    | .kElse => do
      nextTok self
      let b ← braces self
      nextTok self
      pure b
    | .kElsif => if unless_ then issue .parseElsifInUnless else self (.ifExpr false)
    | _ => pure (.nop ⟨s.tsp, 0⟩)
  let p ← here start
  pure (.ifE p unless_ c thenE elseE)

/-- `token; nextToken()`: a node made of the current token.  e.g. parser/parser.go:760-764. -/
def leaf (e : Expr) : P Expr := do
  nextTok self
  pure e

/-- `atomExpression`, parser/parser.go:748-880. -/
def atomBody : P Expr := do
  let s ← getS
  let start := s.tsp
  let tp : Pos := ⟨start, (s.pos : Int) - start⟩
  match s.tok with
  | .lp | .wslp => do
    nextTok self
    let e ← relationship self
    let p ← here start
    assertToken .rp
    nextTok self
    pure (.un p .paren e)
  | .lb | .listStart => do
    nextTok self
    let es ← arrayExpression self
    let p ← here start
    nextTok self
    pure (.list p es)
  | .lc => do
    nextTok self
    let es ← expressions self .rc .keyedEntry
    let p ← here start
    nextTok self
    pure (.hash p es)
  | .boolean =>
    match s.val with
    | .bool v => leaf self (.boolean tp v)
    | _ => crash .valueAssertion
  | .integer =>
    match s.val with
    | .int v => leaf self (.integer tp s.radix v)
    | _ => crash .valueAssertion
  | .float =>
    match s.val with
    | .flt v => leaf self (.float tp v)
    | _ => crash .valueAssertion
  | .string => do
    let v ← tokenString
    leaf self (.string tp v)
  | .kAttr | .kPrivate => do
    let v ← tokenString
    leaf self (.reserved tp v false)
  | .kDefault => leaf self (.dflt tp)
  | .heredoc | .concatenatedString =>
    match s.val with
    | .expr e => leaf self e
    | _ => crash .valueAssertion
  | .regexp => do
    let v ← tokenString
    leaf self (.regexp tp v)
  | .kUndef => leaf self (.undef tp)
  | .typeName => do
    let v ← tokenString
    leaf self (.qref tp v (toLowerAscii v))
  | .identifier => do
    let v ← tokenString
    leaf self (.qname tp v)
  | .variable => do
    nextTok self
    let p ← here start
    match s.val with
    | .str v => pure (.un p .variable (.qname ⟨start + 1, v.length⟩ v))
    | .int v => pure (.un p .variable (.integer ⟨start + 1, p.len - 1⟩ 10 v))
    | _ => crash .valueAssertion
  | .kCase => caseExpression self
  | .kIf => self (.ifExpr false)
  | .kUnless => self (.ifExpr true)
  | .kClass => do
    let name ← tokenString
    nextTok self
    let t ← curTok
    if t = .lc then do
      let p ← here start
      pure (.qname p name)
    else classExpression self start
  | .kType => do
    let name ← tokenString
    nextTok self
    let t ← curTok
    if t = .typeName then typeAliasOrDefinition self
    else do
      let p ← here start
      pure (.qname p name)
  | .kPlan => functionDefinition self true
  | .kFunction => functionDefinition self false
  | .kNode => nodeDefinition self
  | .kDefine => resourceDefinition self false
  | .kApplication => resourceDefinition self true
  | .kSite => siteDefinition self
  | .renderString => do
    let v ← tokenString
    leaf self (.renderString tp v)
  | .renderExpr => do
    nextTok self
    let e ← self .expression
    let p ← here start
    pure (.un p .render e)
  | _ => issueAt start .lexUnexpectedToken

/-- Result of `resourceShape`.  parser/parser.go:1037-1064. -/
inductive Shape where
  | resource | defaults | override | error
deriving DecidableEq, Repr

/-- `resourceShape`, parser/parser.go:1037-1051.  The source text of a parsed type name is its name,
so `qn.String()` is the name. -/
def resourceShape : Expr → Shape
  | .qname .. => .resource
  | .qref .. => .defaults
  | .access _ (.qref _ n _) [_] => if n = b!"Resource" then .defaults else .override
  | .access .. => .override
  | _ => .error

/-- `first.(*QualifiedName)` and its name, parser/parser.go:995-998. -/
def qnameOf : Expr → GoStr
  | .qname _ n => n
  | _ => []

/-- `resourceExpression`, parser/parser.go:975-1035. -/
def resourceExprBody (start : Nat) (first : Expr) (form : Form) : P Expr := do
  let bodiesStart ← getPos
  nextTok self
  let t ← curTok
  let title ← if t ≠ .multiply then do
      let e ← self .expression
      pure (some e)
    else pure none
  let t ← curTok
  if t ≠ .colon then
    match resourceShape first with
    | .resource =>
      if statementCalls.contains (qnameOf first) then do
        setPos bodiesStart
        nextTok self
        let es ← expressions self .rc .keyedEntry
        let hp ← here bodiesStart
        let p ← here start
        nextTok self
        pure (.call p .named true first [.hash hp es] none)
      else issueAt start .parseResourceWithoutTitle
    | .defaults => do
      setPos bodiesStart
      nextTok self
      let ops ← self (.attrOps [])
      let p ← here start
      assertToken .rc
      nextTok self
      pure (.resourceDefaults p form first ops)
    | .override => do
      setPos bodiesStart
      nextTok self
      let ops ← self (.attrOps [])
      let p ← here start
      assertToken .rc
      nextTok self
      pure (.resourceOverride p form first ops)
    | .error => issueAt first.off .parseInvalidResource
  else
    match title with
    | some title => do
      let bodies ← self (.resourceBodies title [])
      let p ← here start
      assertToken .rc
      nextTok self
      pure (.resource p form first bodies)
    | none => crash .exprAssertion

/-- `resourceBody`, parser/parser.go:1068-1076. -/
def resourceBody (title : Expr) : P Expr := do
  let t ← curTok
  if t ≠ .colon then issueAt title.off .parseExpectedTitle
  else do
    nextTok self
    let ops ← self (.attrOps [])
    let p ← here title.off
    pure (.resourceBody p title ops)

/-- One round of the loop of `resourceBodies`, parser/parser.go:1053-1066. -/
def resourceBodiesBody (title : Expr) (acc : List Expr) : P (List Expr) := do
  let t ← curTok
  if t = .rc then pure acc
  else do
    let b ← resourceBody self title
    let t ← curTok
    if t ≠ .semicolon then pure (acc ++ [b])
    else do
      nextTok self
      let t ← curTok
      if t ≠ .rc then do
        let title ← self .expression
        self (.resourceBodies title (acc ++ [b]))
      else self (.resourceBodies title (acc ++ [b]))

/-- `stepExpression`, parser/parser.go:1405-1413. -/
def stepExpression : P Expr := do
  let start ← getPos
  let t ← curTok
  if t = .kFunction then functionDefinition self false
  else do
    let style ← stepStyle self
    let name ← stepName self
    stepDeclaration self start style name false

/-- One round of the loop of `activities`, parser/parser.go:1415-1422 (without the final
`nextToken`). -/
def activitiesBody (acc : List Expr) : P (List Expr) := do
  let t ← curTok
  if t = .rc then pure acc
  else do
    let e ← stepExpression self
    self (.activities (acc ++ [e]))

/-- One round of the loop in `parseTopExpression`, parser/parser.go:231-237. -/
def eppLoopBody (acc : List Expr) : P (List Expr) := do
  let t ← curTok
  if t = .end_ then pure acc
  else do
    let e ← self .expression
    self (.eppLoop (acc ++ [e]))

/-- One unfolding of the recursive functions.  parser/lexer.go:350 and parser/parser.go:245-1998: the calls between the functions. -/
def step : (n : NT) → P (Out n)
  | .nextToken => nextTokenBody self
  | .delim d ds i h buf ec start segs => delimBody self d ds i h buf ec start segs
  | .escapes e i fl ip buf segs => escapesBody self e i fl ip buf segs
  | .parse t single => parseBody self t single
  | .stmts t acc => stmtsBody self t acc
  | .commaArgs acc => commaArgsBody self acc
  | .exprs t p acc => exprsBody self t p acc
  | .assignment => assignmentBody self
  | .assignLoop e => assignLoopBody self e
  | .expression => expressionBody self
  | .selLoop e => selLoopBody self e
  | .binary l => binaryBody self l
  | .binLoop l e => binLoopBody self l e
  | .unary => unaryBody self
  | .primary => primaryBody self
  | .primLoop e => primLoopBody self e
  | .atom => atomBody self
  | .ifExpr u => ifBody self u
  | .caseOptions acc => caseOptionsBody self acc
  | .resourceExpr s f k => resourceExprBody self s f k
  | .resourceBodies t acc => resourceBodiesBody self t acc
  | .attrOps acc => attrOpsBody self acc
  | .hostnames acc => hostnamesBody self acc
  | .dottedName s ns => dottedNameBody self s ns
  | .activities acc => activitiesBody self acc
  | .eppLoop acc => eppLoopBody self acc

end bodies

/-- The recursive functions with recursion depth at most the first argument.  Recursion of Go, parser/parser.go:245-1998. -/
def run : Nat → Self
  | 0 => fun _ => timeout
  | f + 1 => step (run f)

/-- `EppExpression` of the factory, parser/factory.go:170-172: a lambda around the EPP body. -/
def mkEpp (p : Pos) (params : List Expr) (body : Expr) : Expr := .lambda p params (.epp p true body) none

/-- `asEppLambda`, parser/parser.go:195-205. -/
def asEppLambda (e : Expr) : P Expr := do
  let p ← here 0
  match e with
  | .lambda _ _ (.epp ..) _ => pure e
  | .block .. => pure (mkEpp p [] e)
  | e => pure (mkEpp p [] (.block p [e]))

/-- The EPP part of `parseTopExpression`, parser/parser.go:186-238. -/
def parseEpp (self : Self) : P Expr := do
  consumeEPP self
  let t ← curTok
  let text ← if t = .renderString then do
      let v ← tokenString
      self .nextToken
      pure v
    else pure []
  let s ← getS
  if s.tok = .end_ then do
    let p ← here 0
    asEppLambda (.renderString p text)
  else if s.tok = .pipe then
    if text.isEmpty = false then issue .parseIllegalEppParameters
    else do
      let ps ← lambdaParameterList self
      self .nextToken
      let body ← self (.parse .end_ false)
      let p ← here 0
      asEppLambda (mkEpp p ps body)
  else do
    let init := if text.isEmpty then [] else [.renderString ⟨0, s.tsp⟩ text]
    let es ← self (.eppLoop init)
    let es ← transformCalls es
    let p ← here 0
    asEppLambda (.block p es)

/-- `parseTopExpression`, parser/parser.go:175-243, without the recover. -/
def parseTop (self : Self) (single : Bool) : P Expr := do
  let env ← getEnv
  if env.epp then parseEpp self
  else do
    self .nextToken
    self (.parse .end_ single)

/-- The body of `Parse`, parser/parser.go:162-173: state is reset only in part. -/
def parseProgram (self : Self) (single : Bool) : P Expr := do
  modS fun s => { s with pos := 0, defs := [], nls := none }
  let e ← parseTop self single
  if single then pure e
  else do
    let s ← getS
    pure (.program ⟨0, s.pos⟩ e s.defs)

/-- Recursion depth that always suffices (proved in `Props/Parse.lean: C26`).  Not in the code (parser/parser.go:162). -/
def parseFuel (text : GoStr) : Nat := 1000 * (text.length + 8) ^ 2

/-- What `Parse` gives to its caller.  `Parse`, parser/parser.go:162-243. -/
inductive Outcome where
  /-- expression and nil -/
  | value (e : Expr)
  /-- nil and an error: an `issue.Reported` or a reader error -/
  | error (e : Err)
  /-- a panic that is not recovered -/
  | panic (k : Crash)
  /-- model artefact, proved unreachable -/
  | timeout

/-- `Parse` on a parser in state `s`: outcome and the state left behind.  `Parse`, parser/parser.go:162-243. -/
def parseFrom (env : Env) (s : St) (single : Bool) : Outcome × St :=
  match parseProgram (run (parseFuel env.text)) single env s with
  | .ok e s' => (.value e, s')
  | .fail (.crash k) s' => (.panic k, s')
  | .fail .timeout s' => (.timeout, s')
  | .fail e s' => (.error e, s')

/-- `CreateParser(options...).Parse(_, text, single)`, parser/parser.go:138-173: a fresh parser. -/
def parse (env : Env) (single : Bool) : Outcome := (parseFrom env {} single).1

end PP
