import Verif.Ast

/-!
# Monad: tokens, issue codes, parser state and the parser monad

Models the `context` struct (parser/lexer.go:308-325), the reader it embeds (parser/reader.go) and
Go panics.  A parser function is a function from the (fixed) environment and the mutable state to
either a value and a new state, or a panic value and the state at the time of the panic.
-/
namespace PP

/-- Tokens, parser/lexer.go:39-153. -/
inductive Tok where
  | end_
  | assign | addAssign | subtractAssign
  | multiply | divide | remainder | subtract | add
  | lshift | rshift
  | equal | notEqual | less | lessEqual | greater | greaterEqual
  | match_ | notMatch
  | lcollect | llcollect | rcollect | rrcollect
  | farrow | parrow
  | inEdge | inEdgeSub | outEdge | outEdgeSub
  | not | at_ | atat
  | lp | wslp | rp
  | lb | listStart | rb
  | lc | selc | rc
  | pipe | pipeEnd
  | eppEnd | eppEndTrim | renderExpr | renderString
  | comma | dot | qmark | colon | semicolon
  | identifier | string | integer | float | boolean | concatenatedString | heredoc | variable | regexp
  | typeName
  | kAnd | kApplication | kAttr | kCase | kClass | kConsumes | kDefault | kDefine | kFunction | kIf | kIn
  | kInherits | kElse | kElsif | kNode | kOr | kPlan | kPrivate | kProduces | kSite | kType | kUndef
  | kUnless
deriving DecidableEq, Repr, Inhabited

/-- `tokenMap`, parser/lexer.go:159-274. -/
def Tok.str : Tok → GoStr
  | .end_ => b!"EOF"
  | .assign => b!"=" | .addAssign => b!"+=" | .subtractAssign => b!"-="
  | .multiply => b!"*" | .divide => b!"/" | .remainder => b!"%" | .subtract => b!"-" | .add => b!"+"
  | .lshift => b!"<<" | .rshift => b!">>"
  | .equal => b!"==" | .notEqual => b!"!=" | .less => b!"<" | .lessEqual => b!"<="
  | .greater => b!">" | .greaterEqual => b!">="
  | .match_ => b!"=~" | .notMatch => b!"!~"
  | .lcollect => b!"<|" | .llcollect => b!"<<|" | .rcollect => b!"|>" | .rrcollect => b!"|>>"
  | .farrow => b!"=>" | .parrow => b!"+>"
  | .inEdge => b!"->" | .inEdgeSub => b!"~>" | .outEdge => b!"<-" | .outEdgeSub => b!"<~"
  | .not => b!"!" | .at_ => b!"@" | .atat => b!"@@"
  | .lp => b!"(" | .wslp => b!"(" | .rp => b!")"
  | .lb => b!"[" | .listStart => b!"[" | .rb => b!"]"
  | .lc => b!"{" | .selc => b!"{" | .rc => b!"}"
  | .pipe => b!"|" | .pipeEnd => b!"|"
  | .eppEnd => b!"%>" | .eppEndTrim => b!"-%>" | .renderExpr => b!"<%=" | .renderString => b!"epp text"
  | .comma => b!"," | .dot => b!"." | .qmark => b!"?" | .colon => b!":" | .semicolon => b!";"
  | .identifier => b!"identifier" | .string => b!"string literal" | .integer => b!"integer literal"
  | .float => b!"float literal" | .boolean => b!"boolean literal"
  | .concatenatedString => b!"dq string literal" | .heredoc => b!"heredoc" | .variable => b!"variable"
  | .regexp => b!"regexp" | .typeName => b!"type name"
  | .kAnd => b!"and" | .kApplication => b!"application" | .kAttr => b!"attr" | .kCase => b!"case"
  | .kClass => b!"class" | .kConsumes => b!"consumes" | .kDefault => b!"default" | .kDefine => b!"define"
  | .kFunction => b!"function" | .kIf => b!"if" | .kIn => b!"in" | .kInherits => b!"inherits"
  | .kElse => b!"else" | .kElsif => b!"elsif" | .kNode => b!"node" | .kOr => b!"or" | .kPlan => b!"plan"
  | .kPrivate => b!"private" | .kProduces => b!"produces" | .kSite => b!"site" | .kType => b!"type"
  | .kUndef => b!"undef" | .kUnless => b!"unless"

/-- `IsKeywordToken`, parser/lexer.go:155-157. -/
def Tok.isKeyword : Tok → Bool
  | .kAnd | .kApplication | .kAttr | .kCase | .kClass | .kConsumes | .kDefault | .kDefine | .kFunction
  | .kIf | .kIn | .kInherits | .kElse | .kElsif | .kNode | .kOr | .kPlan | .kPrivate | .kProduces
  | .kSite | .kType | .kUndef | .kUnless => true
  | _ => false

/-- `keywords`, parser/lexer.go:276-302. -/
def keywords : List (GoStr × Tok) :=
  [(b!"application", .kApplication), (b!"and", .kAnd), (b!"attr", .kAttr), (b!"case", .kCase),
   (b!"class", .kClass), (b!"consumes", .kConsumes), (b!"default", .kDefault), (b!"define", .kDefine),
   (b!"false", .boolean), (b!"function", .kFunction), (b!"else", .kElse), (b!"elsif", .kElsif),
   (b!"if", .kIf), (b!"in", .kIn), (b!"inherits", .kInherits), (b!"node", .kNode), (b!"or", .kOr),
   (b!"plan", .kPlan), (b!"private", .kPrivate), (b!"produces", .kProduces), (b!"site", .kSite),
   (b!"true", .boolean), (b!"type", .kType), (b!"undef", .kUndef), (b!"unless", .kUnless)]

/-- Go map lookup.  e.g. parser/lexer.go:936-946. -/
def lookupStr {α} (m : List (GoStr × α)) (k : GoStr) : Option α :=
  (m.find? fun kv => kv.1 == k).map Prod.snd

/-- Issue codes that the lexer and the parser raise, parser/issues.go:5-55. -/
inductive Code where
  | lexDoubleColonNotFollowedByName | lexDigitExpected | lexHeredocEmptyTag | lexHeredocIllegalEscape
  | lexHeredocMultipleEscape | lexHeredocMultipleSyntax | lexHeredocMultipleTag
  | lexHeredocDeclUnterminated | lexHeredocUnterminated | lexHexdigitExpected | lexInvalidName
  | lexInvalidOperator | lexInvalidTypeName | lexInvalidVariableName | lexMalformedHexEscape
  | lexMalformedInterpolation | lexMalformedUnicodeEscape | lexOctaldigitExpected
  | lexUnbalancedEppComment | lexUnexpectedToken | lexUnterminatedComment | lexUnterminatedString
  | parseClassNotValidHere | parseElsifInUnless | parseExpectedStepName | parseExpectedStepStyle
  | parseExpectedAttributeName | parseExpectedIteratorStyle | parseExpectedClassName
  | parseExpectedFarrowAfterKey | parseExpectedNameOrNumberAfterDot | parseExpectedNameAfterFunction
  | parseExpectedNameAfterPlan | parseExpectedHostname | parseExpectedTitle | parseExpectedToken
  | parseExpectedOneOfTokens | parseExpectedTypeName | parseExpectedTypeNameAfterType
  | parseExpectedVariable | parseExtraneousComma | parseIllegalEppParameters | parseInvalidAttribute
  | parseInvalidResource | parseInheritsMustBeTypeName | parseResourceWithoutTitle
  | parseQuotedNotValidName
deriving DecidableEq, Repr, Inhabited

/-- Go run-time panics that are neither an issue nor a reader error; they escape `Parse`.  The places are given at each, parser/reader.go:123-125 ff. -/
inductive Crash where
  /-- slice bounds out of range in `From`, parser/reader.go:123-125 -/
  | slice
  /-- index out of range, parser/lexer.go:1518 -/
  | index
  /-- `.(*LiteralHash)`, parser/parser.go:1220 -/
  | hashAssertion
  /-- panic in `tokenString`, parser/parser.go:276-284 -/
  | tokenString
  /-- failed type assertion on `tokenValue` -/
  | valueAssertion
  /-- failed type assertion on an expression (functor, element of a list) -/
  | exprAssertion
deriving DecidableEq, Repr, Inhabited

/-- Panic values.  `issue` carries the byte offset of the location of the `issue.Reported` (the
arguments of the message are not modelled); `invalidUnicode` is `*parseError` of the reader.  `panic` in parser/lexer.go:31-37 and parser/reader.go:47-53. -/
inductive Err where
  | issue (code : Code) (pos : Nat)
  | invalidUnicode (pos : Nat)
  | crash (k : Crash)
  /-- model artefact: the fuel of the model ran out (proved unreachable) -/
  | timeout
deriving DecidableEq, Repr, Inhabited

/-- Dynamic type of `tokenValue`.  `tokenValue interface{}`, parser/lexer.go:320. -/
inductive TokVal where
  | nil
  | str (s : GoStr)
  | int (v : Int)
  | flt (v : FloatVal)
  | bool (b : Bool)
  | dflt
  | expr (e : Expr)
deriving Inhabited

/-- The immutable part of `context` (parser/lexer.go:308-325) and the uninterpreted parts of Go's
standard library. -/
structure Env where
  text : GoStr
  epp : Bool := false
  backtick : Bool := false
  hexEsc : Bool := false
  tasks : Bool := false
  workflow : Bool := false
  /-- `factory != nil`; false only for `NewSimpleLexer` -/
  hasFactory : Bool := true
  /-- `unicode.IsLetter` on runes from U+0080 -/
  uniLetter : Nat → Bool := fun _ => false
  /-- `strconv.FormatFloat(_, 'g', -1, 64)` of the parsed float -/
  fmtFloat : FloatVal → GoStr := fun v => v.text

/-- The mutable part of `context`.  `nls = none` is `nextLineStart = -1`.  parser/lexer.go:308-325. -/
structure St where
  pos : Nat := 0
  nls : Option Nat := none
  tok : Tok := .end_
  bol : Nat := 0
  tsp : Nat := 0
  val : TokVal := .nil
  radix : Nat := 0
  names : List GoStr := []
  defs : List Expr := []
deriving Inhabited

/-- Result of a Go function: it returns, or it panics with a value (recovered in parser/parser.go:174-185). -/
inductive Res (α : Type) where
  | ok (a : α) (s : St)
  | fail (e : Err) (s : St)
deriving Inhabited

/-- The parser monad.  Methods of `*context`, parser/lexer.go:308-325. -/
def P (α : Type) := Env → St → Res α

namespace P

@[inline] protected def pure {α} (a : α) : P α := fun _ s => .ok a s

@[inline] protected def bind {α β} (m : P α) (f : α → P β) : P β := fun env s =>
  match m env s with
  | .ok a s' => f a env s'
  | .fail e s' => .fail e s'

instance : Monad P where
  pure := P.pure
  bind := P.bind

end P

/-- A Go panic.  e.g. parser/lexer.go:31-37. -/
def throwE {α} (e : Err) : P α := fun _ s => .fail e s
/-- Read the state.  Fields of `context`, parser/lexer.go:308-325. -/
def getS : P St := fun _ s => .ok s s
/-- Read the environment.  Fields of `context` that are not assigned while parsing, parser/lexer.go:308-325. -/
def getEnv : P Env := fun env s => .ok env s
/-- Update the state.  Assignments to fields of `context`, parser/lexer.go:308-325. -/
def modS (f : St → St) : P Unit := fun _ s => .ok () (f s)

/-- `panic(ctx.parseIssue(code))`, parser/lexer.go:31-37: the location is the current position. -/
def issue {α} (c : Code) : P α := fun _ s => .fail (.issue c s.pos) s
/-- A Go run-time panic, see `Crash` (parser/reader.go:123-125 ff). -/
def crash {α} (k : Crash) : P α := throwE (.crash k)
/-- Not in the code: the fuel of the model ran out (C26 for parser/parser.go:162 proves it unreachable). -/
def timeout {α} : P α := throwE .timeout

/-- `Pos`, parser/reader.go:109-111. -/
def getPos : P Nat := fun _ s => .ok s.pos s
/-- `SetPos`, parser/reader.go:113-115. -/
def setPos (n : Nat) : P Unit := modS fun s => { s with pos := n }
/-- `Advance`, parser/reader.go:105-107. -/
def advance (n : Nat) : P Unit := modS fun s => { s with pos := s.pos + n }
/-- `ctx.currentToken`.  parser/lexer.go:317. -/
def curTok : P Tok := fun _ s => .ok s.tok s
/-- `ctx.tokenStartPos`.  parser/lexer.go:319. -/
def tokStart : P Nat := fun _ s => .ok s.tsp s

/-- `setToken`, parser/lexer.go:327-330. -/
def setToken (t : Tok) : P Unit := modS fun s => { s with tok := t, val := .nil }
/-- `settokenValue`, parser/lexer.go:332-335. -/
def setTokenValue (t : Tok) (v : TokVal) : P Unit := modS fun s => { s with tok := t, val := v }

/-- `PeekAt`, parser/reader.go:89-102.  Invalid encodings panic at the *current* position. -/
def peekAt (pos : Nat) : P (Nat × Nat) := fun env s =>
  if env.text.length ≤ pos then .ok (0, 0) s
  else
    let cw := decodeRune (env.text.drop pos)
    if cw.1 = runeError then .fail (.invalidUnicode s.pos) s else .ok cw s

/-- `Peek`, parser/reader.go:74-87. -/
def peek : P (Nat × Nat) := fun env s => peekAt s.pos env s

/-- `Next`, parser/reader.go:55-71: the rune at the current position and that position. -/
def next : P (Nat × Nat) := fun env s =>
  match peekAt s.pos env s with
  | .ok cw s' => .ok (cw.1, s.pos) { s' with pos := s.pos + cw.2 }
  | .fail e s' => .fail e s'

/-- `From`, parser/reader.go:123-125. -/
def from_ (start : Nat) : P GoStr := fun env s =>
  if start ≤ s.pos ∧ s.pos ≤ env.text.length then .ok ((env.text.drop start).take (s.pos - start)) s
  else .fail (.crash .slice) s

/-- `unicode.IsLetter`.  Called e.g. in parser/lexer.go:366. -/
def uniIsLetter (env : Env) (c : Nat) : Bool :=
  if c < 128 then isUppercaseLetter c || isLowercaseLetter c else env.uniLetter c

/-- Which escape handler `consumeDelimitedString` was given.  parser/lexer.go:1250-1281, 1308-1313, 1322-1325. -/
inductive Handler where
  | dq | sq | regexp
deriving DecidableEq, Repr, Inhabited

/-- The `producerFunc` arguments of `expressions`.  parser/parser.go:343. -/
inductive Producer where
  | argument | keyedEntry | selectorEntry | expression | stepProperty | stateAttribute | parameter
  | returnParameter | attributeAlias
deriving DecidableEq, Repr, Inhabited

/-- The left associative operator levels, parser/parser.go:410-424 and 483-627. -/
inductive Lvl where
  | rel | or | and | compare | equal | shift | additive | mult | match_ | in_
deriving DecidableEq, Repr, Inhabited

/-- The mutually recursive functions and the loops of the lexer and the parser that call them.  A
`for` loop is a recursive function whose accumulators are arguments.  parser/lexer.go and parser/parser.go:245-1998. -/
inductive NT where
  | nextToken
  /-- loop of `consumeDelimitedString`: delimiter, its start, `segments != nil`, handler, buffer,
  current rune, `start`, segments -/
  | delim (d ds : Nat) (interp : Bool) (h : Handler) (buf : GoStr) (ec start : Nat) (segs : List Expr)
  /-- loop of `applyEscapes`: end, indent, flags, `segments != nil`, buffer, segments -/
  | escapes (end_ : Int) (indent : Nat) (flags : GoStr) (interp : Bool) (buf : GoStr) (segs : List Expr)
  | parse (endTok : Tok) (single : Bool)
  | stmts (endTok : Tok) (acc : List Expr)
  | commaArgs (acc : List Expr)
  | exprs (endTok : Tok) (p : Producer) (acc : List Expr)
  | assignment
  | assignLoop (e : Expr)
  | expression
  | selLoop (e : Expr)
  | binary (l : Lvl)
  | binLoop (l : Lvl) (e : Expr)
  | unary
  | primary
  | primLoop (e : Expr)
  | atom
  | ifExpr (unless_ : Bool)
  | caseOptions (acc : List Expr)
  | resourceExpr (start : Nat) (first : Expr) (form : Form)
  | resourceBodies (title : Expr) (acc : List Expr)
  | attrOps (acc : List Expr)
  | hostnames (acc : List Expr)
  | dottedName (start : Nat) (names : List GoStr)
  | activities (acc : List Expr)
  | eppLoop (acc : List Expr)

/-- Result type of a recursive function.  parser/parser.go:245-1998. -/
@[reducible] def Out : NT → Type
  | .nextToken => Unit
  | .delim .. => List Expr
  | .escapes .. => GoStr × List Expr
  | .stmts .. | .commaArgs .. | .exprs .. | .caseOptions .. | .resourceBodies .. | .attrOps ..
  | .hostnames .. | .activities .. | .eppLoop .. => List Expr
  | _ => Expr

/-- The recursive functions as seen by the body of one of them.  Direct calls in parser/parser.go:245-1998. -/
abbrev Self := (n : NT) → P (Out n)

end PP
