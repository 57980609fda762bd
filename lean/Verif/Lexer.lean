import Verif.Monad

/-!
# Lexer: parser/lexer.go

Loops over characters that do not call the parser recurse on a local fuel argument that is always
large enough (`charFuel`, proved in Lemmas/LexChars and Lemmas/Parse9, see C26); loops that call the parser are `NT`s.
-/
namespace PP

/-- Fuel for character loops; more than twice the number of positions.  Not in the code; the loops are in parser/lexer.go:747-994. -/
def charFuel (env : Env) : Nat := 2 * env.text.length + 8

/-- `for p(c) { Advance(n); c, n = Peek() }`: the loops in parser/lexer.go:478-480, 699-702, 718-721,
869-872, 988-992, 1235-1238, 1402-1413 (inner loop) and 1703-1706. -/
def advWhile (p : Nat → Bool) : Nat → P (Nat × Nat)
  | 0 => timeout
  | f + 1 => do
    let (c, n) ← peek
    if p c then do
      advance n
      advWhile p f
    else pure (c, n)

/-- `commentStart` in `skipWhite`.  parser/lexer.go:748-749. -/
inductive Cmt where
  | none | hash | star
deriving DecidableEq, Repr

/-- parser/lexer.go:766-773: a newline outside of a block comment continues after a pending
heredoc. -/
def newLine : P Unit := fun _ s =>
  let p := s.nls.getD s.pos
  .ok () { s with pos := p, nls := Option.none, bol := p }

/-- `skipWhite`, parser/lexer.go:747-817. -/
def skipWhiteLoop (brk : Bool) : Nat → Cmt → Nat → P (Nat × Nat)
  | 0, _, _ => timeout
  | f + 1, cs, csp => do
    let (c, start) ← next
    if c = 0 then
      if cs = .star then do
        setPos csp
        issue .lexUnterminatedComment
      else pure (c, start)
    else if c = c%'\n' then
      if cs = .star then skipWhiteLoop brk f cs csp
      else if brk then do
        setPos start
        pure (c, start)
      else do
        newLine
        skipWhiteLoop brk f .none csp
    else if c = c%'#' then
      if cs = .none then skipWhiteLoop brk f .hash start
      else skipWhiteLoop brk f cs csp
    else if c = c%'/' then
      if cs = .none then do
        let (tc, sz) ← peek
        if tc = c%'*' then do
          advance sz
          skipWhiteLoop brk f .star start
        else pure (c, start)
      else skipWhiteLoop brk f cs csp
    else if c = c%'*' then
      if cs = .hash then skipWhiteLoop brk f cs csp
      else if cs = .star then do
        let (tc, sz) ← peek
        if tc = c%'/' then do
          advance sz
          skipWhiteLoop brk f .none csp
        else skipWhiteLoop brk f cs csp
      else pure (c, start)
    else if c = c%' ' ∨ c = c%'\r' ∨ c = c%'\t' then skipWhiteLoop brk f cs csp
    else if cs = .none then pure (c, start)
    else skipWhiteLoop brk f cs csp

/-- `skipWhite`, parser/lexer.go:747-817. -/
def skipWhite (brk : Bool) : P (Nat × Nat) := do
  let env ← getEnv
  skipWhiteLoop brk (charFuel env) .none 0

/-- `skipWhiteInLiteral`, parser/lexer.go:821-833. -/
def skipWhiteInLiteralLoop : Nat → P (Nat × Nat)
  | 0 => timeout
  | f + 1 => do
    let (c, start) ← next
    if c = c%' ' ∨ c = c%'\r' ∨ c = c%'\t' then skipWhiteInLiteralLoop f
    else pure (c, start)

/-- `skipWhiteInLiteral`, parser/lexer.go:821-833. -/
def skipWhiteInLiteral : P (Nat × Nat) := do
  let env ← getEnv
  skipWhiteInLiteralLoop (charFuel env)

/-- Inner loop for dashes in names, parser/lexer.go:877-888: true if a letter or digit follows. -/
def dashLoop : Nat → Nat → P Bool
  | 0, _ => timeout
  | f + 1, i => do
    let (c, n) ← peekAt i
    if isLetterOrDigit c then do
      setPos (i + n)
      pure true
    else if c ≠ c%'-' then pure false
    else dashLoop f (i + n)

/-- May `c` start the next segment of a name?  parser/lexer.go:908-910. -/
def segmentStart (tok : Tok) (c : Nat) : Bool :=
  (tok = .typeName && isUppercaseLetter c) ||
  (tok != .typeName && (isLowercaseLetter c || (tok = .variable && c == c%'_')))

/-- The issue code for a malformed name, parser/lexer.go:921-926. -/
def invalidNameCode : Tok → Code
  | .typeName => .lexInvalidTypeName
  | .variable => .lexInvalidVariableName
  | _ => .lexInvalidName

/-- Outer loop of `consumeQualifiedName`, parser/lexer.go:867-928; returns `hasDash`. -/
def nameLoop (start : Nat) (tok : Tok) : Nat → Bool → Bool → P Bool
  | 0, _, _ => timeout
  | f + 1, lastUnderscore, hasDash => do
    let env ← getEnv
    let (c, n) ← advWhile isLetterOrDigit (charFuel env)
    if c = c%'-' ∧ tok = .identifier then do
      let p ← getPos
      let found ← dashLoop (charFuel env) (p + n)
      if found then nameLoop start tok f lastUnderscore true
      else pure hasDash
    else if c ≠ c%':' then pure hasDash
    else do
      let nameEnd ← getPos
      advance n
      let (c, n) ← peek
      if c ≠ c%':' then do
        setPos nameEnd
        pure hasDash
      else do
        advance n
        let (c, n) ← peek
        if segmentStart tok c && !lastUnderscore then do
          advance n
          nameLoop start tok f (c == c%'_') hasDash
        else do
          setPos start
          issue (invalidNameCode tok)

/-- Classification of a word, parser/lexer.go:936-956. -/
def classify (env : Env) (tok : Tok) (hasDash : Bool) (word : GoStr) : Tok × TokVal :=
  if tok = .identifier then
    if hasDash then (.string, .str word)
    else match lookupStr keywords word with
      | some .boolean => (.boolean, .bool (word == b!"true"))
      | some .kDefault => (.kDefault, .dflt)
      | some .kPlan => (if env.tasks then .kPlan else .identifier, .str word)
      | some k => (k, .str word)
      | none => (.identifier, .str word)
  else (tok, .str word)

/-- `consumeQualifiedName`, parser/lexer.go:863-957. -/
def consumeQualifiedName (start : Nat) (tok : Tok) : P Unit := do
  let env ← getEnv
  let hasDash ← nameLoop start tok (charFuel env) false false
  let word ← from_ (if tok = .variable then start + 1 else start)
  let tv := classify env tok hasDash word
  setTokenValue tv.1 tv.2

/-- `skipDecimalDigits`, parser/lexer.go:981-994: true if at least one digit was skipped. -/
def skipDecimalDigits : P Bool := do
  let env ← getEnv
  let (c, n) ← peek
  if c = c%'-' ∨ c = c%'+' then advance n
  let p ← getPos
  let _ ← advWhile isDecimalDigit (charFuel env)
  let p' ← getPos
  pure (p < p')

/-- `panic(parseIssue(LEX_DIGIT_EXPECTED))` unless digits were skipped (parser/lexer.go:960, 969). -/
def needDigits : P Unit := do
  let ok ← skipDecimalDigits
  if ok then pure () else issue .lexDigitExpected

/-- `consumeFloat`, parser/lexer.go:959-979. -/
def consumeFloat (start d : Nat) : P Unit := do
  let env ← getEnv
  needDigits
  let (c, n) ← peek
  let c ← if d = c%'.' ∧ (c = c%'e' ∨ c = c%'E') then do
      advance n
      needDigits
      let (c, _) ← peek
      pure c
    else pure c
  if uniIsLetter env c then issue .lexDigitExpected
  else do
    let t ← from_ start
    setTokenValue .float (.flt { neg := false, text := t })

/-- `appendHexadec`, parser/lexer.go:1666-1678: the byte that is written. -/
def appendHexadec : P GoStr := do
  let (d, start) ← next
  if isHexDigit d then do
    let (d2, _) ← next
    if isHexDigit d2 then pure ()
    else do
      setPos (start - 2)
      issue .lexMalformedHexEscape
  else pure ()
  let t ← from_ start
  pure [UInt8.ofNat (parseInt64 16 t).toNat]

/-- Three more hexadecimal digits, parser/lexer.go:1684-1690. -/
def hexDigits (start : Nat) : Nat → P Unit
  | 0 => pure ()
  | k + 1 => do
    let (d, _) ← next
    if isHexDigit d then hexDigits start k
    else do
      setPos (start - 2)
      issue .lexMalformedUnicodeEscape

/-- `appendUnicode`, parser/lexer.go:1680-1717: the bytes that are written. -/
def appendUnicode : P GoStr := do
  let env ← getEnv
  let (ec, start) ← next
  if isHexDigit ec then do
    hexDigits start 3
    let t ← from_ start
    pure (encodeRune (parseInt64 16 t).toNat)
  else if ec ≠ c%'{' then do
    setPos (start - 2)
    issue .lexMalformedUnicodeEscape
  else do
    let hexStart ← getPos
    let (ec, n) ← advWhile isHexDigit (charFuel env)
    let p ← getPos
    if 2 ≤ p - hexStart ∧ p - hexStart ≤ 6 ∧ ec = c%'}' then do
      let t ← from_ hexStart
      advance n
      pure (encodeRune (parseInt64 16 t).toNat)
    else do
      setPos (start - 2)
      issue .lexMalformedUnicodeEscape

/-- The escape handlers: the bytes written for `\c` (parser/lexer.go:1252-1280, 1308-1313 and
1322-1325). -/
def escapeHandler (h : Handler) (c : Nat) : P GoStr :=
  match h with
  | .sq => pure (92 :: if c = c%'\\' then [] else encodeRune c)
  | .regexp => pure (92 :: encodeRune c)
  | .dq => do
    let env ← getEnv
    if c = c%'\\' ∨ c = c%'\'' then pure (encodeRune c)
    else if c = c%'$' then pure (if env.hasFactory then [36] else [92, 36])
    else if c = c%'n' then pure [10]
    else if c = c%'r' then pure [13]
    else if c = c%'t' then pure [9]
    else if c = c%'s' then pure [32]
    else if c = c%'u' then appendUnicode
    else if c = c%'x' ∧ env.hexEsc = true then appendHexadec
    else pure (92 :: encodeRune c)

/-- `convertNamedAccessLHS`, parser/lexer.go:1205-1230, for a `NamedAccessExpression` with the given
parts.  `none` is the failing assertion in line 1225; the flag tells whether the result is a new
node. -/
def convertNamedAccessLHS (start : Nat) (p : Pos) : Expr → Expr → Option (Expr × Bool)
  | .qname q n, rhs =>
    some (.bin ⟨start, p.len + 1⟩ .namedAccess (.un ⟨start, q.len + 1⟩ .variable (.qname q n)) rhs, true)
  | .access q operand keys, rhs =>
    let lhe := match operand with
      | .qname r n => .access ⟨start, q.len + 1⟩ (.un ⟨start, r.len + 1⟩ .variable (.qname r n)) keys
      | o => .access q o keys
    some (.bin ⟨start, p.len + 1⟩ .namedAccess lhe rhs, true)
  | .bin q .namedAccess l r, rhs =>
    match convertNamedAccessLHS start q l r with
    | some (e, _) => some (.bin ⟨start, p.len + 1⟩ .namedAccess e rhs, true)
    | none => none
  | .call q .method _ (.bin r .namedAccess l' r') args lam, rhs =>
    match convertNamedAccessLHS start r l' r' with
    | some (f, _) =>
      some (.bin ⟨start, p.len + 1⟩ .namedAccess (.call ⟨start, q.len + 1⟩ .method true f args lam) rhs,
        true)
    | none => none
  | .call _ .method _ _ _ _, _ => none
  | lhs, rhs => some (.bin p .namedAccess lhs rhs, false)

/-- The conversion of `${name...}` to a variable, parser/lexer.go:1170-1188. -/
def interpolated (start : Nat) (len : Int) : Expr → Option Expr
  | .qname q n => some (.un ⟨start, len⟩ .variable (.qname q n))
  | .access q (.qname r n) keys =>
    some (.access ⟨start, q.len + 1⟩ (.un ⟨start, r.len + 1⟩ .variable (.qname r n)) keys)
  | .call q .method rv (.bin r .namedAccess lhs rhs) args lam =>
    match convertNamedAccessLHS start r lhs rhs with
    | some (f, true) => some (.call ⟨start, q.len + 1⟩ .method true f args lam)
    | some (_, false) => some (.call q .method rv (.bin r .namedAccess lhs rhs) args lam)
    | none => none
  | e => some e

/-- `interpolate`, parser/lexer.go:1159-1203. -/
def interpolate (self : Self) (start : Nat) : P Expr := do
  let (c, sz) ← peek
  if c = c%'{' then do
    advance sz
    self .nextToken
    let e ← self (.parse .rc true)
    let p ← getPos
    match interpolated start ((p : Int) - start) e with
    | some e' => pure (.un ⟨start, (p : Int) - start⟩ .text e')
    | none => crash .exprAssertion
  else do
    setToken .variable
    if c = c%':' ∨ isLowercaseLetter c = true ∨ isDecimalDigit c = true then self .nextToken
    let s ← getS
    if s.tok ≠ .identifier then do
      setPos start
      issue .lexMalformedInterpolation
    else
      match s.val with
      | .str name =>
        let len := (s.pos : Int) - start
        pure (.un ⟨start, len⟩ .text (.un ⟨start, len⟩ .variable (.qname ⟨start + 1, (s.pos : Int) - (start + 1 : Nat)⟩ name)))
      | _ => crash .valueAssertion

/-- `handleInterpolation`, parser/lexer.go:1145-1155. -/
def handleInterpolation (self : Self) (start : Nat) (segs : List Expr) (buf : GoStr) : P (List Expr) := do
  let s ← getS
  let segs' := if buf.isEmpty then segs else segs ++ [.string ⟨s.tsp, (s.pos : Int) - s.tsp⟩ buf]
  let e ← interpolate self start
  modS fun s => { s with tsp := s.pos }
  pure (segs' ++ [e])

/-- `panic(ctx.unterminatedQuote(start, _))`, parser/lexer.go:337-348. -/
def unterminatedQuote {α} (start : Nat) : P α := do
  setPos start
  issue .lexUnterminatedString

/-- One round of the loop of `consumeDelimitedString`, parser/lexer.go:1002-1045. -/
def delimBody (self : Self) (d ds : Nat) (interp : Bool) (h : Handler) (buf : GoStr) (ec start : Nat)
    (segs : List Expr) : P (List Expr) :=
  if ec = 0 then
    if d ≠ c%'/' then unterminatedQuote ds
    else do
      setToken .divide
      pure segs
  else if ec = d then do
    setTokenValue .string (.str buf)
    pure segs
  else if ec = c%'\\' then do
    let (ec, _) ← next
    if ec = 0 then unterminatedQuote ds
    else if ec = d then do
      let (ec', _) ← next
      self (.delim d ds interp h (buf ++ encodeRune d) ec' start segs)
    else do
      let out ← escapeHandler h ec
      let (ec', _) ← next
      self (.delim d ds interp h (buf ++ out) ec' start segs)
  else if ec = c%'$' ∧ interp = true then do
    let segs' ← handleInterpolation self start segs buf
    let (ec', start') ← next
    self (.delim d ds interp h [] ec' start' segs')
  else do
    let (ec', _) ← next
    self (.delim d ds interp h (buf ++ encodeRune ec) ec' start segs)

/-- `consumeDelimitedString`, parser/lexer.go:998-1046. -/
def consumeDelimitedString (self : Self) (d ds : Nat) (interp : Bool) (h : Handler) : P (List Expr) := do
  let (ec, start) ← next
  self (.delim d ds interp h [] ec start [])

/-- The loop over an EPP comment, parser/lexer.go:1078-1089: true if its end was found. -/
def eppComment : Nat → Nat → P Bool
  | 0, _ => timeout
  | f + 1, prev => do
    let (ec, _) ← next
    if ec = 0 then pure false
    else if ec = c%'%' then do
      let (ec, sz) ← peek
      if ec = c%'>' ∧ prev ≠ c%'%' then do
        advance sz
        pure true
      else eppComment f ec
    else eppComment f ec

/-- The loop of `consumeEPP`, parser/lexer.go:1049-1131.  Arguments: buffer and `lastNonWS`.
Result: the text and whether a tag was found. -/
def eppText : Nat → GoStr → Nat → P (GoStr × Bool)
  | 0, _, _ => timeout
  | f + 1, buf, last => do
    let env ← getEnv
    let (ec, start) ← next
    if ec = 0 then pure (buf, false)
    else if ec = c%'<' then do
      let (c, sz) ← peek
      if c ≠ c%'%' then eppText f (buf ++ [60]) (buf.length + 1)
      else do
        advance sz
        let (c, sz) ← peek
        if c = c%'%' then do
          advance sz
          eppText f (buf ++ [60, 37]) (buf.length + 2)
        else if c = c%'#' then do
          advance sz
          let found ← eppComment (charFuel env) c
          if found then eppText f buf last
          else do
            setPos start
            issue .lexUnbalancedEppComment
        else do
          setPos start
          pure (if c = c%'-' then buf.take last else buf, true)
    else if ec = c%' ' ∨ ec = c%'\t' then eppText f (buf ++ encodeRune ec) last
    else if ec = c%'%' then do
      let (c, sz) ← peek
      if c = c%'%' then do
        advance sz
        let (c, sz) ← peek
        if c = c%'>' then do
          advance sz
          eppText f (buf ++ [37, 62]) (buf.length + 2)
        else eppText f (buf ++ [37, 37]) (buf.length + 2)
      else eppText f (buf ++ [37]) (buf.length + 1)
    else eppText f (buf ++ encodeRune ec) (buf.length + (encodeRune ec).length)

/-- `consumeEPP`, parser/lexer.go:1048-1137. -/
def consumeEPP (self : Self) : P Unit := do
  let env ← getEnv
  let (buf, tag) ← eppText (charFuel env) [] 0
  if tag then do
    setTokenValue .renderString (.str buf)
    if buf.isEmpty then self .nextToken
  else if buf.isEmpty then setToken .end_
  else setTokenValue .renderString (.str buf)

/-- `consumeBacktickedString`, parser/lexer.go:1232-1244. -/
def consumeBacktickedString : P Unit := do
  let env ← getEnv
  let start ← getPos
  let (c, sz) ← advWhile (fun c => c != 0 && c != c%'`') (charFuel env)
  if c = 0 then unterminatedQuote (start - 1)
  else do
    let t ← from_ start
    setTokenValue .string (.str t)
    advance sz

/-- `consumeDoubleQuotedString`, parser/lexer.go:1246-1305. -/
def consumeDoubleQuotedString (self : Self) : P Unit := do
  let env ← getEnv
  let p ← getPos
  let segs ← consumeDelimitedString self c%'"' (p - 1) env.hasFactory .dq
  if env.hasFactory = false then pure ()
  else do
    let s ← getS
    match s.val with
    | .str tail =>
      let seg := Expr.string ⟨s.tsp, (s.pos : Int) - s.tsp⟩ tail
      match segs with
      | [] => pure ()
      | first :: _ =>
        let segs' := if tail.isEmpty then segs else segs ++ [seg]
        setTokenValue .concatenatedString (.expr (.concat ⟨first.off, (s.pos : Int) - first.off⟩ segs'))
    | _ => crash .valueAssertion

/-- `consumeSingleQuotedString`, parser/lexer.go:1307-1314. -/
def consumeSingleQuotedString (self : Self) : P Unit := do
  let p ← getPos
  let _ ← consumeDelimitedString self c%'\'' (p - 1) false .sq
  pure ()

/-- `consumeRegexp`, parser/lexer.go:1320-1332. -/
def consumeRegexp (self : Self) : P Bool := do
  let start ← getPos
  let _ ← consumeDelimitedString self c%'/' (start - 1) false .regexp
  let t ← curTok
  if t = .string then do
    modS fun s => { s with tok := .regexp }
    pure true
  else do
    setPos start
    pure false

/-- `isRegexpAcceptable`, parser/lexer.go:1719-1728. -/
def isRegexpAcceptable : Tok → Bool
  | .rp | .rb | .typeName | .identifier | .boolean | .integer | .float | .string | .heredoc
  | .concatenatedString | .regexp | .variable => false
  | _ => true

/-- Is `b` a heredoc escape flag, and which byte does it stand for?  parser/lexer.go:1569-1574. -/
def flagByte (b : UInt8) : Option UInt8 :=
  if b ∈ b!"trnsu$" then some b else if b = 76 then some 10 else none

/-- `extractFlags`, parser/lexer.go:1563-1580. -/
def extractFlags (start : Nat) : P GoStr := do
  let s ← from_ start
  match s.mapM flagByte with
  | some flags => pure flags
  | none => do
    setPos start
    issue .lexHeredocIllegalEscape

/-- The variables of the loop over a heredoc declaration, parser/lexer.go:1335-1346. -/
structure HDecl where
  tag : GoStr := []
  syntx : GoStr := []
  escapeStart : Option Nat := none
  quoteStart : Option Nat := none
  syntaxStart : Option Nat := none
  flags : Option GoStr := none

/-- `if tag == "" { tag = ctx.From(start) }`, parser/lexer.go:1364-1366, 1375-1377, 1385-1386. -/
def HDecl.withTag (h : HDecl) (start : Nat) : P HDecl :=
  if h.tag.isEmpty then do
    let t ← from_ start
    pure { h with tag := t }
  else pure h

/-- `panic(parseIssue(code))` after `SetPos(heredocStart)`.  e.g. parser/lexer.go:1352-1354. -/
def issueAt {α} (pos : Nat) (c : Code) : P α := do
  setPos pos
  issue c

/-- Loop `findTagEnd`, parser/lexer.go:1349-1424.  `start` is just after `@(`. -/
def findTagEnd (start : Nat) : Nat → HDecl → P HDecl
  | 0, _ => timeout
  | f + 1, h => do
    let env ← getEnv
    let (c, n) ← peek
    if c = 0 ∨ c = c%'\n' then issueAt (start - 2) .lexHeredocDeclUnterminated
    else if c = c%')' then do
      let h ← match h.syntaxStart with
        | some p => do
          let t ← from_ p
          pure { h with syntx := t }
        | none => pure h
      let h ← match h.escapeStart with
        | some p => do
          let fl ← extractFlags p
          pure { h with flags := some fl }
        | none => pure h
      let h ← h.withTag start
      advance n
      pure h
    else if c = c%':' then do
      match h.syntaxStart with
      | some _ => issue .lexHeredocMultipleSyntax
      | none => do
        let h ← h.withTag start
        advance n
        let p ← getPos
        findTagEnd start f { h with syntaxStart := some p }
    else if c = c%'/' then do
      match h.escapeStart with
      | some _ => issue .lexHeredocMultipleEscape
      | none => do
        let h ← if h.tag.isEmpty then h.withTag start
          else match h.syntaxStart with
            | some p => do
              let t ← from_ p
              pure { h with syntx := t, syntaxStart := none }
            | none => pure h
        advance n
        let p ← getPos
        findTagEnd start f { h with escapeStart := some p }
    else if c = c%'"' then do
      if h.tag.isEmpty = false then issue .lexHeredocMultipleTag
      else do
        advance n
        let q ← getPos
        let (c, n) ← advWhile (fun c => c != 0 && c != c%'\n' && c != c%'"') (charFuel env)
        if c = 0 ∨ c = c%'\n' then issueAt (start - 2) .lexHeredocDeclUnterminated
        else do
          let p ← getPos
          if q = p then issueAt (start - 2) .lexHeredocEmptyTag
          else do
            let t ← from_ q
            advance n
            findTagEnd start f { h with tag := t, quoteStart := some q }
    else do
      advance n
      findTagEnd start f h

/-- Loop `findStartOfText`, parser/lexer.go:1430-1464; `sz` is not updated in lines 1439-1449. -/
def findStartOfText (hs : Nat) : Nat → Nat → Nat → P Unit
  | 0, _, _ => timeout
  | f + 1, c, sz => do
    if c = 0 then issueAt hs .lexHeredocUnterminated
    else if c = c%'#' then do
      let (c, _) ← skipWhite true
      findStartOfText hs f c sz
    else if c = c%'/' then do
      let n ← getPos
      advance sz
      let (c, _) ← next
      if c = c%'*' then do
        setPos n
        let (c, _) ← skipWhite true
        findStartOfText hs f c sz
      else findStartOfText hs f c sz
    else if c = c%'\n' then do
      let s ← getS
      match s.nls with
      | some p => modS fun s => { s with pos := p, nls := none }
      | none => advance sz
    else do
      advance sz
      let (c, sz) ← peek
      findStartOfText hs f c sz

/-- Where the text of a heredoc ends.  The variables in parser/lexer.go:1467-1471. -/
structure HEnd where
  contentEnd : Int
  heredocEnd : Nat
  indent : Nat

/-- The margin of a line, parser/lexer.go:1483-1502: rune, its start, `suppressLastNL`, `indentStrip`. -/
def marginOf (lineStart c n : Nat) (suppress : Bool) (indent : Nat) : P (Nat × Nat × Bool × Nat) :=
  if c = c%'|' then do
    let (c2, n2) ← skipWhiteInLiteral
    if c2 = c%'-' then do
      let (c3, n3) ← skipWhiteInLiteral
      pure (c3, n3, true, n - lineStart)
    else pure (c2, n2, suppress, n - lineStart)
  else if c = c%'-' then do
    let (c3, n3) ← skipWhiteInLiteral
    pure (c3, n3, true, indent)
  else pure (c, n, suppress, indent)

/-- `heredocContentEnd`, parser/lexer.go:1516-1522. -/
def contentEndOf (text : GoStr) (lineStart : Nat) (suppress : Bool) : Option Int :=
  if suppress then
    if 2 ≤ lineStart then
      match text[lineStart - 2]? with
      | some b => some (if b = 13 then (lineStart : Int) - 2 else (lineStart : Int) - 1)
      | none => none
    else none
  else some lineStart

/-- Loop `findEndOfText`, parser/lexer.go:1474-1530. -/
def findEndOfText (hs : Nat) (tag : GoStr) : Nat → Nat → Bool → Nat → P HEnd
  | 0, _, _, _ => timeout
  | f + 1, c, suppress, indent => do
    if c = 0 then issueAt hs .lexHeredocUnterminated
    else if c = c%'\n' then do
      let env ← getEnv
      let lineStart ← getPos
      let (c, n) ← skipWhiteInLiteral
      if c = 0 then issueAt hs .lexHeredocUnterminated
      else do
        let (c, n, suppress, indent) ← marginOf lineStart c n suppress indent
        if c ≠ (decodeRune tag).1 then findEndOfText hs tag f c suppress indent
        else if n + tag.length ≤ env.text.length ∧ (env.text.drop n).take tag.length = tag then do
          setPos (n + tag.length)
          let (c, n) ← skipWhiteInLiteral
          if c = c%'\n' ∨ c = 0 then
            match contentEndOf env.text lineStart suppress with
            | some ce => pure { contentEnd := ce, heredocEnd := n, indent := indent }
            | none => crash .index
          else findEndOfText hs tag f c suppress indent
        else findEndOfText hs tag f c suppress indent
    else do
      let (c, _) ← next
      findEndOfText hs tag f c suppress indent

/-- `stripIndent`, parser/lexer.go:1651-1664. -/
def stripIndentLoop (start : Nat) : Nat → P Unit
  | 0 => pure ()
  | k + 1 => do
    let (c, n) ← peek
    if c = c%'\t' ∨ c = c%' ' then do
      advance n
      stripIndentLoop start k
    else setPos start

/-- `stripIndent`, parser/lexer.go:1651-1664. -/
def stripIndent (indent : Nat) : P Unit := do
  let start ← getPos
  stripIndentLoop start indent

/-- One round of the loop of `applyEscapes`, parser/lexer.go:1586-1646. -/
def escapesBody (self : Self) (end_ : Int) (indent : Nat) (flags : GoStr) (interp : Bool) (buf : GoStr)
    (segs : List Expr) : P (GoStr × List Expr) := do
  let (c, start) ← next
  if c = 0 ∨ ¬ ((start : Int) < end_) then pure (buf, segs)
  else if c ≠ c%'\\' then
    if c = c%'$' ∧ interp = true then do
      let segs' ← handleInterpolation self start segs buf
      self (.escapes end_ indent flags interp [] segs')
    else do
      if c = c%'\n' then stripIndent indent
      self (.escapes end_ indent flags interp (buf ++ encodeRune c) segs)
  else do
    let (c, start) ← next
    if end_ ≤ (start : Int) then pure (buf ++ [92], segs)
    else if ¬ (c < 128 ∧ flags.contains (UInt8.ofNat c)) then
      if c = c%'$' ∧ interp = true then do
        let segs' ← handleInterpolation self start segs (buf ++ [92])
        self (.escapes end_ indent flags interp [] segs')
      else do
        if c = c%'\n' then stripIndent indent
        self (.escapes end_ indent flags interp (buf ++ [92] ++ encodeRune c) segs)
    else if c = c%'\n' then do
      stripIndent indent
      self (.escapes end_ indent flags interp buf segs)
    else do
      let out ← if c = c%'r' then pure [13]
        else if c = c%'n' then pure [10]
        else if c = c%'t' then pure [9]
        else if c = c%'s' then pure [32]
        else if c = c%'u' then appendUnicode
        else pure (encodeRune c)
      self (.escapes end_ indent flags interp (buf ++ out) segs)

/-- The text of a heredoc that has no escapes, interpolation or margin: `From` with the position at
`heredocContentEnd`, parser/lexer.go:1549-1550. -/
def verbatimText (env : Env) (cs : Nat) (ce : Int) : Option GoStr :=
  if (cs : Int) ≤ ce ∧ ce ≤ env.text.length then some ((env.text.drop cs).take (ce.toNat - cs)) else none

/-- Parsing continues after the declaration and the next newline jumps behind the text,
parser/lexer.go:1543-1544 and 1553-1554. -/
def heredocDone (tagEnd heredocEnd : Nat) : P Unit :=
  modS fun s => { s with pos := tagEnd, nls := some (heredocEnd + 1) }

/-- `consumeHeredocString`, parser/lexer.go:1334-1561. -/
def consumeHeredocString (self : Self) : P Unit := do
  let env ← getEnv
  let start ← getPos
  let hs := start - 2
  let h ← findTagEnd start (charFuel env) {}
  let tagEnd ← getPos
  if h.tag.isEmpty then issueAt hs .lexHeredocEmptyTag
  else do
    let (c, sz) ← peek
    findStartOfText hs (charFuel env) c sz
    let cs ← getPos
    let e ← findEndOfText hs h.tag (charFuel env) c%'\n' false 0
    let hlen := e.contentEnd - hs
    let clen := e.contentEnd - cs
    let (text, segs) ←
      if h.flags.isSome = true ∨ h.quoteStart.isSome = true ∨ 0 < e.indent then do
        setPos cs
        stripIndent e.indent
        let (text, segs) ←
          self (.escapes e.contentEnd e.indent (h.flags.getD []) (h.quoteStart.isSome && env.hasFactory) [] [])
        let s ← getS
        if segs.isEmpty then pure (text, segs)
        else if text.isEmpty then pure (text, segs)
        else pure (text, segs ++ [.string ⟨s.tsp, (s.pos : Int) - s.tsp⟩ text])
      else
        match verbatimText env cs e.contentEnd with
        | some text => pure (text, [])
        | none => crash .slice
    heredocDone tagEnd e.heredocEnd
    if segs.isEmpty = false then
      setTokenValue .heredoc (.expr (.heredoc ⟨hs, hlen⟩ h.syntx (.concat ⟨cs, clen⟩ segs)))
    else if env.hasFactory then
      setTokenValue .heredoc (.expr (.heredoc ⟨hs, hlen⟩ h.syntx (.string ⟨cs, clen⟩ text)))
    else setTokenValue .string (.str text)

/-- Set the token `t` after consuming the peeked character.  e.g. parser/lexer.go:386-388. -/
def adv1 (sz : Nat) (t : Tok) : P Unit := do
  advance sz
  setToken t

/-- Digits 1-9, parser/lexer.go:358-371. -/
def lexNumber (start : Nat) : P Unit := do
  let env ← getEnv
  let _ ← skipDecimalDigits
  let (c, sz) ← peek
  if c = c%'.' ∨ c = c%'e' ∨ c = c%'E' then do
    advance sz
    consumeFloat start c
  else if uniIsLetter env c then issue .lexDigitExpected
  else do
    let t ← from_ start
    setTokenValue .integer (.int (parseInt64 10 t))
    modS fun s => { s with radix := 10 }

/-- parser/lexer.go:383-397. -/
def lexAssign : P Unit := do
  let (c, sz) ← peek
  if c = c%'=' then adv1 sz .equal
  else if c = c%'~' then adv1 sz .match_
  else if c = c%'>' then adv1 sz .farrow
  else setToken .assign

/-- parser/lexer.go:398-403. -/
def lexLc : P Unit := do
  let t ← curTok
  setToken (if t = .qmark then .selc else .lc)

/-- parser/lexer.go:420-431. -/
def lexLp (start : Nat) : P Unit := do
  let s ← getS
  setPos s.bol
  let (_, firstNonWhite) ← skipWhite false
  setPos s.pos
  setToken (if firstNonWhite = start then .wslp else .lp)

/-- parser/lexer.go:448-462. -/
def lexColon (start : Nat) : P Unit := do
  setToken .colon
  let (c, sz) ← peek
  if c = c%':' then do
    advance sz
    let (c, _) ← next
    if isUppercaseLetter c then consumeQualifiedName start .typeName
    else if isLowercaseLetter c then consumeQualifiedName start .identifier
    else issueAt start .lexDoubleColonNotFollowedByName

/-- parser/lexer.go:464-495. -/
def lexMinus (self : Self) : P Unit := do
  let env ← getEnv
  let (c, sz) ← peek
  if c = c%'=' then adv1 sz .subtractAssign
  else if c = c%'>' then adv1 sz .inEdge
  else if c = c%'%' ∧ env.epp = true then do
    advance sz
    let (c, sz) ← peek
    if c = c%'>' then do
      advance sz
      let (c, sz) ← advWhile (fun c => c == c%' ' || c == c%'\t') (charFuel env)
      if c = c%'\n' then advance sz
      consumeEPP self
    else issue .lexInvalidOperator
  else setToken .subtract

/-- parser/lexer.go:497-507. -/
def lexPlus : P Unit := do
  let (c, sz) ← peek
  if c = c%'=' then adv1 sz .addAssign
  else if c = c%'>' then adv1 sz .parrow
  else setToken .add

/-- parser/lexer.go:512-520. -/
def lexPercent (self : Self) : P Unit := do
  let env ← getEnv
  setToken .remainder
  if env.epp then do
    let (c, sz) ← peek
    if c = c%'>' then do
      advance sz
      consumeEPP self

/-- parser/lexer.go:522-532. -/
def lexNot : P Unit := do
  let (c, sz) ← peek
  if c = c%'=' then adv1 sz .notEqual
  else if c = c%'~' then adv1 sz .notMatch
  else setToken .not

/-- parser/lexer.go:534-544. -/
def lexGreater : P Unit := do
  let (c, sz) ← peek
  if c = c%'=' then adv1 sz .greaterEqual
  else if c = c%'>' then adv1 sz .rshift
  else setToken .greater

/-- parser/lexer.go:546-555. -/
def lexTilde (start : Nat) : P Unit := do
  let (c, sz) ← peek
  if c = c%'>' then adv1 sz .inEdgeSub
  else issueAt start .lexUnexpectedToken

/-- parser/lexer.go:557-567. -/
def lexAt (self : Self) : P Unit := do
  let (c, sz) ← peek
  if c = c%'@' then adv1 sz .atat
  else if c = c%'(' then do
    advance sz
    consumeHeredocString self
  else setToken .at_

/-- parser/lexer.go:569-614. -/
def lexLess (self : Self) : P Unit := do
  let env ← getEnv
  let (c, sz) ← peek
  if c = c%'=' then adv1 sz .lessEqual
  else if c = c%'<' then do
    advance sz
    let (c, sz) ← peek
    if c = c%'|' then adv1 sz .llcollect
    else setToken .lshift
  else if c = c%'|' then adv1 sz .lcollect
  else if c = c%'-' then adv1 sz .outEdge
  else if c = c%'~' then adv1 sz .outEdgeSub
  else if c = c%'%' ∧ env.epp = true then do
    advance sz
    let (c, sz) ← peek
    if c = c%'=' then adv1 sz .renderExpr
    else if c = c%'-' then do
      advance sz
      self .nextToken
    else self .nextToken
  else setToken .less

/-- Can a lambda body or return type start with `n`?  parser/lexer.go:636. -/
def endsParameters (env : Env) (n : Nat) : Bool :=
  n == c%'{' || n == c%'>' || (env.epp && (n == c%'%' || n == c%'-'))

/-- parser/lexer.go:616-644. -/
def lexPipe : P Unit := do
  let env ← getEnv
  let (c, sz) ← peek
  if c = c%'>' then do
    advance sz
    let (c, sz) ← peek
    if c = c%'>' then adv1 sz .rrcollect
    else setToken .rcollect
  else do
    let t ← curTok
    if t = .pipe then setToken .pipeEnd
    else do
      let p ← getPos
      let (n, _) ← skipWhite false
      setPos p
      setToken (if endsParameters env n then .pipeEnd else .pipe)

/-- parser/lexer.go:652-656. -/
def lexSlash (self : Self) : P Unit := do
  let t ← curTok
  if isRegexpAcceptable t then do
    let found ← consumeRegexp self
    if found then pure () else setToken .divide
  else setToken .divide

/-- parser/lexer.go:658-682. -/
def lexDollar (start : Nat) : P Unit := do
  let env ← getEnv
  let (c, sz) ← peek
  let (c, sz) ← if c = c%':' then do
      advance sz
      let (c, sz) ← peek
      if c ≠ c%':' then issueAt start .lexInvalidVariableName
      else do
        advance sz
        peek
    else pure (c, sz)
  if isLowercaseLetter c then do
    advance sz
    consumeQualifiedName start .variable
  else if isDecimalDigit c then do
    advance sz
    let _ ← skipDecimalDigits
    let t ← from_ (start + 1)
    setTokenValue .variable (.int (parseInt64 10 t))
  else if uniIsLetter env c then issue .lexInvalidVariableName
  else setTokenValue .variable (.str [])

/-- parser/lexer.go:684-729. -/
def lexZero (start : Nat) : P Unit := do
  let env ← getEnv
  modS fun s => { s with radix := 10 }
  let (c, sz) ← peek
  if c = 0 then setTokenValue .integer (.int 0)
  else if c = c%'x' ∨ c = c%'X' then do
    advance sz
    let hexStart ← getPos
    let (c, _) ← advWhile isHexDigit (charFuel env)
    let p ← getPos
    if p = hexStart ∨ isLetter c = true then issue .lexHexdigitExpected
    else do
      let t ← from_ hexStart
      modS fun s => { s with radix := 16 }
      setTokenValue .integer (.int (parseInt64 16 t))
  else if c = c%'.' ∨ c = c%'e' ∨ c = c%'E' then do
    advance sz
    consumeFloat start c
  else do
    let octalStart ← getPos
    let (c, _) ← advWhile isOctalDigit (charFuel env)
    let p ← getPos
    if isDecimalDigit c = true ∨ uniIsLetter env c = true then issue .lexOctaldigitExpected
    else if octalStart < p then do
      let t ← from_ octalStart
      modS fun s => { s with radix := 8 }
      setTokenValue .integer (.int (parseInt64 8 t))
    else setTokenValue .integer (.int 0)

/-- The switch of `nextToken`, parser/lexer.go:357-742: `c` is the first character of the token,
`start` its position and `scanStart` the position before white space. -/
def lexChar (self : Self) (scanStart c start : Nat) : P Unit := do
  let env ← getEnv
  if c%'1' ≤ c ∧ c ≤ c%'9' then lexNumber start
  else if isUppercaseLetter c then consumeQualifiedName start .typeName
  else if isLowercaseLetter c then consumeQualifiedName start .identifier
  else if c = 0 then setToken .end_
  else if c = c%'=' then lexAssign
  else if c = c%'{' then lexLc
  else if c = c%'}' then setToken .rc
  else if c = c%'[' then setToken (if scanStart < start ∨ start = 0 then .listStart else .lb)
  else if c = c%']' then setToken .rb
  else if c = c%'(' then lexLp start
  else if c = c%')' then setToken .rp
  else if c = c%',' then setToken .comma
  else if c = c%';' then setToken .semicolon
  else if c = c%'.' then setToken .dot
  else if c = c%'?' then setToken .qmark
  else if c = c%':' then lexColon start
  else if c = c%'-' then lexMinus self
  else if c = c%'+' then lexPlus
  else if c = c%'*' then setToken .multiply
  else if c = c%'%' then lexPercent self
  else if c = c%'!' then lexNot
  else if c = c%'>' then lexGreater
  else if c = c%'~' then lexTilde start
  else if c = c%'@' then lexAt self
  else if c = c%'<' then lexLess self
  else if c = c%'|' then lexPipe
  else if c = c%'"' then consumeDoubleQuotedString self
  else if c = c%'\'' then consumeSingleQuotedString self
  else if c = c%'/' then lexSlash self
  else if c = c%'$' then lexDollar start
  else if c = c%'0' then lexZero start
  else if c = c%'`' ∧ env.backtick = true then consumeBacktickedString
  else issueAt start .lexUnexpectedToken

/-- `nextToken`, parser/lexer.go:350-743. -/
def nextTokenBody (self : Self) : P Unit := do
  let scanStart ← getPos
  let (c, start) ← skipWhite false
  modS fun s => { s with tsp := start }
  lexChar self scanStart c start

end PP
