

/-!
# Basic: Go strings, runes, UTF-8, number conversion

Models the parts of Go's standard library that the parser relies on.

* A Go `string` is a list of bytes (`GoStr`).
* A Go `rune` is a natural number (the code never produces negative runes).
-/
namespace PP

/-- Go `string`: an immutable byte sequence.  e.g. `text` in parser/reader.go:12-16. -/
abbrev GoStr := List UInt8

open Lean in
/-- `b!"text"` is the `GoStr` with the UTF-8 bytes of the literal. -/
macro:max "b!" s:str : term => do
  let bytes := s.getString.toUTF8.toList
  let elems ← bytes.mapM fun b => do
    let n := Syntax.mkNumLit (toString b.toNat)
    `(($n : UInt8))
  let elems := elems.toArray
  `(([$elems,*] : List UInt8))

open Lean in
/-- `c%'x'` is the code point of the character literal, as a natural number literal. -/
macro:max "c%" c:char : term => return Syntax.mkNumLit (toString c.getChar.toNat)

deriving instance DecidableEq for Except

/-- Go `utf8.RuneError` (U+FFFD).  compared with in parser/reader.go:66, 83 and 99. -/
def runeError : Nat := 0xFFFD

/-- Is `b` a UTF-8 continuation byte (80..BF)?.  Part of `utf8.DecodeRuneInString`, called in parser/reader.go:65, 82 and 98. -/
def isCont (b : UInt8) : Bool := 0x80 ≤ b.toNat && b.toNat ≤ 0xBF

/-- Go `utf8.DecodeRuneInString`: rune and width of the first rune; `(RuneError, 0)` for the
empty string and `(RuneError, 1)` for an invalid encoding (Go standard library, `unicode/utf8`:
shortest form only, no surrogates, at most U+10FFFF).  Called in parser/reader.go:65, 82 and 98. -/
def decodeRune : GoStr → Nat × Nat
  | [] => (runeError, 0)
  | b0 :: rest =>
    let n0 := b0.toNat
    if n0 < 0x80 then (n0, 1)
    else if n0 < 0xC2 then (runeError, 1)
    else if n0 < 0xE0 then
      match rest with
      | b1 :: _ => if isCont b1 then ((n0 - 0xC0) * 64 + (b1.toNat - 0x80), 2) else (runeError, 1)
      | _ => (runeError, 1)
    else if n0 < 0xF0 then
      match rest with
      | b1 :: b2 :: _ =>
        let n1 := b1.toNat
        let lo := if n0 = 0xE0 then 0xA0 else 0x80
        let hi := if n0 = 0xED then 0x9F else 0xBF
        if lo ≤ n1 && n1 ≤ hi && isCont b2 then
          ((n0 - 0xE0) * 4096 + (n1 - 0x80) * 64 + (b2.toNat - 0x80), 3)
        else (runeError, 1)
      | _ => (runeError, 1)
    else if n0 < 0xF5 then
      match rest with
      | b1 :: b2 :: b3 :: _ =>
        let n1 := b1.toNat
        let lo := if n0 = 0xF0 then 0x90 else 0x80
        let hi := if n0 = 0xF4 then 0x8F else 0xBF
        if lo ≤ n1 && n1 ≤ hi && isCont b2 && isCont b3 then
          ((n0 - 0xF0) * 262144 + (n1 - 0x80) * 4096 + (b2.toNat - 0x80) * 64 + (b3.toNat - 0x80), 4)
        else (runeError, 1)
      | _ => (runeError, 1)
    else (runeError, 1)

/-- The UTF-8 bytes of a rune, as written by Go `bytes.Buffer.WriteRune` / `utf8.EncodeRune`:
surrogates and runes above U+10FFFF are written as U+FFFD.  Called e.g. in parser/lexer.go:1022, 1042 and pn/quote.go:25. -/
def encodeRune (r : Nat) : GoStr :=
  if r < 0x80 then [UInt8.ofNat r]
  else if r < 0x800 then [UInt8.ofNat (0xC0 + r / 64), UInt8.ofNat (0x80 + r % 64)]
  else if 0x10FFFF < r || (0xD800 ≤ r && r ≤ 0xDFFF) then [0xEF, 0xBF, 0xBD]
  else if r < 0x10000 then
    [UInt8.ofNat (0xE0 + r / 4096), UInt8.ofNat (0x80 + r / 64 % 64), UInt8.ofNat (0x80 + r % 64)]
  else
    [UInt8.ofNat (0xF0 + r / 262144), UInt8.ofNat (0x80 + r / 4096 % 64),
     UInt8.ofNat (0x80 + r / 64 % 64), UInt8.ofNat (0x80 + r % 64)]

/-- A Unicode scalar value.  What `utf8.EncodeRune` writes as such (parser/lexer.go:1692, 1716). -/
def isScalar (r : Nat) : Bool := r < 0xD800 || (0xE000 ≤ r && r ≤ 0x10FFFF)

/-- Go `for _, c := range s` : the runes of a string; every invalid byte yields U+FFFD and is
one byte wide.  The first argument is fuel; the length of the string always suffices.  Used in pn/quote.go:9. -/
def runesAux : Nat → GoStr → List Nat
  | 0, _ => []
  | _ + 1, [] => []
  | n + 1, b :: bs =>
    let cw := decodeRune (b :: bs)
    cw.1 :: runesAux n ((b :: bs).drop cw.2)

/-- `for _, c := range str`, pn/quote.go:9. -/
def runes (s : GoStr) : List Nat := runesAux s.length s

/-- Go `utf8.RuneCountInString`.  Called in parser/expression.go:608. -/
def runeCount (s : GoStr) : Nat := (runes s).length

/-- ASCII character classes, parser/lexer.go:835-861. -/
def isDecimalDigit (c : Nat) : Bool := c%'0' ≤ c && c ≤ c%'9'
/-- `isOctalDigit`, parser/lexer.go:839-841. -/
def isOctalDigit (c : Nat) : Bool := c%'0' ≤ c && c ≤ c%'7'
/-- `isHexDigit`, parser/lexer.go:843-845. -/
def isHexDigit (c : Nat) : Bool :=
  (c%'0' ≤ c && c ≤ c%'9') || (c%'A' ≤ c && c ≤ c%'F') || (c%'a' ≤ c && c ≤ c%'f')
/-- `isLowercaseLetter`, parser/lexer.go:855-857. -/
def isLowercaseLetter (c : Nat) : Bool := c%'a' ≤ c && c ≤ c%'z'
/-- `isUppercaseLetter`, parser/lexer.go:859-861. -/
def isUppercaseLetter (c : Nat) : Bool := c%'A' ≤ c && c ≤ c%'Z'
/-- `isLetter`, parser/lexer.go:847-849. -/
def isLetter (c : Nat) : Bool := isUppercaseLetter c || isLowercaseLetter c || c == c%'_'
/-- `isLetterOrDigit`, parser/lexer.go:851-853. -/
def isLetterOrDigit (c : Nat) : Bool := isDecimalDigit c || isLetter c

/-- Value of a digit in the alphabet 0-9a-zA-Z (Go `strconv.ParseUint`).  Part of `strconv.ParseInt`, called in parser/lexer.go:369. -/
def digitVal (b : UInt8) : Option Nat :=
  let c := b.toNat
  if c%'0' ≤ c && c ≤ c%'9' then some (c - c%'0')
  else if c%'a' ≤ c && c ≤ c%'z' then some (c - c%'a' + 10)
  else if c%'A' ≤ c && c ≤ c%'Z' then some (c - c%'A' + 10)
  else none

/-- Unsigned digits to a number, `none` on a character that is not a digit of the base.  Part of `strconv.ParseInt`, called in parser/lexer.go:369. -/
def parseDigits (base : Nat) : GoStr → Nat → Option Nat
  | [], acc => some acc
  | b :: bs, acc =>
    match digitVal b with
    | some d => if d < base then parseDigits base bs (acc * base + d) else none
    | none => none

/-- `v, _ := strconv.ParseInt(s, base, 64)` with the error ignored, as every caller in the lexer
does: 0 on a syntax error, saturation at the 64 bit bounds on overflow.  Called in parser/lexer.go:369, 676, 704, 723, 1676, 1691, 1714. -/
def parseInt64 (base : Nat) (s : GoStr) : Int :=
  let neg := s.head? == some 45
  let body := if s.head? == some 45 || s.head? == some 43 then s.tail else s
  if body.isEmpty then 0
  else match parseDigits base body 0 with
    | none => 0
    | some n =>
      if neg then (if n ≤ 9223372036854775808 then - (n : Int) else -9223372036854775808)
      else (if n < 9223372036854775808 then (n : Int) else 9223372036854775807)

/-- Two's complement negation of an int64 (Go unary minus wraps at the minimum).  Used in `unaryExpression`, parser/parser.go:652-704. -/
def negInt64 (v : Int) : Int := if v = -9223372036854775808 then v else -v

/-- Decimal digits of a natural number. First argument is fuel.  Used by `%d`, pn/pn.go:260. -/
def natDigits : Nat → Nat → GoStr
  | 0, _ => []
  | f + 1, n =>
    if n < 10 then [UInt8.ofNat (48 + n)] else natDigits f (n / 10) ++ [UInt8.ofNat (48 + n % 10)]

/-- Go `fmt.Sprintf("%d", n)` for a natural number.  Called in pn/pn.go:260. -/
def natToDec (n : Nat) : GoStr := natDigits (n + 1) n

/-- Go `strconv.FormatInt(v, 10)`, `%d`.  Called in parser/parser.go:1732 and pn/pn.go:260. -/
def intToDec : Int → GoStr
  | Int.ofNat n => natToDec n
  | Int.negSucc n => 45 :: natToDec (n + 1)

/-- Go `strings.ToLower` restricted to ASCII (it is applied to type names only, which the lexer
restricts to ASCII letters, digits, '_' and ':').  Called in parser/factory.go:260. -/
def toLowerAscii (s : GoStr) : GoStr :=
  s.map fun b => if 65 ≤ b.toNat && b.toNat ≤ 90 then UInt8.ofNat (b.toNat + 32) else b

/-- Go `strings.ToLower` as far as comparison with an ASCII word can tell: ASCII upper case letters, U+0130
(bytes C4 B0, lower case `i`) and U+212A (bytes E2 84 AA, lower case `k`) are the only characters whose lower
case form is ASCII; every other byte is left alone here, and stays outside of ASCII in Go.  Called in validator/validator.go:53 and validator/checker.go:734. -/
def toLowerGo : GoStr → GoStr
  | a :: b :: c :: s =>
    if a.toNat = 0xE2 ∧ b.toNat = 0x84 ∧ c.toNat = 0xAA then 107 :: toLowerGo s
    else if a.toNat = 0xC4 ∧ b.toNat = 0xB0 then 105 :: toLowerGo (c :: s)
    else (if 65 ≤ a.toNat && a.toNat ≤ 90 then UInt8.ofNat (a.toNat + 32) else a) :: toLowerGo (b :: c :: s)
  | [a, b] =>
    if a.toNat = 0xC4 ∧ b.toNat = 0xB0 then [105] else toLowerAscii [a, b]
  | [a] => toLowerAscii [a]
  | [] => []

/-- Go `strings.Join`.  Called in parser/parser.go:1741 and 1935. -/
def joinStr (sep : GoStr) : List GoStr → GoStr
  | [] => []
  | [s] => s
  | s :: t :: r => s ++ sep ++ joinStr sep (t :: r)

/-- Go `strings.TrimPrefix`.  Called in parser/parser.go:1872. -/
def trimPrefix (pre s : GoStr) : GoStr := if pre.isPrefixOf s then s.drop pre.length else s

end PP
