import Verif.Spec.Lexemes
import Verif.Lexer
import Verif.Spec.Layout

/-!
# Texts from which no token can be read

`Malformed env prev rs code off`: the characters `rs`, which stand where a token is expected (after white space and comments, after
the token `prev`), are an error with the given code, located `off` bytes after their start.
-/
namespace PP
open PP.Spec

/-- `\u` is followed by four hexadecimal digits or by two to six of them in braces.  `BadUnicode rs`: `rs` starts with neither. -/
inductive BadUnicode : List Nat → Prop
  | start {rest} : isHexDigit (headC rest) = false → headC rest ≠ c%'{' → BadUnicode rest
  | short {a hs rest} : isHexDigit a = true → (∀ c ∈ hs, isHexDigit c = true) → hs.length < 3 → isHexDigit (headC rest) = false →
      BadUnicode (a :: (hs ++ rest))
  | braces {hs rest} : (∀ c ∈ hs, isHexDigit c = true) → isHexDigit (headC rest) = false →
      ¬ (2 ≤ hs.length ∧ hs.length ≤ 6 ∧ headC rest = c%'}') → BadUnicode (c%'{' :: (hs ++ rest))

/-- `Number cs rest`: `cs` is an optional sign and digits, as many as there are before `rest`. -/
def Number (cs rest : List Nat) : Prop :=
  (∃ sg ds, cs = sg ++ ds ∧ (sg = [] ∨ sg = [c%'-'] ∨ sg = [c%'+']) ∧ ∀ c ∈ ds, isDecimalDigit c = true) ∧
  isDecimalDigit (headC rest) = false ∧ (cs = [] → headC rest ≠ c%'-' ∧ headC rest ≠ c%'+')

/-- There are digits. -/
def HasDigit (cs : List Nat) : Prop := ∃ c ∈ cs, isDecimalDigit c = true

/-- What follows the `e` or `E` of a floating point literal, or the dot, is not a number: the offset of the error. -/
inductive BadNumber (env : Env) : List Nat → Nat → Prop
  | none {cs rest} : Number cs rest → ¬ HasDigit cs → BadNumber env (cs ++ rest) cs.length
  | letter {cs rest} : Number cs rest → HasDigit cs → uniIsLetter env (headC rest) = true → BadNumber env (cs ++ rest) cs.length

/-- What follows the dot of a floating point literal is not a fraction. -/
inductive BadFraction (env : Env) : List Nat → Nat → Prop
  | none {cs rest} : Number cs rest → ¬ HasDigit cs → BadFraction env (cs ++ rest) cs.length
  | letter {cs rest} : Number cs rest → HasDigit cs → uniIsLetter env (headC rest) = true → headC rest ≠ c%'e' → headC rest ≠ c%'E' →
      BadFraction env (cs ++ rest) cs.length
  | exponent {cs e rest k} : Number cs (e :: rest) → HasDigit cs → e = c%'e' ∨ e = c%'E' → BadNumber env rest k →
      BadFraction env (cs ++ e :: rest) (cs.length + 1 + k)

/-- What follows the first character of a name has `::` without the start of a segment.  `u`: the segment starts with an
underscore, then no other may follow. -/
inductive BadName (tok : Tok) : Bool → List Nat → Prop
  | here {u ws rest} : (∀ c ∈ ws, isLetterOrDigit c = true) → startsSegment tok (headC rest) = false ∨ u = true →
      BadName tok u (ws ++ c%':' :: c%':' :: rest)
  | next {ws c t} : (∀ c ∈ ws, isLetterOrDigit c = true) → startsSegment tok c = true → BadName tok (c == c%'_') t →
      BadName tok false (ws ++ c%':' :: c%':' :: c :: t)
  | dash {u ws k c t} : tok = .identifier → (∀ c ∈ ws, isLetterOrDigit c = true) → isLetterOrDigit c = true → BadName tok u t →
      BadName tok u (ws ++ (List.replicate (k + 1) c%'-' ++ c :: t))

/-- The characters that start a token. -/
def startsToken (env : Env) (c : Nat) : Bool :=
  c == 0 || isDecimalDigit c || isUppercaseLetter c || isLowercaseLetter c || c ∈ [c%'=', c%'{', c%'}', c%'[', c%']', c%'(', c%')', c%',', c%';', c%'.', c%'?', c%':', c%'-', c%'+',
    c%'*', c%'%', c%'!', c%'>', c%'~', c%'@', c%'<', c%'|', c%'"', c%'\'', c%'/', c%'$'] || c == c%'`' && env.backtick

/-- A block comment that is not closed. -/
def OpenComment (rs : List Nat) : Prop :=
  ∃ body rest, rs = c%'/' :: c%'*' :: (body ++ rest) ∧ (∀ c ∈ body, c ≠ 0) ∧ ¬ [c%'*', c%'/'] <:+: body ∧ headC rest = 0

/-- No token can be read. -/
inductive Malformed (env : Env) (prev : Tok) : List Nat → Code → Nat → Prop
  | comment {rs} : OpenComment rs → Malformed env prev rs .lexUnterminatedComment 0
  /- strings; a NUL ends the source -/
  | single {src out rest} : Sq src out → headC rest = 0 → Malformed env prev (c%'\'' :: (src ++ rest)) .lexUnterminatedString 0
  | singleEscape {src out rest} : Sq src out → headC rest = 0 →
      Malformed env prev (c%'\'' :: (src ++ c%'\\' :: rest)) .lexUnterminatedString 0
  | double {src out rest} : Dq env.hexEsc src out → headC rest = 0 → Malformed env prev (c%'"' :: (src ++ rest)) .lexUnterminatedString 0
  | doubleEscape {src out rest} : Dq env.hexEsc src out → headC rest = 0 →
      Malformed env prev (c%'"' :: (src ++ c%'\\' :: rest)) .lexUnterminatedString 0
  | doubleHex {src out} : env.hexEsc = true → Dq env.hexEsc src out →
      Malformed env prev (c%'"' :: (src ++ [c%'\\', c%'x'])) .lexUnterminatedString 0
  | regexp {src out rest} : beforeRegexp prev = true → Rx src out → headC rest = 0 → headC (src ++ [c%'\\']) ≠ c%'*' →
      Malformed env prev (c%'/' :: (src ++ c%'\\' :: rest)) .lexUnterminatedString 0
  | backtick {src rest} : env.backtick = true → (∀ c ∈ src, c ≠ c%'`' ∧ c ≠ 0) → headC rest = 0 →
      Malformed env prev (c%'`' :: (src ++ rest)) .lexUnterminatedString 0
  | unicode {src out rest} : Dq env.hexEsc src out → BadUnicode rest →
      Malformed env prev (c%'"' :: (src ++ c%'\\' :: c%'u' :: rest)) .lexMalformedUnicodeEscape (1 + (utf8 src).length)
  | hexEscape {src out a rest} : env.hexEsc = true → Dq env.hexEsc src out → isHexDigit a = true → isHexDigit (headC rest) = false →
      Malformed env prev (c%'"' :: (src ++ c%'\\' :: c%'x' :: a :: rest)) .lexMalformedHexEscape (1 + (utf8 src).length)
  | interpolation {src out rest} : Dq env.hexEsc src out → headC rest ≠ c%'{' → headC rest ≠ c%':' →
      isLowercaseLetter (headC rest) = false → isDecimalDigit (headC rest) = false →
      Malformed env prev (c%'"' :: (src ++ c%'$' :: rest)) .lexMalformedInterpolation 1
  /- numbers -/
  | decimal {d cs rest} : c%'1' ≤ d → d ≤ c%'9' → Number cs rest → uniIsLetter env (headC rest) = true →
      headC rest ≠ c%'e' → headC rest ≠ c%'E' → Malformed env prev (d :: (cs ++ rest)) .lexDigitExpected (1 + cs.length)
  | fraction {d cs rest k} : c%'1' ≤ d → d ≤ c%'9' → Number cs (c%'.' :: rest) → BadFraction env rest k →
      Malformed env prev (d :: (cs ++ c%'.' :: rest)) .lexDigitExpected (2 + cs.length + k)
  | exponent {d cs e rest k} : c%'1' ≤ d → d ≤ c%'9' → Number cs (e :: rest) → e = c%'e' ∨ e = c%'E' → BadNumber env rest k →
      Malformed env prev (d :: (cs ++ e :: rest)) .lexDigitExpected (2 + cs.length + k)
  | zeroFraction {rest k} : BadFraction env rest k → Malformed env prev (c%'0' :: c%'.' :: rest) .lexDigitExpected (2 + k)
  | zeroExponent {e rest k} : e = c%'e' ∨ e = c%'E' → BadNumber env rest k → Malformed env prev (c%'0' :: e :: rest) .lexDigitExpected (2 + k)
  | hexadecimal {x ds rest} : x = c%'x' ∨ x = c%'X' → (∀ c ∈ ds, isHexDigit c = true) → isHexDigit (headC rest) = false →
      ds = [] ∨ isLetter (headC rest) = true → Malformed env prev (c%'0' :: x :: (ds ++ rest)) .lexHexdigitExpected (2 + ds.length)
  | octal {ds rest} : (∀ c ∈ ds, isOctalDigit c = true) → isDecimalDigit (headC rest) = true ∨ uniIsLetter env (headC rest) = true →
      isOctalDigit (headC rest) = false →
      (ds = [] → headC rest ∉ [c%'x', c%'X', c%'e', c%'E']) → Malformed env prev (c%'0' :: (ds ++ rest)) .lexOctaldigitExpected (1 + ds.length)
  /- names -/
  | word {c t} : isLowercaseLetter c = true → BadName .identifier false t → Malformed env prev (c :: t) .lexInvalidName 0
  | typeName {c t} : isUppercaseLetter c = true → BadName .typeName false t → Malformed env prev (c :: t) .lexInvalidTypeName 0
  | globalWord {c t} : isLowercaseLetter c = true → BadName .identifier false t →
      Malformed env prev (c%':' :: c%':' :: c :: t) .lexInvalidName 0
  | globalTypeName {c t} : isUppercaseLetter c = true → BadName .typeName false t →
      Malformed env prev (c%':' :: c%':' :: c :: t) .lexInvalidTypeName 0
  | noName {rest} : isLowercaseLetter (headC rest) = false → isUppercaseLetter (headC rest) = false →
      Malformed env prev (c%':' :: c%':' :: rest) .lexDoubleColonNotFollowedByName 0
  | «variable» {g c t} : g = [] ∨ g = [c%':', c%':'] → isLowercaseLetter c = true → BadName .variable false t →
      Malformed env prev (c%'$' :: (g ++ c :: t)) .lexInvalidVariableName 0
  | variableColon {rest} : headC rest ≠ c%':' → Malformed env prev (c%'$' :: c%':' :: rest) .lexInvalidVariableName 0
  | variableLetter {g rest} : g = [] ∨ g = [c%':', c%':'] → uniIsLetter env (headC rest) = true → isLowercaseLetter (headC rest) = false →
      Malformed env prev (c%'$' :: (g ++ rest)) .lexInvalidVariableName (1 + g.length)
  /- other characters; after `|` the first character that is not white space is looked at -/
  | pipe {ws rs nl} : prev ≠ .pipe → headC (ws ++ rs) ≠ c%'>' → White ws nl → OpenComment rs →
      Malformed env prev (c%'|' :: (ws ++ rs)) .lexUnterminatedComment (1 + (utf8 ws).length)
  | tilde {rest} : headC rest ≠ c%'>' → Malformed env prev (c%'~' :: rest) .lexUnexpectedToken 0
  | noToken {c rest} : startsToken env c = false → isBlank c = false → c ≠ c%'#' → Malformed env prev (c :: rest) .lexUnexpectedToken 0

/-- Neither a heredoc nor an interpolated string starts here. -/
def Plain (env : Env) (rs : List Nat) : Prop :=
  (∀ r, rs ≠ c%'@' :: c%'(' :: r) ∧
  ∀ src out r, Dq env.hexEsc src out → rs = c%'"' :: (src ++ c%'$' :: r) →
    headC r ≠ c%'{' ∧ headC r ≠ c%':' ∧ isLowercaseLetter (headC r) = false ∧ isDecimalDigit (headC r) = false

/-- A line comment that ends with the source. -/
def LastComment (rs : List Nat) : Prop :=
  ∃ body rest, rs = c%'#' :: (body ++ rest) ∧ (∀ c ∈ body, c ≠ c%'\n' ∧ c ≠ 0) ∧ headC rest = 0

end PP
