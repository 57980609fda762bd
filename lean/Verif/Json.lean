import Verif.Cli

/-!
# JSON output (json/json.go, parse/parser.go:62-93, pn/pn.go:83-88)

`ToJson` hands the data to `encoding/json` of Go's standard library; what that package does with the values that
`ToData` builds is modelled here.  How it prints a float64 is a parameter, as are the texts of the issue library.
-/
namespace PP

/-- `hex` of encoding/json: a hexadecimal digit.  Used through json/json.go:13. -/
def hexDigit (n : Nat) : UInt8 := UInt8.ofNat (if n < 10 then 48 + n else 87 + n)

/-- What `encoding/json` writes for one rune of a string, `w` bytes wide and written `raw`, with `SetEscapeHTML(false)`
(json/json.go:12).  (Since Go 1.22 `\b` and `\f` are written in place of `\u0008` and `\u000c`.) -/
def jsonRune (c w : Nat) (raw : GoStr) : GoStr :=
  if c < 0x80 then
    if c = 0x22 then [0x5C, 0x22]
    else if c = 0x5C then [0x5C, 0x5C]
    else if c = 10 then [0x5C, 0x6E]
    else if c = 13 then [0x5C, 0x72]
    else if c = 9 then [0x5C, 0x74]
    else if c < 0x20 then [0x5C, 0x75, 0x30, 0x30, hexDigit (c / 16), hexDigit (c % 16)]
    else raw
  else if c = runeError ∧ w = 1 then b!"\\ufffd"
  else if c = 0x2028 ∨ c = 0x2029 then b!"\\u202" ++ [hexDigit (c % 16)]
  else raw

/-- The inside of a string, `encodeState.string` of encoding/json (called through json/json.go:13).  The first argument is
fuel; the length of the string suffices. -/
def jsonBody : Nat → GoStr → GoStr
  | 0, _ => []
  | _ + 1, [] => []
  | n + 1, b :: s =>
    jsonRune (decodeRune (b :: s)).1 (decodeRune (b :: s)).2 ((b :: s).take (decodeRune (b :: s)).2) ++
      jsonBody n ((b :: s).drop (decodeRune (b :: s)).2)

/-- A string, through json/json.go:13. -/
def jsonString (s : GoStr) : GoStr := 0x22 :: jsonBody s.length s ++ [0x22]

/-- Go's `<=` on strings: by bytes.  encoding/json sorts the keys of maps, through json/json.go:13. -/
def bytesLe : GoStr → GoStr → Bool
  | [], _ => true
  | _ :: _, [] => false
  | a :: s, b :: t => if a = b then bytesLe s t else a.toNat < b.toNat

/-- Part of `sortKeys`.  encoding/json sorts the keys of maps, through json/json.go:13. -/
def insertKey {α : Type} (x : GoStr × α) : List (GoStr × α) → List (GoStr × α)
  | [] => [x]
  | y :: ys => if bytesLe x.1 y.1 then x :: y :: ys else y :: insertKey x ys

/-- encoding/json sorts the keys of maps, through json/json.go:13. -/
def sortKeys {α : Type} : List (GoStr × α) → List (GoStr × α)
  | [] => []
  | x :: xs => insertKey x (sortKeys xs)

/-- The members of a map after their values were encoded.  encoding/json, through json/json.go:13. -/
def jsonMembers : List (GoStr × GoStr) → GoStr
  | [] => []
  | [(k, t)] => jsonString k ++ 0x3A :: t
  | (k, t) :: m :: ms => jsonString k ++ 0x3A :: t ++ 0x2C :: jsonMembers (m :: ms)

/-- The elements of a slice after they were encoded.  encoding/json, through json/json.go:13. -/
def jsonElements : List GoStr → GoStr
  | [] => []
  | [t] => t
  | t :: u :: ts => t ++ 0x2C :: jsonElements (u :: ts)

/-- A primitive value; `jf` is the way floats are written, `none` for an infinite one, on which `Encode` fails.
json/json.go:13. -/
def Lit.json (jf : FloatVal → Option GoStr) : Lit → Option GoStr
  | .nil => some b!"null"
  | .str s => some (jsonString s)
  | .int i => some (intToDec i)
  | .float f => jf f
  | .bool true => some b!"true"
  | .bool false => some b!"false"

mutual
/-- `Encode` without the line break at the end, json/json.go:13; `none` is its error. -/
def Data.json (jf : FloatVal → Option GoStr) : Data → Option GoStr
  | .prim v => v.json jf
  | .slice es => (Data.jsonList jf es).map fun ts => 0x5B :: jsonElements ts ++ [0x5D]
  | .dict es => (Data.jsonEntries jf es).map fun ms => 0x7B :: jsonMembers (sortKeys ms) ++ [0x7D]
/-- The elements of a slice, through json/json.go:13. -/
def Data.jsonList (jf : FloatVal → Option GoStr) : List Data → Option (List GoStr)
  | [] => some []
  | d :: ds => match Data.json jf d, Data.jsonList jf ds with
    | some t, some ts => some (t :: ts)
    | _, _ => none
/-- The entries of a map, through json/json.go:13. -/
def Data.jsonEntries (jf : FloatVal → Option GoStr) : List (GoStr × Data) → Option (List (GoStr × GoStr))
  | [] => some []
  | (k, d) :: ds => match Data.json jf d, Data.jsonEntries jf ds with
    | some t, some ts => some ((k, t) :: ts)
    | _, _ => none
end

/-- The codes of parse errors, parser/issues.go:5-76. -/
def Code.name : Code → GoStr
  | .lexDoubleColonNotFollowedByName => b!"LEX_DOUBLE_COLON_NOT_FOLLOWED_BY_NAME"
  | .lexDigitExpected => b!"LEX_DIGIT_EXPECTED"
  | .lexHeredocEmptyTag => b!"LEX_HEREDOC_EMPTY_TAG"
  | .lexHeredocIllegalEscape => b!"LEX_HEREDOC_ILLEGAL_ESCAPE"
  | .lexHeredocMultipleEscape => b!"LEX_HEREDOC_MULTIPLE_ESCAPE"
  | .lexHeredocMultipleSyntax => b!"LEX_HEREDOC_MULTIPLE_SYNTAX"
  | .lexHeredocMultipleTag => b!"LEX_HEREDOC_MULTIPLE_TAG"
  | .lexHeredocDeclUnterminated => b!"LEX_HEREDOC_DECL_UNTERMINATED"
  | .lexHeredocUnterminated => b!"LEX_HEREDOC_UNTERMINATED"
  | .lexHexdigitExpected => b!"LEX_HEXDIGIT_EXPECTED"
  | .lexInvalidName => b!"LEX_INVALID_NAME"
  | .lexInvalidOperator => b!"LEX_INVALID_OPERATOR"
  | .lexInvalidTypeName => b!"LEX_INVALID_TYPE_NAME"
  | .lexInvalidVariableName => b!"LEX_INVALID_VARIABLE_NAME"
  | .lexMalformedHexEscape => b!"LEX_MALFORMED_HEX_ESCAPE"
  | .lexMalformedInterpolation => b!"LEX_MALFORMED_INTERPOLATION"
  | .lexMalformedUnicodeEscape => b!"LEX_MALFORMED_UNICODE_ESCAPE"
  | .lexOctaldigitExpected => b!"LEX_OCTALDIGIT_EXPECTED"
  | .lexUnbalancedEppComment => b!"LEX_UNBALANCED_EPP_COMMENT"
  | .lexUnexpectedToken => b!"LEX_UNEXPECTED_TOKEN"
  | .lexUnterminatedComment => b!"LEX_UNTERMINATED_COMMENT"
  | .lexUnterminatedString => b!"LEX_UNTERMINATED_STRING"
  | .parseClassNotValidHere => b!"PARSE_CLASS_NOT_VALID_HERE"
  | .parseElsifInUnless => b!"PARSE_ELSIF_IN_UNLESS"
  | .parseExpectedStepName => b!"PARSE_EXPECTED_STEP_NAME"
  | .parseExpectedStepStyle => b!"PARSE_EXPECTED_STEP_STYLE"
  | .parseExpectedAttributeName => b!"PARSE_EXPECTED_ATTRIBUTE_NAME"
  | .parseExpectedIteratorStyle => b!"PARSE_EXPECTED_ITERATOR_STYLE"
  | .parseExpectedClassName => b!"PARSE_EXPECTED_CLASS_NAME"
  | .parseExpectedFarrowAfterKey => b!"PARSE_EXPECTED_FARROW_AFTER_KEY"
  | .parseExpectedNameOrNumberAfterDot => b!"PARSE_EXPECTED_NAME_OR_NUMBER_AFTER_DOT"
  | .parseExpectedNameAfterFunction => b!"PARSE_EXPECTED_NAME_AFTER_FUNCTION"
  | .parseExpectedNameAfterPlan => b!"PARSE_EXPECTED_NAME_AFTER_PLAN"
  | .parseExpectedHostname => b!"PARSE_EXPECTED_HOSTNAME"
  | .parseExpectedTitle => b!"PARSE_EXPECTED_TITLE"
  | .parseExpectedToken => b!"PARSE_EXPECTED_TOKEN"
  | .parseExpectedOneOfTokens => b!"PARSE_EXPECTED_ONE_OF_TOKENS"
  | .parseExpectedTypeName => b!"PARSE_EXPECTED_TYPE_NAME"
  | .parseExpectedTypeNameAfterType => b!"PARSE_EXPECTED_TYPE_NAME_AFTER_TYPE"
  | .parseExpectedVariable => b!"PARSE_EXPECTED_VARIABLE"
  | .parseExtraneousComma => b!"PARSE_EXTRANEOUS_COMMA"
  | .parseIllegalEppParameters => b!"PARSE_ILLEGAL_EPP_PARAMETERS"
  | .parseInvalidAttribute => b!"PARSE_INVALID_ATTRIBUTE"
  | .parseInvalidResource => b!"PARSE_INVALID_RESOURCE"
  | .parseInheritsMustBeTypeName => b!"PARSE_INHERITS_MUST_BE_TYPE_NAME"
  | .parseResourceWithoutTitle => b!"PARSE_RESOURCE_WITHOUT_TITLE"
  | .parseQuotedNotValidName => b!"PARSE_QUOTED_NOT_VALID_NAME"

/-- The codes of issues of validation, validator/issues.go:8-45. -/
def VCode.name : VCode → GoStr
  | .appendsDeletesNoLongerSupported => b!"VALIDATE_APPENDS_DELETES_NO_LONGER_SUPPORTED"
  | .capturesRestNotLast => b!"VALIDATE_CAPTURES_REST_NOT_LAST"
  | .capturesRestNotSupported => b!"VALIDATE_CAPTURES_REST_NOT_SUPPORTED"
  | .catalogOperationNotSupported => b!"VALIDATE_CATALOG_OPERATION_NOT_SUPPORTED"
  | .crossScopeAssignment => b!"VALIDATE_CROSS_SCOPE_ASSIGNMENT"
  | .duplicateDefault => b!"VALIDATE_DUPLICATE_DEFAULT"
  | .duplicateKey => b!"VALIDATE_DUPLICATE_KEY"
  | .duplicateParameter => b!"VALIDATE_DUPLICATE_PARAMETER"
  | .futureReservedWord => b!"VALIDATE_FUTURE_RESERVED_WORD"
  | .idemExpressionNotLast => b!"VALIDATE_IDEM_EXPRESSION_NOT_LAST"
  | .idemNotAllowedLast => b!"VALIDATE_IDEM_NOT_ALLOWED_LAST"
  | .illegalAssignmentContext => b!"VALIDATE_ILLEGAL_ASSIGNMENT_CONTEXT"
  | .illegalAssignmentViaIndex => b!"VALIDATE_ILLEGAL_ASSIGNMENT_VIA_INDEX"
  | .illegalAttributeAppend => b!"VALIDATE_ILLEGAL_ATTRIBUTE_APPEND"
  | .illegalClassref => b!"VALIDATE_ILLEGAL_CLASSREF"
  | .illegalDefinitionName => b!"VALIDATE_ILLEGAL_DEFINITION_NAME"
  | .illegalExpression => b!"VALIDATE_ILLEGAL_EXPRESSION"
  | .illegalHostnameChars => b!"VALIDATE_ILLEGAL_HOSTNAME_CHARS"
  | .illegalHostnameInterpolation => b!"VALIDATE_ILLEGAL_HOSTNAME_INTERPOLATION"
  | .illegalNumericAssignment => b!"VALIDATE_ILLEGAL_NUMERIC_ASSIGNMENT"
  | .illegalNumericParameter => b!"VALIDATE_ILLEGAL_NUMERIC_PARAMETER"
  | .illegalParameterName => b!"VALIDATE_ILLEGAL_PARAMETER_NAME"
  | .illegalQueryExpression => b!"VALIDATE_ILLEGAL_QUERY_EXPRESSION"
  | .illegalRegexpTypeMapping => b!"VALIDATE_ILLEGAL_REGEXP_TYPE_MAPPING"
  | .illegalSingleTypeMapping => b!"VALIDATE_ILLEGAL_SINGLE_TYPE_MAPPING"
  | .invalidStepStyle => b!"VALIDATE_INVALID_STEP_STYLE"
  | .multipleAttributesUnfold => b!"VALIDATE_MULTIPLE_ATTRIBUTES_UNFOLD"
  | .notAbsoluteTopLevel => b!"VALIDATE_NOT_ABSOLUTE_TOP_LEVEL"
  | .notRvalue => b!"VALIDATE_NOT_RVALUE"
  | .notTopLevel => b!"VALIDATE_NOT_TOP_LEVEL"
  | .notVirtualizable => b!"VALIDATE_NOT_VIRTUALIZABLE"
  | .reservedParameter => b!"VALIDATE_RESERVED_PARAMETER"
  | .reservedTypeName => b!"VALIDATE_RESERVED_TYPE_NAME"
  | .reservedWord => b!"VALIDATE_RESERVED_WORD"
  | .unsupportedExpression => b!"VALIDATE_UNSUPPORTED_EXPRESSION"
  | .unsupportedOperatorInContext => b!"VALIDATE_UNSUPPORTED_OPERATOR_IN_CONTEXT"
  | .workflowOperationNotSupported => b!"VALIDATE_WORKFLOW_OPERATION_NOT_SUPPORTED"

/-- Texts that come from the issue library and the reader's errors (`Severity.String`, `Error`), used in
pn/pn.go:86-87 and parse/parser.go:67, and the printing of floats in JSON. -/
structure Texts where
  severity : Severity → GoStr
  issue : Issue → GoStr
  parseError : Code → Nat → GoStr
  readError : Err → GoStr
  float : FloatVal → Option GoStr

/-- `ReportedToPN`, pn/pn.go:83-88. -/
def reportedPN (code severity message : GoStr) : PN :=
  .map [(b!"code", .lit (.str code)), (b!"severity", .lit (.str severity)), (b!"message", .lit (.str message))]

/-- The map `result`, parse/parser.go:62-93: without the key `issues` when there are none (line 75). -/
def CliOut.result (t : Texts) (o : CliOut) : List (GoStr × Data) :=
  match o.error with
  | some (.issue c p) => [(b!"issues", .slice [(reportedPN c.name (t.severity .error) (t.parseError c p)).toData])]
  | some e => [(b!"error", .prim (.str (t.readError e)))]
  | none =>
    (if o.issues.isEmpty then [] else
      [(b!"issues", .slice (o.issues.map fun i => (reportedPN i.code.name (t.severity i.severity) (t.issue i)).toData))]) ++
    (match o.ast with
      | some p => [(b!"ast", p.toData)]
      | none => [])

/-- `main` with `-j`: the exit status and what `emitJson` (parse/parser.go:124-128) writes; `Encode` and `Println` both add
a line break.  The error is a panic: of `cliMain`, or of `ToJson` (json/json.go:13-15). -/
def cliJson (t : Texts) (a : CliArgs) : Except (Option CliPanic) (Nat × GoStr) :=
  match cliMain a with
  | .error p => .error (some p)
  | .ok o => match (Data.dict (o.result t)).json t.float with
    | some s => .ok (o.exit, s ++ b!"\n\n")
    | none => .error none

end PP
