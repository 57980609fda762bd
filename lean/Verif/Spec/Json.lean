import Verif.PN
import Verif.Lemmas.Utf8

/-!
# A JSON reader (RFC 8259)

Independent of the writer.  Strings are read as UTF-8 bytes; surrogate pairs in escapes are not supported.  Numbers are
kept as text.
-/
namespace PP

inductive Json where
  | null
  | bool (b : Bool)
  | num (text : GoStr)
  | str (s : GoStr)
  | arr (elements : List Json)
  | obj (members : List (GoStr × Json))

/-- White space between tokens. -/
def jsonBlank (b : UInt8) : Bool := b == 0x20 || b == 9 || b == 10 || b == 13

def skipBlank (s : GoStr) : GoStr := s.dropWhile jsonBlank

def hexVal (b : UInt8) : Option Nat :=
  let n := b.toNat
  if 48 ≤ n ∧ n ≤ 57 then some (n - 48)
  else if 97 ≤ n ∧ n ≤ 102 then some (n - 87)
  else if 65 ≤ n ∧ n ≤ 70 then some (n - 55)
  else none

/-- The escapes of one character. -/
def shortEscape (c : UInt8) : Option UInt8 :=
  [((0x22 : UInt8), (0x22 : UInt8)), (0x5C, 0x5C), (0x2F, 0x2F), (0x62, 8), (0x66, 12), (0x6E, 10), (0x72, 13), (0x74, 9)].lookup c

/-- Where in a string: between characters, after a backslash, or before the last `k` of the four digits after `\\u`. -/
inductive StrState where
  | plain
  | escape
  | hex (k v : Nat)

/-- The rest of a string: the bytes, and what follows the closing quote. -/
def readStr : StrState → GoStr → Option (GoStr × GoStr)
  | _, [] => none
  | .plain, b :: s =>
    if b = 0x22 then some ([], s)
    else if b = 0x5C then readStr .escape s
    else if b.toNat < 0x20 then none
    else (readStr .plain s).map fun r => (b :: r.1, r.2)
  | .escape, c :: s =>
    if c = 0x75 then readStr (.hex 4 0) s
    else match shortEscape c with
      | some x => (readStr .plain s).map fun r => (x :: r.1, r.2)
      | none => none
  | .hex k v, h :: s => match hexVal h with
    | none => none
    | some d =>
      if k = 1 then
        if isScalar (v * 16 + d) then (readStr .plain s).map fun r => (encodeRune (v * 16 + d) ++ r.1, r.2) else none
      else readStr (.hex (k - 1) (v * 16 + d)) s

/-- The rest of a string after its quote. -/
def readString (s : GoStr) : Option (GoStr × GoStr) := readStr .plain s

def isDigitByte (b : UInt8) : Bool := 48 ≤ b.toNat && b.toNat ≤ 57

/-- One or more digits and nothing else. -/
def allDigits (s : GoStr) : Bool := !s.isEmpty && s.all isDigitByte

/-- `-? (0 | [1-9][0-9]*) (. [0-9]+)? ([eE] [+-]? [0-9]+)?` -/
def jsonNumber (s : GoStr) : Bool :=
  let s := match s with
    | 0x2D :: s => s
    | s => s
  let int := s.takeWhile isDigitByte
  let s := s.dropWhile isDigitByte
  let exponent (s : GoStr) : Bool := match s with
    | [] => true
    | e :: s => (e == 0x65 || e == 0x45) && match s with
      | 0x2B :: s => allDigits s
      | 0x2D :: s => allDigits s
      | s => allDigits s
  allDigits int && (int.length == 1 || int.head? != some 0x30) && match s with
    | 0x2E :: s => !(s.takeWhile isDigitByte).isEmpty && exponent (s.dropWhile isDigitByte)
    | s => exponent s

/-- Bytes of words and numbers. -/
def wordByte (b : UInt8) : Bool := isLetterOrDigit b.toNat || b == 0x2B || b == 0x2D || b == 0x2E

mutual
/-- A value and what follows it; the first argument is fuel. -/
def readValue : Nat → GoStr → Option (Json × GoStr)
  | 0, _ => none
  | n + 1, s => match skipBlank s with
    | [] => none
    | b :: s =>
      if b = 0x22 then (readString s).map fun r => (.str r.1, r.2)
      else if b = 0x5B then match skipBlank s with
        | 0x5D :: r => some (.arr [], r)
        | s => (readElements n s).map fun r => (.arr r.1, r.2)
      else if b = 0x7B then match skipBlank s with
        | 0x7D :: r => some (.obj [], r)
        | s => (readMembers n s).map fun r => (.obj r.1, r.2)
      else
        let w := (b :: s).takeWhile wordByte
        let r := (b :: s).dropWhile wordByte
        if w = b!"null" then some (.null, r)
        else if w = b!"true" then some (.bool true, r)
        else if w = b!"false" then some (.bool false, r)
        else if jsonNumber w then some (.num w, r)
        else none

/-- Elements up to and with the closing bracket. -/
def readElements : Nat → GoStr → Option (List Json × GoStr)
  | 0, _ => none
  | n + 1, s => match readValue n s with
    | none => none
    | some (v, r) => match skipBlank r with
      | 0x2C :: r => (readElements n r).map fun x => (v :: x.1, x.2)
      | 0x5D :: r => some ([v], r)
      | _ => none

/-- Members up to and with the closing brace. -/
def readMembers : Nat → GoStr → Option (List (GoStr × Json) × GoStr)
  | 0, _ => none
  | n + 1, s => match skipBlank s with
    | 0x22 :: s => match readString s with
      | none => none
      | some (k, r) => match skipBlank r with
        | 0x3A :: r => match readValue n r with
          | none => none
          | some (v, r) => match skipBlank r with
            | 0x2C :: r => (readMembers n r).map fun x => ((k, v) :: x.1, x.2)
            | 0x7D :: r => some ([(k, v)], r)
            | _ => none
        | _ => none
    | _ => none
end

/-- A JSON text: one value with white space around it. -/
def readJson (s : GoStr) : Option Json :=
  match readValue (s.length + 1) s with
  | some (v, r) => if (skipBlank r).isEmpty then some v else none
  | none => none

/-- The value of a member. -/
def Json.get (k : GoStr) : Json → Option Json
  | .obj ms => ms.lookup k
  | _ => none

end PP

namespace PP

/-- A string as JSON can show it: bytes that are not UTF-8 become U+FFFD. -/
def shown (s : GoStr) : GoStr := utf8 (runes s)

mutual
/-- The JSON form of PN, as pn.md documents it: a call is `{"^": [name, args...]}`, a map is `{"#": [key, value, ...]}`. -/
def PN.asJson (num : FloatVal → GoStr) : PN → Json
  | .lit .nil => .null
  | .lit (.str s) => .str (shown s)
  | .lit (.int i) => .num (intToDec i)
  | .lit (.float f) => .num (num f)
  | .lit (.bool b) => .bool b
  | .list es => .arr (PN.asJsonList num es)
  | .map es => .obj [(b!"#", .arr (PN.asJsonEntries num es))]
  | .call name es => .obj [(b!"^", .arr (.str (shown name) :: PN.asJsonList num es))]
def PN.asJsonList (num : FloatVal → GoStr) : List PN → List Json
  | [] => []
  | p :: ps => p.asJson num :: PN.asJsonList num ps
def PN.asJsonEntries (num : FloatVal → GoStr) : List (GoStr × PN) → List Json
  | [] => []
  | (k, p) :: es => .str (shown k) :: p.asJson num :: PN.asJsonEntries num es
end

mutual
/-- The floats in PN. -/
def PN.floats : PN → List FloatVal
  | .lit (.float f) => [f]
  | .lit _ => []
  | .list es => PN.floatsList es
  | .map es => PN.floatsEntries es
  | .call _ es => PN.floatsList es
def PN.floatsList : List PN → List FloatVal
  | [] => []
  | p :: ps => p.floats ++ PN.floatsList ps
def PN.floatsEntries : List (GoStr × PN) → List FloatVal
  | [] => []
  | (_, p) :: es => p.floats ++ PN.floatsEntries es
end

end PP

namespace PP

/-- An issue in the output of `-j`. -/
def issueJson (code severity message : GoStr) : Json :=
  .obj [(b!"#", .arr [.str b!"code", .str code, .str b!"severity", .str severity, .str b!"message", .str message])]

mutual
/-- No floats, and all strings are UTF-8. -/
def PN.simple : PN → Prop
  | .lit (.float _) => False
  | .lit (.str s) => shown s = s
  | .lit _ => True
  | .list es => PN.simpleList es
  | .map es => PN.simpleEntries es
  | .call name es => shown name = name ∧ PN.simpleList es
def PN.simpleList : List PN → Prop
  | [] => True
  | p :: ps => p.simple ∧ PN.simpleList ps
def PN.simpleEntries : List (GoStr × PN) → Prop
  | [] => True
  | (k, p) :: es => shown k = k ∧ p.simple ∧ PN.simpleEntries es
end

end PP
