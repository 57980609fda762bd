import Verif.Basic

/-!
# PN: Puppet Extended S-Expression Notation (pn/pn.go, pn/quote.go)
-/

namespace PP

/-- A float64 value, kept as the text given to `strconv.ParseFloat` (parser/lexer.go:978) plus the
number of negations modulo two (parser/parser.go:660).  The numeric value is not modelled. -/
structure FloatVal where
  neg : Bool
  text : GoStr
deriving DecidableEq, Repr, Inhabited

/-- The values a PN literal holds in this code base (pn/pn.go:253-281): nil, string, integers, floats
and booleans.  (`default` branch `%v` is unreachable: no caller passes another type.) -/
inductive Lit where
  | nil
  | str (s : GoStr)
  | int (i : Int)
  | float (f : FloatVal)
  | bool (b : Bool)
deriving DecidableEq, Repr, Inhabited

/-- pn/pn.go:46-77. A map entry is a pair of key and value. -/
inductive PN where
  | lit (v : Lit)
  | list (elements : List PN)
  | map (entries : List (GoStr × PN))
  | call (name : GoStr) (elements : List PN)
deriving Inhabited

/-- First character class of `keyPattern`, pn/pn.go:80 : `[A-Za-z_-]`. -/
def isKeyStart (b : UInt8) : Bool :=
  let c := b.toNat
  isUppercaseLetter c || isLowercaseLetter c || c == c%'_' || c == c%'-'

/-- Following characters of `keyPattern`, pn/pn.go:80 : `[0-9A-Za-z_-]`. -/
def isKeyChar (b : UInt8) : Bool := isKeyStart b || isDecimalDigit b.toNat

/-- `keyPattern.MatchString`, pn/pn.go:80 : `^[A-Za-z_-][0-9A-Za-z_-]*$` (Go's `$` without the
multi-line flag only matches at the very end of the text). -/
def isKey : GoStr → Bool
  | [] => false
  | b :: bs => isKeyStart b && bs.all isKeyChar

/-- `pn.Map`, pn/pn.go:98-106: panics (`none`) if some key does not match the pattern. -/
def PN.mkMap (entries : List (GoStr × PN)) : Option PN :=
  if entries.all (fun e => isKey e.1) then some (.map entries) else none

/-- The four `AsCall` methods, pn/pn.go:122, 152, 197, 241. -/
def PN.asCall (name : GoStr) : PN → PN
  | .list es => .call name es
  | .call _ es => .call name es
  | p => .call name [p]

/-- The four `AsParameters` methods, pn/pn.go:126, 156, 201, 245. -/
def PN.asParameters : PN → List PN
  | .list es => es
  | .call _ es => es
  | p => [p]

/-- `fmt.Fprintf(b, "%3.3o", c)` for c < 512: three octal digits.  Called in pn/quote.go:23. -/
def octal3 (c : Nat) : GoStr :=
  [UInt8.ofNat (48 + c / 64 % 8), UInt8.ofNat (48 + c / 8 % 8), UInt8.ofNat (48 + c % 8)]

/-- One iteration of the loop of `DoubleQuote`, pn/quote.go:9-27. -/
def quoteRune (c : Nat) : GoStr :=
  if c = c%'\t' then b!"\\t"
  else if c = c%'\n' then b!"\\n"
  else if c = c%'\r' then b!"\\r"
  else if c = c%'"' then b!"\\\""
  else if c = c%'\\' then b!"\\\\"
  else if c < 0x20 then b!"\\o" ++ octal3 c
  else encodeRune c

/-- `DoubleQuote`, pn/quote.go:7-29. -/
def doubleQuote (s : GoStr) : GoStr :=
  b!"\"" ++ (runes s).flatMap quoteRune ++ b!"\""

/-- `literalPN.Format`, pn/pn.go:253-281.  Float formatting (`%.16g` plus a regular expression) is
not modelled; it is the parameter `ff`. -/
def Lit.format (ff : FloatVal → GoStr) : Lit → GoStr
  | .nil => b!"nil"
  | .str s => doubleQuote s
  | .int i => intToDec i
  | .float f => ff f
  | .bool true => b!"true"
  | .bool false => b!"false"

mutual
/-- The four `Format` methods, pn/pn.go:130, 160, 205, 253. -/
def PN.format (ff : FloatVal → GoStr) : PN → GoStr
  | .lit v => v.format ff
  | .list es => b!"[" ++ PN.formatElements ff es ++ b!"]"
  | .map es => b!"{" ++ PN.formatEntries ff es ++ b!"}"
  | .call name es =>
    b!"(" ++ name ++ (if es.isEmpty then [] else b!" " ++ PN.formatElements ff es) ++ b!")"
/-- `formatElements`, pn/pn.go:295-304: elements separated by one blank. -/
def PN.formatElements (ff : FloatVal → GoStr) : List PN → GoStr
  | [] => []
  | p :: ps => p.format ff ++ (if ps.isEmpty then [] else b!" " ++ PN.formatElements ff ps)
/-- The loop of `mapPN.Format`, pn/pn.go:205-215, with `formatEntry`, pn/pn.go:217-222. -/
def PN.formatEntries (ff : FloatVal → GoStr) : List (GoStr × PN) → GoStr
  | [] => []
  | (k, p) :: es =>
    b!":" ++ k ++ b!" " ++ p.format ff ++ (if es.isEmpty then [] else b!" " ++ PN.formatEntries ff es)
end

/-- What `ToData` returns: primitives, `[]interface{}` and `map[string]interface{}`.  pn/pn.go:136, 170, 224, 283. -/
inductive Data where
  | prim (v : Lit)
  | slice (elements : List Data)
  | dict (entries : List (GoStr × Data))
deriving Inhabited

mutual
/-- The four `ToData` methods, pn/pn.go:136, 170, 224, 283. -/
def PN.toData : PN → Data
  | .lit v => .prim v
  | .list es => .slice (PN.toDataList es)
  | .map es => .dict [(b!"#", .slice (PN.toDataEntries es))]
  | .call name es => .dict [(b!"^", .slice (.prim (.str name) :: PN.toDataList es))]
/-- `ToData` of list elements, pn/pn.go:136, 170. -/
def PN.toDataList : List PN → List Data
  | [] => []
  | p :: ps => p.toData :: PN.toDataList ps
/-- `ToData` of map entries, pn/pn.go:224. -/
def PN.toDataEntries : List (GoStr × PN) → List Data
  | [] => []
  | (k, p) :: es => .prim (.str k) :: p.toData :: PN.toDataEntries es
end

end PP
