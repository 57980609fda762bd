import Verif.Lemmas.Utf8
import Verif.Monad

/-!
# Lexemes

Specification of how tokens are written: characters, digits, white space and comments, quoted strings, names.  A source is a
list of characters (code points); its bytes are `utf8` of it.
-/
namespace PP

/-- A character that the reader accepts. -/
def Rune (r : Nat) : Prop := isScalar r = true ∧ r ≠ runeError

instance (r : Nat) : Decidable (Rune r) := inferInstanceAs (Decidable (_ ∧ _))

/-- The next character; 0 at the end. -/
def headC (rs : List Nat) : Nat := rs.headD 0

@[simp] theorem headC_nil : headC [] = 0 := rfl
@[simp] theorem headC_cons {c rs} : headC (c :: rs) = c := rfl

/-! ## Numbers -/

/-- The largest 64 bit integer. -/
def maxInt : Nat := 9223372036854775807

/-- The value of a digit in base 16 or less. -/
def digitOf (c : Nat) : Nat := if c ≤ 57 then c - 48 else if c ≤ 70 then c - 55 else c - 87

/-- The number that the digits denote. -/
def numeral (base : Nat) (ds : List Nat) : Nat := ds.foldl (fun n c => n * base + digitOf c) 0

/-- Characters that may follow a decimal integer literal: not a digit, not a letter, not `.`; after a
literal of one digit also not a sign. -/
def EndsInteger (env : Env) (digits : Nat) (c : Nat) : Prop :=
  isDecimalDigit c = false ∧ uniIsLetter env c = false ∧ c ≠ c%'.' ∧ (digits = 1 → c ≠ c%'-' ∧ c ≠ c%'+')

/-! ## White space and comments -/

/-- Blanks: space, tab, carriage return, newline. -/
def isBlank (c : Nat) : Bool := c == 32 || c == 9 || c == 13 || c == 10

/-- `Skips p b ws p' b'`: from offset `p`, with the current line starting at `b`, the characters `ws` are
white space and comments; they end at `p'` on a line that starts at `b'`. -/
inductive Skips : Nat → Nat → List Nat → Nat → Nat → Prop
  | nil (p b) : Skips p b [] p b
  | blank {p b c ws p' b'} : c = 32 ∨ c = 9 ∨ c = 13 → Skips (p + 1) b ws p' b' → Skips p b (c :: ws) p' b'
  | newline {p b ws p' b'} : Skips (p + 1) (p + 1) ws p' b' → Skips p b (10 :: ws) p' b'
  | line {p b body ws p' b'} : (∀ c ∈ body, c ≠ 10 ∧ c ≠ 0) →
      Skips (p + 1 + (utf8 body).length + 1) (p + 1 + (utf8 body).length + 1) ws p' b' →
      Skips p b (35 :: (body ++ 10 :: ws)) p' b'
  | block {p b body ws p' b'} : (∀ c ∈ body, c ≠ 0) → ¬ [42, 47] <:+: body →
      Skips (p + 2 + (utf8 body).length + 2) b ws p' b' →
      Skips p b (47 :: 42 :: (body ++ 42 :: 47 :: ws)) p' b'

/-- The characters do not start with white space or a comment. -/
def NoSkip (rs : List Nat) : Prop :=
  isBlank (headC rs) = false ∧ headC rs ≠ 35 ∧ ∀ r, rs ≠ 47 :: 42 :: r

/-! ## Quoted strings -/

/-- The text between single quotes and what it means. -/
inductive Sq : List Nat → List Nat → Prop
  | nil : Sq [] []
  | char {c src out} : c ≠ 39 → c ≠ 92 → c ≠ 0 → Sq src out → Sq (c :: src) (c :: out)
  | quote {src out} : Sq src out → Sq (92 :: 39 :: src) (39 :: out)
  | backslash {src out} : Sq src out → Sq (92 :: 92 :: src) (92 :: out)
  | other {c src out} : c ≠ 39 → c ≠ 92 → c ≠ 0 → Sq src out → Sq (92 :: c :: src) (92 :: c :: out)

/-- The escapes of double quoted strings that stand for one character. -/
def dqTable : List (Nat × Nat) :=
  [(92, 92), (39, 39), (34, 34), (36, 36), (110, 10), (114, 13), (116, 9), (115, 32)]

/-- The text between double quotes, without interpolation, and the bytes it means. -/
inductive Dq (hexEsc : Bool) : List Nat → GoStr → Prop
  | nil : Dq hexEsc [] []
  | char {c src out} : c ≠ 34 → c ≠ 92 → c ≠ 36 → c ≠ 0 → Dq hexEsc src out → Dq hexEsc (c :: src) (encodeRune c ++ out)
  | esc {c d src out} : (c, d) ∈ dqTable → Dq hexEsc src out → Dq hexEsc (92 :: c :: src) (encodeRune d ++ out)
  | u4 {a b c d src out} : (∀ x ∈ [a, b, c, d], isHexDigit x = true) → Dq hexEsc src out →
      Dq hexEsc (92 :: 117 :: a :: b :: c :: d :: src) (encodeRune (numeral 16 [a, b, c, d]) ++ out)
  | braces {hs src out} : (∀ x ∈ hs, isHexDigit x = true) → 2 ≤ hs.length → hs.length ≤ 6 → Dq hexEsc src out →
      Dq hexEsc (92 :: 117 :: 123 :: (hs ++ 125 :: src)) (encodeRune (numeral 16 hs) ++ out)
  | hex {a b src out} : hexEsc = true → isHexDigit a = true → isHexDigit b = true → Dq hexEsc src out →
      Dq hexEsc (92 :: 120 :: a :: b :: src) (UInt8.ofNat (numeral 16 [a, b]) :: out)
  /-- `\x` before anything else than a hexadecimal digit: the character is lost, a NUL takes its place. -/
  | badHex {a src out} : hexEsc = true → isHexDigit a = false → Dq hexEsc src out → Dq hexEsc (92 :: 120 :: a :: src) (0 :: out)
  | other {c src out} : (∀ d, (c, d) ∉ dqTable) → c ≠ 117 → (c = 120 → hexEsc = false) → c ≠ 0 → Dq hexEsc src out →
      Dq hexEsc (92 :: c :: src) (92 :: (encodeRune c ++ out))

/-! ## Names -/

/-- The characters that a segment of a name (after `::`) starts with: an upper case letter in type names, a lower case letter
in other names, in variables also an underscore. -/
def startsSegment : Tok → Nat → Bool
  | .typeName, c => 65 ≤ c && c ≤ 90
  | .variable, c => (97 ≤ c && c ≤ 122) || c == 95
  | _, c => 97 ≤ c && c ≤ 122

/-- What follows the first character of a name: `Tail tok u t d`.  `u`: the segment starts with an
underscore; `d`: the name has dashes. -/
inductive Tail (tok : Tok) : Bool → List Nat → Bool → Prop
  | done {u ws} : (∀ c ∈ ws, isLetterOrDigit c = true) → Tail tok u ws false
  | seg {ws c t d} : (∀ c ∈ ws, isLetterOrDigit c = true) → startsSegment tok c = true → Tail tok (c == 95) t d →
      Tail tok false (ws ++ 58 :: 58 :: c :: t) d
  | dash {u ws k c t d} : tok = .identifier → (∀ c ∈ ws, isLetterOrDigit c = true) → isLetterOrDigit c = true → Tail tok u t d →
      Tail tok u (ws ++ (List.replicate (k + 1) 45 ++ c :: t)) true

/-- The name ends before `rest`. -/
structure EndsName (tok : Tok) (rest : List Nat) : Prop where
  word : isLetterOrDigit (headC rest) = false
  colon : ∀ r, rest ≠ 58 :: 58 :: r
  dash : tok = .identifier → ∀ k r, rest = List.replicate (k + 1) 45 ++ r → isLetterOrDigit (headC r) = false

end PP
