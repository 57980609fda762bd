import Verif.Spec.Heredoc
import Verif.Spec.Malformed

/-!
# Heredocs whose text has no meaning

A `\u` (with the escape `u`) that is not followed by the digits of a character, or (with a quoted tag) a `$` that starts no
interpolation.
-/
namespace PP.Spec

/-- `Reaches fl ip k bad src`: reading the text `src`, at the start of a line without its margin `k`, leads to the rest `bad` of the text:
what is in front of it has a meaning.  The cases are those of `Means`. -/
inductive Reaches (fl : List Nat) (ip : Bool) (k : Nat) (bad : List Nat) : List Nat → Prop
  | here : Reaches fl ip k bad bad
  | char {c src} : c ≠ c%'\\' → c ≠ c%'\n' → (c = c%'$' → ip = false) → Reaches fl ip k bad src → Reaches fl ip k bad (c :: src)
  | newline {src} : Reaches fl ip k bad (strip k src) → Reaches fl ip k bad (c%'\n' :: src)
  | noEsc {c src} : c ∉ fl ∨ c = c%'L' → c ≠ c%'\n' → (c = c%'$' → ip = false) → Reaches fl ip k bad src →
      Reaches fl ip k bad (c%'\\' :: c :: src)
  | noJoin {src} : c%'L' ∉ fl → Reaches fl ip k bad (strip k src) → Reaches fl ip k bad (c%'\\' :: c%'\n' :: src)
  | join {src} : c%'L' ∈ fl → Reaches fl ip k bad (strip k src) → Reaches fl ip k bad (c%'\\' :: c%'\n' :: src)
  | esc {c d src} : c ∈ fl → (c, d) ∈ flagTable → Reaches fl ip k bad src → Reaches fl ip k bad (c%'\\' :: c :: src)
  | u4 {a b c d src} : c%'u' ∈ fl → (∀ x ∈ [a, b, c, d], isHexDigit x = true) → Reaches fl ip k bad src →
      Reaches fl ip k bad (c%'\\' :: c%'u' :: a :: b :: c :: d :: src)
  | braces {hs src} : c%'u' ∈ fl → (∀ x ∈ hs, isHexDigit x = true) → 2 ≤ hs.length → hs.length ≤ 6 → Reaches fl ip k bad src →
      Reaches fl ip k bad (c%'\\' :: c%'u' :: c%'{' :: (hs ++ c%'}' :: src))

/-- What can not follow the `$` of an interpolation. -/
def BadDollar (rs : List Nat) : Prop :=
  headC rs ≠ c%'{' ∧ headC rs ≠ c%':' ∧ isLowercaseLetter (headC rs) = false ∧ isDecimalDigit (headC rs) = false

/-- `BadPlace fl ip cut bad code off`: the rest `bad` of the text, with `cut` behind it, begins with something that has no meaning; the
error has this code and is located `off` bytes further on. -/
inductive BadPlace (fl : List Nat) (ip : Bool) (cut : List Nat) : List Nat → Code → Nat → Prop
  | unicode {r} : c%'u' ∈ fl → BadUnicode (r ++ cut) → BadPlace fl ip cut (c%'\\' :: c%'u' :: r) .lexMalformedUnicodeEscape 0
  | dollar {r} : ip = true → BadDollar (r ++ cut) → BadPlace fl ip cut (c%'$' :: r) .lexMalformedInterpolation 0
  | backslash {r} : ip = true → c%'$' ∉ fl → BadDollar (r ++ cut) → BadPlace fl ip cut (c%'\\' :: c%'$' :: r) .lexMalformedInterpolation 1

/-- `BadText rs code off`: the characters `rs`, which stand behind `@(`, are a heredoc, but its text has no meaning: an error with the
given code, located `off` bytes after the `@`. -/
inductive BadText : List Nat → Code → Nat → Prop
  | mk {tag quoted syn flags decl ln ls ws m ws' after cut pre bad dash margin code off} :
      IsTag tag → Decl tag quoted syn flags decl → RestOfLine ln → (∀ l ∈ ls, TextLine tag l) →
      Ws ws → Mark ws.length m dash margin → Ws ws' → (dash = true → ls ≠ []) → AtEol after →
      unlines ls ++ (ws ++ m ++ tag ++ ws' ++ after) = body dash ls ++ cut → body dash ls = pre ++ bad →
      Reaches (flags.getD []) quoted margin bad (strip margin (body dash ls)) → BadPlace (flags.getD []) quoted cut bad code off →
      BadText (decl ++ c%')' :: (ln ++ c%'\n' :: (unlines ls ++ (ws ++ m ++ tag ++ ws' ++ after)))) code
        (2 + (utf8 decl).length + 1 + (utf8 ln).length + 1 + (utf8 pre).length + off)

end PP.Spec
