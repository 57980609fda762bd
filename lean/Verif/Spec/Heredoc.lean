import Verif.Spec.Lexemes

/-!
# Heredocs

Specification for C42: how a heredoc is written and what its text means.  The text is a list of lines; the line with the tag ends it.
(Heredocs with interpolation: `Spec/HeredocText.lean`.)
-/
namespace PP.Spec

/-- White space within a line. -/
def IsWs (c : Nat) : Prop := c = c%' ' ∨ c = c%'\r' ∨ c = c%'\t'

instance (c : Nat) : Decidable (IsWs c) := inferInstanceAs (Decidable (_ ∨ _))

/-- Characters that are white space within a line. -/
def Ws (bs : List Nat) : Prop := ∀ c ∈ bs, IsWs c

/-- Characters without meaning in the declaration of a heredoc. -/
def PlainChars (cs : List Nat) : Prop := ∀ c ∈ cs, c ≠ 0 ∧ c ≠ c%'\n' ∧ c ≠ c%')' ∧ c ≠ c%':' ∧ c ≠ c%'/' ∧ c ≠ c%'"'

/-- The tag of a heredoc. -/
structure IsTag (tag : List Nat) : Prop where
  ne : tag ≠ []
  chars : ∀ c ∈ tag, c ≠ 0 ∧ c ≠ c%'\n'
  first : ¬ IsWs (headC tag) ∧ headC tag ≠ c%'|' ∧ headC tag ≠ c%'-'

/-- The letters of escape flags: `L` lets a backslash at the end of a line join it with the next. -/
def flagLetters : List Nat := [c%'t', c%'r', c%'n', c%'s', c%'u', c%'$', c%'L']

/-- The tag of a heredoc as it is written: plain, or quoted. -/
inductive TagText (tag : List Nat) : Bool → List Nat → Prop
  | plain : PlainChars tag → TagText tag false tag
  | quoted : (∀ c ∈ tag, c ≠ 0 ∧ c ≠ c%'\n' ∧ c ≠ c%'"') → TagText tag true (c%'"' :: (tag ++ [c%'"']))

/-- `Decl tag quoted syntx flags cs`: what stands between `@(` and `)`. -/
inductive Decl (tag : List Nat) (quoted : Bool) : List Nat → Option (List Nat) → List Nat → Prop
  | plain {tt} : TagText tag quoted tt → Decl tag quoted [] none tt
  | syntx {tt sy} : TagText tag quoted tt → PlainChars sy → Decl tag quoted sy none (tt ++ c%':' :: sy)
  | flags {tt fl} : TagText tag quoted tt → (∀ c ∈ fl, c ∈ flagLetters) → Decl tag quoted [] (some fl) (tt ++ c%'/' :: fl)
  | both {tt sy fl} : TagText tag quoted tt → PlainChars sy → (∀ c ∈ fl, c ∈ flagLetters) →
      Decl tag quoted sy (some fl) (tt ++ c%':' :: (sy ++ c%'/' :: fl))

/-- What may stand between `)` and the end of the line.  After a slash there must be two more characters of one byte on the line:
the search for the end of the line does not look at the second one. -/
inductive RestOfLine : List Nat → Prop
  | nil : RestOfLine []
  | char {c cs} : c ≠ 0 → c ≠ c%'\n' → c ≠ c%'#' → c ≠ c%'/' → RestOfLine cs → RestOfLine (c :: cs)
  | slash {c d cs} : c ≠ 0 → c ≠ c%'\n' → c ≠ c%'#' → c ≠ c%'/' → c ≠ c%'*' → d < 128 → d ≠ c%'\n' → RestOfLine cs →
      RestOfLine (c%'/' :: c :: d :: cs)
  | comment {cs} : (∀ c ∈ cs, c ≠ 0 ∧ c ≠ c%'\n') → RestOfLine (c%'#' :: cs)

/-- A line of the text: it is not the line with the tag and it does not begin with a margin or dash. -/
structure TextLine (tag l : List Nat) : Prop where
  chars : ∀ c ∈ l, c ≠ 0 ∧ c ≠ c%'\n'
  mark : ∀ bs c r, l = bs ++ c :: r → Ws bs → c ≠ c%'|' ∧ c ≠ c%'-'
  notEnd : ∀ bs bs', Ws bs → Ws bs' → l ≠ bs ++ tag ++ bs'

/-- `Mark k m dash margin`: `m` stands in front of the tag, in column `k`; does it have a dash, and which margin does it set? -/
inductive Mark (k : Nat) : List Nat → Bool → Nat → Prop
  | none : Mark k [] false 0
  | bar {bs} : Ws bs → Mark k (c%'|' :: bs) false k
  | dash {bs} : Ws bs → Mark k (c%'-' :: bs) true 0
  | both {bs bs'} : Ws bs → Ws bs' → Mark k (c%'|' :: (bs ++ c%'-' :: bs')) true k

/-- The text of lines. -/
def unlines (ls : List (List Nat)) : List Nat := ls.flatMap (· ++ [c%'\n'])

/-- Text without `k` blanks and tabs at its start; as it is if there are fewer of them. -/
def strip (k : Nat) (l : List Nat) : List Nat :=
  if k ≤ l.length ∧ ∀ c ∈ l.take k, c = c%' ' ∨ c = c%'\t' then l.drop k else l

/-- Text without the newline at its end. -/
def chomp (t : List Nat) : List Nat :=
  if t.dropLast.getLast? = some c%'\r' then t.dropLast.dropLast else t.dropLast

/-- The text that is between the declaration and the line with the tag. -/
def body (dash : Bool) (ls : List (List Nat)) : List Nat := if dash then chomp (unlines ls) else unlines ls

/-- The escapes that stand for one character. -/
def flagTable : List (Nat × Nat) := [(c%'r', 13), (c%'n', 10), (c%'t', 9), (c%'s', 32), (c%'$', c%'$')]

/-- `Means fl ip k src out`: the text `src`, at the start of a line without its margin `k`, means `out`.  A margin is removed from
the next line after every newline; `\` followed by one of the flags is an escape.  `ip`: `$` would begin an interpolation. -/
inductive Means (fl : List Nat) (ip : Bool) (k : Nat) : List Nat → GoStr → Prop
  | nil : Means fl ip k [] []
  | char {c src out} : c ≠ c%'\\' → c ≠ c%'\n' → (c = c%'$' → ip = false) → Means fl ip k src out →
      Means fl ip k (c :: src) (encodeRune c ++ out)
  | newline {src out} : Means fl ip k (strip k src) out → Means fl ip k (c%'\n' :: src) (10 :: out)
  | last : Means fl ip k [c%'\\'] [92]
  | noEsc {c src out} : c ∉ fl ∨ c = c%'L' → c ≠ c%'\n' → (c = c%'$' → ip = false) → Means fl ip k src out →
      Means fl ip k (c%'\\' :: c :: src) (92 :: (encodeRune c ++ out))
  | noJoin {src out} : c%'L' ∉ fl → Means fl ip k (strip k src) out → Means fl ip k (c%'\\' :: c%'\n' :: src) (92 :: 10 :: out)
  | join {src out} : c%'L' ∈ fl → Means fl ip k (strip k src) out → Means fl ip k (c%'\\' :: c%'\n' :: src) out
  | esc {c d src out} : c ∈ fl → (c, d) ∈ flagTable → Means fl ip k src out → Means fl ip k (c%'\\' :: c :: src) (encodeRune d ++ out)
  | u4 {a b c d src out} : c%'u' ∈ fl → (∀ x ∈ [a, b, c, d], isHexDigit x = true) → Means fl ip k src out →
      Means fl ip k (c%'\\' :: c%'u' :: a :: b :: c :: d :: src) (encodeRune (numeral 16 [a, b, c, d]) ++ out)
  | braces {hs src out} : c%'u' ∈ fl → (∀ x ∈ hs, isHexDigit x = true) → 2 ≤ hs.length → hs.length ≤ 6 → Means fl ip k src out →
      Means fl ip k (c%'\\' :: c%'u' :: c%'{' :: (hs ++ c%'}' :: src)) (encodeRune (numeral 16 hs) ++ out)

/-- `IsHeredoc syntx src out decl text`: `@(decl)` declares a heredoc and `text`, from the next line on, is its text and the line with
the tag, without the newline at its end.  `src` is the text and `out` what it means. -/
inductive IsHeredoc : List Nat → List Nat → GoStr → List Nat → List Nat → Prop
  | mk {tag quoted syntx flags decl ls ws m ws' dash margin out} :
      IsTag tag → Decl tag quoted syntx flags decl → (∀ l ∈ ls, TextLine tag l) →
      Ws ws → Mark ws.length m dash margin → Ws ws' → (dash = true → ls ≠ []) →
      Means (flags.getD []) quoted margin (strip margin (body dash ls)) out →
      IsHeredoc syntx (body dash ls) out decl (unlines ls ++ (ws ++ m ++ tag ++ ws'))

/-- What follows the line with the tag: the end of the source or a newline. -/
def AtEol (rest : List Nat) : Prop := rest = [] ∨ ∃ r, rest = c%'\n' :: r

end PP.Spec
