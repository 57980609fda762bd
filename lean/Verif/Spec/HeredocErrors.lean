import Verif.Spec.Heredoc


/-!
# Heredocs from which no token can be read

`BadHeredoc rs code off`: the characters `rs`, which stand behind `@(`, are an error with the given code, located `off` bytes after
the `@`.
-/
namespace PP
open PP.Spec

/-- What a quoted tag consists of. -/
def QuotedChars (cs : List Nat) : Prop := ∀ c ∈ cs, c ≠ 0 ∧ c ≠ c%'\n' ∧ c ≠ c%'"'

/-- `DeclPart known sy fl pre`: the beginning of a declaration.  Is the tag known (its end was seen), does a colon introduce the
syntax, and does a slash introduce the escapes? -/
inductive DeclPart : Bool → Bool → Bool → List Nat → Prop
  | start {x} : PlainChars x → DeclPart false false false x
  | quoted {t y} : QuotedChars t → t ≠ [] → PlainChars y → DeclPart true false false (c%'"' :: (t ++ c%'"' :: y))
  | syntx {k pre sy} : DeclPart k false false pre → pre ≠ [] → PlainChars sy → DeclPart true true false (pre ++ c%':' :: sy)
  | flags {k s pre fl} : DeclPart k s false pre → pre ≠ [] → PlainChars fl → DeclPart true s true (pre ++ c%'/' :: fl)

/-- No heredoc can be read. -/
inductive BadHeredoc : List Nat → Code → Nat → Prop
  /- the declaration does not end on its line -/
  | «open» {k s f pre rest} : DeclPart k s f pre → headC rest = 0 ∨ headC rest = c%'\n' →
      BadHeredoc (pre ++ rest) .lexHeredocDeclUnterminated 0
  | openQuote {x t rest} : PlainChars x → QuotedChars t → headC rest = 0 ∨ headC rest = c%'\n' →
      BadHeredoc (x ++ c%'"' :: (t ++ rest)) .lexHeredocDeclUnterminated 0
  /- there is no tag -/
  | noTag {rest} : BadHeredoc (c%')' :: rest) .lexHeredocEmptyTag 0
  | emptyQuote {x rest} : PlainChars x → BadHeredoc (x ++ c%'"' :: c%'"' :: rest) .lexHeredocEmptyTag 0
  /- something is there twice -/
  | twoTags {s f pre rest} : DeclPart true s f pre → BadHeredoc (pre ++ c%'"' :: rest) .lexHeredocMultipleTag (2 + (utf8 pre).length)
  | twoSyntaxes {pre rest} : DeclPart true true false pre → BadHeredoc (pre ++ c%':' :: rest) .lexHeredocMultipleSyntax (2 + (utf8 pre).length)
  | twoFlags {s pre rest} : DeclPart true s true pre → BadHeredoc (pre ++ c%'/' :: rest) .lexHeredocMultipleEscape (2 + (utf8 pre).length)
  /- an escape that does not exist: located behind the slash -/
  | badFlag {k s pre fl rest} : DeclPart k s false pre → pre ≠ [] → PlainChars fl → (∃ c ∈ fl, c ∉ flagLetters) →
      BadHeredoc (pre ++ c%'/' :: (fl ++ c%')' :: rest)) .lexHeredocIllegalEscape (3 + (utf8 pre).length)
  /- there is no line with the tag: the source ends on the line of the declaration, or with a line of the text -/
  | noText {tag q syn fl decl ln rest} : IsTag tag → Decl tag q syn fl decl → RestOfLine ln → headC rest = 0 →
      BadHeredoc (decl ++ c%')' :: (ln ++ rest)) .lexHeredocUnterminated 0
  | noEnd {tag q syn fl decl ln ls l rest} : IsTag tag → Decl tag q syn fl decl → RestOfLine ln → (∀ l ∈ ls, TextLine tag l) →
      TextLine tag l → headC rest = 0 →
      BadHeredoc (decl ++ c%')' :: (ln ++ c%'\n' :: (unlines ls ++ (l ++ rest)))) .lexHeredocUnterminated 0

end PP
