import Verif.Spec.Lexemes

/-!
# The text of a template

Specification for C39.
-/
namespace PP.Spec

/-- `Rendered rest cs out`: the characters `cs` of a template, followed by `rest`, stand for the text `out`. -/
inductive Rendered (rest : List Nat) : List Nat → List Nat → Prop
  | done : Rendered rest [] []
  /-- a character that does not begin `<%` or `%%` stands for itself -/
  | char {c cs out} : c ≠ 0 → (c = c%'<' → headC (cs ++ rest) ≠ c%'%') → (c = c%'%' → headC (cs ++ rest) ≠ c%'%') →
      Rendered rest cs out → Rendered rest (c :: cs) (c :: out)
  /-- `<%%` stands for `<%` -/
  | opening {cs out} : Rendered rest cs out → Rendered rest (c%'<' :: c%'%' :: c%'%' :: cs) (c%'<' :: c%'%' :: out)
  /-- `%%>` stands for `%>` -/
  | closing {cs out} : Rendered rest cs out → Rendered rest (c%'%' :: c%'%' :: c%'>' :: cs) (c%'%' :: c%'>' :: out)
  /-- other `%%` stands for itself -/
  | percents {cs out} : headC (cs ++ rest) ≠ c%'>' → Rendered rest cs out →
      Rendered rest (c%'%' :: c%'%' :: cs) (c%'%' :: c%'%' :: out)
  /-- `<%# … %>` stands for nothing -/
  | comment {body cs out} : (∀ c ∈ body, c ≠ c%'%' ∧ c ≠ 0) → Rendered rest cs out →
      Rendered rest (c%'<' :: c%'%' :: c%'#' :: (body ++ c%'%' :: c%'>' :: cs)) out

/-- Blank or tab. -/
def IsBlank (c : Nat) : Prop := c = c%' ' ∨ c = c%'\t'

/-- `Trimmed out a`: `a` is `out` without the blanks and tabs at its end. -/
def Trimmed (out a : List Nat) : Prop := ∃ b, out = a ++ b ∧ (∀ c ∈ b, IsBlank c) ∧ ∀ c, a.getLast? = some c → ¬ IsBlank c

/-- `<%` that begins a tag, with what follows. -/
def Tag (rest : List Nat) : Prop := ∃ r, rest = c%'<' :: c%'%' :: r ∧ headC r ≠ c%'%' ∧ headC r ≠ c%'#'

/-- A tag that removes the blanks in front of it, `<%-`. -/
def TrimTag (rest : List Nat) : Prop := ∃ r, rest = c%'<' :: c%'%' :: c%'-' :: r

/-- The end of a tag before the text `next`: `%>`, or `-%>` with the blanks and one newline that follow it. -/
inductive TagEnd (next : List Nat) : List Nat → Prop
  | plain : TagEnd next [c%'%', c%'>']
  | line {bs} : (∀ c ∈ bs, IsBlank c) → TagEnd next (c%'-' :: c%'%' :: c%'>' :: (bs ++ [c%'\n']))
  | trim {bs} : (∀ c ∈ bs, IsBlank c) → ¬ IsBlank (headC next) → headC next ≠ c%'\n' → TagEnd next (c%'-' :: c%'%' :: c%'>' :: bs)

/-- The text `out` in front of `rest`, as it is rendered. -/
def Shown (rest out o : List Nat) : Prop := TrimTag rest ∧ Trimmed out o ∨ ¬ TrimTag rest ∧ o = out

end PP.Spec
