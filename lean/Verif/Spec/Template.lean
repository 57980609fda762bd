import Verif.Spec.Layout

/-!
# The language: templates

Specification for C57.  A template is text with tags.  `Template env ts`: the source is a template with the tokens `ts`; the text
between the tags is a token, too.  `TemplateTree e ts`: the tokens `ts` have the meaning `e`.
-/
namespace PP.Spec

/-- A text is a token, unless it is empty. -/
def textToken (v : GoStr) : List T := if v = [] then [] else [.render v]

/-- The beginning of a template, up to the first tag.  If it looks like white space and comments of a program, then these must end, and
they must not end in front of a `(`; if they contain line breaks, then there must be no heredocs in the template. -/
def Header (env : Env) (cs : List Nat) : Prop :=
  ∃ pre line nl, cs = pre ++ line ∧ White pre nl ∧ NoSkip line ∧ headC line ≠ c%'(' ∧ (nl = true → ¬ b!"@(" <:+: env.text)

/-- The source text is a template with these tokens. -/
def Template (env : Env) (ts : List T) : Prop :=
  ∃ cs out o rest ts', env.text = utf8 (cs ++ rest) ∧ (∀ r ∈ cs ++ rest, Rune r) ∧ Rendered rest cs out ∧ Shown rest out o ∧
    Tags env none ts' rest ∧ (rest ≠ [] → Header env (cs ++ rest)) ∧ ts = textToken (utf8 o) ++ ts'

/-- The phrases of a template that has no parameters: every one is an expression. -/
inductive Phrases : List Expr → List T → Prop
  | nil : Phrases [] []
  | expr {e ss te ts} : G [] .expr e te → isStatementName e = false → Apart ts → Phrases ss ts → Phrases (withRval false e :: ss) (te ++ ts)
  /-- `<%= expression`, or the definition of a type -/
  | typeDef {e ss te ts} : G [] .typeDef e te → Apart ts → Phrases ss ts → Phrases (e :: ss) (te ++ ts)
  /-- the call of a function without parentheses: the next phrase is its argument -/
  | call {n e ss te ts} : n ∈ statementFunctions → G [] .expr e te ∨ G [] .typeDef e te → Apart te → Apart ts → Phrases ss ts →
      Phrases (.call z .named false (.qname z n) [withRval true e] none :: ss) (.name n :: (te ++ ts))
  | name {n} : n ∈ statementFunctions → Phrases [.qname z n] [.name n]

/-- A template with parameters `ps` and the statements `ss`. -/
def templateOf (ps ss : List Expr) : Expr := .lambda z ps (.epp z true (.block z ss)) none

/-- The meaning of a template. -/
inductive TemplateTree : Expr → List T → Prop
  /-- only text, that may be empty -/
  | text {v} : TemplateTree (templateOf [] [.renderString z v]) (textToken v)
  /-- `<% |parameters| %>` at the beginning; then there is a program -/
  | parameters {ps ss tp ts} : G [] (.many .param) ps tp → G [] .stmts ss ts →
      TemplateTree (templateOf ps ss) (y .pipe :: (tp ++ y .pipeEnd :: ts))
  /-- the text at the beginning and expressions -/
  | plain {v ss ts} : Phrases ss ts → ts ≠ [] → (v = [] → ∀ t ∈ ts.head?, t.tok ≠ .renderString) →
      TemplateTree (templateOf [] ((if v = [] then [] else [.renderString z v]) ++ ss)) (textToken v ++ ts)

end PP.Spec
