import Verif.Props.Workflow
import Verif.Lemmas.Template

/-!
# C57: templates

Spec/Template.lean says which texts are templates (`Template`), and what they mean (`TemplateTree`).
-/
namespace PP.Props
open PP.Spec

section
variable {env env' : Env} {ts ts' : List T} {e e' : Expr}

/-- C57: what the parser makes of a template. -/
theorem C57_templates (hepp : env.epp = true) (hfac : env.hasFactory = true) (hs : Template env ts) (hg : TemplateTree e ts) :
    ∃ p b ds, parse env false = .value (.program p b ds) ∧ bare b = e := by
  obtain ⟨⟨p, b, ds, t, h1, h2, -⟩, -⟩ := template_of hepp hfac hs hg (s := {}) ⟨rfl, rfl, rfl⟩
  exact ⟨p, b, ds, by unfold parse; rw [parseFrom_of h1], h2⟩

/-- C57: the request for a single expression gives the template without the program around it. -/
theorem C57_single (hepp : env.epp = true) (hfac : env.hasFactory = true) (hs : Template env ts) (hg : TemplateTree e ts) :
    ∃ a, parse env true = .value a ∧ bare a = e := by
  obtain ⟨-, a, t, h1, h2⟩ := template_of hepp hfac hs hg (s := {}) ⟨rfl, rfl, rfl⟩
  exact ⟨a, by unfold parse; rw [parseFrom_of h1], h2⟩

/-- C57: a text is a template in one way. -/
theorem C57_unambiguous (hepp : env.epp = true) (hfac : env.hasFactory = true) (hs : Template env ts) (hg : TemplateTree e ts)
    (hs' : Template env ts') (hg' : TemplateTree e' ts') : e = e' := by
  obtain ⟨a, h1, h2⟩ := C57_single hepp hfac hs hg
  obtain ⟨a', h1', h2'⟩ := C57_single hepp hfac hs' hg'
  rw [h1] at h1'
  injection h1' with h3
  rw [← h2, h3, h2']

/-- C57: two ways to write the same tokens and the same texts, e.g. with other blanks in the tags, with comments, with `<%` in place of
`<%-`, give the same tree. -/
theorem C57_layout (hepp : env.epp = true) (hfac : env.hasFactory = true) (hs : Template env ts) (hepp' : env'.epp = true)
    (hfac' : env'.hasFactory = true) (hs' : Template env' ts) (hg : TemplateTree e ts) :
    ∃ a a', parse env true = .value a ∧ parse env' true = .value a' ∧ bare a = bare a' := by
  obtain ⟨a, h1, h2⟩ := C57_single hepp hfac hs hg
  obtain ⟨a', h1', h2'⟩ := C57_single hepp' hfac' hs' hg
  exact ⟨a, a', h1, h1', h2.trans h2'.symm⟩

end

/-! ## Concrete cases -/

/-- The characters of a literal. -/
local macro:max "r!" s:str : term => do
  let cs ← s.getString.toList.toArray.mapM fun c => `($(Lean.Syntax.mkNumLit (toString c.toNat)))
  `(([$cs,*] : List Nat))

theorem rendered_of {rest : List Nat} : (cs : List Nat) → (∀ c ∈ cs, c ≠ 0 ∧ c ≠ c%'<' ∧ c ≠ c%'%') → Rendered rest cs cs
  | [], _ => .done
  | c :: cs, h => .char (h c (.head _)).1 (fun e => absurd e (h c (.head _)).2.1) (fun e => absurd e (h c (.head _)).2.2)
      (rendered_of cs fun c hc => h c (.tail _ hc))

def greetText : GoStr := b!"<%- | $a | -%> \nHi <%= $a %>!\n<% $x = $a -%>\n"

def greetTokens : List T :=
  [.sym .pipe, .var b!"a", .sym .pipeEnd, .render b!"Hi ", .sym .renderExpr, .var b!"a", .render b!"!\n", .var b!"x", .sym .assign, .var b!"a"]

theorem greet_template : Template { text := greetText, epp := true } greetTokens := by
  have b : White r!" " false := .blank (.inl rfl) .nil
  refine ⟨[], [], [], r!"<%- | $a | -%> \nHi <%= $a %>!\n<% $x = $a -%>\n", greetTokens, by decide, by decide, .done, .inl ⟨⟨_, rfl⟩, [], rfl, nofun, nofun⟩, ?_, fun _ => ?_, rfl⟩
  · refine .trim ?_
    refine symToken (cs := r!"|") b rfl (by decide) (by decide) rfl ⟨nofun, c%'$', ⟨r!" ", _, false, rfl, b, noSkip_of rfl (by decide) (by decide), rfl, fun _ => rfl⟩, by decide⟩ ?_
    refine varToken (w := r!"a") b (simpleName rfl (by decide) rfl (by decide) (by decide)) ?_
    refine symToken (cs := r!"|") b rfl (by decide) (by decide) rfl (.inr ⟨c%'-', ⟨r!" ", _, false, rfl, b, noSkip_of rfl (by decide) (by decide), rfl, fun _ => rfl⟩, by decide⟩) ?_
    refine .text (ws := r!" ") (cs := r!"Hi ") (o := r!"Hi ") rfl b (.line (bs := r!" ") (by simp [IsBlank])) (rendered_of _ (by decide)) (.inr ⟨(by rintro ⟨r, h⟩; cases h), rfl⟩) (by decide) ?_
    refine .render ?_
    refine varToken (w := r!"a") b (simpleName rfl (by decide) rfl (by decide) (by decide)) ?_
    refine .text (ws := r!" ") (cs := r!"!\n") (o := r!"!\n") rfl b .plain (rendered_of _ (by decide)) (.inr ⟨(by rintro ⟨r, h⟩; cases h), rfl⟩) (by decide) ?_
    refine .code (by decide) ?_
    refine varToken (w := r!"x") b (simpleName rfl (by decide) rfl (by decide) (by decide)) ?_
    refine symToken (cs := r!"=") b rfl (by decide) (by decide) rfl trivial ?_
    refine varToken (w := r!"a") b (simpleName rfl (by decide) rfl (by decide) (by decide)) ?_
    exact .noText (ws := r!" ") (cs := []) rfl b (.line (bs := []) nofun) .done (.inr ⟨(by rintro ⟨r, h⟩; cases h), rfl⟩) .finish
  · exact ⟨[], _, false, rfl, .nil, noSkip_of rfl (by decide) (by decide), by decide, nofun⟩

def greetMeaning : List Expr :=
  [.renderString z b!"Hi ", .un z .render (varOf b!"a"), .renderString z b!"!\n", .bin z (.assignment b!"=") (varOf b!"x") (varOf b!"a")]

theorem var_expr {ns : List GoStr} (n : GoStr) : G ns .expr (varOf n) [.var n] :=
  .sel (.noSelector (up2 (.operand (.opdTighter rfl (up (.atom (.leaf rfl)))))))

theorem text_expr {ns : List GoStr} (v : GoStr) : G ns .expr (.renderString z v) [.render v] :=
  .sel (.noSelector (up2 (.operand (.opdTighter rfl (up (.atom (.leaf rfl)))))))

theorem greet_tree : TemplateTree (templateOf [.parameter z b!"a" none none false] greetMeaning) greetTokens := by
  have st : ∀ {ss ts} v, Apart ts → G [] .stmts ss ts → G [] .stmts (.renderString z v :: ss) (.render v :: ts) := fun {ss ts} v ha h =>
    .stmt (e := .renderString z v) (te := [.render v]) (semi := []) (atom_rel (.leaf rfl) (by simp)) rfl (.inl rfl) ha h
  have st2 : ∀ {ss ts} n, Apart ts → G [] .stmts ss ts → G [] .stmts (.un z .render (varOf n) :: ss) (.sym .renderExpr :: .var n :: ts) := fun {ss ts} n ha h =>
    .typeStmt (te := [.sym .renderExpr, .var n]) (semi := []) (.rendered (var_expr n)) (.inl rfl) ha h
  refine .parameters (tp := [.var b!"a"]) (.one (.param .noTyp .noDflt)) ?_
  refine st _ (by intro t h; cases h; rfl) (st2 _ (by intro t h; cases h; rfl) (st _ (by intro t h; cases h; rfl) ?_))
  exact .stmt (te := [.var b!"x"] ++ .sym .assign :: [.var b!"a"]) (semi := []) (ts := [])
    (.operand (.opdRel (.assign (.noResource (var_expr _) (by simp)) rfl (.noAssign (.noResource (var_expr _) (by simp)))))) rfl (.inl rfl) nofun .noStmt

/-- A template with a parameter. -/
example : ∃ p b ds, parse { text := greetText, epp := true } false = .value (.program p b ds) ∧
    bare b = templateOf [.parameter z b!"a" none none false] greetMeaning :=
  C57_templates rfl rfl greet_template greet_tree

example : seeEpp greetText = .ast b!"(lambda {:params {:a {}} :body [(epp (render-s \"Hi \") (render (var \"a\")) (render-s \"!\\n\") (= (var \"x\") (var \"a\")))]})" := by
  decide +kernel

def noteText : GoStr := b!"# v\n<% notice -%>\n<%= $x %> b"

def noteTokens : List T := [.render b!"# v\n", .name b!"notice", .sym .renderExpr, .var b!"x", .render b!" b"]

theorem note_template : Template { text := noteText, epp := true } noteTokens := by
  have b : White r!" " false := .blank (.inl rfl) .nil
  refine ⟨r!"# v\n", r!"# v\n", r!"# v\n", r!"<% notice -%>\n<%= $x %> b", noteTokens.tail, by decide, by decide, rendered_of _ (by decide), .inr ⟨(by rintro ⟨r, h⟩; cases h), rfl⟩, ?_, fun _ => ?_, rfl⟩
  · refine .code (by decide) ?_
    refine nameToken (w := r!"notice") b (simpleName rfl (by decide) rfl (by decide) (by decide)) (by decide) (fun k => by cases k <;> decide) (fun k => by cases k <;> decide) ?_
    refine .noText (ws := r!" ") (cs := []) rfl b (.line (bs := []) nofun) .done (.inr ⟨(by rintro ⟨r, h⟩; cases h), rfl⟩) (.render ?_)
    refine varToken (w := r!"x") b (simpleName rfl (by decide) rfl (by decide) (by decide)) ?_
    exact .text (ws := r!" ") (cs := r!" b") (o := r!" b") rfl b .plain (rendered_of _ (by decide)) (.inr ⟨(by rintro ⟨r, h⟩; cases h), rfl⟩) (by decide) .finish
  · exact ⟨r!"# v\n", _, true, rfl, .line (body := r!" v") (by decide) .nil, noSkip_of rfl (by decide) (by decide), by decide, fun _ => by decide⟩

theorem note_tree : TemplateTree (templateOf [] [.renderString z b!"# v\n", .call z .named false (.qname z b!"notice") [.un z .render (varOf b!"x")] none,
    .renderString z b!" b"]) noteTokens := by
  refine .plain (v := b!"# v\n") (ts := noteTokens.tail) ?_ nofun nofun
  refine .call (te := [.sym .renderExpr, .var b!"x"]) (ts := [.render b!" b"]) (by decide) (.inr (.rendered (var_expr _))) (by intro t h; cases h; rfl) (by intro t h; cases h; rfl) ?_
  exact .expr (te := [.render b!" b"]) (ts := []) (text_expr _) rfl nofun .nil

/-- The phrase after the name of a statement function is its argument, also if it is in another tag. -/
example : ∃ a, parse { text := noteText, epp := true } true = .value a ∧
    bare a = templateOf [] [.renderString z b!"# v\n", .call z .named false (.qname z b!"notice") [.un z .render (varOf b!"x")] none, .renderString z b!" b"] :=
  C57_single rfl rfl note_template note_tree

example : seeEpp noteText = .ast b!"(lambda {:body [(epp (render-s \"# v\\n\") (invoke {:functor (qn \"notice\") :args [(render (var \"x\"))]}) (render-s \" b\"))]})" := by
  decide +kernel

/-- Only text. -/
example : ∃ a, parse { text := b!"a<%% %", epp := true } true = .value a ∧ bare a = templateOf [] [.renderString z b!"a<% %"] := by
  refine C57_single (ts := [.render b!"a<% %"]) rfl rfl ⟨r!"a<%% %", r!"a<% %", r!"a<% %", [], [], by decide, by decide, ?_, .inr ⟨(by rintro ⟨r, h⟩; cases h), rfl⟩, .finish, by simp, rfl⟩ (.text (v := b!"a<% %"))
  exact .char (by decide) (by decide) (by decide) (.opening (.char (by decide) (by decide) (by decide) (.char (by decide) (by decide) (by decide) .done)))

/-- The empty template. -/
example : ∃ a, parse { text := [], epp := true } true = .value a ∧ bare a = templateOf [] [.renderString z []] :=
  C57_single (ts := []) rfl rfl ⟨[], [], [], [], [], rfl, nofun, .done, .inr ⟨(by rintro ⟨r, h⟩; cases h), rfl⟩, .finish, by simp, rfl⟩ (.text (v := []))

/-! ## Surprises -/

/-- Without parameters, a template is a sequence of expressions: it has no assignments, unless there is a tag with parameters, that may be empty. -/
theorem C57_no_assignment : seeEpp b!"<% $x = 1 %>" = .issue .lexUnexpectedToken 6 ∧
    seeEpp b!"<% || %><% $x = 1 %>" = .ast b!"(lambda {:body [(epp (= (var \"x\") 1))]})" := by
  decide +kernel

/-- Text in front of the first tag is taken for white space and comments of the language, if it looks like them. -/
theorem C57_text_as_comment : seeEpp b!"/* <% foo(1) %>" = .issue .lexUnterminatedComment 0 ∧
    seeEpp b!"/* <% foo 1 %>" ≠ .issue .lexUnterminatedComment 0 := by
  decide +kernel

/-- The text between two tags is an expression, and the next tag can continue it. -/
theorem C57_text_is_operand : seeEpp b!"a<% 1 %>b<%[0]%>" = .ast b!"(lambda {:body [(epp (render-s \"a\") 1 (access (render-s \"b\") 0))]})" ∧
    seeEpp b!"<% notice %>b" = .ast b!"(lambda {:body [(epp (invoke {:functor (qn \"notice\") :args [(render-s \"b\")]}))]})" := by
  decide +kernel

/-- The text of a heredoc in a tag that ends on the same line is rendered once more. -/
theorem C57_heredoc_twice : seeEpp b!"<%= @(X) %>\nab\nX\n" =
    .ast b!"(lambda {:body [(epp (render (heredoc {:text \"ab\\n\"})) (render-s \"\\nab\\nX\\n\"))]})" := by
  decide +kernel

/-- Tags can be opened in tags. -/
theorem C57_nested_tag : seeEpp b!"<% 1 <% 2 %>" = .ast b!"(lambda {:body [(epp 1 2)]})" := by
  decide +kernel

end PP.Props
