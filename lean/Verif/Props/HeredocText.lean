import Verif.Lemmas.HeredocText2
import Verif.Props.Heredoc
import Verif.Props.Interpolation

/-!
# C42: heredocs with interpolation

`IsTextHeredoc` (`Spec/HeredocText.lean`) says which texts are a heredoc with a quoted tag and what its parts are.
-/
namespace PP.Props
open PP.Spec

/-- C42: a heredoc with interpolation is one token: its value is the heredoc of the parts of its text, in the order in which they are
written; it is read like the heredocs of `C42_heredoc` otherwise. -/
theorem C42_interpolated {env : Env} {s : St} {ws decl ln text after syn src : List Nat} {nl : Bool} {ps : List Expr}
    (hfac : env.hasFactory = true) (hs : AtStart s) (hb : s.bol = 0)
    (hH : Here env 0 (ws ++ (c%'@' :: c%'(' :: (decl ++ c%')' :: (ln ++ c%'\n' :: (text ++ after))))))
    (hw : White ws nl) (hI : IsTextHeredoc env s.tok syn src ps decl text after) (hex : ∃ e, .un z .text e ∈ ps) (hln : RestOfLine ln) :
    ∃ u start textAt segs, start = (utf8 ws).length ∧ textAt = start + 2 + (utf8 decl).length + 1 + (utf8 ln).length + 1 ∧
      nextToken env s = .ok () u ∧ u.tok = .heredoc ∧
      u.val = .expr (.heredoc ⟨start, (textAt : Int) + (utf8 src).length - (start : Nat)⟩ (utf8 syn) (.concat ⟨textAt, (utf8 src).length⟩ segs)) ∧
      bareL segs = ps ∧ u.pos = start + 2 + (utf8 decl).length + 1 ∧ u.nls = some (textAt + (utf8 text).length + 1) := by
  obtain ⟨u, start, textAt, segs, h1, h2, h3, h4, h5, h6, h7, h8, -⟩ := first_textHeredoc hfac hs.pos hs.nls hb hH hw hI hex hln
  exact ⟨u, start, textAt, segs, h1, h2, nextToken_of_evn (atStart_base hs) h3, h4, h5, h6, h7, h8⟩

/-- C42: a program that begins with a heredoc with interpolation means what the grammar says; behind the line of the heredoc the program
goes on behind the line with the tag. -/
theorem C42_interpolated_programs {env : Env} {syn : List Nat} {ps ss : List Expr} {ts : List T} (hepp : env.epp = false) (hfac : env.hasFactory = true)
    (hs : TextHeredocSource env syn ps ts) (hg : G [] .stmts ss (.heredoc (utf8 syn) (.concat z ps) :: ts)) :
    ∃ p b ds, parse env false = .value (.program p b ds) ∧ bare b = .block z ss := by
  obtain ⟨p, b, ds, t, h1, h2⟩ := textProgram_of hepp hfac hs hg (s := {}) ⟨rfl, rfl, rfl⟩
  exact ⟨p, b, ds, by unfold parse; rw [parseFrom_of h1], h2⟩

/-! ## Concrete cases -/

/-- The characters of a literal. -/
local macro:max "r!" s:str : term => do
  let cs ← s.getString.toList.toArray.mapM fun c => `($(Lean.Syntax.mkNumLit (toString c.toNat)))
  `(([$cs,*] : List Nat))

def inHeredoc : Env := { text := b!" @(\"X\"/n)# c\na\\n${ $x }$y!\nX\n$z" }

/-- Text with an escape, an expression, a variable and text. -/
theorem inHeredoc_parts : TextParts inHeredoc r!"n" 0 r!"X\n$z" .end_
    [.string z b!"a\n", .un z .text (varOf b!"x"), .un z .text (varOf b!"y"), .string z b!"!\n"] r!"a\\n${ $x }$y!\n" := by
  have ch : ∀ {c rest src out}, c ≠ 92 → c ≠ 10 → c ≠ 36 → MeansTo r!"n" 0 rest src out → MeansTo r!"n" 0 rest (c :: src) (encodeRune c ++ out) := .char
  refine .expr (src := r!"a\\n${ $x }$y!\n") (out := b!"a\n") (ts := [.var b!"x"]) (e := varOf b!"x") (e' := varOf b!"x") (inner := r!" $x }") (rs := r!"$y!\n")
    (ps := [.un z .text (varOf b!"y"), .string z b!"!\n"]) (ch (by decide) (by decide) (by decide) (.esc (c := 110) (d := 10) (by decide) (by decide) .here))
    (fun ns => atom_rel (.leaf rfl) (by simp)) rfl ?_ ?_
  · refine plainToken (ws := r!" ") (cs := r!"$x") (.blank (.inl rfl) .nil) ⟨r!"x", rfl, by decide, simpleName rfl (by decide) rfl (by decide) (by decide)⟩ trivial ?_
    exact .close (ws := r!" ") (.blank (.inl rfl) .nil)
  · exact .name (src := r!"$y!\n") (out := []) (v := b!"y") (cs := r!"y") (rs := r!"!\n") (ps := [.string z b!"!\n"]) .here
      ⟨by decide, simpleName rfl (by decide) rfl (by decide) (by decide), notReserved_y, nofun⟩
      (.last (src := r!"!\n") (out := b!"!\n") (.char (c := 33) (src := [10]) (out := [10]) (by decide) (by decide) (by decide) (.newline .nil)))

theorem inHeredoc_is : IsTextHeredoc inHeredoc .end_ [] r!"a\\n${ $x }$y!\n"
    [.string z b!"a\n", .un z .text (varOf b!"x"), .un z .text (varOf b!"y"), .string z b!"!\n"] r!"\"X\"/n" r!"a\\n${ $x }$y!\nX" r!"\n$z" :=
  .mk (tag := r!"X") (flags := some r!"n") (ls := [r!"a\\n${ $x }$y!"]) (ws := []) (m := []) (ws' := []) (dash := false) (margin := 0) (cut := r!"X\n$z") (after := r!"\n$z")
    tagX (.flags (.quoted (by decide)) (by decide))
    (by intro l hl
        rw [List.mem_singleton] at hl; subst hl
        exact textLine (by decide) (by decide) (by decide) (by decide) (by simp))
    nofun .none nofun nofun (.inr ⟨_, rfl⟩) rfl (by rw [strip_zero]; exact inHeredoc_parts)

/-- A case for `C42_interpolated`. -/
example : ∃ u segs, nextToken inHeredoc {} = .ok () u ∧ u.tok = .heredoc ∧ u.val = .expr (.heredoc ⟨1, 26⟩ [] (.concat ⟨13, 14⟩ segs)) ∧
    bareL segs = [.string z b!"a\n", .un z .text (varOf b!"x"), .un z .text (varOf b!"y"), .string z b!"!\n"] := by
  obtain ⟨u, st, ta, segs, rfl, rfl, h1, h2, h3, h4, -⟩ := C42_interpolated (env := inHeredoc) (s := {}) (ws := r!" ") (ln := r!"# c") (nl := false) rfl ⟨rfl, rfl, rfl⟩ rfl
    ⟨by decide, by decide, by decide⟩ (.blank (.inl rfl) .nil) inHeredoc_is ⟨varOf b!"x", by simp⟩ (.comment (by decide))
  exact ⟨u, segs, h1, h2, h3, h4⟩

/-- A case for `C42_interpolated_programs`. -/
theorem inHeredoc_source : TextHeredocSource inHeredoc []
    [.string z b!"a\n", .un z .text (varOf b!"x"), .un z .text (varOf b!"y"), .string z b!"!\n"] [.var b!"z"] := by
  refine ⟨r!" ", false, r!"\"X\"/n", r!"# c", r!"a\\n${ $x }$y!\nX", r!"\n$z", _, by decide, by decide, .blank (.inl rfl) .nil, .inr ⟨r!" c", rfl, by decide⟩,
    inHeredoc_is, ⟨varOf b!"x", by simp⟩, .inl ⟨r!"$z", rfl, ?_⟩⟩
  refine .token (ws := []) (cs := r!"$z") (rest := []) .nil ⟨r!"z", rfl, by decide, simpleName rfl (by decide) rfl (by decide) (by decide)⟩ trivial (fun h => absurd rfl h) ?_
  exact .done .nil

example : ∃ p b ds, parse inHeredoc false = .value (.program p b ds) ∧ bare b = .block z
    [.heredoc z [] (.concat z [.string z b!"a\n", .un z .text (varOf b!"x"), .un z .text (varOf b!"y"), .string z b!"!\n"]), varOf b!"z"] :=
  C42_interpolated_programs rfl rfl inHeredoc_source
    (.stmt (te := [.heredoc [] (.concat z _)]) (semi := []) (ts := [.var b!"z"]) (atom_rel (.leaf rfl) (by simp)) rfl (.inl rfl) (by intro t h; cases h; rfl)
      (.stmt (te := [.var b!"z"]) (semi := []) (ts := []) (atom_rel (.leaf rfl) (by simp)) rfl (.inl rfl) (by intro t h; cases h) .noStmt))

/-! What a caller sees. -/
example : see inHeredoc.text = .ast b!"(block (heredoc {:text (concat \"a\\n\" (str (var \"x\")) (str (var \"y\")) \"!\\n\")}) (var \"z\"))" := by decide +kernel
example : see b!"@(\"X\")\n  a$x\n | ${ y }b\n | X" = .ast b!"(block (heredoc {:text (concat \" a\" (str (var \"x\")) \"\\n| \" (str (var \"y\")) \"b\\n\")}))" := by decide +kernel

end PP.Props
