import Verif.Lemmas.Err6
import Verif.Props.Grammar

/-!
# C55: syntax errors

`Source env ts` (Spec/Layout.lean): the source consists of the tokens `ts`.  `Bad rest c p [] (.stmts .end_) ts` (Spec/Errors.lean): the tokens
`ts` are the beginning of a program that the first token of `rest` cannot continue; the error is `c`, reported at `p`.
-/

namespace PP.Props
open PP.Spec

/-- The position of an error: at the first token of `rest`, or behind it. -/
def Located (env : Env) (rest : List T) : Where → Nat → Prop
  | .start, q => StartsAt env rest q
  | .after, q => EndsBefore env rest q
  | .somewhere, _ => True

/-- `Parse` computes what a deep enough recursion computes. -/
theorem parseFrom_fails {env : Env} {s : St} {single : Bool} {rest : List T} {c : Code} {p : Where} : letI := Ending.source env
    EvR env (fun self => parseProgram self single) s (Fails rest c p) → ∃ q t, parseFrom env s single = (.error (.issue c q), t) ∧ Located env rest p q := by
  intro h
  obtain ⟨k, h⟩ := h.ex
  obtain ⟨q, t, h1, h2⟩ := h k (Nat.le_refl _)
  have h3 : parseWith k env s single = (.error (.issue c q), t) := by
    unfold parseWith
    rw [h1]
  refine ⟨q, t, by rw [← (C26_depth_irrelevant env s single k).2 (by rw [h3]; simp), h3], ?_⟩
  cases p <;> exact h2

section
variable {env : Env} {ts rest : List T} {c : Code} {p : Where} {s : St}

theorem program_fails (hepp : env.epp = false) (hfac : env.hasFactory = true) (hs : Source env (ts ++ rest))
    (hb : Bad rest c p [] (.stmts .end_) ts) (hcl : Clean s) : letI := Ending.source env
    EvR env (fun self => parseProgram self false) s (Fails rest c p) := by
  letI := Ending.source env
  obtain ⟨s1, c0, p0, u, a1, a3, a4, a5⟩ := fresh_ready hepp hfac hs hcl
  have hd := Bad_fails (env := env) rfl hb (.inr rfl) [] _ a5 a3
  unfold parseProgram
  ev
  refine EvF.bind ?_
  unfold parseTop
  ev
  refine EvP.neg (by rw [hepp]; simp) (EvP.bind a1 (EvN.step ?_))
  show EvR env (fun self => parseBody self .end_ false) _ _
  unfold parseBody
  refine EvP.prim a4 ?_
  dsimp only
  ev
  exact EvP.neg nofun (EvF.bind hd)

theorem single_fails (hepp : env.epp = false) (hfac : env.hasFactory = true) (hs : Source env (ts ++ rest))
    (hne : Spec.next (ts ++ rest) ≠ .end_) (hb : Bad rest c p [] (.bin .rel) ts) (hcl : Clean s) : letI := Ending.source env
    EvR env (fun self => parseProgram self true) s (Fails rest c p) := by
  letI := Ending.source env
  obtain ⟨s1, c0, p0, u, a1, a3, a4, a5⟩ := fresh_ready hepp hfac hs hcl
  have hd := Bad_fails (env := env) rfl hb _ a5 a3
  have htok : ({ u with pos := p0 } : St).tok ≠ .end_ := by
    refine a5.ne ?_
    rw [hd_next rfl]
    exact hne
  unfold parseProgram
  ev
  refine EvF.bind ?_
  unfold parseTop
  ev
  refine EvP.neg (by rw [hepp]; simp) (EvP.bind a1 (EvN.step ?_))
  show EvR env (fun self => parseBody self .end_ true) _ _
  unfold parseBody
  refine EvP.prim a4 ?_
  dsimp only
  ev
  refine EvP.pos rfl ?_
  ev
  exact EvP.neg htok (EvF.bind hd)

theorem after_fails {e : Expr} (hepp : env.epp = false) (hfac : env.hasFactory = true) (hs : Source env (ts ++ rest))
    (hg : G [] (.bin .rel) e ts) (hr : moreRel (Spec.next rest) = false) (hne : Spec.next rest ≠ .end_) (hcl : Clean s) : letI := Ending.source env
    EvR env (fun self => parseProgram self true) s (Fails rest .parseExpectedToken .start) := by
  letI := Ending.source env
  obtain ⟨s1, c0, p0, u, a1, a3, a4, a5⟩ := fresh_ready hepp hfac hs hcl
  have htok : ({ u with pos := p0 } : St).tok ≠ .end_ := by
    obtain ⟨t, r, rfl, ht⟩ := G_first hg
    refine a5.ne ?_
    intro h
    rw [show hd ((t :: r) ++ rest) = t.tok from rfl] at h
    rw [h] at ht
    cases ht
  obtain ⟨a, s2, b1, b2, b3, b4⟩ := g_binDone (G_reads hg) rest { u with pos := p0 } a5 a3 (by rw [hd_next rfl, moreRel_eq, hr])
  unfold parseProgram
  ev
  refine EvF.bind ?_
  unfold parseTop
  ev
  refine EvP.neg (by rw [hepp]; simp) (EvP.bind a1 (EvN.step ?_))
  show EvR env (fun self => parseBody self .end_ true) _ _
  unfold parseBody
  refine EvP.prim a4 ?_
  dsimp only
  ev
  refine EvP.pos rfl ?_
  ev
  exact EvP.neg htok (EvP.bind b1 (EvF.bind (EvF.assert b3 (b3.ne (by rw [hd_next rfl]; exact hne)))))

/-! ## The theorems -/

/-- C55: a source whose tokens are `ts ++ rest`, where the beginning `ts` of a program cannot be continued by the first token of `rest`, is
rejected with the error of this place. -/
theorem C55_programs (hepp : env.epp = false) (hfac : env.hasFactory = true) (hs : Source env (ts ++ rest))
    (hb : Bad rest c p [] (.stmts .end_) ts) : ∃ q, parse env false = .error (.issue c q) ∧ Located env rest p q := by
  obtain ⟨q, t, h1, h2⟩ := parseFrom_fails (program_fails hepp hfac hs hb (s := {}) ⟨rfl, rfl, rfl⟩)
  exact ⟨q, by unfold parse; rw [h1], h2⟩

/-- C55: the same for a single expression. -/
theorem C55_expressions (hepp : env.epp = false) (hfac : env.hasFactory = true) (hs : Source env (ts ++ rest))
    (hne : Spec.next (ts ++ rest) ≠ .end_) (hb : Bad rest c p [] (.bin .rel) ts) :
    ∃ q, parse env true = .error (.issue c q) ∧ Located env rest p q := by
  obtain ⟨q, t, h1, h2⟩ := parseFrom_fails (single_fails hepp hfac hs hne hb (s := {}) ⟨rfl, rfl, rfl⟩)
  exact ⟨q, by unfold parse; rw [h1], h2⟩

/-- C55: something after a single expression. -/
theorem C55_after_expression {e : Expr} (hepp : env.epp = false) (hfac : env.hasFactory = true) (hs : Source env (ts ++ rest))
    (hg : G [] (.bin .rel) e ts) (hr : moreRel (Spec.next rest) = false) (hne : Spec.next rest ≠ .end_) :
    ∃ q, parse env true = .error (.issue .parseExpectedToken q) ∧ StartsAt env rest q := by
  obtain ⟨q, t, h1, h2⟩ := parseFrom_fails (p := .start) (after_fails hepp hfac hs hg hr hne (s := {}) ⟨rfl, rfl, rfl⟩)
  exact ⟨q, by unfold parse; rw [h1], h2⟩

/-- C55: the wrong sources are not programs. -/
theorem C55_not_a_program {ss : List Expr} (hepp : env.epp = false) (hfac : env.hasFactory = true)
    (hs : Source env (ts ++ rest)) (hb : Bad rest c p [] (.stmts .end_) ts) : ¬ G [] .stmts ss (ts ++ rest) := by
  intro hg
  obtain ⟨q, h1, -⟩ := C55_programs hepp hfac hs hb
  obtain ⟨_, _, _, h2, -⟩ := C51_programs hepp hfac hs hg
  rw [h1] at h2
  cases h2

/-- C55: a source has one syntax error. -/
theorem C55_one_error {ts' rest' : List T} {c' : Code} {p' : Where} (hepp : env.epp = false) (hfac : env.hasFactory = true)
    (hs : Source env (ts ++ rest)) (hb : Bad rest c p [] (.stmts .end_) ts)
    (hs' : Source env (ts' ++ rest')) (hb' : Bad rest' c' p' [] (.stmts .end_) ts') : c = c' := by
  obtain ⟨q, h1, -⟩ := C55_programs hepp hfac hs hb
  obtain ⟨q', h2, -⟩ := C55_programs hepp hfac hs' hb'
  rw [h1] at h2
  cases h2
  rfl

/-- C55, a defect: a title without a colon before the closing brace is dropped, not reported. -/
theorem C55_title_is_dropped : see b!"file { 'x': ; 'y' }" = see b!"file { 'x': }" ∧ ∃ pn, see b!"file { 'x': }" = .ast pn := by
  have h : see b!"file { 'x': ; 'y' }" = .ast b!"(block (resource {:type (qn \"file\") :bodies [{:title \"x\" :ops []}]}))" := by decide +kernel
  have h' : see b!"file { 'x': }" = .ast b!"(block (resource {:type (qn \"file\") :bodies [{:title \"x\" :ops []}]}))" := by decide +kernel
  exact ⟨by rw [h, h'], _, h'⟩

end

/-! ## Concrete cases -/

/-- The characters of a literal. -/
local macro:max "r!" s:str : term => do
  let cs ← s.getString.toList.toArray.mapM fun c => `($(Lean.Syntax.mkNumLit (toString c.toNat)))
  `(([$cs,*] : List Nat))

/-- `$x = (1 2`: the parenthesis is not closed. -/
theorem open_source : Source { text := b!"$x = (1 2" } ([.var b!"x", .sym .assign, .sym .lp, .int 10 1] ++ [.int 10 2]) := by
  refine ⟨r!"$x = (1 2", by decide, by decide, ?_⟩
  refine plainToken (ws := []) (cs := r!"$x") .nil ⟨r!"x", rfl, by decide, simpleName rfl (by decide) rfl (by decide) (by decide)⟩ trivial ?_
  refine plainToken (ws := r!" ") (cs := r!"=") (.blank (.inl rfl) .nil) ⟨rfl, by decide, by decide, nofun⟩ trivial ?_
  refine plainToken (ws := r!" ") (cs := r!"(") (.blank (.inl rfl) .nil) ⟨rfl, by decide, by decide, nofun⟩ ⟨rfl, rfl⟩ ?_
  refine plainToken (ws := []) (cs := r!"1") .nil
    (.inl ⟨rfl, by decide, ⟨c%'1', [], rfl, by decide, by decide, by decide⟩, rfl, by decide, by decide, by decide⟩) trivial ?_
  refine plainToken (ws := r!" ") (cs := r!"2") (.blank (.inl rfl) .nil)
    (.inl ⟨rfl, by decide, ⟨c%'2', [], rfl, by decide, by decide, by decide⟩, rfl, by decide, by decide, by decide⟩) trivial ?_
  exact .done .nil

theorem open_bad : Bad [.int 10 2] .parseExpectedToken .start [] (.stmts .end_) [.var b!"x", .sym .assign, .sym .lp, .int 10 1] := by
  have up : ∀ {ns e ts}, G ns (.prim false) e ts → G ns (.bin .or) e ts := fun h =>
    .operand (.opdTighter (l' := .and) rfl (.operand (.opdTighter (l' := .compare) rfl (.operand (.opdTighter (l' := .equal) rfl
      (.operand (.opdTighter (l' := .shift) rfl (.operand (.opdTighter (l' := .additive) rfl (.operand (.opdTighter (l' := .mult) rfl
        (.operand (.opdTighter (l' := .match_) rfl (.operand (.opdTighter (l' := .in_) rfl (.operand (.opdIn (.primary (.prim h)))))))))))))))))))
  have upB : ∀ {r c p ns ts}, Bad r c p ns .atom ts → Bad r c p ns (.bin .or) ts := fun h =>
    .operand (.opdTighter (l' := .and) rfl (.operand (.opdTighter (l' := .compare) rfl (.operand (.opdTighter (l' := .equal) rfl
      (.operand (.opdTighter (l' := .shift) rfl (.operand (.opdTighter (l' := .additive) rfl (.operand (.opdTighter (l' := .mult) rfl
        (.operand (.opdTighter (l' := .match_) rfl (.operand (.opdTighter (l' := .in_) rfl (.operand (.opdIn (.primary (.atom h)))))))))))))))))))
  have one : G [] (.bin .rel) (.integer z 10 1) [.int 10 1] := .operand (.opdRel (.noAssign (.noResource (.sel (.noSelector (up (.atom (.leaf rfl))))) (by simp))))
  have paren : Bad [.int 10 2] .parseExpectedToken .start [] .atom [.sym .lp, .int 10 1] := .here (.paren rfl one rfl nofun)
  exact .stmt (.comma (.operand (.opdRel (.assign (ta := [.var b!"x"]) (t := .sym .assign) (.noResource (.sel (.noSelector (up (.atom (.leaf rfl))))) (by simp)) rfl
    (.noAssign (.noResource (.value (upB paren)))))))) nofun

/-- What C55 says about it. -/
example : ∃ q, parse { text := b!"$x = (1 2" } false = .error (.issue .parseExpectedToken q) ∧ StartsAt { text := b!"$x = (1 2" } [.int 10 2] q :=
  C55_programs rfl rfl open_source open_bad

/-- And what the model computes, for this and the other rules. -/
example : see b!"$x = (1 2" = .issue .parseExpectedToken 8 := by decide +kernel
example : see b!"$x = (1 + 2" = .issue .parseExpectedToken 11 := by decide +kernel
example : see b!"$x = (1 + ]" = .issue .lexUnexpectedToken 10 := by decide +kernel
example : see b!"$x = 3 + + 4" = .issue .lexUnexpectedToken 10 := by decide +kernel
example : see b!"if $x 3" = .issue .parseExpectedToken 6 := by decide +kernel
example : see b!"case $x 3" = .issue .parseExpectedToken 8 := by decide +kernel
example : see b!"@File 3" = .issue .parseExpectedToken 6 := by decide +kernel
example : see b!"File <| a == 1 |>>" = .issue .parseExpectedToken 15 := by decide +kernel
example : see b!"file { 'x': mode => 1 2 }" = .issue .parseExpectedToken 22 := by decide +kernel
example : see b!"File { mode => 1; }" = .issue .parseExpectedToken 16 := by decide +kernel
example : see b!"$x ? { 1 2 }" = .issue .parseExpectedToken 9 := by decide +kernel
example : see b!"file { 'x': * 3 }" = .issue .parseExpectedToken 14 := by decide +kernel
example : see b!"A produces B 3" = .issue .parseExpectedToken 13 := by decide +kernel
example : see b!"type A inherits B 3" = .issue .parseExpectedToken 18 := by decide +kernel
example : see b!"node a 3" = .issue .parseExpectedToken 7 := by decide +kernel
example : see b!"[1 2]" = .issue .parseExpectedOneOfTokens 3 := by decide +kernel
example : see b!"{ 1 2 }" = .issue .parseExpectedFarrowAfterKey 5 := by decide +kernel
example : see b!"define a(3) {}" = .issue .parseExpectedVariable 10 := by decide +kernel
example : see b!"define a(* 3) {}" = .issue .parseExpectedVariable 12 := by decide +kernel
example : see b!"file { 'x': 3 }" = .issue .parseExpectedAttributeName 12 := by decide +kernel
example : see b!"file { 'x': mode 3 }" = .issue .parseInvalidAttribute 18 := by decide +kernel
example : see b!"file { 'x' }" = .issue .parseResourceWithoutTitle 0 := by decide +kernel
example : see b!"$x { 'x' }" = .issue .parseInvalidResource 0 := by decide +kernel
example : see b!"file { 'x': ; 'y' 3 }" = .issue .parseExpectedTitle 14 := by decide +kernel
example : see b!"unless 1 { } elsif" = .issue .parseElsifInUnless 18 := by decide +kernel
example : see b!"class 3" = .issue .parseExpectedClassName 6 := by decide +kernel
example : see b!"class class {}" = .issue .parseClassNotValidHere 6 := by decide +kernel
example : see b!"class 'x' {}" = .issue .parseQuotedNotValidName 6 := by decide +kernel
example : see b!"class a inherits 3 {}" = .issue .parseExpectedClassName 17 := by decide +kernel
example : see b!"function 3 {}" = .issue .parseExpectedNameAfterFunction 9 := by decide +kernel
example : see b!"A produces 3" = .issue .parseExpectedClassName 11 := by decide +kernel
example : see b!"node +" = .issue .parseExpectedHostname 6 := by decide +kernel
example : see b!"node a.+" = .issue .parseExpectedNameOrNumberAfterDot 8 := by decide +kernel
example : see b!"function a() >> 3" = .issue .parseExpectedTypeName 17 := by decide +kernel
example : see b!"type A inherits 3" = .issue .parseInheritsMustBeTypeName 17 := by decide +kernel
example : see b!"type A 3" = .issue .lexUnexpectedToken 8 := by decide +kernel
example : see b!"type A[1] 3" = .issue .parseExpectedTypeNameAfterType 11 := by decide +kernel
example : see b!"$x = [1, 2" = .issue .parseExpectedOneOfTokens 10 := by decide +kernel
example : see b!"class a {" = .issue .lexUnexpectedToken 9 := by decide +kernel

end PP.Props
