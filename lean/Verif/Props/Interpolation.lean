import Verif.Props.Grammar

/-!
# C53: strings with interpolation

`Parts env prev ps rs rest` (Spec/Layout.lean): after an opening double quote the characters `rs` are text, `$name` and `${expression}` in any
order, then a closing quote and `rest`; the meaning of the parts is `ps`.
-/
namespace PP.Props
open PP.Spec

theorem up2 {ns : List GoStr} {e : Expr} {ts : List T} (h : G ns (.bin .additive) e ts) : G ns (.bin .or) e ts :=
  .operand (.opdTighter (l' := .and) rfl (.operand (.opdTighter (l' := .compare) rfl (.operand (.opdTighter (l' := .equal) rfl
    (.operand (.opdTighter (l' := .shift) rfl (.operand (.opdTighter (l' := .additive) rfl h)))))))))

theorem up {ns : List GoStr} {e : Expr} {ts : List T} (h : G ns (.prim false) e ts) : G ns (.bin .mult) e ts :=
  .operand (.opdTighter rfl (.operand (.opdTighter rfl (.operand (.opdIn (.primary (.prim h)))))))

/-- An atom is an expression. -/
theorem atom_rel {ns : List GoStr} {e : Expr} {ts : List T} (h : G ns .atom e ts) (hk : ∀ k, ts ≠ [.style k]) : G ns (.bin .rel) e ts :=
  .operand (.opdRel (.noAssign (.noResource (.sel (.noSelector (up2 (.operand (.opdTighter rfl (up (.atom h))))))) hk)))

/-- C53: a string with interpolation is read as its parts, in the order in which they are written: text with its escapes replaced, variables and
expressions. -/
theorem C53_parts {env : Env} {ps : List Expr} {rs : List Nat} (hepp : env.epp = false) (hfac : env.hasFactory = true)
    (htext : env.text = utf8 (c%'"' :: rs)) (hr : ∀ r ∈ rs, Rune r) (hps : Parts env .end_ ps rs []) (hi : ∃ e, .un z .text e ∈ ps) :
    ∃ p ps', parse env true = .value (.concat p ps') ∧ bareL ps' = ps := by
  have hs : Source env [.interp ps] := by
    refine ⟨c%'"' :: rs, htext, ?_, .interp (ws := []) .nil hps hi (.done .nil)⟩
    intro r h
    rcases List.mem_cons.1 h with rfl | h
    · decide
    · exact hr r h
  have hg : G [] (.bin .rel) (.concat z ps) [.interp ps] :=
    atom_rel (.leaf rfl) (by simp)
  obtain ⟨a, h1, h2⟩ := C51_expressions hepp hfac hs hg
  cases a <;> simp only [bare, reduceCtorEq] at h2
  injection h2 with _ h2
  exact ⟨_, _, h1, h2⟩

/-- C53: a string without interpolation is its text. -/
theorem C53_text {env : Env} {src : List Nat} {out : GoStr} (hepp : env.epp = false) (hfac : env.hasFactory = true)
    (htext : env.text = utf8 (c%'"' :: (src ++ [c%'"']))) (hr : ∀ r ∈ src, Rune r) (hps : Dq env.hexEsc src out) :
    ∃ p, parse env true = .value (.string p out) := by
  have hs : Source env [.str out] := by
    refine ⟨c%'"' :: (src ++ [c%'"']), htext, ?_, ?_⟩
    · intro r h
      rcases List.mem_cons.1 h with rfl | h
      · decide
      rcases List.mem_append.1 h with h | h
      · exact hr r h
      · obtain rfl := List.mem_singleton.1 h
        decide
    · have : Layout env none .end_ true none [.str out] ([] ++ ((c%'"' :: (src ++ [c%'"'])) ++ [])) :=
        plainToken .nil (.inr (.inl ⟨src, rfl, hps⟩)) trivial (.done .nil)
      simpa using this
  have hg : G [] (.bin .rel) (.string z out) [.str out] :=
    atom_rel (.leaf rfl) (by simp)
  obtain ⟨a, h1, h2⟩ := C51_expressions hepp hfac hs hg
  cases a <;> simp only [bare, reduceCtorEq] at h2
  injection h2 with _ h2
  exact ⟨_, h2 ▸ h1⟩

/-! ## Concrete cases -/

/-- The characters of a literal. -/
local macro:max "r!" s:str : term => do
  let cs ← s.getString.toList.toArray.mapM fun c => `($(Lean.Syntax.mkNumLit (toString c.toNat)))
  `(([$cs,*] : List Nat))

/-- `$x` plus a string that contains `$y` -/
def inner : Expr := .bin z (.arithmetic b!"+") (varOf b!"x") (.concat z [.string z b!"b", .un z .text (varOf b!"y")])

def nested : List Expr := [.string z b!"a\n", .un z .text inner, .un z .text (varOf b!"z"), .string z b!"!"]

theorem notReserved_y : ¬ Reserved false b!"y" := by
  rintro (h | ⟨k, hk, -⟩)
  · revert h; decide
  · cases k <;> revert hk <;> decide

theorem notReserved_z : ¬ Reserved false b!"z" := by
  rintro (h | ⟨k, hk, -⟩)
  · revert h; decide
  · cases k <;> revert hk <;> decide

def nestedText : GoStr := b!"\"a\\n${ $x + \"b${y}\" }$z!\""

/-- A string with a string in an expression in it. -/
theorem nested_parts : Parts { text := nestedText } .end_ nested r!"a\\n${ $x + \"b${y}\" }$z!\"" [] := by
  have dq1 : ∀ c, c ≠ 34 → c ≠ 92 → c ≠ 36 → c ≠ 0 → Dq false [c] (encodeRune c ++ []) := fun c h1 h2 h3 h4 => .char h1 h2 h3 h4 .nil
  refine .expr (src := r!"a\\n") (out := b!"a\n") (ts := [.var b!"x", .sym .add, .interp [.string z b!"b", .un z .text (varOf b!"y")]]) (e := inner) (e' := inner)
    (inner := r!" $x + \"b${y}\" }$z!\"") (rs := r!"$z!\"") (ps := [.un z .text (varOf b!"z"), .string z b!"!"]) (.char (by decide) (by decide) (by decide) (by decide) (.esc (c := 110) (d := 10) (by decide) .nil)) ?_ rfl ?_ ?_
  · intro ns
    exact .operand (.opdRel (.noAssign (.noResource (.sel (.noSelector (up2 (.binary (ta := [.var b!"x"]) (tb := [.interp _]) (.operand (.opdTighter rfl (up (.atom (.leaf rfl))))) rfl
      (.opdTighter rfl (up (.atom (.leaf rfl)))))))) (by simp))))
  · refine plainToken (ws := r!" ") (cs := r!"$x") (.blank (.inl rfl) .nil) ⟨r!"x", rfl, by decide, simpleName rfl (by decide) rfl (by decide) (by decide)⟩ trivial ?_
    refine plainToken (ws := r!" ") (cs := r!"+") (.blank (.inl rfl) .nil) ⟨rfl, by decide, by decide, fun _ => rfl⟩ trivial ?_
    refine .interp (ws := r!" ") (rs := r!"b${y}\" }$z!\"") (rest := r!" }$z!\"") (.blank (.inl rfl) .nil) ?_ ⟨varOf b!"y", by simp⟩
      (.close (ws := r!" ") (.blank (.inl rfl) .nil))
    refine .expr (src := r!"b") (out := b!"b") (ts := [.name b!"y"]) (e := .qname z b!"y") (e' := varOf b!"y") (inner := r!"y}\" }$z!\"") (rs := r!"\" }$z!\"")
      (ps := []) (dq1 _ (by decide) (by decide) (by decide) (by decide)) (fun ns => ?_) rfl ?_ (.quote (src := []) .nil)
    · exact atom_rel (.leaf rfl) (by simp)
    · exact plainToken (ws := []) (cs := r!"y") .nil ⟨by decide, simpleName rfl (by decide) rfl (by decide) (by decide), notReserved_y, nofun⟩ trivial
        (.close (ws := []) .nil)
  · exact .name (src := []) (out := []) (cs := r!"z") .nil ⟨by decide, simpleName rfl (by decide) rfl (by decide) (by decide), notReserved_z, nofun⟩
      (.quote (src := r!"!") (out := b!"!") (dq1 _ (by decide) (by decide) (by decide) (by decide)))

example : ∃ p ps', parse { text := nestedText } true = .value (.concat p ps') ∧ bareL ps' = nested :=
  C53_parts rfl rfl (by decide) (by decide) nested_parts ⟨_, .tail _ (.head _)⟩

/-- What the model computes. -/
example : see nestedText = .ast
    b!"(block (concat \"a\\n\" (str (+ (var \"x\") (concat \"b\" (str (var \"y\"))))) (str (var \"z\")) \"!\"))" := by decide +kernel

example : see b!"\"${a[1]} ${b.c} ${d.e |$x| { $x }} ${f + 1}\"" = .ast
    b!"(block (concat (str (access (var \"a\") 1)) \" \" (str (call-method {:functor (. (var \"b\") (qn \"c\")) :args []})) \" \" (str (call-method {:functor (. (var \"d\") (qn \"e\")) :args [] :block (lambda {:params {:x {}} :body [(var \"x\")]})})) \" \" (str (+ (qn \"f\") 1))))" := by
  decide +kernel

/-- After an empty expression the white space in the string is lost (finding F42) … -/
example : see b!"\"${}  text\"" = .ast b!"(block (concat (str nil) \"text\"))" := by decide +kernel

/-- … and what looks like a comment swallows the closing quote. -/
example : see b!"\"${}#text\"" = .issue .lexUnterminatedString 0 := by decide +kernel

/-- With an expression in the braces nothing is lost. -/
example : see b!"\"${a}  #text\"" = .ast b!"(block (concat (str (var \"a\")) \"  #text\"))" := by decide +kernel

end PP.Props
