import Verif.Lemmas.Source
import Verif.Lemmas.Operators
import Verif.Props.Parse

/-!
# C35, C51, C52: the language

`Source env ts` (Spec/Layout.lean): the source consists of the tokens `ts`, separated by white space and comments.
`G [] n r ts` (Spec/Grammar.lean): the tokens `ts` are a phrase of kind `n` with the meaning `r`.  `bare` removes the positions
from a tree.
-/

namespace PP.Props
open PP.Spec

/-- `Parse` computes what a deep enough recursion computes. -/
theorem parseFrom_of {env : Env} {s t : St} {single : Bool} {e : Expr} (h : EvP env (fun self => parseProgram self single) s e t) :
    parseFrom env s single = (.value e, t) := by
  obtain ⟨k, h⟩ := h.ex
  have h1 : parseWith k env s single = (.value e, t) := by
    unfold parseWith
    rw [h k (Nat.le_refl _)]
  rw [← (C26_depth_irrelevant env s single k).2 (by rw [h1]; simp), h1]

/-! ## C51: the parser accepts the language and gives its trees the right meaning -/

/-- C51: a source that is a layout of a program is accepted, and the tree is the meaning of the program. -/
theorem C51_programs {env : Env} {ts : List T} {ss : List Expr} (hepp : env.epp = false)
    (hfac : env.hasFactory = true) (hs : Source env ts) (hg : G [] .stmts ss ts) :
    ∃ p b ds, parse env false = .value (.program p b ds) ∧ bare b = .block z ss := by
  obtain ⟨p, b, ds, t, h1, h2, -⟩ := program_of hepp hfac hs hg (s := {}) ⟨rfl, rfl, rfl⟩
  exact ⟨p, b, ds, by unfold parse; rw [parseFrom_of h1], h2⟩

/-- C51: the same for a single expression. -/
theorem C51_expressions {env : Env} {ts : List T} {e : Expr} (hepp : env.epp = false)
    (hfac : env.hasFactory = true) (hs : Source env ts) (hg : G [] (.bin .rel) e ts) :
    ∃ a, parse env true = .value a ∧ bare a = e := by
  obtain ⟨a, t, h1, h2⟩ := single_of hepp hfac hs hg (s := {}) ⟨rfl, rfl, rfl⟩
  exact ⟨a, by unfold parse; rw [parseFrom_of h1], h2⟩

/-- C51: the language is not ambiguous: a source is a layout of programs with one meaning. -/
theorem C51_unambiguous {env : Env} {ts ts' : List T} {ss ss' : List Expr} (hepp : env.epp = false)
    (hfac : env.hasFactory = true) (hs : Source env ts) (hg : G [] .stmts ss ts) (hs' : Source env ts') (hg' : G [] .stmts ss' ts') :
    ss = ss' := by
  obtain ⟨p, b, ds, h1, h2⟩ := C51_programs hepp hfac hs hg
  obtain ⟨p', b', ds', h1', h2'⟩ := C51_programs hepp hfac hs' hg'
  rw [h1] at h1'
  injection h1' with h3
  injection h3 with _ h3 _
  rw [h3, h2'] at h2
  injection h2 with _ h2
  exact h2.symm

/-! ## C52: white space and comments do not matter -/

/-- C52: two sources with the same tokens, however they are laid out, have the same tree up to positions. -/
theorem C52_layout {env env' : Env} {ts : List T} {ss : List Expr} (hepp : env.epp = false)
    (hfac : env.hasFactory = true) (hepp' : env'.epp = false) (hfac' : env'.hasFactory = true)
    (hs : Source env ts) (hs' : Source env' ts) (hg : G [] .stmts ss ts) :
    ∃ p b ds p' b' ds', parse env false = .value (.program p b ds) ∧ parse env' false = .value (.program p' b' ds') ∧ bare b = bare b' := by
  obtain ⟨p, b, ds, h1, h2⟩ := C51_programs hepp hfac hs hg
  obtain ⟨p', b', ds', h1', h2'⟩ := C51_programs hepp' hfac' hs' hg
  exact ⟨p, b, ds, p', b', ds', h1, h1', by rw [h2, h2']⟩

/-! ## C35: operators -/

/-- C35: an operator expression, written with parentheses where precedence and associativity require them (and
anywhere else), is read as that expression. -/
theorem C35_operators {env : Env} {ts : List T} {e : Expr} (hepp : env.epp = false)
    (hfac : env.hasFactory = true) (hs : Source env ts) (he : Written 0 e ts) :
    ∃ a, parse env true = .value a ∧ dropParens (bare a) = e := by
  obtain ⟨e', h1, h2⟩ := written_at he
  obtain ⟨a, h3, h4⟩ := C51_expressions hepp hfac hs h1
  exact ⟨a, h3, by rw [h4]; exact h2⟩

/-! ## Concrete cases -/

/-- The characters of a literal. -/
local macro:max "r!" s:str : term => do
  let cs ← s.getString.toList.toArray.mapM fun c => `($(Lean.Syntax.mkNumLit (toString c.toNat)))
  `(([$cs,*] : List Nat))

section
variable {tok : Tok} {rest : List Nat}

theorem endsName (h1 : isLetterOrDigit (headC rest) = false) (h2 : headC rest ≠ 58) (h3 : headC rest ≠ 45) : EndsName tok rest := by
  refine ⟨h1, ?_, ?_⟩
  · rintro r rfl; exact h2 rfl
  · rintro - k r rfl; rw [List.replicate_succ] at h3; exact absurd rfl h3

theorem simpleName {f : Nat → Bool} {c : Nat} {src : List Nat} (hc : f c = true) (hs : ∀ x ∈ src, isLetterOrDigit x = true)
    (h1 : isLetterOrDigit (headC rest) = false) (h2 : headC rest ≠ 58) (h3 : headC rest ≠ 45) : IsName tok f (c :: src) rest :=
  ⟨[], c, src, .inl rfl, rfl, hc, .done hs, endsName h1 h2 h3⟩

end

/-- A token on a line without heredocs. -/
theorem plainToken {env : Env} {fin : Option (List Nat)} {prev : Tok} {first nl : Bool} {ws cs rest : List Nat} {t : T} {ts : List T} (hw : White ws nl) (hs : Spelled env t cs rest)
    (hf : Fits env.epp prev first false ws nl t rest) (h : Layout env fin t.tok false none ts rest) : Layout env fin prev first none (t :: ts) (ws ++ (cs ++ rest)) :=
  .token hw hs hf (fun h => absurd rfl h) h

/-- A class with a parameter, a comment and an assignment. -/
def program : List T :=
  [.word .kClass, .name b!"a", .sym .lp, .var b!"x", .sym .rp, .sym .lc, .var b!"y", .sym .assign, .int 10 1, .sym .add, .int 10 2,
   .sym .multiply, .var b!"x", .sym .rc]

theorem program_source : Source { text := b!"class a($x) { # the\n $y = 1 + 2*$x\n}" } program := by
  refine ⟨r!"class a($x) { # the\n $y = 1 + 2*$x\n}", by decide, by decide, ?_⟩
  refine plainToken (ws := []) (cs := r!"class") .nil ⟨by decide, nofun, simpleName rfl (by decide) rfl (by decide) (by decide)⟩ trivial ?_
  refine plainToken (ws := r!" ") (cs := r!"a") (.blank (.inl rfl) .nil) ⟨by decide, simpleName rfl (by decide) rfl (by decide) (by decide), ?_, nofun⟩ trivial ?_
  · rintro (h | ⟨k, hk, -⟩)
    · revert h; decide
    · cases k <;> revert hk <;> decide
  refine plainToken (ws := []) (cs := r!"(") .nil ⟨rfl, by decide, by decide, nofun⟩ ⟨rfl, rfl⟩ ?_
  refine plainToken (ws := []) (cs := r!"$x") .nil ⟨r!"x", rfl, by decide, simpleName rfl (by decide) rfl (by decide) (by decide)⟩ trivial ?_
  refine plainToken (ws := []) (cs := r!")") .nil ⟨rfl, by decide, by decide, nofun⟩ trivial ?_
  refine plainToken (ws := r!" ") (cs := r!"{") (.blank (.inl rfl) .nil) ⟨rfl, by decide, by decide, nofun⟩ (by simp [Fits, T.tok]) ?_
  refine plainToken (ws := r!" # the\n ") (cs := r!"$y") (.blank (.inl rfl) (.line (body := r!" the") (by decide) (.blank (.inl rfl) .nil)))
    ⟨r!"y", rfl, by decide, simpleName rfl (by decide) rfl (by decide) (by decide)⟩ trivial ?_
  refine plainToken (ws := r!" ") (cs := r!"=") (.blank (.inl rfl) .nil) ⟨rfl, by decide, by decide, nofun⟩ trivial ?_
  refine plainToken (ws := r!" ") (cs := r!"1") (.blank (.inl rfl) .nil)
    (.inl ⟨rfl, by decide, ⟨c%'1', [], rfl, by decide, by decide, by decide⟩, rfl, by decide, by decide, by decide⟩) trivial ?_
  refine plainToken (ws := r!" ") (cs := r!"+") (.blank (.inl rfl) .nil) ⟨rfl, by decide, by decide, fun _ => rfl⟩ trivial ?_
  refine plainToken (ws := r!" ") (cs := r!"2") (.blank (.inl rfl) .nil)
    (.inl ⟨rfl, by decide, ⟨c%'2', [], rfl, by decide, by decide, by decide⟩, rfl, by decide, by decide, by decide⟩) trivial ?_
  refine plainToken (ws := []) (cs := r!"*") .nil ⟨rfl, by decide, by decide, nofun⟩ trivial ?_
  refine plainToken (ws := []) (cs := r!"$x") .nil ⟨r!"x", rfl, by decide, simpleName rfl (by decide) rfl (by decide) (by decide)⟩ trivial ?_
  refine plainToken (ws := r!"\n") (cs := r!"}") (.newline .nil) ⟨rfl, by decide, by decide, nofun⟩ trivial ?_
  exact .done .nil

/-- `$y = 1 + 2 * $x` -/
def programBody : Expr :=
  .bin z (.assignment b!"=") (.un z .variable (.qname z b!"y"))
    (.bin z (.arithmetic b!"+") (.integer z 10 1) (.bin z (.arithmetic b!"*") (.integer z 10 2) (.un z .variable (.qname z b!"x"))))

def programMeaning : List Expr :=
  [.namedDef z (.hostClass []) b!"a" [.parameter z b!"x" none none false] (.block z [programBody])]

theorem program_grammar : G [] .stmts programMeaning program := by
  have x : ∀ ns v, G ns (.prim false) (.un z .variable (.qname z v)) [.var v] := fun ns v => .atom (.leaf rfl)
  have i : ∀ ns v, G ns (.prim false) (.integer z 10 v) [.int 10 v] := fun ns v => .atom (.leaf rfl)
  have up : ∀ {ns e ts}, G ns (.prim false) e ts → G ns (.bin .mult) e ts := fun h =>
    .operand (.opdTighter rfl (.operand (.opdTighter rfl (.operand (.opdIn (.primary (.prim h)))))))
  have up2 : ∀ {ns e ts}, G ns (.bin .additive) e ts → G ns (.bin .or) e ts := fun h =>
    .operand (.opdTighter (l' := .and) rfl (.operand (.opdTighter (l' := .compare) rfl (.operand (.opdTighter (l' := .equal) rfl (.operand (.opdTighter (l' := .shift) rfl (.operand (.opdTighter (l' := .additive) rfl h)))))))))
  have body : ∀ ns, G ns (.bin .rel) programBody
      ([.var b!"y"] ++ .sym .assign :: ([.int 10 1] ++ .sym .add :: ([.int 10 2] ++ .sym .multiply :: [.var b!"x"]))) := fun ns =>
    .operand (.opdRel (.assign (.noResource (.sel (.noSelector (up2 (.operand (.opdTighter rfl (up (x _ _))))))) (by simp)) rfl
      (.noAssign (.noResource (.sel (.noSelector (up2 (.binary (.operand (.opdTighter rfl (up (i _ _)))) rfl
        (.opdTighter rfl (.binary (up (i _ _)) rfl (.opdTighter rfl (.operand (.opdTighter rfl (.operand (.opdIn (.primary (.prim (x _ _)))))))))))))) (by simp)))))
  have blk : G [b!"a"] .block (.block z [programBody])
      (.sym .lc :: (([.var b!"y"] ++ .sym .assign :: ([.int 10 1] ++ .sym .add :: ([.int 10 2] ++ .sym .multiply :: [.var b!"x"])) ++ ([] ++ [])) ++ [.sym .rc])) :=
    .block (.stmt (body _) rfl (.inl rfl) nofun .noStmt)
  have cls : G [] .atom (.namedDef z (.hostClass []) b!"a" [.parameter z b!"x" none none false] (.block z [programBody])) program :=
    .class_ (t := .name b!"a") rfl (.params rfl (.one (.param .noTyp .noDflt))) .noParent blk
  have := G.stmt (semi := []) (ns := []) (.operand (.opdRel (.noAssign (.noResource (.sel (.noSelector (up2 (.operand (.opdTighter rfl (up (.atom cls))))))) (by simp [program])))))
    rfl (.inl rfl) (by intro t h; cases h) .noStmt
  simp only [List.append_nil] at this
  exact this

/-- What C51 says about it. -/
example : ∃ p b ds, parse { text := b!"class a($x) { # the\n $y = 1 + 2*$x\n}" } false = .value (.program p b ds) ∧
    bare b = .block z programMeaning :=
  C51_programs rfl rfl program_source program_grammar

/-- And what the model computes. -/
example : see b!"class a($x) { # the\n $y = 1 + 2*$x\n}" = .ast
    b!"(block (class {:name \"a\" :params {:x {}} :body [(= (var \"y\") (+ 1 (* 2 (var \"x\"))))]}))" := by decide +kernel

/-- `! $a == $b + 1 * ($b - 2) - 3`: precedence, associativity and parentheses. -/
example : Written 0
    (.bin z (.comparison b!"==") (.un z .not (.un z .variable (.qname z b!"a")))
      (.bin z (.arithmetic b!"-")
        (.bin z (.arithmetic b!"+") (.un z .variable (.qname z b!"b"))
          (.bin z (.arithmetic b!"*") (.integer z 10 1)
            (.bin z (.arithmetic b!"-") (.un z .variable (.qname z b!"b")) (.integer z 10 2)))) (.integer z 10 3)))
    [.sym .not, .var b!"a", .sym .equal, .var b!"b", .sym .add, .int 10 1, .sym .multiply, .sym .lp, .var b!"b", .sym .subtract,
     .int 10 2, .sym .rp, .sym .subtract, .int 10 3] := by
  have v : ∀ n v, Written n (.un z .variable (.qname z v)) [.var v] := fun n v => .leaf rfl (by simp)
  have i : ∀ n v, Written n (.integer z 10 v) [.int 10 v] := fun n v => .leaf rfl (by simp)
  exact .binary (l := .equal) (t := .sym .equal) rfl (by decide) (.not (by decide) (v _ _))
    (.binary (l := .additive) (t := .sym .subtract) rfl (by decide)
      (.binary (l := .additive) (t := .sym .add) (tb := _) rfl (by decide) (v _ _)
        (.binary (l := .mult) (t := .sym .multiply) rfl (by decide) (i _ _)
          (.parens (p := .sym .lp) rfl (.binary (l := .additive) (t := .sym .subtract) rfl (by decide) (v _ _) (i _ _)))))
      (i _ _))

end PP.Props
