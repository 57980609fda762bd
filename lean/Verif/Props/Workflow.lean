import Verif.Props.Interpolation

/-!
# C56: workflows

With the option for workflows the words `action`, `resource`, `stateHandler` and `workflow` begin the definition of a step.  The rules for steps are
those of `G` (Spec/Grammar.lean) with a token `.style k`; `Spelled` (Spec/Layout.lean) says that the four words are such tokens with the option, and
names without it.
-/
namespace PP.Props
open PP.Spec

section
variable {env : Env} {ts tp tb : List T} {t : T} {n : GoStr} {ps : List Expr} {b : Option Expr} {k : StepStyle}

/-- C56: a program that consists of one step. -/
theorem C56_step (hepp : env.epp = false) (hfac : env.hasFactory = true) (hs : Source env (.style k :: t :: (tp ++ tb)))
    (hn : attributeOf t = some n) (hc : continues t.tok = false) (hp : G (inside [] k n) (.stepHead n) ps tp) (hb : G (inside [] k n) (.stepBody k) b tb) :
    ∃ p e ds, parse env false = .value (.program p e ds) ∧ bare e = .block z [.step z n k (asHash ps) b] := by
  have hg : G [] .stmts [.step z (qualified ([] ++ [n])) k (asHash ps) b] ((.style k :: t :: (tp ++ tb)) ++ ([] ++ [])) :=
    .stmt (.operand (.opdRel (.noAssign (.step hn hc hp hb)))) rfl (.inl rfl) (by intro t h; cases h) .noStmt
  simp only [List.append_nil] at hg
  obtain ⟨p, e, ds, h1, h2⟩ := C51_programs hepp hfac hs hg
  exact ⟨p, e, ds, h1, h2⟩

/-- C56: a workflow consists of its steps, in the order in which they are written, and every step carries the names of the workflows around it. -/
theorem C56_workflow {as : List Expr} {ta : List T} (hepp : env.epp = false) (hfac : env.hasFactory = true)
    (hs : Source env (.style .workflow :: t :: (tp ++ .sym .lc :: (ta ++ [.sym .rc])))) (hn : attributeOf t = some n) (hc : continues t.tok = false)
    (hp : G [n] (.stepHead n) ps tp) (ha : G [n] .activities as ta) :
    ∃ p e ds, parse env false = .value (.program p e ds) ∧
      bare e = .block z [.step z n .workflow (asHash ps) (if as.isEmpty then none else some (.block z as))] :=
  C56_step hepp hfac hs hn hc hp (.workflowBody ha)

end

/-! ## Concrete cases -/

/-- The characters of a literal. -/
local macro:max "r!" s:str : term => do
  let cs ← s.getString.toList.toArray.mapM fun c => `($(Lean.Syntax.mkNumLit (toString c.toNat)))
  `(([$cs,*] : List Nat))

def flowText : GoStr := b!"workflow w { parameters => ($p), returns => ($q = r) } {\n action a { } { $p }\n resource b { } $z = times($p) |$i| { c => [$p] }\n}"

def flowHead : List T :=
  [.sym .lc, .name b!"parameters", .sym .farrow, .sym .lp, .var b!"p", .sym .rp, .sym .comma, .name b!"returns", .sym .farrow, .sym .lp, .var b!"q",
   .sym .assign, .name b!"r", .sym .rp, .sym .rc]

def flowSteps : List T :=
  [.style .action, .name b!"a", .sym .lc, .sym .rc, .sym .lc, .var b!"p", .sym .rc,
   .style .resource, .name b!"b", .sym .lc, .sym .rc, .var b!"z", .sym .assign, .name b!"times", .sym .lp, .var b!"p", .sym .rp,
   .sym .pipe, .var b!"i", .sym .pipeEnd, .sym .lc, .name b!"c", .sym .farrow, .sym .listStart, .var b!"p", .sym .rb, .sym .rc]

def flowHeadMeaning : List Expr :=
  [.keyedEntry z (.qname z b!"parameters") (.list z [.parameter z b!"p" none none false]),
   .keyedEntry z (.qname z b!"returns") (.list z [.parameter z b!"q" (some (.string z b!"r")) none false])]

def flowStepsMeaning : List Expr :=
  [.step z b!"w::a" .action none (some (.block z [varOf b!"p"])),
   .step z b!"w::b" .resource
     (some (.hash z [iterationProperty b!"z" b!"times" [.parameter z b!"p" none none false] [.parameter z b!"i" none none false]]))
     (some (.hash z [.keyedEntry z (.qname z b!"c") (.list z [deferredNew [.string z b!"$p"]])]))]

section
variable {env : Env} {fin : Option (List Nat)} {prev : Tok} {first nl : Bool} {ws rest : List Nat} {ts : List T}

theorem symToken {k : Tok} {cs : List Nat} (hw : White ws nl) (h1 : cs = symText k) (h2 : cs ≠ []) (h3 : headC rest ∉ absorbs env.epp k)
    (h4 : (k == .subtract || k == .add) = false) (hf : Fits env.epp prev first false ws nl (.sym k) rest) (h : Layout env fin k false none ts rest) :
    Layout env fin prev first none (.sym k :: ts) (ws ++ (cs ++ rest)) :=
  plainToken hw ⟨h1, h2, h3, by rintro (rfl | rfl) <;> cases h4⟩ hf h

theorem varToken {w : List Nat} (hw : White ws nl) (hn : IsName .variable isLowercaseLetter w rest)
    (h : Layout env fin .variable false none ts rest) : Layout env fin prev first none (.var (utf8 w) :: ts) (ws ++ ((c%'$' :: w) ++ rest)) :=
  plainToken hw ⟨w, rfl, rfl, hn⟩ trivial h

theorem nameToken {w : List Nat} (hw : White ws nl) (hn : IsName .identifier isLowercaseLetter w rest) (h1 : utf8 w ∉ [b!"true", b!"false", b!"default"])
    (h2 : ∀ k, spell k ≠ utf8 w) (h3 : ∀ k, utf8 w ≠ styleName k)
    (h : Layout env fin .identifier false none ts rest) : Layout env fin prev first none (.name (utf8 w) :: ts) (ws ++ (w ++ rest)) :=
  plainToken hw ⟨rfl, hn, (by
                          rintro (h | ⟨k, hk, -⟩)
                          · exact h1 h
                          · exact h2 k hk), fun _ => h3⟩ trivial h

end

theorem noSkip_of {rs : List Nat} (h1 : isBlank (headC rs) = false) (h2 : headC rs ≠ 35) (h3 : headC rs ≠ 47) : NoSkip rs :=
  ⟨h1, h2, by rintro r rfl; exact h3 rfl⟩

set_option maxRecDepth 2000 in
theorem flow_source : Source { text := flowText, workflow := true }
    (.style .workflow :: .name b!"w" :: (flowHead ++ .sym .lc :: (flowSteps ++ [.sym .rc]))) := by
  refine ⟨r!"workflow w { parameters => ($p), returns => ($q = r) } {\n action a { } { $p }\n resource b { } $z = times($p) |$i| { c => [$p] }\n}", by decide, by decide, ?_⟩
  have b : White r!" " false := .blank (.inl rfl) .nil
  have n : White r!"\n " true := .newline b
  refine plainToken (ws := []) (cs := r!"workflow") .nil ⟨rfl, by decide, simpleName rfl (by decide) rfl (by decide) (by decide)⟩ trivial ?_
  refine nameToken (w := r!"w") b (simpleName rfl (by decide) rfl (by decide) (by decide)) (by decide) (fun k => by cases k <;> decide) (fun k => by cases k <;> decide) ?_
  refine symToken (cs := r!"{") b rfl (by decide) (by decide) rfl (by simp [Fits]) ?_
  refine nameToken (w := r!"parameters") b (simpleName rfl (by decide) rfl (by decide) (by decide)) (by decide) (fun k => by cases k <;> decide) (fun k => by cases k <;> decide) ?_
  refine symToken (cs := r!"=>") b rfl (by decide) (by decide) rfl trivial ?_
  refine symToken (k := .lp) (cs := r!"(") b rfl (by decide) (by decide) rfl ⟨rfl, rfl⟩ ?_
  refine varToken (w := r!"p") .nil (simpleName rfl (by decide) rfl (by decide) (by decide)) ?_
  refine symToken (cs := r!")") .nil rfl (by decide) (by decide) rfl trivial ?_
  refine symToken (cs := r!",") .nil rfl (by decide) (by decide) rfl trivial ?_
  refine nameToken (w := r!"returns") b (simpleName rfl (by decide) rfl (by decide) (by decide)) (by decide) (fun k => by cases k <;> decide) (fun k => by cases k <;> decide) ?_
  refine symToken (cs := r!"=>") b rfl (by decide) (by decide) rfl trivial ?_
  refine symToken (k := .lp) (cs := r!"(") b rfl (by decide) (by decide) rfl ⟨rfl, rfl⟩ ?_
  refine varToken (w := r!"q") .nil (simpleName rfl (by decide) rfl (by decide) (by decide)) ?_
  refine symToken (cs := r!"=") b rfl (by decide) (by decide) rfl trivial ?_
  refine nameToken (w := r!"r") b (simpleName rfl (by decide) rfl (by decide) (by decide)) (by decide) (fun k => by cases k <;> decide) (fun k => by cases k <;> decide) ?_
  refine symToken (cs := r!")") .nil rfl (by decide) (by decide) rfl trivial ?_
  refine symToken (cs := r!"}") b rfl (by decide) (by decide) rfl trivial ?_
  refine symToken (cs := r!"{") b rfl (by decide) (by decide) rfl (by simp [Fits]) ?_
  refine plainToken (ws := r!"\n ") (cs := r!"action") n ⟨rfl, by decide, simpleName rfl (by decide) rfl (by decide) (by decide)⟩ trivial ?_
  refine nameToken (w := r!"a") b (simpleName rfl (by decide) rfl (by decide) (by decide)) (by decide) (fun k => by cases k <;> decide) (fun k => by cases k <;> decide) ?_
  refine symToken (cs := r!"{") b rfl (by decide) (by decide) rfl (by simp [Fits]) ?_
  refine symToken (cs := r!"}") b rfl (by decide) (by decide) rfl trivial ?_
  refine symToken (cs := r!"{") b rfl (by decide) (by decide) rfl (by simp [Fits]) ?_
  refine varToken (w := r!"p") b (simpleName rfl (by decide) rfl (by decide) (by decide)) ?_
  refine symToken (cs := r!"}") b rfl (by decide) (by decide) rfl trivial ?_
  refine plainToken (ws := r!"\n ") (cs := r!"resource") n ⟨rfl, by decide, simpleName rfl (by decide) rfl (by decide) (by decide)⟩ trivial ?_
  refine nameToken (w := r!"b") b (simpleName rfl (by decide) rfl (by decide) (by decide)) (by decide) (fun k => by cases k <;> decide) (fun k => by cases k <;> decide) ?_
  refine symToken (cs := r!"{") b rfl (by decide) (by decide) rfl (by simp [Fits]) ?_
  refine symToken (cs := r!"}") b rfl (by decide) (by decide) rfl trivial ?_
  refine varToken (w := r!"z") b (simpleName rfl (by decide) rfl (by decide) (by decide)) ?_
  refine symToken (cs := r!"=") b rfl (by decide) (by decide) rfl trivial ?_
  refine nameToken (w := r!"times") b (simpleName rfl (by decide) rfl (by decide) (by decide)) (by decide) (fun k => by cases k <;> decide) (fun k => by cases k <;> decide) ?_
  refine symToken (cs := r!"(") .nil rfl (by decide) (by decide) rfl ⟨rfl, rfl⟩ ?_
  refine varToken (w := r!"p") .nil (simpleName rfl (by decide) rfl (by decide) (by decide)) ?_
  refine symToken (cs := r!")") .nil rfl (by decide) (by decide) rfl trivial ?_
  refine symToken (cs := r!"|") b rfl (by decide) (by decide) rfl ⟨by simp, c%'$', ⟨[], _, false, rfl, .nil, noSkip_of rfl (by decide) (by decide), rfl, fun _ => rfl⟩, by decide⟩ ?_
  refine varToken (w := r!"i") .nil (simpleName rfl (by decide) rfl (by decide) (by decide)) ?_
  refine symToken (cs := r!"|") .nil rfl (by decide) (by decide) rfl (.inr ⟨c%'{', ⟨r!" ", _, false, rfl, b, noSkip_of rfl (by decide) (by decide), rfl, fun _ => rfl⟩, .inl rfl⟩) ?_
  refine symToken (cs := r!"{") b rfl (by decide) (by decide) rfl (by simp [Fits]) ?_
  refine nameToken (w := r!"c") b (simpleName rfl (by decide) rfl (by decide) (by decide)) (by decide) (fun k => by cases k <;> decide) (fun k => by cases k <;> decide) ?_
  refine symToken (cs := r!"=>") b rfl (by decide) (by decide) rfl trivial ?_
  refine symToken (cs := r!"[") b rfl (by decide) (by decide) rfl (.inl (by simp)) ?_
  refine varToken (w := r!"p") .nil (simpleName rfl (by decide) rfl (by decide) (by decide)) ?_
  refine symToken (cs := r!"]") .nil rfl (by decide) (by decide) rfl trivial ?_
  refine symToken (cs := r!"}") b rfl (by decide) (by decide) rfl trivial ?_
  refine symToken (cs := r!"}") (.newline .nil) rfl (by decide) (by decide) rfl trivial ?_
  exact .done .nil

theorem flow_head : G [b!"w"] (.stepHead b!"w") flowHeadMeaning flowHead :=
  .stepHead (ti := []) (.more (.propParameters rfl (.one (.param .noTyp .noDflt))) (.one (.propReturns rfl (.one (.output .noTyp (.source rfl)))))) .noIteration

theorem flow_steps : G [b!"w"] .activities flowStepsMeaning flowSteps := by
  have v : ∀ ns n, G ns (.bin .rel) (varOf n) [.var n] := fun ns n => atom_rel (.leaf rfl) (by simp)
  have act : G [b!"w"] (.stepBody .action) (some (.block z [varOf b!"p"])) (.sym .lc :: (([.var b!"p"] ++ ([] ++ [])) ++ [.sym .rc])) :=
    .actionBody (.inl rfl) (.block (.stmt (v _ _) rfl (.inl rfl) nofun .noStmt))
  have atm : G [b!"w"] .atom (.list z (gather [varOf b!"p"])) (.sym .listStart :: ([.var b!"p"] ++ [.sym .rb])) := .list rfl (.one (.arg (.keyRel (v _ _) (by intro t h; cases h; rfl))))
  have lst : G [b!"w"] .expr (.list z [varOf b!"p"]) (.sym .listStart :: ([.var b!"p"] ++ [.sym .rb])) :=
    .sel (.noSelector (up2 (.operand (.opdTighter rfl (up (.atom atm))))))
  have res : G [b!"w"] (.stepBody .resource) (some (.hash z [.keyedEntry z (.qname z b!"c") (.list z [deferredNew [.string z b!"$p"]])])) _ :=
    .resourceBody (.one (.state (t := .name b!"c") rfl lst))
  have it : G [b!"w"] (.stepHead b!"b") _ (.sym .lc :: ([] ++ .sym .rc :: _)) :=
    .stepHead (n := b!"b") (ps := []) .none (.namedIteration (m := b!"z") (f := b!"times") (p := .sym .lp) rfl rfl (.one (.param (v := b!"p") .noTyp .noDflt))
      (.one (.param (v := b!"i") .noTyp .noDflt)))
  exact .activity (k := .action) (t := .name b!"a") rfl (.stepHead (ti := []) .none .noIteration) act (.activity (k := .resource) (t := .name b!"b") (ta := []) rfl it res .noActivity)

/-- What C56 says about it. -/
example : ∃ p e ds, parse { text := flowText, workflow := true } false = .value (.program p e ds) ∧
    bare e = .block z [.step z b!"w" .workflow (some (.hash z flowHeadMeaning)) (some (.block z flowStepsMeaning))] :=
  C56_workflow rfl rfl flow_source rfl rfl flow_head flow_steps

/-- And what the model computes. -/
example : seeWorkflow flowText = .ast
    b!"(block (step {:name \"w\" :style \"workflow\" :properties (hash (=> (qn \"parameters\") (array (param {:name \"p\"}))) (=> (qn \"returns\") (array (param {:name \"q\" :value \"r\"})))) :definition (block (step {:name \"w::a\" :style \"action\" :definition (block (var \"p\"))}) (step {:name \"w::b\" :style \"resource\" :properties (hash (=> (qn \"iteration\") (hash (=> (qn \"name\") (qn \"z\")) (=> (qn \"function\") (qn \"times\")) (=> (qn \"params\") (array (param {:name \"p\"}))) (=> (qn \"vars\") (array (param {:name \"i\"})))))) :definition (hash (=> (qn \"c\") (array (call-method {:functor (. (qr \"Deferred\") (qn \"new\")) :args [\"$p\"]}))))}))}))" := by
  decide +kernel

/-- C56, a defect: after one of the four words, used as an expression, the current token is read again.  (`$y` is a statement of its own.) -/
theorem C56_style_word_repeats :
    seeWorkflow b!"$x = action\n$y = 1" = .ast b!"(block (= (var \"x\") (qn \"action\")) (var \"y\") (= (var \"y\") 1))" ∧
    see b!"$x = action\n$y = 1" = .ast b!"(block (= (var \"x\") (qn \"action\")) (= (var \"y\") 1))" := by decide +kernel

/-- C56, a defect: what follows `parameters =>` or the name of an iterator is dropped if it is not a list in parentheses; in the list of an
iterator there can only be variables. -/
theorem C56_dropped_parameters :
    seeWorkflow b!"action a { parameters => 42 } { }" = seeWorkflow b!"action a { parameters => () } { }" ∧
    (∃ pn, seeWorkflow b!"action a { parameters => 42 } { }" = .ast pn) ∧
    seeWorkflow b!"action a { } times 5 |$x| { }" = seeWorkflow b!"action a { } times() |$x| { }" ∧
    (∃ pn, seeWorkflow b!"action a { } times 5 |$x| { }" = .ast pn) ∧
    seeWorkflow b!"action a { } times(5) |$x| { }" = .issue .parseExpectedVariable 20 := by
  refine ⟨by decide +kernel, ⟨b!"(block (step {:name \"a\" :style \"action\" :properties (hash (=> (qn \"parameters\") (array))) :definition (block)}))", by decide +kernel⟩,
    by decide +kernel, ⟨b!"(block (step {:name \"a\" :style \"action\" :properties (hash (=> (qn \"iteration\") (hash (=> (qn \"name\") (qn \"a\")) (=> (qn \"function\") (qn \"times\")) (=> (qn \"params\") (array)) (=> (qn \"vars\") (array (param {:name \"x\"})))))) :definition (block)}))", by decide +kernel⟩,
    by decide +kernel⟩

/-- C56, a defect: the block of a call in the state of a resource is dropped, and `$1` becomes `'$'`. -/
theorem C56_deferred_loses :
    seeWorkflow b!"resource a { } { b => f(1) |$y| { $y } }" = seeWorkflow b!"resource a { } { b => f(1) }" ∧
    (∃ pn, seeWorkflow b!"resource a { } { b => f(1) }" = .ast pn) ∧
    seeWorkflow b!"resource a { } { b => $1 }" = seeWorkflow b!"resource a { } { b => $2 }" ∧
    (∃ pn, seeWorkflow b!"resource a { } { b => $1 }" = .ast pn) := by
  refine ⟨by decide +kernel, ⟨b!"(block (step {:name \"a\" :style \"resource\" :definition (hash (=> (qn \"b\") (call-method {:functor (. (qr \"Deferred\") (qn \"new\")) :args [\"f\" (array 1)]})))}))", by decide +kernel⟩,
    by decide +kernel, ⟨b!"(block (step {:name \"a\" :style \"resource\" :definition (hash (=> (qn \"b\") (call-method {:functor (. (qr \"Deferred\") (qn \"new\")) :args [\"$\"]})))}))", by decide +kernel⟩⟩

end PP.Props
