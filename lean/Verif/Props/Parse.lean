import Verif.Lemmas.Tree
import Verif.Props.Placement
import Verif.Props.Seen
import Verif.Lemmas.Mono

/-!
# C26, C27, C30 - C34, C43: what `Parse` gives

`parseFrom env s single` is `Parse` (parser/parser.go:162-173) on the source `env.text` with the
options in `env`, called on a parser in the state `s` that earlier calls left behind (any state at all);
it gives the outcome and the state left behind.  `parse` is the same on a fresh parser.  The expressions
of a tree are listed by `subexpressions` (C09).
-/

namespace PP.Props
open PP.Expr
set_option maxRecDepth 100000

/-! ## C26: `Parse` terminates -/

/-- C26: whatever the source, the options and the history of the parser, `Parse` comes to an end: the
recursion depth never reaches `parseFuel` (a quadratic function of the length of the source). -/
theorem C26_parse_terminates (env : Env) (s : St) (single : Bool) : (parseFrom env s single).1 ≠ .timeout := by
  intro h
  have h1 := parseFrom_spec env s single
  generalize parseFrom env s single = r at *
  obtain ⟨o, t⟩ := r
  simp only at h
  subst h
  exact h1

/-- `Parse` with the recursion depth limited to `depth`. -/
def parseWith (depth : Nat) (env : Env) (s : St) (single : Bool) : Outcome × St :=
  match parseProgram (run depth) single env s with
  | .ok e s' => (.value e, s')
  | .fail (.crash k) s' => (.panic k, s')
  | .fail .timeout s' => (.timeout, s')
  | .fail e s' => (.error e, s')

/-- C26: the limit on the recursion depth is an artefact of the model.  A run that does not hit its limit has
the same outcome and leaves the same state as `Parse`; and no larger limit than `parseFuel` is ever needed. -/
theorem C26_depth_irrelevant (env : Env) (s : St) (single : Bool) (depth : Nat) :
    (parseFuel env.text ≤ depth → parseWith depth env s single = parseFrom env s single) ∧
    ((parseWith depth env s single).1 ≠ .timeout → parseWith depth env s single = parseFrom env s single) := by
  have hz : parseWith (parseFuel env.text) env s single = parseFrom env s single := rfl
  have key : ∀ f g, f ≤ g → (parseWith f env s single).1 ≠ .timeout → parseWith f env s single = parseWith g env s single := by
    intro f g hfg hf
    rcases (mono_parseProgram (run_mono hfg) single).cases env s with ⟨t, h⟩ | h
    · exact absurd (by unfold parseWith; rw [h]) hf
    · unfold parseWith; rw [h]
  have h0 := C26_parse_terminates env s single
  rw [← hz] at h0 ⊢
  refine ⟨fun h => (key _ _ h h0).symm, fun h => ?_⟩
  rcases Nat.le_total depth (parseFuel env.text) with h1 | h1
  · exact key _ _ h1 h
  · exact (key _ _ h1 h0).symm

/-- A source with a heredoc, a definition and a lookahead that is taken back. -/
example : see b!"x {\n @(E):\nfoo\nE\n}\nclass a {}" =
    .ast b!"(block (resource {:type (qn \"x\") :bodies [{:title (heredoc {:text \"foo\\n\"}) :ops []}]}) (class {:name \"a\" :body []}))" := by
  decide +kernel

/-! ## C27: panics -/

/-- C27: a panic that escapes `Parse` is one of three: the slice of an empty heredoc with a `-` margin
(so the source contains `@(`), the type assertion on `type X = Y {}` (so the source contains `type`), and a
variable that is a number where a workflow parser expects a name.  Every other malformed input gives an
error value. -/
theorem C27_panics (env : Env) (s t : St) (single : Bool) (k : Crash)
    (h : parseFrom env s single = (.panic k, t)) :
    (k = .slice ∧ b!"@(" <:+: env.text) ∨ (k = .hashAssertion ∧ b!"type" <:+: env.text) ∨
      (k = .tokenString ∧ env.workflow = true) := by
  have h1 := parseFrom_spec env s single
  rw [h] at h1
  exact h1

/-- C27: a source without heredoc and without the word `type`, parsed without workflow support, gives a
program or an error. -/
theorem C27_value_or_error (env : Env) (s : St) (single : Bool) (hw : env.workflow = false)
    (hh : ¬ b!"@(" <:+: env.text) (ht : ¬ b!"type" <:+: env.text) :
    (∃ e, (parseFrom env s single).1 = .value e) ∨ ∃ e, (parseFrom env s single).1 = .error e := by
  cases hr : parseFrom env s single with
  | mk o t =>
    cases o with
    | value e => exact .inl ⟨e, rfl⟩
    | error e => exact .inr ⟨e, rfl⟩
    | timeout => exact absurd (by rw [hr]) (C26_parse_terminates env s single)
    | panic k =>
      rcases C27_panics env s t single k hr with h | h | h
      · exact absurd h.2 hh
      · exact absurd h.2 ht
      · rw [hw] at h; exact nomatch h.2

/-- C27 as stated in English does not hold: each of the three panics occurs. -/
theorem C27_panics_occur :
    see b!"@(X)\n-X" = .panic .slice ∧ see b!"type X = Foo {} + 1" = .panic .hashAssertion ∧
      seeWorkflow b!"action foo {} $1" = .panic .tokenString := by decide +kernel

/-- An ordinary syntax error is an error value. -/
example : see b!"$x = [1, 2" = .issue .parseExpectedOneOfTokens 10 := by decide +kernel

/-! ## C30: error locations -/

/-- C30: the location of an error is at most one past the end of the source. -/
theorem C30_error_location (env : Env) (s t : St) (single : Bool) (e : Err)
    (h : parseFrom env s single = (.error e, t)) :
    ∃ p, p ≤ env.text.length + 1 ∧ (e = .invalidUnicode p ∨ ∃ c, e = .issue c p) := by
  have h1 := parseFrom_spec env s single
  rw [h] at h1
  cases e with
  | issue c p => exact ⟨p, h1, .inr ⟨c, rfl⟩⟩
  | invalidUnicode p => exact ⟨p, h1, .inl rfl⟩
  | crash k => exact h1.elim
  | timeout => exact h1.elim

/-- The location one past the end does occur, after a heredoc that ends the source. -/
example : see b!"f(@(X)\na\nX" = .issue .parseExpectedOneOfTokens 11 ∧ (b!"f(@(X)\na\nX").length = 10 := by decide +kernel

/-! ## C31: options -/

/-- The options that allow an expression. -/
def Allowed (env : Env) : Expr → Prop
  | .step .. => env.workflow = true
  | .function _ true .. => env.tasks = true
  | .epp .. | .renderString .. | .un _ .render _ => env.epp = true
  | _ => True

theorem _root_.PP.Node.allowed {env : Env} {D : List Expr} {σ : Role} {e : Expr} (h : Node env D σ e) : Allowed env e := by
  induction h with
  | un _ _ h _ => rcases h with rfl | rfl | rfl | rfl | ⟨rfl, h⟩ <;> trivial
  | function _ _ h => unfold Allowed; split <;> first | trivial | (next hx => cases hx; exact h rfl)
  | activityStep => assumption
  | _ => first | trivial | assumption

theorem _root_.PP.Tree.allowed {env : Env} {D : List Expr} {e : Expr} (h : Tree env D e) : Allowed env e := by
  cases h with
  | node h => exact h.allowed
  | epp => assumption
  | _ => trivial

/-- C31: no step without workflow support, no plan without task support, no template expression outside
templates, neither in the program nor in its list of definitions. -/
theorem C31_options_gate (env : Env) (s t : St) (single : Bool) (e : Expr)
    (h : parseFrom env s single = (.value e, t)) : ∀ x ∈ subexpressions e, Allowed env x :=
  fun x hx => ((parsed_tree h).1.sub x hx).allowed

theorem C31_options_gate_definitions (env : Env) (s t : St) (e : Expr)
    (h : parseFrom env s false = (.value e, t)) :
    ∃ p b ds, e = .program p b ds ∧ ∀ d ∈ ds, ∀ x ∈ subexpressions d, Allowed env x := by
  have h1 := parseFrom_spec env s false
  rw [h] at h1
  obtain ⟨h1, h2⟩ := h1
  rw [if_neg (by decide)] at h2
  obtain ⟨b, rfl, -⟩ := h2
  exact ⟨_, b, _, rfl, fun d hd x hx => ((Tree.node (h1.defs d hd).2).sub x hx).allowed⟩

/-- With the options the expressions do occur. -/
example : seeWorkflow b!"action foo {} {}" = .ast b!"(block (step {:name \"foo\" :style \"action\" :definition (block)}))" ∧
    seeTasks b!"plan foo {}" = .ast b!"(block (plan {:name \"foo\" :body []}))" ∧
    seeEpp b!"a <%= 1 %> b" = .ast b!"(lambda {:body [(epp (render-s \"a \") (render 1) (render-s \" b\"))]})" := by
  decide +kernel

/-! ## C32: definitions -/

/-- `x` is a step or function in the body of a workflow step contained in `e`. -/
def ActivityIn (e x : Expr) : Prop :=
  ∃ p n ps r acts, Expr.step p n .workflow ps (some (.block r acts)) ∈ subexpressions e ∧ x ∈ acts

theorem ActivityIn.up {e k x : Expr} (hk : k ∈ e.kids) (h : ActivityIn k x) : ActivityIn e x := by
  obtain ⟨p, n, ps, r, acts, h1, h2⟩ := h
  exact ⟨p, n, ps, r, acts, mem_subexpressions_kid hk h1, h2⟩

theorem forall_sub {e : Expr} {P : Expr → Prop} :
    (∀ x ∈ subexpressions e, P x) ↔ P e ∧ ∀ k ∈ e.kids, ∀ x ∈ subexpressions k, P x := by
  rw [subexpressions, List.forall_mem_cons, allContents_kids]
  refine and_congr_right fun _ => ?_
  constructor
  · exact fun h k hk x hx => h x (List.mem_flatMap.2 ⟨k, hk, hx⟩)
  · intro h x hx
    obtain ⟨k, hk, hx⟩ := List.mem_flatMap.1 hx
    exact h k hk x hx

/-- A definition in the tree is listed, or it is an activity. -/
def Listed (D : List Expr) (e : Expr) : Prop :=
  ∀ x ∈ subexpressions e, x.isDefinition = true → x ∈ D ∨ ActivityIn e x

/-- The same for an activity, which need not be listed itself. -/
def ListedAct (D : List Expr) (e : Expr) : Prop :=
  ∀ x ∈ subexpressions e, x.isDefinition = true → x ∈ D ∨ ActivityIn e x ∨ x = e

theorem Listed.act {D : List Expr} {e : Expr} (h : Listed D e) : ListedAct D e :=
  fun x hx hd => (h x hx hd).imp_right .inl

theorem Listed.of {D : List Expr} {e : Expr} (h : e.isDefinition = true → e ∈ D) (hk : ∀ k ∈ e.kids, Listed D k) :
    Listed D e :=
  forall_sub.2 ⟨fun hd => .inl (h hd), fun k h1 x hx hd => (hk k h1 x hx hd).imp_right (ActivityIn.up h1)⟩

theorem Listed.leaf {D : List Expr} {e : Expr} (h : e.isDefinition = false) (hk : e.kids = []) : Listed D e :=
  .of (fun hx => by rw [h] at hx; cases hx) (by rw [hk]; exact fun _ h => nomatch h)

theorem _root_.PP.Node.listed {env : Env} {D : List Expr} {σ : Role} {e : Expr} (h : Node env D σ e) :
    (σ ≠ .activity → Listed D e) ∧ ListedAct D e := by
  induction h with
  | operand _ ih => exact ⟨fun _ => ih.1 (by decide), ih.2⟩
  | stmt _ ih => exact ⟨fun _ => ih.1 (by decide), ih.2⟩
  | elseBlock _ ih => exact ⟨fun _ => ih.1 (by decide), ih.2⟩
  | elseIf _ ih => exact ⟨fun _ => ih.1 (by decide), ih.2⟩
  | step _ hD _ ih =>
    have : Listed D _ := fun x hx hd => by
      rcases ih.2 x hx hd with h | h | rfl
      · exact .inl h
      · exact .inr h
      · exact .inl hD
    exact ⟨fun _ => this, this.act⟩
  | activityFunction _ ih => exact ⟨fun h => absurd rfl h, ih.2⟩
  | activityStep h1 h2 hw h3 h4 h5 h6 h7 h8 ih1 ih2 ih3 ih4 =>
    refine ⟨fun h => absurd rfl h, forall_sub.2 ⟨fun _ => .inr (.inr rfl), fun k hk x hx hd => ?_⟩⟩
    rename_i p n st q es d
    have hk' := hk
    simp only [Expr.kids, List.mem_append, Option.mem_toList] at hk
    have up : Listed D k → x ∈ D ∨ ActivityIn (Expr.step p n st (if es.isEmpty then none else some (hash q es)) d) x ∨
        x = Expr.step p n st (if es.isEmpty then none else some (hash q es)) d :=
      fun h => (h x hx hd).imp_right fun h => .inl (h.up hk')
    rcases hk with hk | hk
    · split at hk
      · cases hk
      · cases hk; exact up (.of (fun h => nomatch h) fun k hk => (ih1 k hk).1 (by decide))
    · cases hst : decide (st = .workflow)
      · cases hst2 : decide (st = .resource)
        · exact up ((ih2 k hk (by simpa using hst) (by simpa using hst2)).1 (by decide))
        · exact up ((ih3 k hk (by simpa using hst2)).1 (by decide))
      · simp only [decide_eq_true_eq] at hst
        obtain ⟨r, acts, rfl⟩ := h6 k hk hst
        have hb : ∀ x ∈ subexpressions (Expr.block r acts), x.isDefinition = true →
            x ∈ D ∨ (∃ a ∈ acts, ActivityIn a x) ∨ x ∈ acts :=
          (forall_sub (P := fun x => x.isDefinition = true → x ∈ D ∨ (∃ a ∈ acts, ActivityIn a x) ∨ x ∈ acts)).2
            ⟨fun h => (nomatch h), fun a ha y hy hd => by
            rcases (ih4 r acts hk hst a ha).2 y hy hd with h | h | rfl
            · exact .inl h
            · exact .inr (.inl ⟨a, ha, h⟩)
            · exact .inr (.inr ha)⟩
        rcases hb x hx hd with h | ⟨a, ha, h⟩ | h
        · exact .inl h
        · exact .inr (.inl (ActivityIn.up hk' (h.up ha)))
        · refine .inr (.inl ⟨p, n, if es.isEmpty then none else some (Expr.hash q es), r, acts, ?_, h⟩)
          rw [show d = some (Expr.block r acts) from hk, hst]
          exact List.mem_cons_self ..
  | propList _ h1 h2 h3 h4 ih1 ih2 =>
    refine (fun h => ⟨fun _ => h, h.act⟩ : Listed D _ → _) (.of (fun h => nomatch h) fun k hk => ?_)
    · simp only [Expr.kids, List.mem_cons, List.not_mem_nil, or_false] at hk
      rcases hk with rfl | rfl
      · exact ih1.1 (by decide)
      · exact .of (fun h => (by cases h)) fun k hk => (ih2 k hk).1 (by decide)
  | propHash _ h1 h2 h3 h4 ih1 ih2 =>
    refine (fun h => ⟨fun _ => h, h.act⟩ : Listed D _ → _) (.of (fun h => nomatch h) fun k hk => ?_)
    · simp only [Expr.kids, List.mem_cons, List.not_mem_nil, or_false] at hk
      rcases hk with rfl | rfl
      · exact ih1.1 (by decide)
      · exact .of (fun h => (by cases h)) fun k hk => (ih2 k hk).1 (by decide)
  | heredocConcat _ _ _ ih =>
    refine (fun h => ⟨fun _ => h, h.act⟩ : Listed D _ → _) (.of (fun h => nomatch h) fun k hk => ?_)
    · simp only [Expr.kids, List.mem_singleton] at hk
      subst hk
      exact .of (fun h => nomatch h) fun k hk => (ih k hk).1 (by decide)
  | _ =>
    refine (fun h => ⟨fun _ => h, h.act⟩ : Listed D _ → _) (.of ?_ fun k hk => ?_)
    · first | (intro h; cases h; done) | exact fun _ => ‹_›
    · simp only [Expr.kids, List.mem_append, List.mem_cons, List.not_mem_nil, or_false, Option.mem_toList] at hk
      try first
        | (subst hk; exact .leaf rfl rfl)
        | grind

theorem _root_.PP.TopBody.listed {env : Env} {D : List Expr} {e : Expr} (h : TopBody env D e) : Listed D e := by
  rcases h with ⟨-, h⟩ | ⟨he, p, ps, q, b, rfl, h1, h2, h3, h4⟩
  · exact h.listed.1 (by decide)
  · refine .of (fun h => nomatch h) fun k hk => ?_
    simp only [Expr.kids, List.mem_append, List.mem_cons, Option.toList_none, List.not_mem_nil, or_false] at hk
    rcases hk with hk | rfl
    · exact (h3 k hk).listed.1 (by decide)
    · refine .of (fun h => nomatch h) fun k hk => ?_
      simp only [Expr.kids, List.mem_singleton] at hk
      subst hk
      exact h4.listed.1 (by decide)

/-- C32: `Program.Definitions` holds only definitions, and every definition anywhere in the program is in
it, except for the activities of a workflow step (they are only found in the body of that step). -/
theorem C32_definitions_complete (env : Env) (s t : St) (e : Expr)
    (h : parseFrom env s false = (.value e, t)) :
    ∃ p b ds, e = .program p b ds ∧ (∀ d ∈ ds, d.isDefinition = true) ∧
      ∀ x ∈ subexpressions e, x.isDefinition = true → x ∈ ds ∨ ActivityIn e x := by
  have h1 := parseFrom_spec env s false
  rw [h] at h1
  obtain ⟨h1, h2⟩ := h1
  rw [if_neg (by decide)] at h2
  obtain ⟨b, rfl, h2⟩ := h2
  refine ⟨_, b, _, rfl, fun d hd => (h1.defs d hd).1, ?_⟩
  refine Listed.of (fun h => nomatch h) fun k hk => ?_
  simp only [Expr.kids, List.mem_singleton] at hk
  subst hk
  exact h2.listed

/-- C32: without workflow support there are no activities: every definition is listed. -/
theorem C32_definitions_complete_puppet (env : Env) (s t : St) (p : Pos) (b : Expr) (ds : List Expr)
    (hw : env.workflow = false) (h : parseFrom env s false = (.value (.program p b ds), t)) :
    ∀ x ∈ subexpressions b, x.isDefinition = true → x ∈ ds := by
  obtain ⟨p', b', ds', h1, h2, h3⟩ := C32_definitions_complete env s t _ h
  cases h1
  intro x hx hd
  have hb : x ∈ subexpressions (.program p b ds) := mem_subexpressions_kid (List.mem_singleton.2 rfl) hx
  refine (h3 x hb hd).resolve_right ?_
  rintro ⟨q, n, ps, r, acts, h4, h5⟩
  have := C31_options_gate env s t false _ h _ h4
  rw [show Allowed env _ = (env.workflow = true) from rfl, hw] at this
  cases this

/-- How many definitions are listed, and how many expressions are definitions. -/
def countDefinitions : Outcome → Option (Nat × Nat)
  | .value (.program p b ds) => some (ds.length, ((subexpressions (.program p b ds)).filter (·.isDefinition)).length)
  | _ => none

/-- Nested definitions are listed; the activities of a workflow step are not. -/
example : countDefinitions (parse { text := b!"class a { define b { function c { } } }" } false) = some (3, 3) ∧
    countDefinitions (parse { text := b!"workflow a {} { action b {} {} }", workflow := true } false) = some (1, 2) := by
  decide +kernel

/-- C32: the converse does not hold.  The parser reads `{ class x {} => 1 }` as a resource first, takes
that back and lists the class a second time. -/
theorem C32_definitions_listed_twice :
    countDefinitions (parse { text := b!"notice { class x {} => 1 }" } false) = some (2, 1) := by decide +kernel

/-! ## C34: the whole source is consumed -/

/-- C34: the program that a successful `Parse` returns covers the whole source, unless the source contains
a NUL byte (taken for the end of input) or is a template parsed with workflow support. -/
theorem C34_whole_source (env : Env) (s t : St) (p : Pos) (b : Expr) (ds : List Expr)
    (h : parseFrom env s false = (.value (.program p b ds), t)) (h0 : 0 ∉ env.text)
    (hw : env.epp = false ∨ env.workflow = false) :
    p.off = 0 ∧ (env.text.length : Int) ≤ p.len ∧ p.len ≤ env.text.length + 1 := by
  have h1 := parseFrom_spec env s false
  rw [h] at h1
  obtain ⟨h1, h2⟩ := h1
  rw [if_neg (by decide)] at h2
  obtain ⟨b', h3, h2⟩ := h2
  cases h3
  have h4 := (h1.fin hw).resolve_right h0
  have h5 := h1.pos
  refine ⟨rfl, ?_, ?_⟩ <;> dsimp only <;> omega

/-- C34: also when a single expression is asked for, the parser stops at the end of the source. -/
theorem C34_single_whole_source (env : Env) (s t : St) (single : Bool) (e : Expr)
    (h : parseFrom env s single = (.value e, t)) (h0 : 0 ∉ env.text)
    (hw : env.epp = false ∨ env.workflow = false) : t.tok = .end_ ∧ env.text.length ≤ t.pos := by
  have h1 := (parsed_tree h).2
  exact ⟨h1.tok, (h1.fin hw).resolve_right h0⟩

def programLength : Outcome → Option Int
  | .value (.program p _ _) => some p.len
  | _ => none

/-- The two exceptions: a NUL byte ends the program, and in a template a word that starts a workflow step
makes the workflow parser go back. -/
example : programLength (parse { text := b!"$x = 1 # a" } false) = some 10 ∧
    programLength (parse { text := [49, 0, 49, 49] } false) = some 2 ∧
    programLength (parse { text := b!"<%|$a| %><% workflow %>", epp := true, workflow := true } false) = some 21 := by
  decide +kernel

/-! ## C33: enclosing names -/

/-- C33: a successful `Parse` leaves the stack of enclosing names as it found it. -/
theorem C33_names_balanced (env : Env) (s t : St) (single : Bool) (e : Expr)
    (h : parseFrom env s single = (.value e, t)) : t.names = s.names := (parsed_tree h).2.names

/-! ## C43: well formed trees -/

def isParameter : Expr → Bool | .parameter .. => true | _ => false
def isKeyedEntry : Expr → Bool | .keyedEntry .. => true | _ => false
def isCaseOption : Expr → Bool | .caseOption .. => true | _ => false
def isSelectorEntry : Expr → Bool | .selectorEntry .. => true | _ => false
def isAttribute : Expr → Bool | .attributeOp .. | .attributesOp .. => true | _ => false
def isBody : Expr → Bool | .resourceBody .. => true | _ => false
def isQuery : Expr → Bool | .query .. => true | _ => false
def isLambda : Expr → Bool | .lambda .. => true | _ => false
def isSegment : Expr → Bool | .string .. | .un _ .text _ => true | _ => false
def isNamedAccess : Expr → Bool | .bin _ .namedAccess .. => true | _ => false
def isHash : Expr → Bool | .hash .. => true | _ => false
def isActivity : Expr → Bool | .step .. | .function _ false .. => true | _ => false

/-- An expression proper: not one of the classes that only occur as a part of some other class. -/
def isValue : Expr → Bool
  | .bin _ .namedAccess .. | .un _ .text _ | .query .. | .attributeOp .. | .attributesOp .. | .block ..
  | .caseOption .. | .epp .. | .keyedEntry .. | .lambda .. | .nop _ | .parameter .. | .program ..
  | .resourceBody .. | .selectorEntry .. | .commaSep .. => false
  | _ => true

/-- What the parts of a node are.  Named access is a part of method calls only; `$x.a[1]` and
`$x.a <| |>` leave it as an operand. -/
def WellFormed : Expr → Prop
  | .access _ o ks => (isValue o || isNamedAccess o) = true ∧ ∀ k ∈ ks, isValue k = true
  | .bin _ .namedAccess l r => (isValue l || isNamedAccess l) = true ∧ isValue r = true
  | .bin _ _ l r => isValue l = true ∧ isValue r = true
  | .un _ .variable e => (∃ q n, e = .qname q n) ∨ ∃ q v, e = .integer q 10 v
  | .un _ _ e => isValue e = true
  | .query _ _ e => (isValue e || e.isNop) = true
  | .attributeOp _ _ _ v => isValue v = true
  | .attributesOp _ v => isValue v = true
  | .block _ ss => ∀ x ∈ ss, isValue x = true ∨ ∃ p es, x = .commaSep p es
  | .commaSep _ es => 2 ≤ es.length ∧ ∀ x ∈ es, isValue x = true
  | .call _ k _ f args lam =>
      (k = .method → isNamedAccess f = true) ∧ (k = .named → isValue f = true) ∧ k ≠ .function ∧
      (∀ a ∈ args, isValue a = true) ∧ ∀ l, lam = some l → isLambda l = true
  | .capabilityMapping _ _ _ c ms => isValue c = true ∧ ∀ m ∈ ms, isAttribute m = true
  | .caseE _ t os => isValue t = true ∧ ∀ o ∈ os, isCaseOption o = true
  | .caseOption _ vs t => (∀ v ∈ vs, isValue v = true) ∧ isBlock t = true
  | .collect _ t q ops => (isValue t || isNamedAccess t) = true ∧ isQuery q = true ∧ ∀ o ∈ ops, isAttribute o = true
  | .concat _ ss => ∀ x ∈ ss, isSegment x = true
  | .epp _ _ b => isBlock b = true
  | .heredoc _ _ t => (∃ q v, t = .string q v) ∨ ∃ q ss, t = .concat q ss
  | .ifE _ _ c t e => isValue c = true ∧ isBlock t = true ∧
      (isBlock e = true ∨ e.isNop = true ∨ ∃ p c t x, e = .ifE p false c t x)
  | .keyedEntry _ k v => isValue k = true ∧ isValue v = true
  | .lambda _ ps b r => (∀ x ∈ ps, isParameter x = true) ∧ (isBlock b = true ∨ ∃ q x, b = .epp q true x) ∧
      ∀ t, r = some t → isValue t = true
  | .hash _ es => ∀ x ∈ es, isKeyedEntry x = true
  | .list _ es => (∀ x ∈ es, isValue x = true) ∨ ∀ x ∈ es, isParameter x = true
  | .namedDef _ _ _ ps b => (∀ x ∈ ps, isParameter x = true) ∧ isBlock b = true
  | .function _ _ _ ps b r => (∀ x ∈ ps, isParameter x = true) ∧ isBlock b = true ∧ ∀ t, r = some t → isValue t = true
  | .node _ pa hs b => (∀ h, pa = some h → isValue h = true) ∧ (∀ h ∈ hs, isValue h = true) ∧ isBlock b = true
  | .parameter _ _ v t _ => (∀ e, v = some e → isValue e = true) ∧ ∀ e, t = some e → isValue e = true
  | .program _ b _ => isBlock b = true ∨ ∃ p ps q x, b = .lambda p ps (.epp q true x) none
  | .qref _ n d => d = toLowerAscii n
  | .resource _ _ t bs => isValue t = true ∧ ∀ b ∈ bs, isBody b = true
  | .resourceBody _ t ops => isValue t = true ∧ ∀ o ∈ ops, isAttribute o = true
  | .resourceDefaults _ _ t ops => isValue t = true ∧ ∀ o ∈ ops, isAttribute o = true
  | .resourceOverride _ _ t ops => isValue t = true ∧ ∀ o ∈ ops, isAttribute o = true
  | .selector _ l ss => isValue l = true ∧ ∀ x ∈ ss, isSelectorEntry x = true
  | .selectorEntry _ m v => isValue m = true ∧ isValue v = true
  | .site _ b => isBlock b = true
  | .typeAlias _ _ t => isValue t = true
  | .typeDefinition _ _ _ b => isBlock b = true
  | .typeMapping _ t m => isValue t = true ∧ isValue m = true
  | .step _ _ st ps d => (∀ x, ps = some x → isHash x = true) ∧
      (∀ x, d = some x → st = .resource → isValue x = true) ∧
      (∀ x, d = some x → st ≠ .resource → isBlock x = true) ∧
      (∀ r acts, d = some (.block r acts) → st = .workflow → ∀ a ∈ acts, isActivity a = true)
  | _ => True

/-- What a role stands for. -/
def _root_.PP.Role.Shape : Role → Expr → Prop
  | .value, e => isValue e = true
  | .functor, e => isNamedAccess e = true
  | .entry, e => isKeyedEntry e = true
  | .selEntry, e => isSelectorEntry e = true
  | .option, e => isCaseOption e = true
  | .param, e => isParameter e = true
  | .attr, e => isAttribute e = true
  | .body, e => isBody e = true
  | .query, e => isQuery e = true
  | .block, e => isBlock e = true
  | .stmt, e => isValue e = true ∨ ∃ p es, e = .commaSep p es
  | .segment, e => isSegment e = true
  | .lambda, e => isLambda e = true
  | .prop, e => isKeyedEntry e = true
  | .activity, e => isActivity e = true
  | .else_, e => isBlock e = true ∨ e.isNop = true ∨ ∃ p c t x, e = .ifE p false c t x
  | .operand, e => (isValue e || isNamedAccess e) = true

theorem _root_.PP.Node.shape {env : Env} {D : List Expr} {σ : Role} {e : Expr} (h : Node env D σ e) : σ.Shape e := by
  induction h with
  | @bin _ k _ _ _ h => cases k <;> first | rfl | exact absurd rfl h
  | un _ _ h => rcases h with rfl | rfl | rfl | rfl | ⟨rfl, -⟩ <;> rfl
  | operand _ ih => simp only [Role.Shape] at *; rw [ih]; rfl
  | stmt _ ih => exact .inl ih
  | comma => exact .inr ⟨_, _, rfl⟩
  | elseBlock _ ih => exact .inl ih
  | elseIf _ ih => exact .inr (.inr ⟨_, _, _, _, rfl⟩)
  | elseNop _ => exact .inr (.inl rfl)
  | _ => rfl

section
variable {env : Env} {D : List Expr} {e : Expr}
theorem shape_value (h : Node env D .value e) : isValue e = true := h.shape
theorem shape_block (h : Node env D .block e) : isBlock e = true := h.shape
theorem shape_param (h : Node env D .param e) : isParameter e = true := h.shape
theorem shape_attr (h : Node env D .attr e) : isAttribute e = true := h.shape
theorem shape_entry (h : Node env D .entry e) : isKeyedEntry e = true := h.shape
theorem shape_lambda (h : Node env D .lambda e) : isLambda e = true := h.shape
theorem shape_selEntry (h : Node env D .selEntry e) : isSelectorEntry e = true := h.shape
theorem shape_option (h : Node env D .option e) : isCaseOption e = true := h.shape
theorem shape_body (h : Node env D .body e) : isBody e = true := h.shape
theorem shape_query (h : Node env D .query e) : isQuery e = true := h.shape
theorem shape_segment (h : Node env D .segment e) : isSegment e = true := h.shape
theorem shape_functor (h : Node env D .functor e) : isNamedAccess e = true := h.shape
theorem shape_operand (h : Node env D .operand e) : (isValue e || isNamedAccess e) = true := h.shape
theorem shape_else (h : Node env D .else_ e) :
    isBlock e = true ∨ e.isNop = true ∨ ∃ p c t x, e = .ifE p false c t x := h.shape
theorem shape_activity (h : Node env D .activity e) : isActivity e = true := h.shape
end

theorem _root_.PP.Node.wellFormed {env : Env} {D : List Expr} {σ : Role} {e : Expr} (h : Node env D σ e) : WellFormed e := by
  induction h with
  | operand _ ih => exact ih
  | stmt _ ih => exact ih
  | elseBlock _ ih => exact ih
  | elseIf _ ih => exact ih
  | step _ _ _ ih => exact ih
  | activityFunction _ ih => exact ih
  | access _ _ h1 h2 => exact ⟨h1.shape, fun k hk => (h2 k hk).shape⟩
  | @bin _ k _ _ _ h _ h1 h2 =>
    cases k <;> first | exact ⟨h1.shape, h2.shape⟩ | exact absurd rfl h
  | namedAccess _ h1 h2 => exact ⟨(Node.operand h1).shape, h2.shape⟩
  | rawAccess _ h1 h2 => exact ⟨h1.shape, h2.shape⟩
  | un _ _ h h1 => rcases h with rfl | rfl | rfl | rfl | ⟨rfl, -⟩ <;> exact h1.shape
  | namedVar => exact .inl ⟨_, _, rfl⟩
  | numVar => exact .inr ⟨_, _, rfl⟩
  | text _ h => exact h.shape
  | query _ _ h => have := h.shape; simp only [Role.Shape] at this; simp only [WellFormed, this, Bool.true_or]
  | queryNop => rfl
  | attributeOp _ h => exact h.shape
  | attributesOp _ _ h => exact h.shape
  | block _ _ h => exact fun x hx => (h x hx).shape
  | comma _ _ h1 h => exact ⟨h1, fun x hx => (h x hx).shape⟩
  | call _ _ h1 h2 h3 => exact ⟨fun h => (nomatch h), fun _ => h1.shape, fun h => (nomatch h), fun x hx => (h2 x hx).shape, fun x hx => (h3 x hx).shape⟩
  | prop _ _ h1 h2 => exact ⟨h1.shape, h2.shape⟩
  | propList _ _ h1 => exact ⟨h1.shape, rfl⟩
  | propHash _ _ h1 => exact ⟨h1.shape, rfl⟩
  | heredocString => exact .inl ⟨_, _, rfl⟩
  | heredocConcat => exact .inr ⟨_, _, rfl⟩
  | list _ h => exact .inl fun x hx => (h x hx).shape
  | @activityStep _ _ st _ es d _ _ _ h1 h2 h3 h4 h5 h6 =>
    refine ⟨fun x hx => ?_, fun x hx hs => (h3 x hx hs).shape, fun x hx hs => ?_, fun r acts hx hs a ha => (h6 r acts hx hs a ha).shape⟩
    · split at hx
      · cases hx
      · cases hx; rfl
    · cases hst : decide (st = .workflow)
      · exact (h2 x hx (by simpa using hst) hs).shape
      · obtain ⟨r, acts, rfl⟩ := h4 x hx (by simpa using hst); rfl
  | _ =>
    simp only [WellFormed]
    first
      | done
      | grind [shape_value, shape_block, shape_param, shape_attr, shape_entry, shape_lambda, shape_selEntry, shape_option,
          shape_body, shape_query, shape_segment, shape_functor, shape_operand, shape_else, shape_activity]

theorem _root_.PP.Tree.wellFormed {env : Env} {D : List Expr} {e : Expr} (h : Tree env D e) : WellFormed e := by
  cases h with
  | node h => exact h.wellFormed
  | paramList _ h => exact .inr fun x hx => (h x hx).shape
  | propHash _ h => exact fun x hx => (h x hx).shape
  | acts _ _ h =>
    refine fun x hx => .inl ?_
    have := (h x hx).shape
    cases x <;> first | rfl | cases this
  | epp _ _ h => exact h.shape
  | eppLambda _ _ _ h h' => exact ⟨fun x hx => (h x hx).shape, .inr ⟨_, _, rfl⟩, fun _ h => nomatch h⟩
  | program _ h =>
    rcases h with ⟨-, h⟩ | ⟨-, p, ps, q, b, rfl, -⟩
    · exact .inl h.shape
    · exact .inr ⟨p, ps, q, b, rfl⟩

/-- C43: every expression in a parse result (and in the definitions of a program) is well formed. -/
theorem C43_well_formed (env : Env) (s t : St) (single : Bool) (e : Expr)
    (h : parseFrom env s single = (.value e, t)) : ∀ x ∈ subexpressions e, WellFormed x :=
  fun x hx => ((parsed_tree h).1.sub x hx).wellFormed

theorem C43_definitions_well_formed (env : Env) (s t : St) (p : Pos) (b : Expr) (ds : List Expr)
    (h : parseFrom env s false = (.value (.program p b ds), t)) :
    ∀ d ∈ ds, ∀ x ∈ subexpressions d, WellFormed x := by
  have h1 := parseFrom_spec env s false
  rw [h] at h1
  obtain ⟨h1, h2⟩ := h1
  rw [if_neg (by decide)] at h2
  obtain ⟨b', h3, -⟩ := h2
  cases h3
  exact fun d hd x hx => ((Tree.node (h1.defs d hd).2).sub x hx).wellFormed

/-- A program with most of these classes. -/
example : see b!"case $x { 1, default: { {a => 1} } } $y ? { 1 => 2 } f(1) |$a| { $a.b } x { 'a': b => 1 } X <| a == 1 |>" =
    .ast b!"(block (case (var \"x\") [{:when [1 (default)] :then [(hash (=> (qn \"a\") 1))]}]) (? (var \"y\") [(=> 1 2)]) (invoke {:functor (qn \"f\") :args [1] :block (lambda {:params {:a {}} :body [(call-method {:functor (. (var \"a\") (qn \"b\")) :args []})]})}) (resource {:type (qn \"x\") :bodies [{:title \"a\" :ops [(=> \"b\" 1)]}]}) (collect {:type (qr \"X\") :query (virtual-query (== (qn \"a\") 1))}))" := by
  decide +kernel

/-! ## C07, C08 for parse results -/

/-- C07: `ToPN` of a parse result panics exactly when some declared parameter has a name that is not a key. -/
theorem C07_parsed_toPN (env : Env) (s t : St) (single : Bool) (e : Expr)
    (h : parseFrom env s single = (.value e, t)) :
    (∃ pn, e.toPN = .ok pn) ↔
      ∀ x ∈ subexpressions e, ∀ q n v ty r, Expr.parameter q n v ty r ∈ declares x → isKey n = true := by
  have hw := C43_well_formed env s t single e h
  rw [C07_toPN_ok_iff]
  constructor
  · intro hr x hx q n v ty r hp
    obtain ⟨_, _, _, _, _, h1, h2⟩ := (hr x hx).1 _ hp
    cases h1; exact h2
  · intro hr x hx
    have := hw x hx
    constructor
    · intro p hp
      have hpar : isParameter p = true := by
        cases x <;> simp only [declares, List.not_mem_nil] at hp <;> exact this.1 p hp
      cases p <;> simp only [isParameter, Bool.false_eq_true] at hpar
      exact ⟨_, _, _, _, _, rfl, hr x hx _ _ _ _ _ hp⟩
    · rintro p y rfl
      rcases this with h | ⟨q, v, rfl⟩
      · exact .inl h
      · exact .inr ⟨_, _, _, rfl⟩

/-- C08: when validation of a parse result reports no illegal parameter name, `ToPN` on it does not panic. -/
theorem C08_validated_program_renders (env : Env) (s t : St) (single : Bool) (e : Expr)
    (h : parseFrom env s single = (.value e, t)) (c : Checker) (is : List Issue)
    (hv : validateWith c e = .ok is) (hn : ParameterNamesAccepted is) : ∃ pn, e.toPN = .ok pn := by
  have hw := C43_well_formed env s t single e h
  refine C08_accepted_names_render c e is ?_ ?_ hv hn
  · intro x hx p hp
    have := hw x hx
    have hpar : isParameter p = true := by
      cases x <;> simp only [declares, List.not_mem_nil] at hp <;> exact this.1 p hp
    cases p <;> simp only [isParameter, Bool.false_eq_true] at hpar
    exact ⟨_, _, _, _, _, rfl⟩
  · rintro x hx p y rfl
    rcases hw _ hx with h | ⟨q, v, rfl⟩
    · exact .inl h
    · exact .inr ⟨_, _, _, rfl⟩

/-- `$a::b` as a parameter is parsed but cannot be rendered (validation reports it). -/
example : see b!"class x($a::b) {}" = .unprintable ∧ see b!"class x($a = 1, *$b) {}" =
    .ast b!"(block (class {:name \"x\" :params {:a {:value 1} :b {:splat true}} :body []}))" := by decide +kernel

end PP.Props
