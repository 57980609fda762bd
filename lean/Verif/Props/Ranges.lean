import Verif.Lemmas.Range13
import Verif.Lemmas.Tree
import Verif.Props.Seen
import Verif.Props.Validator

/-!
# C29: the byte ranges of the nodes

`x.off` and `x.len` are `ByteOffset()` and `ByteLength()` of `x`.  `subexpressions e` lists `e` and everything it contains (C09).

For every source without heredocs that is not parsed as workflow, whatever the parser was used for before:
the range of every node lies in the source; a node ends no earlier than its parts, except inside interpolations; a node starts
no later than its parts, four kinds of nodes excepted.  Outside of these limits the claims fail: see the `violated` theorems.
-/
namespace PP.Props
open PP.Expr

/-- The bytes of a node are bytes of the source. -/
def InText (text : GoStr) (x : Expr) : Prop := 0 ≤ x.len ∧ (x.off : Int) + x.len ≤ text.length

/-- Where a node ends. -/
def endOf (x : Expr) : Int := x.off + x.len

/-- A source without heredoc tags. -/
def NoHeredoc (text : GoStr) : Prop := ¬ b!"@(" <:+: text

/-- Interpolated part of a string, `"${…}"`. -/
def interpolation : Expr → Bool
  | .un _ .text _ => true
  | _ => false

/-- Blocks start at the end of their first token, capability mappings at their keyword, options of `case` and entries of
selectors that begin with an interpolated string inside of this string. -/
def startsLate : Expr → Bool
  | .block .. | .capabilityMapping .. | .caseOption .. | .selectorEntry .. => true
  | _ => false

/-- `x` is `e` or contained in it and no interpolation is around it. -/
inductive Plain (e : Expr) : Expr → Prop
  | self : Plain e e
  | part {x k} : Plain e x → interpolation x = false → k ∈ x.kids → Plain e k

theorem interpolation_eq (e : Expr) : interpolation e = Rg.isText e := by
  cases e <;> try rfl
theorem startsLate_eq (e : Expr) : startsLate e = Rg.loose e := by
  cases e <;> rfl

theorem parseFrom_inr {env : Env} {s : St} {single : Bool} {e : Expr} {t : St} (h : parseFrom env s single = (.value e, t))
    (hno : NoHeredoc env.text) (hw : env.workflow = false) :
    Rg.Top env e t ∧ (single = false → ∀ p b ds, e = .program p b ds → ∀ d ∈ ds, Rg.InR env true d) := by
  have k := Rg.parseProgram' (s := s) (Rg.run_HS (env := env) hno hw (parseFuel env.text)) single
  unfold wp at k
  unfold parseFrom at h
  cases hp : parseProgram (run (parseFuel env.text)) single env s with
  | ok x u =>
    rw [hp] at h k
    simp only [Prod.mk.injEq, Outcome.value.injEq] at h
    obtain ⟨rfl, rfl⟩ := h
    exact k
  | fail x u => rw [hp] at h; cases x <;> simp at h

theorem mem_subexpressions_kids {e x : Expr} (h : x ∈ subexpressions e) : x = e ∨ ∃ k ∈ e.kids, x ∈ subexpressions k := by
  rcases List.mem_cons.1 h with h | h
  · exact .inl h
  · rw [allContents_kids] at h
    obtain ⟨k, hk, h⟩ := List.mem_flatMap.1 h
    exact .inr ⟨k, hk, h⟩

theorem inr_subexpressions {env : Env} (e : Expr) : ∀ g, Rg.InR env g e → ∀ x ∈ subexpressions e, Rg.InR env false x := by
  induction e using kidsInduction with
  | step e ih =>
    intro g h x hx
    rcases mem_subexpressions_kids hx with rfl | ⟨k, hk, hx⟩
    · exact h.weak
    · exact ih k hk _ (h.sub k hk) x hx

theorem inr_inText {env : Env} {g : Bool} {x : Expr} (h : Rg.InR env g x) : InText env.text x := ⟨h.len, h.le⟩

/-- C29: the range of every node of the result lies in the source. -/
theorem C29_ranges (env : Env) (s t : St) (single : Bool) (e : Expr) (h : parseFrom env s single = (.value e, t))
    (hno : NoHeredoc env.text) (hw : env.workflow = false) : ∀ x ∈ subexpressions e, InText env.text x := fun x hx =>
  inr_inText (inr_subexpressions e true (parseFrom_inr h hno hw).1.inr x hx)

/-- C29: the same holds for the nodes of the definitions of the program. -/
theorem C29_definitions (env : Env) (s t : St) (p : Pos) (b : Expr) (ds : List Expr)
    (h : parseFrom env s false = (.value (.program p b ds), t))
    (hno : NoHeredoc env.text) (hw : env.workflow = false) : ∀ d ∈ ds, ∀ x ∈ subexpressions d, InText env.text x := fun d hd x hx =>
  inr_inText (inr_subexpressions d true ((parseFrom_inr h hno hw).2 rfl p b ds rfl d hd) x hx)

/-- C29: hence `String()` of no node panics: the slice that it takes of the source is in bounds. -/
theorem C29_string_is_in_bounds (env : Env) (s t : St) (single : Bool) (e : Expr) (h : parseFrom env s single = (.value e, t))
    (hno : NoHeredoc env.text) (hw : env.workflow = false) (c : Checker) (hc : c.textLen = env.text.length) :
    ∀ x ∈ subexpressions e, c.stringOk x = true := by
  intro x hx
  obtain ⟨h1, h2⟩ := C29_ranges env s t single e h hno hw x hx
  simp only [Checker.stringOk, hc, Bool.and_eq_true, decide_eq_true_eq]
  exact ⟨h1, h2⟩

/-- C29: a node starts no later than its parts, four kinds of nodes excepted. -/
theorem C29_starts_before_parts (env : Env) (s t : St) (single : Bool) (e : Expr) (h : parseFrom env s single = (.value e, t))
    (hno : NoHeredoc env.text) (hw : env.workflow = false) :
    ∀ x ∈ subexpressions e, startsLate x = false → ∀ k ∈ x.kids, x.off ≤ k.off := by
  intro x hx hl k hk
  exact (inr_subexpressions e true (parseFrom_inr h hno hw).1.inr x hx).lo k hk (startsLate_eq x ▸ hl)

/-- C29: outside of interpolations a node ends no earlier than its parts. -/
theorem C29_ends_after_parts (env : Env) (s t : St) (single : Bool) (e : Expr) (h : parseFrom env s single = (.value e, t))
    (hno : NoHeredoc env.text) (hw : env.workflow = false) :
    ∀ x, Plain e x → ∀ k ∈ x.kids, endOf k ≤ endOf x := by
  have key : ∀ x, Plain e x → Rg.InR env true x := by
    intro x hx
    induction hx with
    | self => exact (parseFrom_inr h hno hw).1.inr
    | part _ hi hk ih =>
      have := ih.sub _ hk
      rwa [← interpolation_eq, hi] at this
  exact fun x hx k hk => (key x hx).hi rfl k hk

/-- C29: the program starts at the first byte and ends where reading ended. -/
theorem C29_program (env : Env) (s t : St) (e : Expr) (h : parseFrom env s false = (.value e, t)) :
    e.off = 0 ∧ e.len = t.pos := by
  unfold parseFrom at h
  cases hp : parseProgram (run (parseFuel env.text)) false env s with
  | ok x u =>
    rw [hp] at h
    simp only [Prod.mk.injEq, Outcome.value.injEq] at h
    obtain ⟨rfl, rfl⟩ := h
    unfold parseProgram at hp
    simp only [Bool.false_eq_true, if_false] at hp
    simp only [bind, P.bind] at hp
    revert hp
    cases hm : modS (fun s => { s with pos := 0, defs := [], nls := none }) env s with
    | fail => intro hp; simp at hp
    | ok a v =>
      dsimp only
      cases ht : parseTop (run (parseFuel env.text)) false env v with
      | fail => intro hp; simp at hp
      | ok y w =>
        intro hp
        simp only [getS, pure, P.pure, Res.ok.injEq] at hp
        obtain ⟨rfl, rfl⟩ := hp
        exact ⟨rfl, rfl⟩
  | fail x u => rw [hp] at h; cases x <;> simp at h

/-- C29, for every source, with heredocs and workflows too: a node starts at most one byte after the end of the source, so
that its line and column can be computed (C01, C02). -/
theorem C29_offsets (env : Env) (s t : St) (single : Bool) (e : Expr) (h : parseFrom env s single = (.value e, t)) :
    ∀ x ∈ subexpressions e, x.off ≤ env.text.length + 1 := by
  intro x hx
  have := (parsed_tree h).1.sub x hx
  cases this with
  | node h => exact h.off_le
  | paramList h | propHash h | acts h | epp h | eppLambda h | program h => exact h

/-! ## Cases -/

/-- Start and length of the nodes of a result, in document order. -/
def rangesOf : Outcome → List (Nat × Int)
  | .value e => (subexpressions e).map fun x => (x.off, x.len)
  | _ => []

def NoHeredocB : GoStr → Bool
  | 64 :: 40 :: _ => false
  | _ :: r => NoHeredocB r
  | [] => true

theorem noHeredoc_of (text : GoStr) (h : NoHeredocB text = true) : NoHeredoc text := by
  rintro ⟨a, c, rfl⟩
  induction a with
  | nil => simp [NoHeredocB] at h
  | cons x a ih =>
    refine ih ?_
    revert h
    simp only [List.cons_append]
    rw [NoHeredocB.eq_def]
    split
    · intro h; simp at h
    · rename_i he; cases he; exact id
    · rename_i he; cases he

def sampleRanges : Env := { text := b!"class a($b = 1) { notice(\"x${b.c}y\") }" }

/-- The hypotheses can be met: a program with a class, a call and an interpolated string. -/
example : NoHeredoc sampleRanges.text ∧ sampleRanges.workflow = false ∧
    rangesOf (parse sampleRanges false) ≠ [] ∧
    (rangesOf (parse sampleRanges false)).all (fun r => decide (0 ≤ r.2) && decide ((r.1 : Int) + r.2 ≤ 38)) = true :=
  ⟨noHeredoc_of _ (by decide +kernel), rfl, by decide +kernel, by decide +kernel⟩

/-- With a heredoc at the end of the source the claim is false: program, block and assignment end one byte after the
source. -/
theorem C29_violated_by_heredoc : (b!"$a = @(E)\n x\n E" : GoStr).length = 15 ∧
    rangesOf (parse { text := b!"$a = @(E)\n x\n E" } false) =
      [(0, 16), (3, 13), (0, 16), (0, 4), (1, 1), (5, 8), (10, 3)] := by decide +kernel

/-- In workflows the claim is false: the name `returns` has length -7. -/
theorem C29_violated_by_workflow : (16, -7) ∈ rangesOf (parse { text := b!"workflow aaaa { returns => ($a) } { }", workflow := true } false) := by
  decide +kernel

/-- Why the nodes of `startsLate` are excepted.  A block starts after its first statement does: the block is the second, the
assignment the third node. -/
theorem C29_block_starts_late : (rangesOf (parse { text := b!"$aa = 1" } false)).take 3 = [(0, 7), (4, 3), (0, 7)] := by decide +kernel

/-- A block may start after the end of its first statement: `{ 2 }` is at 17, its statement `2 ` at 15. -/
theorem C29_block_starts_after_statement : (rangesOf (parse { text := b!"case $a { 1: { 2 } }" } false)).drop 7 = [(17, 1), (15, 2)] := by
  decide +kernel

/-- A capability mapping starts at its keyword, its component before it: third and fourth node. -/
theorem C29_mapping_starts_late : ((rangesOf (parse { text := b!"A produces B { x => 1 }" } false)).drop 2).take 2 = [(2, 21), (0, 2)] := by
  decide +kernel

/-- The entry of a selector that begins with an interpolated string starts inside of it. -/
theorem C29_entry_starts_late : ((rangesOf (parse { text := b!"$a ? { \"a${b}c\" => 2 }" } false)).drop 5).take 2 = [(13, 9), (7, 8)] := by
  decide +kernel

/-- The same for an option of `case`. -/
theorem C29_option_starts_late : ((rangesOf (parse { text := b!"case $a { \"a${b}c\": {2} }" } false)).drop 5).take 2 = [(16, 9), (10, 8)] := by
  decide +kernel

/-- Why interpolations are excepted: in `"a${b.c}c"` the access `b.c` has the range 8-13, its right hand side 13-14. -/
theorem C29_interpolation : (rangesOf (parse { text := b!"notice(\"a${b.c}c\")" } false)).drop 8 =
    [(8, 5), (8, 2), (11, 1), (13, 1), (15, 2)] := by decide +kernel

end PP.Props
