import Verif.Lemmas.Decode4
import Verif.Lemmas.Decode6
import Verif.Props.Parse
import Verif.Props.PN
import Verif.Props.Ranges
import Verif.Props.Seen

/-!
# C61: what the printed AST tells

The AST that `--ast` or `ToPN` gives of a program says everything about it but the positions, the list of its definitions,
whether `else { if ... }` was written `elsif ...`, and whether an array stems from a dangling comma.
-/
namespace PP.Props
open PP.Spec PP.Decode

theorem _root_.PP.Node.known {env : Env} {D : List Expr} {σ : Role} {e : Expr} (h : Node env D σ e) : KnownWords e := by
  induction h with
  | operand _ ih => exact ih
  | stmt _ ih => exact ih
  | elseBlock _ ih => exact ih
  | elseIf _ ih => exact ih
  | step _ _ _ ih => exact ih
  | activityFunction _ ih => exact ih
  | bin _ _ _ _ _ h => exact h
  | namedAccess => exact ⟨b!".", by decide⟩
  | rawAccess => exact ⟨b!".", by decide⟩
  | attributeOp _ _ h => exact h
  | capabilityMapping _ _ _ _ h => exact h
  | reserved => rfl
  | _ => trivial

theorem _root_.PP.Tree.known {env : Env} {D : List Expr} {e : Expr} (h : Tree env D e) : KnownWords e := by
  cases h with
  | node h => exact h.known
  | epp => rfl
  | _ => trivial

theorem kid_not_program {x : Expr} (w : WellFormed x) : ∀ k ∈ x.kids, isProgram k = false := by
  intro k hk
  cases k with
  | program p b ds =>
    exfalso
    have h1 : isValue (.program p b ds) = false := rfl
    have h2 : isNamedAccess (.program p b ds) = false := rfl
    have h3 : isBlock (.program p b ds) = false := rfl
    have h4 : isParameter (.program p b ds) = false := rfl
    have h5 : isAttribute (.program p b ds) = false := rfl
    have h6 : isLambda (.program p b ds) = false := rfl
    have h7 : isQuery (.program p b ds) = false := rfl
    have h8 : isSegment (.program p b ds) = false := rfl
    have h9 : isKeyedEntry (.program p b ds) = false := rfl
    have h10 : isCaseOption (.program p b ds) = false := rfl
    have h11 : isSelectorEntry (.program p b ds) = false := rfl
    have h12 : isBody (.program p b ds) = false := rfl
    have h13 : isHash (.program p b ds) = false := rfl
    have h14 : (Expr.program p b ds).isNop = false := rfl
    cases x with
    | bin _ k =>
      simp only [Expr.kids, List.mem_cons, List.not_mem_nil, or_false] at hk
      cases k <;> simp only [WellFormed] at w <;> grind
    | un _ k =>
      simp only [Expr.kids, List.mem_cons, List.not_mem_nil, or_false] at hk
      cases k <;> simp only [WellFormed] at w <;> grind
    | call _ k =>
      simp only [Expr.kids, List.mem_cons, List.mem_append, Option.mem_toList, List.not_mem_nil, or_false] at hk
      simp only [WellFormed] at w
      cases k <;> grind
    | step _ _ k =>
      simp only [Expr.kids, List.mem_append, Option.mem_toList] at hk
      simp only [WellFormed] at w
      cases k <;> grind
    | _ =>
      simp only [Expr.kids, List.mem_cons, List.mem_append, Option.mem_toList, List.not_mem_nil, or_false] at hk
      try simp only [WellFormed] at w
      try grind
  | _ => rfl

theorem noProg_of_wellFormed (e : Expr) : (∀ x ∈ subexpressions e, WellFormed x) → isProgram e = false → NoProg e := by
  induction e using Expr.kidsInduction with
  | step e ih =>
    intro hw he x hx
    rcases mem_subexpressions_kids hx with rfl | ⟨k, hk, hx⟩
    · exact he
    · exact ih k hk (fun y hy => hw y (mem_subexpressions_kid hk hy))
        (kid_not_program (hw e (List.mem_cons_self ..)) k hk) x hx

theorem parsed_allWell {env : Env} {s t : St} {single : Bool} {e : Expr} (h : parseFrom env s single = (.value e, t)) :
    AllWell e :=
  fun x hx => ⟨C43_well_formed env s t single e h x hx, ((parsed_tree h).1.sub x hx).known⟩

theorem parsed_context {env : Env} {s t : St} {single : Bool} {e : Expr} (h : parseFrom env s single = (.value e, t)) :
    ctxOf e = .value := by
  have h1 := parseFrom_spec env s single
  rw [h] at h1
  have top : ∀ b, TopBody env t.defs b → ctxOf b = .value := by
    rintro b (⟨-, hb⟩ | ⟨-, p, ps, q, b, rfl, -⟩)
    · exact ctx_block hb.shape
    · rfl
  obtain ⟨-, h2⟩ := h1
  split at h2
  · split at h2
    · exact ctx_value h2.1.shape
    · exact top _ h2
  · obtain ⟨b, rfl, -⟩ := h2
    rfl

theorem canon_topBody (e : Expr) : canon e = canon (topBody e) := by
  cases e <;> first | rfl | (rw [canon]; rfl)

theorem toPN_topBody (e : Expr) : e.toPN = (topBody e).toPN := by
  cases e <;> first | rfl | (rw [Expr.toPN]; rfl)

theorem parsed_noProg {env : Env} {s t : St} {single : Bool} {e : Expr} (h : parseFrom env s single = (.value e, t)) :
    NoProg (topBody e) := by
  have hw := C43_well_formed env s t single e h
  cases e with
  | program p b ds =>
    have hb : b ∈ (Expr.program p b ds).kids := by simp [Expr.kids]
    exact noProg_of_wellFormed b (fun y hy => hw y (mem_subexpressions_kid hb hy)) (kid_not_program (hw _ (List.mem_cons_self ..)) b hb)
  | _ => exact noProg_of_wellFormed _ hw rfl

/-- C61: two parse results - of any texts, with any options - are printed alike exactly if they are alike but for positions,
definitions, the way to write `else { if }` and dangling commas. -/
theorem C61_printed_ast {env env' : Env} {s s' t t' : St} {single single' : Bool} {e e' : Expr}
    (h : parseFrom env s single = (.value e, t)) (h' : parseFrom env' s' single' = (.value e', t'))
    {p : PN} (hp : e.toPN = .ok p) : e'.toPN = .ok p ↔ canon e' = canon e := by
  constructor
  · intro hp'
    have b := Decode.back e (parsed_allWell h) p hp
    have b' := Decode.back e' (parsed_allWell h') p hp'
    unfold Back at b b'
    rw [parsed_context h] at b
    rw [parsed_context h'] at b'
    exact b'.unique b
  · intro hc
    rw [canon_topBody e, canon_topBody e'] at hc
    rw [toPN_topBody, ← toPN_canon _ (parsed_noProg h'), hc, toPN_canon _ (parsed_noProg h), ← toPN_topBody, hp]

/-- C61: in particular, when nothing is written with `elsif` and there is no dangling comma, the printed AST tells the whole
tree but the positions. -/
theorem C61_printed_tree {env env' : Env} {s s' t t' : St} {single single' : Bool} {e e' : Expr}
    (h : parseFrom env s single = (.value e, t)) (h' : parseFrom env' s' single' = (.value e', t'))
    (he : ∀ x ∈ subexpressions (topBody e), AsWritten x) (he' : ∀ x ∈ subexpressions (topBody e'), AsWritten x)
    {p : PN} (hp : e.toPN = .ok p) : e'.toPN = .ok p ↔ bare (topBody e') = bare (topBody e) := by
  rw [C61_printed_ast h h' hp, canon_topBody e, canon_topBody e', canon_bare _ he, canon_bare _ he']

/-- C61 for the text of the AST, where the text is unambiguous (C04: valid strings, no floats). -/
theorem C61_printed_text {env env' : Env} {s s' t t' : St} {single single' : Bool} {e e' : Expr}
    (h : parseFrom env s single = (.value e, t)) (h' : parseFrom env' s' single' = (.value e', t'))
    {p p' : PN} (hp : e.toPN = .ok p) (hp' : e'.toPN = .ok p') (hc : Clean p) (hc' : Clean p') (ff : FloatVal → GoStr) :
    p.format ff = p'.format ff ↔ canon e' = canon e := by
  rw [← C61_printed_ast h h' hp, hp']
  constructor
  · intro hf
    rw [C04_text_unambiguous ff p p' hc hc' hf]
  · intro hf
    injection hf with hf
    rw [hf]

/-- What is printed of `elsif`, of a dangling comma, and of an array. -/
example : see b!"if $a { 1 } elsif $b { 2 }" = see b!"if $a { 1 } else { if $b { 2 } }" ∧
    see b!"1, 2\nnotice 3" = see b!"[1, 2]\nnotice 3" ∧
    see b!"if $a { 1 } elsif $b { 2 }" ≠ see b!"if $a { 1 } if $b { 2 }" ∧
    see b!"f(1)" ≠ see b!"(f(1))" ∧ see b!"0x10" ≠ see b!"16" ∧ see b!"'a'" ≠ see b!"a" := by
  decide +kernel

/-- The parts of the theorem at work: different layouts of one program. -/
example : see b!"class a($x = 1, *$y) { if $x { f($y) } else { [1, 2] } }" =
    see b!"class  a ( $x=1, *$y, ) { # comment\n if $x { f ( $y ) } else { [1 , 2,] } }" := by
  decide +kernel

end PP.Props
