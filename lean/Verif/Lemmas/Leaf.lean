import Verif.Lemmas.Eval
import Verif.Lemmas.Strings
import Verif.Lemmas.Names

/-! # Programs that consist of one literal -/
namespace PP

section
variable {env : Env} {s s0 t u : St} {k n : Nat} {e : Expr} {src : List Nat}

/-- The end of the source. -/
theorem nextToken_end (hn : s.nls = none) (h : Here env s.pos []) :
    run (n + 1) .nextToken env s = .ok () { s with tsp := s.pos, tok := .end_, val := .nil } := by
  rw [nextToken_exec (ws := []) (rs := []) (.nil _ _) hn h ⟨rfl, by decide, by simp⟩]
  unfold lexChar
  ex
  simp [isUppercaseLetter, isLowercaseLetter, width]

theorem skipWhite_end (hn : s.nls = none) (h : Here env s.pos []) : skipWhite false env s = .ok (0, s.pos) s := by
  rw [skipWhite_exec (ws := []) (rs := []) (.nil _ _) hn h ⟨rfl, by decide, by simp⟩]
  simp [width]

/-- A node made of the current token. -/
def literalOf (s : St) : Option Expr :=
  let tp : Pos := ⟨s.tsp, (s.pos : Int) - s.tsp⟩
  match s.tok, s.val with
  | .integer, .int v => some (.integer tp s.radix v)
  | .string, .str v => some (.string tp v)
  | .boolean, .bool v => some (.boolean tp v)
  | .float, .flt v => some (.float tp v)
  | _, _ => none

theorem atom_literal (hl : literalOf s = some e) (h : ∀ f, k ≤ f → run f .nextToken env s = .ok () t) :
    Ev env (k + 1) .atom s e t := by
  refine Ev.step fun f hf => ?_
  show atomBody (run f) env s = _
  unfold atomBody
  have h := h f hf
  have hlf : ∀ e : Expr, leaf (run f) e env s = .ok e t := by
    intro e
    unfold leaf nextTok
    rw [ex_bind, h]
    rfl
  ex
  revert hl
  unfold literalOf
  have hts : ∀ v, s.val = .str v → tokenString env s = .ok v s := by
    intro v hv; unfold tokenString; rw [hv]
  cases htok : s.tok <;> cases hval : s.val <;> simp only [reduceCtorEq, false_implies, Option.some.injEq]
  all_goals
    intro he
    subst he
    first
      | exact hlf _
      | (ex; rw [hts _ hval]; exact hlf _)

theorem literal_props (hl : literalOf s = some e) : startsUnary s.tok = false ∧ isNamedAccess e = false ∧ isQname e = false ∧ s.tok ≠ .end_ := by
  revert hl
  unfold literalOf
  cases s.tok <;> cases s.val <;> simp only [reduceCtorEq, false_implies, Option.some.injEq] <;>
    (intro h; subst h; exact ⟨rfl, rfl, rfl, by simp⟩)

theorem parseFuel_big (text : GoStr) : 1000 * (text.length + 8) ≤ parseFuel text := by
  unfold parseFuel
  rw [Nat.pow_two]
  exact Nat.mul_le_mul_left _ (Nat.le_mul_of_pos_left _ (by omega))

/-- If the source is one literal token then `Parse` gives that literal, whatever was parsed before. -/
theorem parse_literal (hepp : env.epp = false)
    (h0 : run (parseFuel env.text) .nextToken env { s0 with pos := 0, defs := [], nls := none } = .ok () s)
    (hl : literalOf s = some e) (hn : s.nls = none) (hend : s.pos = env.text.length) :
    (parseFrom env s0 true).1 = .value e := by
  have hh : Here env s.pos [] := ⟨by omega, by rw [hend]; simp, by simp⟩
  obtain ⟨h1, h2, h3, h4⟩ := literal_props hl
  have hb := parseFuel_big env.text
  refine parse_single hepp h0 (skipWhite_end hn hh) h4 rfl
    (Ev.whole (k := 2) (atom_literal (k := 1) hl fun f hf => ?_) (t := { s with tsp := s.pos, tok := .end_, val := .nil }) ?_ h1 h2 h3)
    ?_ rfl
  · obtain ⟨f, rfl⟩ : ∃ g, f = g + 1 := ⟨f - 1, by omega⟩
    exact nextToken_end hn hh
  · rfl
  · omega

end
end PP
