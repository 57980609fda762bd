import Verif.Lemmas.Layout4
import Verif.Lemmas.Gram9

/-! # Parsing a source that is a layout of a phrase -/
namespace PP
open PP.Spec

/-- A parser that is new, or whose last parse succeeded without opening a second line. -/
structure Clean (s : St) : Prop where
  tok : s.tok = .end_
  bol : s.bol = 0
  names : s.names = []

section
variable {env : Env} {ts : List T} {ss : List Expr} {e : Expr}

/-- Before the first token. -/
theorem fresh_ready (hepp : env.epp = false) (hfac : env.hasFactory = true) (hs : Source env ts) {s : St} (h : Clean s) :
    ∃ s1 c p u, EvN env .nextToken { s with pos := 0, defs := [], nls := none } () s1 ∧
      u.names = [] ∧ skipWhite false env s1 = .ok (c, p) u ∧ letI := Ending.source env; Feeds env ts { u with pos := p } := by
  letI := Ending.source env
  obtain ⟨s', h1, h2, h3, h4⟩ := source_ready hepp hfac hs { s with pos := 0, defs := [], nls := none } rfl h.tok rfl h.bol s.val [] []
  have e : ({ s with pos := 0, defs := [], nls := none } : St) = { s with pos := 0, nls := none, names := [], defs := [] } := by rw [← h.names]
  obtain ⟨c, p, u, h5, h6, h7⟩ := h4 (.inr rfl)
  exact ⟨s', c, p, u, by rw [e]; exact h1, h6, h5, h7⟩

theorem program_of (hepp : env.epp = false) (hfac : env.hasFactory = true) (hs : Source env ts)
    (hg : G [] .stmts ss ts) {s : St} (hcl : Clean s) : ∃ p b ds t, EvP env (fun self => parseProgram self false) s (.program p b ds) t ∧ bare b = .block z ss ∧
      t.tok = .end_ ∧ t.names = [] := by
  letI := Ending.source env
  obtain ⟨s1, c, p, u, a1, a3, a4, a5⟩ := fresh_ready hepp hfac hs hcl
  have hd : DoneStmts env [] ss ts := G_reads hg
  obtain ⟨raw, s2, b1, b2, b3, b4, b5⟩ := hd .end_ [] { u with pos := p } (.inr rfl) rfl (by rw [List.append_nil]; exact a5) a3
  refine ⟨⟨0, s2.pos⟩, .block ⟨p, (s2.pos : Int) - p⟩ (tl raw), s2.defs, s2, ?_, by simp only [bare, b2], b4.1, b5⟩
  unfold parseProgram
  ev
  refine EvP.bind (a := .block ⟨p, (s2.pos : Int) - p⟩ (tl raw)) (t := s2) ?_ ?_
  · unfold parseTop
    ev
    refine EvP.neg (by rw [hepp]; simp) (EvP.bind a1 (EvN.step ?_))
    show EvP env (fun self => parseBody self .end_ false) _ _ _
    unfold parseBody
    refine EvP.prim a4 ?_
    dsimp only
    ev
    refine EvP.neg nofun (EvP.bind (at_nil b1) (EvP.prim (transformCalls_of b3) ?_))
    ev
  · refine EvP.neg nofun ?_
    ev

theorem single_of (hepp : env.epp = false) (hfac : env.hasFactory = true) (hs : Source env ts)
    (hg : G [] (.bin .rel) e ts) {s : St} (hcl : Clean s) : ∃ a t, EvP env (fun self => parseProgram self true) s a t ∧ bare a = e := by
  letI := Ending.source env
  obtain ⟨s1, c, p, u, a1, a3, a4, a5⟩ := fresh_ready hepp hfac hs hcl
  have htok : ({ u with pos := p } : St).tok ≠ .end_ := by
    obtain ⟨t, r, rfl, ht⟩ := G_first hg
    refine a5.ne ?_
    intro h
    rw [show hd (t :: r) = t.tok from rfl] at h
    rw [h] at ht
    cases ht
  obtain ⟨a, s2, b1, b2, b3, b4⟩ := g_binDone (G_reads hg) [] { u with pos := p } (by rw [List.append_nil]; exact a5) a3 rfl
  refine ⟨a, s2, ?_, b2⟩
  unfold parseProgram
  ev
  refine EvP.bind (a := a) (t := s2) ?_ ?_
  · unfold parseTop
    ev
    refine EvP.neg (by rw [hepp]; simp) (EvP.bind a1 (EvN.step ?_))
    show EvP env (fun self => parseBody self .end_ true) _ _ _
    unfold parseBody
    refine EvP.prim a4 ?_
    dsimp only
    ev
    refine EvP.pos rfl ?_
    ev
    refine EvP.neg htok (EvP.bind b1 (EvP.prim (assertToken_ok b3.1) ?_))
    ev
  · refine EvP.pos rfl ?_
    ev

end
end PP
