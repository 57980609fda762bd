import Verif.Lemmas.Simple
import Verif.Props.History

/-!
# C41: the lexer that knows nothing of interpolations

`NewSimpleLexer` (parser/parser.go:87-97) does not set `nextLineStart`, which is therefore 0 and not -1: the first line break
that is passed over continues at offset 0.  Up to this line break the tokens are those of the source; then the source is read from
its start, so that the first line is read twice.
-/
namespace PP.Props
open PP.Spec

/-- What `NewSimpleLexer` builds: no factory, no options. -/
def simpleEnv (text : GoStr) : Env := { text, hasFactory := false }
def simpleStart : St := { nls := some 0 }

/-- C41: in a source without line breaks each token is read exactly once, as by a lexer that is positioned properly. -/
theorem C41_one_line {text : GoStr} (h : 10 ∉ text) (ts : List Tok) :
    (∃ t, Reads (simpleEnv text) simpleStart ts t) ↔ ∃ t, Reads (simpleEnv text) {} ts t := by
  constructor
  · rintro ⟨t, hr⟩
    have key : ∀ {s : St} {ts t}, Reads (simpleEnv text) s ts t → s.nls = some 0 → t.nls = some 0 ∧ Reads (simpleEnv text) { s with nls := none } ts { t with nls := none } := by
      intro s ts t hr hs
      induction hr with
      | start => exact ⟨hs, .start _⟩
      | @next ts t u h1 h2 ih =>
        rcases (sim_run (env := simpleEnv text) rfl (parseFuel text)).next.same t ih.1 with ⟨a, v, h3, h4, h5, -⟩ | ⟨e, v, h3, -, -⟩ | ⟨h3, -⟩
        · have h2 : run (parseFuel text) .nextToken (simpleEnv text) t = .ok () u := h2
          rw [h2] at h3
          injection h3 with _ h3
          subst h3
          exact ⟨h5, .next (ts := ts) (u := { u with nls := none }) ih.2 h4⟩
        · have h2 : run (parseFuel text) .nextToken (simpleEnv text) t = .ok () u := h2
          rw [h2] at h3
          cases h3
        · exact absurd h3 h
    exact ⟨_, (key hr rfl).2⟩
  · rintro ⟨t, hr⟩
    have key : ∀ {s : St} {ts t}, Reads (simpleEnv text) s ts t → s.nls = none → t.nls = none ∧ Reads (simpleEnv text) { s with nls := some 0 } ts { t with nls := some 0 } := by
      intro s ts t hr hs
      induction hr with
      | start => exact ⟨hs, .start _⟩
      | @next ts t u h1 h2 ih =>
        have he : ({ t with nls := none } : St) = t := by have := ih.1; cases t; simp_all
        have h2' : run (parseFuel text) .nextToken (simpleEnv text) t = .ok () u := h2
        rcases (sim_run (env := simpleEnv text) rfl (parseFuel text)).next.same { t with nls := some 0 } rfl with ⟨a, v, h3, h4, h5, -⟩ | ⟨e, v, -, h4, -⟩ | ⟨h3, -⟩
        · have h4 : run (parseFuel text) .nextToken (simpleEnv text) { t with nls := none } = .ok a { v with nls := none } := h4
          rw [he, h2'] at h4
          injection h4 with _ h4
          subst h4
          have hv : ({ v with nls := some 0 } : St) = v := by cases v; simp_all
          refine ⟨rfl, .next (ts := ts) (u := { v with nls := some 0 }) ih.2 ?_⟩
          rw [hv]; exact h3
        · have h4 : run (parseFuel text) .nextToken (simpleEnv text) { t with nls := none } = .fail e { v with nls := none } := h4
          rw [he, h2'] at h4
          cases h4
        · exact absurd h3 h
    exact ⟨_, (key hr rfl).2⟩

/-- C41: until a line break is passed over, the tokens are those of the source, whatever follows the line break. -/
theorem C41_first_line {text : GoStr} {ts : List Tok} {t : St} (hr : Reads (simpleEnv text) simpleStart ts t) (ht : t.nls = some 0) :
    Reads (simpleEnv text) {} ts { t with nls := none } ∧ t.bol = 0 := by
  have key : ∀ {s : St} {ts t}, Reads (simpleEnv text) s ts t → t.nls = some 0 → s.nls = some 0 → s.bol = 0 →
      Reads (simpleEnv text) { s with nls := none } ts { t with nls := none } ∧ t.bol = 0 := by
    intro s ts t hr ht hs hb
    induction hr with
    | start => exact ⟨.start _, hb⟩
    | @next ts t u h1 h2 ih =>
      have h2' : run (parseFuel text) .nextToken (simpleEnv text) t = .ok () u := h2
      have hsim := (sim_run (env := simpleEnv text) rfl (parseFuel text)).next
      have htn : t.nls = some 0 := by
        refine Classical.byContradiction fun hx => ?_
        have := hsim.jumped t hx
        rw [h2'] at this
        exact this ht
      obtain ⟨i1, i2⟩ := ih htn
      rcases hsim.same t htn with ⟨a, v, h3, h4, h5, h6⟩ | ⟨e, v, h3, -, -⟩ | ⟨-, h3⟩
      · rw [h2'] at h3
        injection h3 with _ h3
        subst h3
        exact ⟨.next (ts := ts) (u := { u with nls := none }) i1 h4, h6.trans i2⟩
      · rw [h2'] at h3
        cases h3
      · rw [h2'] at h3
        exact absurd ht h3
  exact key hr ht rfl rfl

/-- C41, what the code does instead of going on with the second line: at the end of the first line (`ws` is white space without a
line break, `cm` a comment) the next token is the first one of the source once more (`[` counts as following its line). -/
theorem C41_violated {text : GoStr} {ts : List Tok} {t : St} {ws cm rest : List Nat} (hr : Reads (simpleEnv text) simpleStart ts t) (ht : t.nls = some 0)
    (hw : White ws false) (hcm : IsComment cm) (h : Here (simpleEnv text) t.pos (ws ++ (cm ++ c%'\n' :: rest))) :
    nextToken (simpleEnv text) t = nextToken (simpleEnv text) { t with pos := 0, bol := 0, nls := none } ∨
      ∃ u, nextToken (simpleEnv text) { t with pos := 0, bol := 0, nls := none } = .ok () u ∧ u.tok = .listStart := by
  have hb := (C41_first_line hr ht).2
  have hsk := skipWhite_restart hw hcm ht (by omega) h
  obtain ⟨n, hn⟩ : ∃ n, parseFuel text = n + 1 := ⟨parseFuel text - 1, by unfold parseFuel; have : 0 < (text.length + 8) ^ 2 := Nat.pow_pos (by omega); omega⟩
  have hnt : ∀ s : St, nextToken (simpleEnv text) s = run (n + 1) .nextToken (simpleEnv text) s := by
    intro s
    show run (parseFuel text) _ _ _ = _
    rw [hn]
  rw [hnt, hnt]
  cases hs : skipWhite false (simpleEnv text) { t with pos := 0, bol := 0, nls := none } with
  | fail e u =>
    left
    show (getPos >>= _) (simpleEnv text) _ = (getPos >>= _) (simpleEnv text) _
    show (skipWhite false >>= _) (simpleEnv text) _ = (skipWhite false >>= _) (simpleEnv text) _
    rw [bind_fail (hsk.trans hs), bind_fail hs]
  | ok a u =>
    obtain ⟨c, q⟩ := a
    rw [nextToken_of (hsk.trans hs), nextToken_of hs]
    by_cases hc : c = 91
    · right
      subst hc
      refine ⟨{ u with tsp := q, tok := .listStart, val := .nil }, ?_, rfl⟩
      have : lexChar (run n) 0 91 q = setToken .listStart := by
        have h0 : (0 < q ∨ q = 0) := by omega
        unfold lexChar
        simp only [h0, if_true]
        rfl
      show lexChar (run n) 0 91 q _ _ = _
      rw [this]
      rfl
    · left
      rw [lexChar_scan hc]

/-- Tokens of a simple lexer. -/
def simpleTokens (text : GoStr) : Nat → St → List Tok
  | 0, _ => []
  | n + 1, s => match nextToken (simpleEnv text) s with
    | .ok _ u => u.tok :: if u.tok = .end_ then [] else simpleTokens text n u
    | .fail .. => []

/-- C41: the first line is read twice; a lexer positioned properly reads it once. -/
example : simpleTokens b!"a 1 # x\n'b'" 20 simpleStart = [.identifier, .integer, .identifier, .integer, .string, .end_] ∧
    simpleTokens b!"a 1 # x\n'b'" 20 {} = [.identifier, .integer, .string, .end_] := by decide +kernel

example : simpleTokens b!"$a = [1, \"x\"]" 20 simpleStart =
    [.variable, .assign, .listStart, .integer, .comma, .string, .rb, .end_] := by decide +kernel

end PP.Props
