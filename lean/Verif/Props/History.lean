import Verif.Props.Shape

/-!
# C28, C47: histories of one parser and of one lexer
-/
namespace PP.Props
open PP.Spec

/-! ## C47: lexing makes progress -/

/-- `NextToken`: reads one token. -/
def nextToken (env : Env) (s : St) : Res Unit := run (parseFuel env.text) .nextToken env s

/-- `Reads env s ts t`: from the state `s` on, `NextToken` gave the tokens `ts` and left the state `t`. -/
inductive Reads (env : Env) : St → List Tok → St → Prop
  | start (s) : Reads env s [] s
  | next {s ts t u} : Reads env s ts t → nextToken env t = .ok () u → Reads env s (ts ++ [u.tok]) u

/-- A lexer at the start of the text, as `Parse` leaves it: what else an earlier text has left does not matter. -/
structure AtStart (s : St) : Prop where
  pos : s.pos = 0
  nls : s.nls = none
  defs : s.defs = []

theorem nextToken_base {env : Env} {s t : St} (hb : Base env { s with tsp := 0 }) (h : nextToken env s = .ok () t) : Nx env s t := by
  have h1 := wp_first hb
  unfold wp at h1
  unfold nextToken at h
  rw [h] at h1
  exact h1

theorem atStart_base {env : Env} {s : St} (hs : AtStart s) : Base env { s with tsp := 0 } :=
  ⟨by show s.pos ≤ _; rw [hs.pos]; omega, Nat.zero_le _, by show ∀ k, s.nls = some k → _; rw [hs.nls]; nofun,
   by show ∀ k, s.nls = some k → _; rw [hs.nls]; nofun, by show ∀ d ∈ s.defs, _; rw [hs.defs]; nofun⟩

theorem reads_base {env : Env} {s t : St} {ts : List Tok} (hs : AtStart s) (h : Reads env s ts t) : Base env { t with tsp := 0 } := by
  induction h with
  | start => exact atStart_base hs
  | next _ h ih =>
    have := (nextToken_base ih h).inv
    exact ⟨this.pos, Nat.zero_le _, this.nls, this.nls2, this.defs⟩

theorem reads_psi {env : Env} {s t : St} {ts : List Tok} (hs : AtStart s) (h : Reads env s ts t) (he : ∀ k ∈ ts, k ≠ .end_) :
    psi env s + ts.length ≤ psi env t := by
  induction h with
  | start => simp
  | @next ts t u h1 h ih =>
    have h2 := (nextToken_base (reads_base hs h1) h).lt (he _ (by simp))
    have h3 := ih (fun k hk => he k (by simp [hk]))
    simp only [List.length_append, List.length_singleton]
    omega

/-- C47: a token other than the end takes something from the text, unless the text of a heredoc is pending. -/
theorem C47_progress {env : Env} {s t u : St} {ts : List Tok} (hs : AtStart s) (h : Reads env s ts t) (hn : nextToken env t = .ok () u)
    (he : u.tok ≠ .end_) (h1 : t.nls = none) (h2 : u.nls = none) : t.pos < u.pos := by
  have hb := reads_base hs h
  have hx := nextToken_base hb hn
  have h3 := hx.lt he
  have h4 : t.pos ≤ env.text.length + 1 := hb.pos
  have h5 := hx.inv.pos
  unfold psi nlv at h3
  rw [h1, h2] at h3
  simp only [Option.getD_none] at h3
  rw [Nat.min_eq_left (by omega), Nat.min_eq_left (by omega), if_neg (by omega), if_neg (by omega)] at h3
  rcases Nat.lt_or_ge t.pos u.pos with hc | hc
  · exact hc
  · have := Nat.mul_le_mul_right (2 * (env.text.length + 3)) hc
    omega

/-- C47: the lexer never is more than one position behind the end of the text. -/
theorem C47_bounds {env : Env} {s t : St} {ts : List Tok} (hs : AtStart s) (h : Reads env s ts t) :
    t.pos ≤ env.text.length + 1 ∧ (ts ≠ [] → t.tsp ≤ env.text.length + 1) := by
  refine ⟨(reads_base hs h).pos, fun hne => ?_⟩
  cases h with
  | start => exact absurd rfl hne
  | next h1 h2 => exact (nextToken_base (reads_base hs h1) h2).inv.tsp

/-- C47: also with heredocs the end is reached after boundedly many tokens. -/
theorem C47_finite {env : Env} {s t : St} {ts : List Tok} (hs : AtStart s) (h : Reads env s ts t) (he : ∀ k ∈ ts, k ≠ .end_) :
    ts.length ≤ 2 * (env.text.length + 3) ^ 2 := by
  have h1 := reads_psi hs h he
  have h2 := psi_le_max (env := env) (s := t) (reads_base hs h).pos
  have h3 : psiMax env ≤ 2 * (env.text.length + 3) ^ 2 := by
    unfold psiMax
    generalize env.text.length = L
    have a1 : (L + 1) * (2 * (L + 3)) = 2 * (L * L) + 8 * L + 6 := by
      rw [show (L + 1) * (2 * (L + 3)) = 2 * ((L + 1) * (L + 3)) by rw [Nat.mul_left_comm]]
      simp only [Nat.add_mul, Nat.mul_add]; omega
    have a2 : (L + 3) ^ 2 = L * L + 6 * L + 9 := by
      rw [Nat.pow_two]; simp only [Nat.add_mul, Nat.mul_add]; omega
    omega
  omega

/-- C47: `NextToken` gives a token, or an issue at a position in the text, or it panics on the text of a heredoc. -/
theorem C47_outcome {env : Env} {s t : St} {ts : List Tok} (hs : AtStart s) (h : Reads env s ts t) :
    (∃ u, nextToken env t = .ok () u) ∨ (∃ c p u, nextToken env t = .fail (.issue c p) u ∧ p ≤ env.text.length + 1) ∨
    (∃ p u, nextToken env t = .fail (.invalidUnicode p) u ∧ p ≤ env.text.length + 1) ∨
    (∃ k u, nextToken env t = .fail (.crash k) u ∧ (b!"@(" <:+: env.text ∨ b!"type" <:+: env.text ∨ env.workflow = true)) := by
  have h1 := wp_first (reads_base hs h)
  unfold wp at h1
  unfold nextToken
  cases h2 : run (parseFuel env.text) .nextToken env t with
  | ok a u => exact .inl ⟨u, rfl⟩
  | fail e u =>
    rw [h2] at h1
    dsimp only at h1
    cases e with
    | issue c p => exact .inr (.inl ⟨c, p, u, rfl, h1⟩)
    | invalidUnicode p => exact .inr (.inr (.inl ⟨p, u, rfl, h1⟩))
    | crash k =>
      refine .inr (.inr (.inr ⟨k, u, rfl, ?_⟩))
      rcases h1 with ⟨-, h⟩ | ⟨-, h⟩ | ⟨-, h⟩
      · exact .inl h
      · exact .inr (.inl h)
      · exact .inr (.inr h)
    | timeout => exact h1.elim

/-- The tokens of a text (all of them, up to `k`). -/
def tokens (env : Env) : Nat → St → List Tok
  | 0, _ => []
  | k + 1, s =>
    match nextToken env s with
    | .ok _ t => t.tok :: (if t.tok = .end_ then [] else tokens env k t)
    | .fail .. => []

/-- A concrete case: a heredoc whose text is skipped. -/
example : tokens { text := b!"f(@(X), 1)\ntext\nX\n$y" } 20 {} =
    [.identifier, .lp, .heredoc, .comma, .integer, .rp, .variable, .end_] := by decide +kernel

/-! ## C28: what one call of `Parse` leaves for the next one -/

/-- `Calls s cs t`: the calls `cs` of `Parse`, all of which succeed, lead from `s` to `t`. -/
inductive Calls : St → List (Env × Bool) → St → Prop
  | none (s) : Calls s [] s
  | call {s cs t env single e u} : Calls s cs t → parseFrom env t single = (.value e, u) → Calls s (cs ++ [(env, single)]) u

/-- C28: after any calls that succeed no token and no name of an enclosing class is left. -/
theorem C28_nothing_left {cs : List (Env × Bool)} {t : St} (h : Calls {} cs t) : t.tok = .end_ ∧ t.names = [] := by
  have h0 : ({} : St).tok = .end_ ∧ ({} : St).names = [] := ⟨rfl, rfl⟩
  revert h0
  generalize ({} : St) = s at h
  intro h0
  induction h with
  | none => exact h0
  | call _ h1 ih =>
    obtain ⟨h2, h3⟩ := ih
    have := (parsed_tree h1).2
    exact ⟨this.tok, this.names.trans h3⟩

/-- C28: a program is read as by a new parser if the last line of what was read before started at 0 (it had only one line).
(The start of the last line is what is left of it, see `C28_violated`.) -/
theorem C28_programs {cs : List (Env × Bool)} {s : St} (hc : Calls {} cs s) (hb : s.bol = 0) {env : Env} {ts : List T} {ss : List Expr}
    (hepp : env.epp = false) (hfac : env.hasFactory = true) (hs : Source env ts) (hg : G [] .stmts ss ts) :
    ∃ p b ds t p' b' ds', parseFrom env s false = (.value (.program p b ds), t) ∧ parse env false = .value (.program p' b' ds') ∧
      bare b = bare b' := by
  obtain ⟨h1, h2⟩ := C28_nothing_left hc
  obtain ⟨p, b, ds, t, h3, h4, -⟩ := program_of hepp hfac hs hg (s := s) ⟨h1, hb, h2⟩
  obtain ⟨p', b', ds', h5, h6⟩ := C51_programs hepp hfac hs hg
  exact ⟨p, b, ds, t, p', b', ds', parseFrom_of h3, h5, by rw [h4, h6]⟩

/-- C28: the same for a single expression. -/
theorem C28_expressions {cs : List (Env × Bool)} {s : St} (hc : Calls {} cs s) (hb : s.bol = 0) {env : Env} {ts : List T} {e : Expr}
    (hepp : env.epp = false) (hfac : env.hasFactory = true) (hs : Source env ts) (hg : G [] (.bin .rel) e ts) :
    ∃ a t b, parseFrom env s true = (.value a, t) ∧ parse env true = .value b ∧ bare a = bare b := by
  obtain ⟨h1, h2⟩ := C28_nothing_left hc
  obtain ⟨a, t, h3, h4⟩ := single_of hepp hfac hs hg (s := s) ⟨h1, hb, h2⟩
  obtain ⟨b, h5, h6⟩ := C51_expressions hepp hfac hs hg
  exact ⟨a, t, b, parseFrom_of h3, h5, by rw [h4, h6]⟩

/-- C28: the unrestricted claim is false.  After a text of several lines `(` may be taken for the first token of a line; after a
text that is rejected the names of its classes and its last token are left. -/
theorem C28_violated :
    see b!"foo(1)" ≠ seeAfter b!"\n\n\n1" b!"foo(1)" ∧
    see b!"class b {}" ≠ seeAfter b!"class a { $" b!"class b {}" ∧
    see b!"/a/" ≠ seeAfter b!"1 2 )" b!"/a/" := by
  decide +kernel

/-- Is the outcome a tree? -/
def isTree : Outcome → Bool
  | .value _ => true
  | _ => false

theorem isTree_value {env : Env} {s : St} {single : Bool} (h : isTree (parseFrom env s single).1 = true) :
    ∃ x, parseFrom env s single = (.value x, (parseFrom env s single).2) := by
  generalize parseFrom env s single = r at h ⊢
  obtain ⟨o, t⟩ := r
  cases o <;> first | exact ⟨_, rfl⟩ | cases h

/-- A history with two calls to which `C28_programs` applies. -/
example : ∃ s, Calls {} [({ text := b!"$a = 1 # one" }, false), ({ text := b!"class b { $c }" }, false)] s ∧ s.bol = 0 := by
  obtain ⟨x, h1⟩ := isTree_value (env := { text := b!"$a = 1 # one" }) (s := {}) (single := false) (by decide +kernel)
  obtain ⟨y, h2⟩ := isTree_value (env := { text := b!"class b { $c }" })
    (s := (parseFrom { text := b!"$a = 1 # one" } {} false).2) (single := false) (by decide +kernel)
  exact ⟨_, .call (cs := [_]) (.call (cs := []) (.none _) h1) h2, by decide +kernel⟩

end PP.Props
