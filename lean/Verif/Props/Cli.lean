import Verif.Cli
import Verif.Props.Validator

/-!
# C46, C49: the command line tool and the names of the strictness levels
-/

namespace PP.Props

/-! ## C49 -/

/-- The bytes spell the letter: the letter itself, its upper case form, `İ` (U+0130) for `i` or the Kelvin
sign (U+212A) for `k`. -/
inductive Letter : UInt8 → GoStr → Prop where
  | lower (a) : Letter a [a]
  | upper (a) (b) : 65 ≤ b.toNat → b.toNat ≤ 90 → a.toNat = b.toNat + 32 → Letter a [b]
  | dottedI : Letter 105 [0xC4, 0xB0]
  | kelvin : Letter 107 [0xE2, 0x84, 0xAA]

/-- The text is the word, in any mixture of cases. -/
inductive Spells : GoStr → GoStr → Prop where
  | nil : Spells [] []
  | cons {a w l s} : Letter a l → Spells w s → Spells (a :: w) (l ++ s)

private theorem lower_toNat (a : UInt8) :
    (if 65 ≤ a.toNat && a.toNat ≤ 90 then UInt8.ofNat (a.toNat + 32) else a).toNat =
      if 65 ≤ a.toNat ∧ a.toNat ≤ 90 then a.toNat + 32 else a.toNat := by
  simp only [Bool.and_eq_true, decide_eq_true_eq]
  split
  · rw [UInt8.toNat_ofNat']; omega
  · rfl

private theorem lower_letter (b : UInt8) :
    Letter (if 65 ≤ b.toNat && b.toNat ≤ 90 then UInt8.ofNat (b.toNat + 32) else b) [b] := by
  have h := lower_toNat b
  simp only [Bool.and_eq_true, decide_eq_true_eq] at h ⊢
  split
  · next h' => rw [if_pos h'] at h; exact .upper _ _ h'.1 h'.2 (by simpa [h'] using h)
  · exact .lower _

private theorem spells_lower (s : GoStr) : Spells (toLowerGo s) s := by
  fun_induction toLowerGo s with
  | case1 a b c s h ih =>
    have := Spells.cons .kelvin ih
    rw [show a = 0xE2 from UInt8.toNat_inj.1 h.1, show b = 0x84 from UInt8.toNat_inj.1 h.2.1, show c = 0xAA from UInt8.toNat_inj.1 h.2.2]
    exact this
  | case2 a b c s h h' ih =>
    have := Spells.cons .dottedI ih
    rw [show a = 0xC4 from UInt8.toNat_inj.1 h'.1, show b = 0xB0 from UInt8.toNat_inj.1 h'.2]
    exact this
  | case3 a b c s h h' ih => exact Spells.cons (lower_letter a) ih
  | case4 a b h =>
    rw [show a = 0xC4 from UInt8.toNat_inj.1 h.1, show b = 0xB0 from UInt8.toNat_inj.1 h.2]
    exact Spells.cons .dottedI .nil
  | case5 a b h => exact Spells.cons (lower_letter a) (Spells.cons (lower_letter b) .nil)
  | case6 a => exact Spells.cons (lower_letter a) .nil
  | case7 => exact .nil

private theorem toLowerGo_cons {a : UInt8} (ha : a.toNat < 0x80) (s : GoStr) :
    toLowerGo (a :: s) = (if 65 ≤ a.toNat && a.toNat ≤ 90 then UInt8.ofNat (a.toNat + 32) else a) :: toLowerGo s := by
  rcases s with _ | ⟨b, _ | ⟨c, s⟩⟩
  · rfl
  · rw [toLowerGo, if_neg (by omega)]; rfl
  · rw [toLowerGo, if_neg (by omega), if_neg (by omega)]

private theorem lower_spells {w s : GoStr} (h : Spells w s) (hw : ∀ b ∈ w, 97 ≤ b.toNat ∧ b.toNat ≤ 122) :
    toLowerGo s = w := by
  induction h with
  | nil => rfl
  | @cons a w l s h1 h2 ih =>
    have ih := ih fun b hb => hw b (List.mem_cons_of_mem _ hb)
    have ha := hw a (List.mem_cons_self ..)
    cases h1 with
    | lower =>
      show toLowerGo (a :: s) = _
      rw [toLowerGo_cons (by omega), ih, if_neg (by simp; omega)]
    | upper _ b h3 h4 h5 =>
      show toLowerGo (b :: s) = _
      rw [toLowerGo_cons (by omega), ih, if_pos (by simp; omega)]
      congr 1
      rw [← UInt8.toNat_inj, UInt8.toNat_ofNat']
      omega
    | dottedI =>
      rcases s with _ | ⟨c, s⟩
      · rw [← ih]; rfl
      · show toLowerGo (0xC4 :: 0xB0 :: c :: s) = _
        rw [toLowerGo, if_neg (fun h => absurd h.1 (by decide)), if_pos (by decide), ih]
    | kelvin =>
      show toLowerGo (0xE2 :: 0x84 :: 0xAA :: s) = _
      rw [toLowerGo, if_pos (by decide), ih]

private theorem spells_iff {w : GoStr} (hw : ∀ b ∈ w, 97 ≤ b.toNat ∧ b.toNat ≤ 122) (s : GoStr) :
    Spells w s ↔ toLowerGo s = w :=
  ⟨fun h => lower_spells h hw, fun h => h ▸ spells_lower s⟩

/-- C49: the name of a strictness is read back as that strictness. -/
theorem C49_round_trip (s : Strictness) : strict s.toStr = some s := by
  cases s <;> rfl

/-- C49: a strictness is read exactly from its name in any mixture of cases; the empty string is `off`. -/
theorem C49_strict_iff (s : GoStr) (t : Strictness) :
    strict s = some t ↔ Spells t.toStr s ∨ (s = [] ∧ t = .off) := by
  rw [spells_iff (by cases t <;> decide)]
  have h0 : toLowerGo s = [] ↔ s = [] := by
    constructor
    · intro h
      have := spells_lower s
      rw [h] at this
      cases this; rfl
    · rintro rfl; rfl
  rw [← h0]
  unfold strict
  simp only
  generalize toLowerGo s = l
  cases t <;> simp only [Strictness.toStr]
  all_goals
    split
    · simp_all
    · split
      · simp_all
      · repeat' split
        all_goals simp_all

/-- C49: `Strict` panics on everything else. -/
theorem C49_panics_iff (s : GoStr) :
    strict s = none ↔ s ≠ [] ∧ ∀ t : Strictness, ¬ Spells t.toStr s := by
  have h := C49_strict_iff s
  constructor
  · intro hn
    refine ⟨?_, fun t ht => ?_⟩
    · rintro rfl; cases hn
    · have := (h t).2 (.inl ht); rw [hn] at this; cases this
  · rintro ⟨h1, h2⟩
    cases hs : strict s with
    | none => rfl
    | some t =>
      rcases (h t).1 hs with h | h
      · exact absurd h (h2 t)
      · exact absurd h.1 h1

/-- Not vacuous: `WaRning` is read, `strict` is not. -/
example : strict b!"WaRning" = some .warning ∧ strict b!"strict" = none ∧ strict b!"warnİng" = some .warning :=
  ⟨rfl, rfl, rfl⟩

/-! ## C46 -/

/-- The exit status of the process: a panic ends it with status 2. -/
def exitStatus (a : CliArgs) : Nat :=
  match cliMain a with
  | .ok out => out.exit
  | .error _ => 2

/-- The validator that the tool uses. -/
def cliChecker (a : CliArgs) (s : Strictness) : Checker :=
  { kind := .puppet, strict := s, textLen := a.content.length, feq := a.feq, ff := a.fmtFloat }

theorem foldl_severity (is : List Issue) (s : Severity) :
    (is.foldl (fun s i => if s.rank < i.severity.rank then i.severity else s) s = .error) ↔
      s = .error ∨ ∃ i ∈ is, i.severity = .error := by
  induction is generalizing s with
  | nil => simp
  | cons i is ih =>
    rw [List.foldl_cons, ih]
    have : ((if s.rank < i.severity.rank then i.severity else s) = .error) ↔ (s = .error ∨ i.severity = .error) := by
      cases s <;> cases i.severity <;> simp [Severity.rank]
    rw [this]
    simp [or_assoc]

theorem maxSeverity_error (is : List Issue) : maxSeverity is = .error ↔ ∃ i ∈ is, i.severity = .error := by
  rw [maxSeverity, foldl_severity]
  simp

/-- C46: when the tool does not panic, its exit status is not zero exactly when parsing failed or
validation reported an issue with severity error. -/
theorem C46_exit_status (a : CliArgs) (out : CliOut) (h : cliMain a = .ok out) :
    out.exit ≠ 0 ↔ (∃ err, parse a.env false = .error err) ∨
      ∃ s e is, strict a.strict = some s ∧ parse a.env false = .value e ∧
        validateWith (cliChecker a s) e = .ok is ∧ ∃ i ∈ is, i.severity = .error := by
  unfold cliMain at h
  split at h
  · cases h
  · rename_i s hs
    split at h
    · cases h
    · cases h
    · rename_i code pos hp
      cases hd : describe a.content pos <;> simp [hd, bind, Except.bind, pure, Except.pure] at h
      subst h
      simp [hp]
    · rename_i e hne hp
      cases h
      simp [hp]
    · rename_i e hp
      change (match validateWith (cliChecker a s) e with
        | .error p => _ | .ok issues => _) = _ at h
      have hfree : ¬ ∃ err, parse a.env false = .error err := by simp [hp]
      simp only [hfree, false_or]
      split at h
      · cases h
      · rename_i is hv
        have hcond : (∃ s e is, strict a.strict = some s ∧ parse a.env false = .value e ∧
            validateWith (cliChecker a s) e = .ok is ∧ ∃ i ∈ is, i.severity = .error) ↔ maxSeverity is = .error := by
          rw [maxSeverity_error]
          constructor
          · rintro ⟨s', e', is', h1, h2, h3, h4⟩
            rw [hs] at h1; cases h1
            rw [hp] at h2; cases h2
            rw [hv] at h3; cases h3
            exact h4
          · intro h4; exact ⟨s, e, is, hs, hp, hv, h4⟩
        rw [hcond]
        cases hd : describeAll a.content is <;> simp [hd, bind, Except.bind, pure, Except.pure] at h
        split at h
        · rename_i hm; cases h; simp [hm]
        · rename_i hm
          split at h
          · cases h; simp [hm]
          · split at h
            · cases h
            · cases h; simp [hm]

/-- C46: an AST is printed exactly when the exit status is zero and `-v` is not given, and it is the AST
of the parsed program. -/
theorem C46_ast_printed (a : CliArgs) (out : CliOut) (h : cliMain a = .ok out) :
    (out.ast.isSome ↔ out.exit = 0 ∧ a.validateOnly = false) ∧
    (∀ p, out.ast = some p → ∃ e, parse a.env false = .value e ∧ e.toPN = .ok p) := by
  unfold cliMain at h
  split at h
  · cases h
  · rename_i s hs
    split at h
    · cases h
    · cases h
    · rename_i code pos hp
      cases hd : describe a.content pos <;> simp [hd, bind, Except.bind, pure, Except.pure] at h
      subst h
      simp
    · cases h
      simp
    · rename_i e hp
      simp only at h
      split at h
      · cases h
      · rename_i is hv
        cases hd : describeAll a.content is <;> simp [hd, bind, Except.bind, pure, Except.pure] at h
        split at h
        · cases h; simp
        · split at h
          · rename_i hvo; cases h; simp [hvo]
          · rename_i hvo
            split at h
            · cases h
            · rename_i p hpn; cases h; simp [hvo, hpn, hp]

/-- C46: all issues of a program that parses are shown, whatever the exit status. -/
theorem C46_issues_shown (a : CliArgs) (out : CliOut) (h : cliMain a = .ok out) (s : Strictness) (e : Expr)
    (hs : strict a.strict = some s) (hp : parse a.env false = .value e) :
    validateWith (cliChecker a s) e = .ok out.issues := by
  unfold cliMain at h
  rw [hs, hp] at h
  simp only at h
  split at h
  · cases h
  · rename_i is hv
    cases hd : describeAll a.content is <;> simp [hd, bind, Except.bind, pure, Except.pure] at h
    have : out.issues = is := by
      split at h
      · cases h; rfl
      · split at h
        · cases h; rfl
        · split at h
          · cases h
          · cases h; rfl
    rw [this]
    exact hv

end PP.Props
