import Verif.Lemmas.Layout
import Verif.Lemmas.Floats

/-! # A text that is a layout of tokens feeds these tokens to the parser (2) -/
namespace PP
open PP.Spec
set_option linter.unusedSimpArgs false

section
variable {env : Env} {s : St} {n p b scan : Nat} {ws cs rest rs : List Nat} {t : T} {ts : List T} {prev : Tok} {first nl hd : Bool}

theorem isName_first {tok : Tok} {f : Nat → Bool} (hi : IsName tok f cs rest) : cs ≠ [] ∧ (headC cs = 58 ∨ f (headC cs) = true) := by
  obtain ⟨g, c, src, hg, rfl, hc, ht, he⟩ := hi
  rcases hg with rfl | rfl
  · exact ⟨by simp, .inr hc⟩
  · exact ⟨by simp, .inl rfl⟩

/-- Which character a token starts with. -/
theorem spelled_first (h : Spelled env t cs rest) : cs ≠ [] ∧ isBlank (headC cs) = false ∧ headC cs ≠ 35 ∧ headC cs < 128 ∧
    (∀ r, cs ++ rest ≠ 47 :: 42 :: r) ∧ (isNumber t = false → isDecimalDigit (headC cs) = false) := by
  have name : ∀ {tok : Tok} {f : Nat → Bool}, (f = isUppercaseLetter ∨ f = isLowercaseLetter) → IsName tok f cs rest →
      cs ≠ [] ∧ isBlank (headC cs) = false ∧ headC cs ≠ 35 ∧ headC cs < 128 ∧ (∀ r, cs ++ rest ≠ 47 :: 42 :: r) ∧ isDecimalDigit (headC cs) = false := by
    intro tok f hf hi
    obtain ⟨h1, h2⟩ := isName_first hi
    have h3 : headC cs = 58 ∨ (65 ≤ headC cs ∧ headC cs ≤ 90) ∨ (97 ≤ headC cs ∧ headC cs ≤ 122) := by
      rcases h2 with h2 | h2
      · exact .inl h2
      · rcases hf with rfl | rfl <;> simp [isUppercaseLetter, isLowercaseLetter] at h2 <;> omega
    refine ⟨h1, ?_, by omega, by omega, ?_, ?_⟩
    · simp [isBlank]; omega
    · intro r hr
      cases cs with
      | nil => exact h1 rfl
      | cons c cs => simp only [List.cons_append, List.cons.injEq] at hr; simp only [headC_cons] at h3; omega
    · simp [isDecimalDigit]; omega
  have weaken : (cs ≠ [] ∧ isBlank (headC cs) = false ∧ headC cs ≠ 35 ∧ headC cs < 128 ∧ (∀ r, cs ++ rest ≠ 47 :: 42 :: r) ∧ isDecimalDigit (headC cs) = false) →
      cs ≠ [] ∧ isBlank (headC cs) = false ∧ headC cs ≠ 35 ∧ headC cs < 128 ∧ (∀ r, cs ++ rest ≠ 47 :: 42 :: r) ∧ (isNumber t = false → isDecimalDigit (headC cs) = false) :=
    fun ⟨a, b, c, d, e, f⟩ => ⟨a, b, c, d, e, fun _ => f⟩
  cases t with
  | int r v =>
    have : cs ≠ [] ∧ 48 ≤ headC cs ∧ headC cs ≤ 57 := by
      rcases h with ⟨-, -, ⟨d, ds, rfl, h1, h2, -⟩, -⟩ | ⟨-, -, rfl, -⟩ | ⟨-, -, ⟨ds, rfl, -, -⟩, -⟩ | ⟨-, x, ds, -, rfl, -⟩
      · exact ⟨by simp, by rw [headC_cons]; omega, by rw [headC_cons]; omega⟩
      all_goals exact ⟨by simp, by rw [headC_cons]; omega, by rw [headC_cons]; omega⟩
    refine ⟨this.1, by simp [isBlank]; omega, by omega, by omega, ?_, fun h => absurd h (by simp [isNumber])⟩
    intro r hr
    cases cs with
    | nil => exact this.1 rfl
    | cons c cs => simp only [List.cons_append, List.cons.injEq] at hr; simp only [headC_cons] at this; omega
  | float v =>
    obtain ⟨-, ⟨whole, part, rfl, hw, -⟩, -⟩ := h
    have : ∃ d t, whole = d :: t ∧ 48 ≤ d ∧ d ≤ 57 := by
      rcases hw with rfl | ⟨hw, -⟩
      · exact ⟨48, [], rfl, by omega, by omega⟩
      · exact digits_head hw
    obtain ⟨d, t, rfl, h1, h2⟩ := this
    refine ⟨by simp, by simp [isBlank]; omega, by simp; omega, by simp; omega, ?_, fun h => absurd h (by simp [isNumber])⟩
    intro r hr
    simp only [List.cons_append, List.cons.injEq] at hr; omega
  | brace =>
    obtain rfl : cs = [123] := h.1
    exact weaken ⟨by simp, rfl, by simp, by simp, by simp, rfl⟩
  | interp => exact h.elim
  | heredoc => exact h.elim
  | render => exact h.elim
  | str v =>
    apply weaken
    rcases h with ⟨src, out, rfl, -⟩ | ⟨src, rfl, -⟩ | ⟨src, rfl, -⟩ | ⟨c, src, rfl, h1, -⟩
    · exact ⟨by simp, rfl, by simp, by simp, by simp, rfl⟩
    · exact ⟨by simp, rfl, by simp, by simp, by simp, rfl⟩
    · exact ⟨by simp, rfl, by simp, by simp, by simp, rfl⟩
    · simp only [isLowercaseLetter, Bool.and_eq_true, decide_eq_true_eq] at h1
      refine ⟨by simp, ?_, ?_, ?_, ?_, ?_⟩
      · rw [headC_cons]; simp [isBlank]; omega
      · rw [headC_cons]; omega
      · rw [headC_cons]; omega
      · rintro r hr; simp only [List.cons_append, List.cons.injEq] at hr; omega
      · rw [headC_cons]; simp [isDecimalDigit]; omega
  | regexp v =>
    obtain ⟨src, out, rfl, h1, -⟩ := h
    refine weaken ⟨by simp, rfl, by simp, by simp, ?_, rfl⟩
    intro r hr
    cases src with
    | nil => simp at hr
    | cons c src => simp only [List.cons_append, List.cons.injEq] at hr; exact h1 hr.2.1
  | var v =>
    obtain ⟨w, rfl, -⟩ := h
    exact weaken ⟨by simp, rfl, by simp, by simp, by simp, rfl⟩
  | type v => exact weaken (name (.inl rfl) h.2)
  | name v => exact weaken (name (.inr rfl) h.2.1)
  | style k => exact weaken (name (.inr rfl) h.2.2)
  | bool v => exact weaken (name (.inr rfl) h.2)
  | dflt => exact weaken (name (.inr rfl) h.2)
  | word k => exact weaken (name (.inr rfl) h.2.2)
  | sign k =>
    obtain ⟨rfl | rfl, rfl, -⟩ := h
    · exact weaken ⟨by simp [symText], rfl, by simp [symText], by simp [symText], by simp [symText], rfl⟩
    · exact weaken ⟨by simp [symText], rfl, by simp [symText], by simp [symText], by simp [symText], rfl⟩
  | sym k =>
    obtain ⟨rfl, hne, ha, -⟩ := h
    apply weaken
    refine ⟨hne, ?_, ?_, ?_, ?_, ?_⟩
    · cases k <;> first | exact absurd rfl hne | rfl
    · cases k <;> first | exact absurd rfl hne | simp [symText]
    · cases k <;> first | exact absurd rfl hne | simp [symText]
    · intro r hr
      cases k
      case divide =>
        simp only [symText, List.cons_append, List.nil_append, List.cons.injEq] at hr
        rw [hr.2] at ha
        exact ha (by simp [absorbs])
      all_goals first | exact absurd rfl hne | (simp [symText] at hr)
    · cases k <;> first | exact absurd rfl hne | rfl

theorem spelled_noSkip (h : Spelled env t cs rest) : NoSkip (cs ++ rest) := by
  obtain ⟨h1, h2, h3, -, h4, -⟩ := spelled_first h
  cases cs with
  | nil => exact absurd rfl h1
  | cons c cs => exact ⟨h2, h3, h4⟩

/-- The text contains no heredoc. -/
def NoHeredoc (env : Env) : Prop := ∀ p r, ¬ Here env p (64 :: 40 :: r)

/-- The line that starts at `b`: its first token is at `q`; it is at `p` if `f`, and not at the `(` at `p` otherwise.  If there are no
heredocs, then `b` may be the start of an earlier line and there are only comments and white space between. -/
def LineAt (env : Env) (b p : Nat) (f : Prop) : Prop :=
  (b ≤ p ∨ NoHeredoc env) ∧ ∃ pre line q b1, Here env b (pre ++ line) ∧ NoSkip line ∧ Skips b b pre q b1 ∧ (f → q = p) ∧ (¬ f → q < p ∨ headC line ≠ 40) ∧
    (b1 = b ∨ NoHeredoc env)

/-- The first token on the line that starts at `b` is before `p` or is not a `(`. -/
def Good (env : Env) (b p : Nat) : Prop :=
  0 < p ∧ (b ≤ p ∨ NoHeredoc env) ∧ ∃ pre line q b1, Here env b (pre ++ line) ∧ NoSkip line ∧ Skips b b pre q b1 ∧ (q < p ∨ headC line ≠ 40) ∧ (b1 = b ∨ NoHeredoc env)

theorem LineAt.good {b p p' : Nat} {f : Prop} (h : LineAt env b p f) (hp : p < p') : Good env b p' := by
  obtain ⟨h0, pre, line, q, b1, g1, g2, g3, g4, g4', g5⟩ := h
  refine ⟨by omega, h0.imp (by omega) id, pre, line, q, b1, g1, g2, g3, ?_, g5⟩
  by_cases hf : f
  · exact .inl (by have := g4 hf; omega)
  · exact (g4' hf).imp (by omega) id

theorem good_of {pre line : List Nat} {b q b1 p : Nat} (h0 : 0 < p) (h1 : Here env b (pre ++ line)) (h2 : NoSkip line) (h3 : Skips b b pre q b1) (h4 : q < p ∨ headC line ≠ 40)
    (h5 : b ≤ p ∨ NoHeredoc env) (h6 : b1 = b ∨ NoHeredoc env) :
    Good env b1 p := by
  refine ⟨h0, h6.elim (fun h => by rw [h]; exact h5) .inr, ?_⟩
  rcases h3.line' with rfl | ⟨w1, w2, rfl, h5, h6⟩
  · exact ⟨pre, line, q, b1, h1, h2, h3, h4, .inl rfl⟩
  · rw [List.append_assoc] at h1
    exact ⟨w2, line, q, b1, by rw [h5]; exact h1.append, h2, h6, h4, .inl rfl⟩

theorem headC_unique {p : Nat} {rs rs' : List Nat} (h : Here env p rs) (h' : Here env p rs') : headC rs = headC rs' := by
  have h1 := peekAt_here (s := default) h
  rw [peekAt_here (s := default) h'] at h1
  injection h1 with h1 _
  injection h1 with h1 _
  exact h1.symm

theorem lexSpelledSym {k : Tok}
    (hsp : Spelled env (.sym k) cs rest) (hfit : Fits env.epp prev first hd ws nl (.sym k) rest) (h : Here env p (cs ++ rest))
    (hst : LineAt env b p (nl = true ∨ first = true)) (htok : s.tok = prev ∨ (prev = .listStart ∧ s.tok = .lb)) (hn : hd = true ∧ ¬ NoHeredoc env ∨ hd = false ∧ s.nls = none)
    (hb : s.bol = b) (hpos : s.pos = p + 1) (hscan : first = false → ws = [] → ¬ (scan < p ∨ p = 0)) :
    ∃ tok b', (tok = k ∨ (k = .listStart ∧ tok = .lb)) ∧
      (∀ n v ns ds, lexChar (run n) scan (headC (cs ++ rest)) p env { s with val := v, names := ns, defs := ds } =
        .ok () { s with pos := p + (utf8 cs).length, tok := tok, val := .nil, bol := b', names := ns, defs := ds }) ∧
      (b' = b ∨ hd = false ∧ Good env b' (p + (utf8 cs).length) ∨ hd = false ∧ ∃ c q, ∀ u : St, u.pos = p + (utf8 cs).length → u.nls = none → ∃ v, skipWhite false env { u with bol := b } = .ok (c, q) v ∧ v.bol = b') := by
  obtain ⟨rfl, hne, ha, -⟩ := hsp
  have hlen : (utf8 (symText k)).length = (symText k).length := by
    cases k <;> first | exact absurd rfl hne | rfl
  have hpr : ∀ q : Tok, q ≠ .lb → q ≠ .listStart → (s.tok = q ↔ prev = q) := by
    intro q h1 h2
    rcases htok with h | ⟨h, h'⟩
    · rw [h]
    · rw [h, h']
      exact ⟨fun h => absurd h.symm h1, fun h => absurd h.symm h2⟩
  have hrx : isRegexpAcceptable s.tok = beforeRegexp prev := by
    have : ∀ q, isRegexpAcceptable q = beforeRegexp q := by intro q; cases q <;> rfl
    rcases htok with h | ⟨h, h'⟩
    · rw [h, this]
    · rw [h, h']; rfl
  cases hk : plainSym k with
  | true =>
    refine ⟨k, b, .inl rfl, fun n v ns ds => ?_, .inl rfl⟩
    rw [lexSym (s := { s with val := v, names := ns, defs := ds }) hk hne h hpos ha, hlen, ← hb]
  | false =>
    cases k
    case lp =>
      obtain ⟨h0, pre, line, q, b1, h1, h2, h3, h4, h5, h6⟩ := hst
      have hn2 : s.nls = none ∨ b1 = s.bol := by
        rcases hn with ⟨-, hn⟩ | ⟨-, hn⟩
        · exact .inr ((h6.resolve_right hn).trans hb.symm)
        · exact .inl hn
      refine ⟨.lp, b1, .inl rfl, fun n v ns ds => ?_, ?_⟩
      · have hf : nl = false ∧ first = false := hfit
        show lexChar (run n) scan 40 p env _ = _
        rw [lexParen (s := { s with val := v, names := ns, defs := ds }) (by show Here env s.bol _; rw [hb]; exact h1) (by show Skips s.bol s.bol _ _ b1; rw [hb]; exact h3) hn2 h2]
        have : ¬ q = p := by
          rintro rfl
          rcases h5 (by simp [hf]) with h5 | h5
          · omega
          · have := h1.append
            rw [← h3.pos] at this
            exact h5 (headC_unique this h)
        rw [if_neg this, hlen]
        simp only [symText, List.length_cons, List.length_nil, ← hpos]
      · rcases hn with ⟨-, hn⟩ | ⟨hn, -⟩
        · exact .inl (h6.resolve_right hn)
        · exact .inr (.inl ⟨hn, good_of (by rw [hlen]; exact Nat.succ_pos _) h1 h2 h3 (by rw [hlen]; exact (h5 (by simp [show nl = false ∧ first = false from hfit])).imp (fun h => by show q < p + 1; omega) id) (h0.imp (by omega) id) h6⟩)
    case wslp =>
      obtain ⟨h0, pre, line, q, b1, h1, h2, h3, h4, h5, h6⟩ := hst
      have hn2 : s.nls = none ∨ b1 = s.bol := by
        rcases hn with ⟨-, hn⟩ | ⟨-, hn⟩
        · exact .inr ((h6.resolve_right hn).trans hb.symm)
        · exact .inl hn
      refine ⟨.wslp, b1, .inl rfl, fun n v ns ds => ?_, ?_⟩
      · have hf : nl = true ∨ first = true := hfit
        show lexChar (run n) scan 40 p env _ = _
        rw [lexParen (s := { s with val := v, names := ns, defs := ds }) (by show Here env s.bol _; rw [hb]; exact h1) (by show Skips s.bol s.bol _ _ b1; rw [hb]; exact h3) hn2 h2]
        have : q = p := h4 hf
        rw [if_pos this, hlen]
        simp only [symText, List.length_cons, List.length_nil, ← hpos]
      · rcases hn with ⟨-, hn⟩ | ⟨hn, -⟩
        · exact .inl (h6.resolve_right hn)
        · exact .inr (.inl ⟨hn, good_of (by rw [hlen]; exact Nat.succ_pos _) h1 h2 h3 (.inl (by rw [hlen, h4 hfit]; exact Nat.lt_succ_self _)) (h0.imp (by omega) id) h6⟩)
    case lb =>
      have hf : ws = [] ∧ first = false := hfit
      refine ⟨.lb, b, .inl rfl, fun n v ns ds => ?_, .inl rfl⟩
      show lexChar (run n) scan 91 p env _ = _
      rw [lexChar_lb, if_neg (hscan hf.2 hf.1), ex_setToken, hlen, ← hb]
      simp only [symText, List.length_cons, List.length_nil, ← hpos]
    case listStart =>
      refine ⟨if scan < p ∨ p = 0 then .listStart else .lb, b, ?_, fun n v ns ds => ?_, .inl rfl⟩
      · split
        · exact .inl rfl
        · exact .inr ⟨rfl, rfl⟩
      · show lexChar (run n) scan 91 p env _ = _
        rw [lexChar_lb, ex_setToken, hlen, ← hb]
        simp only [symText, List.length_cons, List.length_nil, ← hpos]
    case lc =>
      have hf : prev ≠ .qmark := hfit
      refine ⟨.lc, b, .inl rfl, fun n v ns ds => ?_, .inl rfl⟩
      show lexChar (run n) scan 123 p env _ = _
      have : s.tok ≠ .qmark := fun h => hf ((hpr _ (by simp) (by simp)).1 h)
      rw [lexBrace, if_neg this, hlen, ← hb]
      simp only [symText, List.length_cons, List.length_nil, ← hpos]
    case selc =>
      have hf : prev = .qmark := hfit
      refine ⟨.selc, b, .inl rfl, fun n v ns ds => ?_, .inl rfl⟩
      show lexChar (run n) scan 123 p env _ = _
      have : s.tok = .qmark := (hpr _ (by simp) (by simp)).2 hf
      rw [lexBrace, if_pos this, hlen, ← hb]
      simp only [symText, List.length_cons, List.length_nil, ← hpos]
    case divide =>
      have hf : beforeRegexp prev = false := hfit
      refine ⟨.divide, b, .inl rfl, fun n v ns ds => ?_, .inl rfl⟩
      show lexChar (run n) scan 47 p env _ = _
      rw [lexDivide (by rw [← hf, ← hrx]), hlen, ← hb]
      simp only [symText, List.length_cons, List.length_nil, ← hpos]
    case pipe =>
      obtain ⟨hf, c, ⟨w2, tail, nl2, hr, hw, hns, hc, hnl⟩, h1⟩ := hfit
      have hr1 : Here env s.pos rest := by rw [hpos]; exact h.tail1 (by omega)
      obtain ⟨b', -, hb2, hb3, -⟩ := white_skips hw s.pos s.bol
      have hn2 : s.nls = none ∨ b' = s.bol ∧ s.bol ≤ s.pos := hn.symm.imp And.right fun h => ⟨hb3 (hnl h.1), by have := hst.1.resolve_right h.2; omega⟩
      have h62 : headC rest ≠ 62 := by
        simp only [absorbs, List.mem_cons, List.not_mem_nil, or_false] at ha
        exact ha
      have hlen1 : p + (utf8 (symText .pipe)).length = s.pos := by rw [hlen, hpos]; rfl
      refine ⟨.pipe, b', .inl rfl, fun n v ns ds => ?_, ?_⟩
      · show lexChar (run n) scan 124 p env _ = _
        have : s.tok ≠ .pipe := fun h => hf ((hpr _ (by simp) (by simp)).1 h)
        rw [lexBar (s := { s with val := v, names := ns, defs := ds }) hn2 hr1 hr hb2 hns h62 this]
        rw [if_neg (by rw [hc]; exact h1), hlen1]
      · by_cases hd' : hd = true
        · exact .inl ((hb3 (hnl hd')).trans hb)
        have hd'' : hd = false := by simpa using hd'
        refine .inr <| .inr ⟨hd'', headC tail, s.pos + (utf8 w2).length, fun u hu hun => ?_⟩
        rw [hlen1] at hu
        rw [hr] at hr1
        have := skipWhite_exec (env := env) (s := { u with bol := b }) (ws := w2) (rs := tail) (b' := b') (p' := s.pos + (utf8 w2).length)
          (by show Skips u.pos b _ _ _; rw [hu, ← hb]; exact hb2) hun (by show Here env u.pos _; rw [hu]; exact hr1) hns
        exact ⟨_, this, rfl⟩
    case pipeEnd =>
      have hr1 : Here env s.pos rest := by rw [hpos]; exact h.tail1 (by omega)
      have h62 : headC rest ≠ 62 := by
        simp only [absorbs, List.mem_cons, List.not_mem_nil, or_false] at ha
        exact ha
      have hlen1 : p + (utf8 (symText .pipeEnd)).length = s.pos := by rw [hlen, hpos]; rfl
      by_cases hpp : s.tok = .pipe
      · refine ⟨.pipeEnd, b, .inl rfl, fun n v ns ds => ?_, .inl rfl⟩
        show lexChar (run n) scan 124 p env _ = _
        rw [lexBarEnd (s := { s with val := v, names := ns, defs := ds }) hr1 h62 hpp, hlen1, ← hb]
      · have hf : prev ≠ .pipe := fun h => hpp ((hpr _ (by simp) (by simp)).2 h)
        obtain ⟨c, ⟨w2, tail, nl2, hr, hw, hns, hc, hnl⟩, h1⟩ : ∃ c, NextChar hd rest c ∧ EndsParameters env.epp c := hfit.resolve_left hf
        obtain ⟨b', -, hb2, hb3, -⟩ := white_skips hw s.pos s.bol
        have hn2 : s.nls = none ∨ b' = s.bol ∧ s.bol ≤ s.pos := hn.symm.imp And.right fun h => ⟨hb3 (hnl h.1), by have := hst.1.resolve_right h.2; omega⟩
        refine ⟨.pipeEnd, b', .inl rfl, fun n v ns ds => ?_, ?_⟩
        · show lexChar (run n) scan 124 p env _ = _
          rw [lexBar (s := { s with val := v, names := ns, defs := ds }) hn2 hr1 hr hb2 hns h62 hpp]
          rw [if_pos (by rw [hc]; exact h1), hlen1]
        · by_cases hd' : hd = true
          · exact .inl ((hb3 (hnl hd')).trans hb)
          have hd'' : hd = false := by simpa using hd'
          refine .inr <| .inr ⟨hd'', headC tail, s.pos + (utf8 w2).length, fun u hu hun => ?_⟩
          rw [hlen1] at hu
          rw [hr] at hr1
          have := skipWhite_exec (env := env) (s := { u with bol := b }) (ws := w2) (rs := tail) (b' := b') (p' := s.pos + (utf8 w2).length)
            (by show Skips u.pos b _ _ _; rw [hu, ← hb]; exact hb2) hun (by show Here env u.pos _; rw [hu]; exact hr1) hns
          exact ⟨_, this, rfl⟩
    all_goals exact absurd hk (by decide)

end
end PP
