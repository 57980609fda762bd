import Verif.Lemmas.Interp
import Verif.Lemmas.Heredoc2
import Verif.Lemmas.EppText
import Verif.Spec.Position

/-! # A text that is a layout of tokens feeds these tokens to the parser (4) -/
namespace PP
open PP.Spec
set_option linter.unusedSimpArgs false

/-- Before the token `ts` starts with. -/
def Ready [Ending] (env : Env) (ts : List T) (m : St) : Prop :=
  ∀ v n d, ∃ s', EvN env .nextToken { m with val := v, names := n, defs := d } () s' ∧ s'.names = n ∧ Feeds env ts s' ∧
    (ts ≠ [] ∨ Ending.tok = .end_ → ∃ c p u, skipWhite false env s' = .ok (c, p) u ∧ u.names = n ∧ Feeds env ts { u with pos := p })

/-- What is known about the start of the line. -/
def Cond (env : Env) (first : Bool) (s : St) (b0 : Nat) : Prop :=
  (if first then s.pos = b0 else Good env b0 s.pos) ∧
  (s.bol = b0 ∨ ∃ c q, ∀ u : St, u.pos = s.pos → u.nls = none → ∃ v, skipWhite false env { u with bol := b0 } = .ok (c, q) v ∧ v.bol = s.bol)

/-- What is known about heredocs on the line. -/
def Pending (env : Env) : Option (List Nat) → St → Nat → Prop
  | none, s, _ => s.nls = none
  | some after, s, b0 => s.bol = b0 ∧ ¬ NoHeredoc env ∧ ∃ p, s.nls = some (p + 1) ∧ Here env p after

/-- Skipping white space from `m` continues from `s`. -/
def Jumps (env : Env) (m s : St) : Prop :=
  (∃ q b n, m = { s with pos := q, bol := b, nls := n }) ∧ ∀ v ns ds, ∃ f csp, env.text.length + 2 ≤ f ∧
    skipWhite false env { m with val := v, names := ns, defs := ds } = skipWhiteLoop false f .none csp env { s with val := v, names := ns, defs := ds }

/-- The character at `p`. -/
def CharAt (env : Env) (p c : Nat) : Prop := ∃ n, ∀ x : St, x.pos = p → peek env x = .ok (c, n) x

/-- Skipping the white space before a token. -/
def Moves [Ending] (env : Env) (ts : List T) (rs : List Nat) (s : St) : Prop :=
  ∃ c0 p u c, skipWhite false env s = .ok (c0, p) u ∧ Ready env ts { u with pos := p } ∧ (u.tok, u.tsp) = (s.tok, s.tsp) ∧ u.val = s.val ∧ u.radix = s.radix ∧ u.names = s.names ∧ Ending.start ts p ∧
    CharAt env p c ∧ (isDecimalDigit (headC rs) = true → c = headC rs) ∧ (StartsNot isNumber ts → isDecimalDigit c = false)

/-- Where the tokens end. -/
def EndsAt (E : Ending) (env : Env) : Option (List Nat) → Prop
  | none => E.tok = .end_ ∧ (∀ s : St, AtEnd env s.tsp → AtEnd env s.pos → E.at_ s) ∧ (env.epp = true → ∀ s : St, AtEnd env s.pos → E.at_ s)
  | some rest => E.tok = .rc ∧ ∀ s, s.nls = none → Here env s.pos rest → Good env s.bol s.pos → E.at_ s

/-- The places of tokens. -/
structure Places (E : Ending) (env : Env) (fin : Option (List Nat)) : Prop where
  start : ∀ {q prev first pend ws nl rs t ts}, Here env q (ws ++ rs) → White ws nl → NoSkip rs → Layout env fin prev first pend (t :: ts) (ws ++ rs) →
    E.start (t :: ts) (q + (utf8 ws).length)
  past : ∀ {p prev first pend rs t ts}, Here env p rs → Layout env fin prev first pend ts rs → E.past (t :: ts) p
  interp : ∀ ps ts p, E.start (.interp ps :: ts) p
  tag : env.epp = true → ∀ ts p, E.start ts p

/-- The stream ends with the source. -/
@[reducible] def Ending.source (env : Env) : Ending :=
  ⟨.end_, fun s => AtEnd env s.tsp ∧ AtEnd env s.pos, fun _ _ _ h => h, StartsAt env, EndsBefore env, fun _ _ _ h => .inl h, fun _ h => h⟩

section
variable {env : Env} {s m : St} {n p b b0 scan : Nat} {ws cs rest rs : List Nat} {t : T} {ts : List T} {prev : Tok} {first nl : Bool}
  {pend : Option (List Nat)}

theorem Jumps.refl : Jumps env s s :=
  ⟨⟨s.pos, s.bol, s.nls, rfl⟩, fun _ _ _ => ⟨charFuel env, 0, by unfold charFuel; omega, rfl⟩⟩

theorem Jumps.skips {b' p' : Nat} (hj : Jumps env m s) (hs : Skips s.pos s.bol ws p' b') (hn : s.nls = none ∨ b' = s.bol ∧ s.bol ≤ s.pos)
    (h : Here env s.pos (ws ++ rs)) (hr : NoSkip rs) (v : TokVal) (ns : List GoStr) (ds : List Expr) :
    skipWhite false env { m with val := v, names := ns, defs := ds } =
      .ok (headC rs, p') { s with pos := p' + width rs, bol := b', val := v, names := ns, defs := ds } := by
  obtain ⟨f, csp, hf, h0⟩ := hj.2 v ns ds
  have hl := h.length
  rw [utf8_append, List.length_append] at hl
  have hu := utf8_length_le ws
  rw [h0]
  obtain ⟨f', csp', h1, -, h2⟩ := loop_skips' (csp := csp) (f := f) (s := { s with val := v, names := ns, defs := ds }) hs rfl rfl hn h (by omega)
  rw [h2]
  obtain ⟨g, rfl⟩ : ∃ g, f' = g + 1 := ⟨f' - 1, by omega⟩
  have h3 := h.append
  rw [← hs.pos] at h3
  rw [loop_stop (s := { s with pos := p', bol := b', val := v, names := ns, defs := ds }) h3 hr]

/-- The line with a heredoc ends. -/
theorem jump_resume {cm skipped : List Nat} {q : Nat} (hw : White ws false) (hcm : IsComment cm) (hq : s.nls = some q) (hb : s.bol ≤ s.pos)
    (h : Here env s.pos (ws ++ (cm ++ 10 :: skipped))) : Jumps env s { s with pos := q, bol := q, nls := none } := by
  refine ⟨⟨s.pos, s.bol, s.nls, rfl⟩, fun v ns ds => ?_⟩
  obtain ⟨b', -, hs, h3, -⟩ := white_skips hw s.pos s.bol
  have hl := h.length
  rw [utf8_append, utf8_append, List.length_append, List.length_append] at hl
  have hu := utf8_length_le ws
  have hu2 := utf8_length_le cm
  have hL : (utf8 (10 :: skipped)).length ≥ 1 := by rw [utf8_cons, List.length_append, enc_len (by omega)]; omega
  obtain ⟨f', csp', h1, -, h2⟩ := loop_skips' (csp := 0) (f := charFuel env) (s := { s with val := v, names := ns, defs := ds }) hs rfl rfl (.inr ⟨h3 rfl, hb⟩) h
    (by unfold charFuel; omega)
  unfold charFuel at h1
  have h4 := h.append
  unfold skipWhite
  ex
  rw [h2]
  rcases hcm with rfl | ⟨body, rfl, hbody⟩
  · obtain ⟨g, rfl⟩ : ∃ g, f' = g + 1 := ⟨f' - 1, by omega⟩
    refine ⟨g, csp', by omega, ?_⟩
    conv => lhs; unfold skipWhiteLoop
    ex
    rw [next_here (s := { s with pos := s.pos + (utf8 ws).length, bol := b', val := v, names := ns, defs := ds }) h4]
    simp only [List.nil_append, headC_cons, width, enc_len (show 10 < 128 by omega), newLine, hq]
    simp
  · simp only [List.length_cons] at hu2
    obtain ⟨g, rfl⟩ : ∃ g, f' = g + 1 := ⟨f' - 1, by omega⟩
    obtain ⟨g2, hg2⟩ : ∃ g2, g - body.length = g2 + 1 := ⟨g - body.length - 1, by omega⟩
    have h5 : Here env (s.pos + (utf8 ws).length + 1) (body ++ 10 :: skipped) := h4.tail1 (by omega)
    refine ⟨g2, s.pos + (utf8 ws).length, by omega, ?_⟩
    conv => lhs; unfold skipWhiteLoop
    ex
    rw [next_here (s := { s with pos := s.pos + (utf8 ws).length, bol := b', val := v, names := ns, defs := ds }) h4]
    simp only [List.cons_append, headC_cons, width, enc_len (show 35 < 128 by omega), Nat.reduceEqDiff, if_false, if_true]
    rw [loop_hash (s := { s with pos := s.pos + (utf8 ws).length + 1, bol := b', val := v, names := ns, defs := ds }) hbody (by omega) h5, hg2]
    conv => lhs; unfold skipWhiteLoop
    ex
    rw [next_here (s := { s with pos := s.pos + (utf8 ws).length + 1 + (utf8 body).length, bol := b', val := v, names := ns, defs := ds }) h5.append]
    simp only [headC_cons, width, enc_len (show 10 < 128 by omega), newLine, hq]
    simp

/-- The state `m` from which nothing is skipped reaches the end. -/
theorem ready_end [E : Ending] {pos bol : Nat} (hpos : AtEnd env pos) (hE : EndsAt E env none) (h : ∀ v ns ds, skipWhite false env { m with val := v, names := ns, defs := ds } =
      .ok (0, pos) { s with pos := pos, bol := bol, val := v, names := ns, defs := ds })
    (h2 : ∀ u : St, u.pos = pos → u.nls = none → ∃ c b', skipWhite false env u = .ok (c, pos) { u with pos := pos, bol := b' }) (hn : s.nls = none) :
    Ready env [] m := by
  intro v ns ds
  refine ⟨{ s with pos := pos, bol := bol, tsp := pos, tok := .end_, val := .nil, names := ns, defs := ds }, ⟨1, fun f hf => ?_⟩, rfl, ⟨hE.1.symm, rfl, hE.2.1 _ hpos hpos⟩, fun _ => ?_⟩
  · obtain ⟨g, rfl⟩ : ∃ g, f = g + 1 := ⟨f - 1, by omega⟩
    show run (g + 1) .nextToken env _ = _
    rw [nextToken_of (h v ns ds)]
    rfl
  · obtain ⟨c, b', h3⟩ := h2 { s with pos := pos, bol := bol, tsp := pos, tok := .end_, val := .nil, names := ns, defs := ds } rfl hn
    exact ⟨c, pos, _, h3, rfl, hE.1.symm, rfl, hE.2.1 _ hpos hpos⟩

theorem peek_end {u : St} (hp : env.text.length ≤ u.pos) : peek env u = .ok (0, 0) u := by
  show peekAt u.pos env u = _
  unfold peekAt
  rw [if_pos hp]

theorem next_end {u : St} (hp : env.text.length ≤ u.pos) : next env u = .ok (0, u.pos) u := by
  have h : peekAt u.pos env u = .ok (0, 0) u := peek_end hp
  unfold next
  rw [h]
  rfl

theorem loop_end {u : St} {f csp : Nat} (hp : env.text.length ≤ u.pos) : skipWhiteLoop false (f + 1) .none csp env u = .ok (0, u.pos) u := by
  unfold skipWhiteLoop
  ex
  rw [next_end hp]
  simp

theorem atEnd {u : St} (hp : env.text.length ≤ u.pos) : skipWhite false env u = .ok (0, u.pos) u := by
  unfold skipWhite
  ex
  unfold charFuel
  exact loop_end hp

theorem reach_end [E : Ending] {e : Nat} (hE : EndsAt E env none) (he : AtEnd env e) (hms : m.tsp = s.tsp) (hmt : m.tok = s.tok) (hmr : m.radix = s.radix) (hn : s.nls = none) {bol : Nat}
    (h : ∀ v ns ds, skipWhite false env { m with val := v, names := ns, defs := ds } =
      .ok (0, e) { s with pos := e, bol := bol, val := v, names := ns, defs := ds })
    (hd : isDecimalDigit (headC rs) = false) : Ready env [] m ∧ Moves env [] rs m := by
  have h2 : ∀ u : St, u.pos = e → u.nls = none → ∃ c b', skipWhite false env u = .ok (c, e) { u with pos := e, bol := b' } := by
    intro u hu hn
    refine ⟨0, u.bol, ?_⟩
    rw [atEnd (u := u) (by rw [hu]; rcases he with rfl | rfl <;> omega), ← hu]
  refine ⟨ready_end he hE h h2 hn, 0, e, { s with pos := e, bol := bol, val := m.val, names := m.names, defs := m.defs }, 0, h m.val m.names m.defs, ?_, by rw [hmt, hms], rfl, hmr.symm, rfl,
    (E.last { s with tsp := e, pos := e } (hE.2.1 _ he he)).1, ⟨0, fun x hx => ?_⟩, ?_, fun _ => rfl⟩
  · refine ready_end (s := s) (bol := bol) he hE (fun v ns ds => ?_) h2 hn
    exact atEnd (u := { s with pos := e, bol := bol, val := v, names := ns, defs := ds }) (by show _ ≤ e; rcases he with rfl | rfl <;> omega)
  · exact peek_end (by rw [hx]; rcases he with rfl | rfl <;> omega)
  · intro h; rw [hd] at h; cases h

theorem white_noDigit (h : White ws nl) (hr : isDecimalDigit (headC rs) = false) : isDecimalDigit (headC (ws ++ rs)) = false := by
  cases ws with
  | nil => exact hr
  | cons c ws =>
    have := white_head h (by simp)
    exact this

theorem _root_.PP.Spec.IsComment.noDigit {cm : List Nat} (h : IsComment cm) : isDecimalDigit (headC (cm ++ 10 :: rs)) = false := by
  rcases h with rfl | ⟨body, rfl, -⟩ <;> rfl

theorem Good.le (h : Good env b p) (hn : ¬ NoHeredoc env) : b ≤ p := h.2.1.resolve_right hn

theorem Cond.le (h : Cond env first s b0) (hn : ¬ NoHeredoc env) : b0 ≤ s.pos := by
  have h := h.1
  split at h
  · omega
  · exact h.le hn

/-- Skipping to a token, and the line it is on. -/
theorem skip_line (hw : White ws nl) (hn : s.nls = none ∨ (s.bol = b0 ∧ nl = false) ∧ ¬ NoHeredoc env) (h : Here env s.pos (ws ++ rs)) (hr : NoSkip rs) (hc : Cond env first s b0) :
    ∃ b', Skips s.pos s.bol ws (s.pos + (utf8 ws).length) b' ∧ LineAt env b' (s.pos + (utf8 ws).length) (nl = true ∨ first = true) ∧
      (b' ≤ s.pos + (utf8 ws).length ∨ NoHeredoc env) ∧ (nl = false → b' = b0) := by
  have hle : b0 ≤ s.pos ∨ NoHeredoc env := by
    by_cases hn : NoHeredoc env
    · exact .inr hn
    · exact .inl (hc.le hn)
  obtain ⟨hc1, hc2⟩ := hc
  obtain ⟨b', h1, h2, h3, h4⟩ := white_skips hw s.pos b0
  have hb : Skips s.pos s.bol ws (s.pos + (utf8 ws).length) b' := by
    rcases hc2 with hc2 | ⟨c, q, hc2⟩
    · rw [hc2]; exact h2
    rcases hn with hn | ⟨⟨hn, -⟩, -⟩
    · obtain ⟨u, hc2, hc3⟩ := hc2 s rfl hn
      have h5 := skipWhite_exec (env := env) (s := { s with bol := b0 }) (b' := b') h2 hn h hr
      rw [h5] at hc2
      injection hc2 with _ hu
      rw [← hu] at hc3
      have hc3 : b' = s.bol := hc3
      cases nl with
      | true => exact h1 _ rfl
      | false =>
        have := h3 rfl
        rw [← hc3, this, ← this]
        rw [this] at h2 ⊢
        exact h2
    · rw [hn]; exact h2
  have hle' : b' ≤ s.pos + (utf8 ws).length ∨ NoHeredoc env := hle.imp (fun h => (h2.bol h).2) id
  refine ⟨b', hb, ⟨hle', ?_⟩, hle', h3⟩
  cases nl with
  | true =>
    obtain ⟨w1, w2, rfl, h5, h6⟩ := h4 rfl
    rw [List.append_assoc] at h
    exact ⟨w2, rs, _, _, by rw [h5]; exact h.append, hr, h6, fun _ => rfl, by simp, .inl rfl⟩
  | false =>
    have := h3 rfl
    subst this
    cases first with
    | true =>
      simp only [if_true] at hc1
      subst hc1
      exact ⟨ws, rs, _, _, h, hr, h2, fun _ => rfl, by simp, .inl rfl⟩
    | false =>
      simp only [Bool.false_eq_true, if_false] at hc1
      obtain ⟨-, -, pre, line, q, b1, g1, g2, g3, g4, g5⟩ := hc1
      exact ⟨pre, line, q, b1, g1, g2, g3, by simp, fun _ => g4.imp (by omega) id, g5⟩

theorem Good.mono {q : Nat} (h : Good env b p) (hq : p ≤ q) : Good env b q := by
  obtain ⟨h0, h1, pre, line, q', b1, g1, g2, g3, g4, g5⟩ := h
  exact ⟨by omega, h1.imp (by omega) id, pre, line, q', b1, g1, g2, g3, g4.imp (by omega) id, g5⟩

/-- Reading a token, when the rest is known to be read. -/
theorem ready_cons [Ending] (hlex : ∀ v n d, ∃ r, EvN env .nextToken { m with val := v, names := n, defs := d } () r ∧ r.names = n ∧ Reads t r ∧
      Here env r.pos rest ∧ (t = .brace → env.epp = false ∧ Reread env ts rest ∧ r.nls = none) ∧ (Ending.start (t :: ts) r.tsp ∧ Ending.past (t :: ts) r.pos) ∧ Ready env ts r ∧ Moves env ts rest r)
    (hsign : ∀ k, t = .sign k → isDecimalDigit (headC rest) = true)
    (hminus : t = .sym .subtract ∨ t = .sym .add → isDecimalDigit (headC rest) = false)
    (hname : Styled env t) : Ready env (t :: ts) m := by
  intro v n d
  obtain ⟨r, l1, l2, hrd, hr, hrw, ⟨hst, hpa⟩, i1, c0, p', u', w, i2, i3, i4, i5, i6, i10, i11, ⟨n', i7⟩, i8, i9⟩ := hlex v n d
  obtain ⟨i4, i4'⟩ := Prod.mk.inj i4
  refine ⟨r, l1, l2, ⟨hrd, ⟨fun k hk => ?_, fun hk hs => ?_, hst, hpa, hname⟩, fun v n d => ?_⟩,
    fun _ => ⟨c0, p', u', i2, i10.trans l2, ?_, ⟨fun k hk => ?_, fun hk hs => ?_, by rw [show ({ u' with pos := p' } : St).tsp = r.tsp from i4']; exact hst, Ending.ahead _ _ _ i11, hname⟩, fun v n d => ?_⟩⟩
  · exact ⟨headC rest, width rest, fun u hu => peek_here (by rw [hu]; exact hr), hsign k hk⟩
  · exact ⟨headC rest, width rest, fun u hu => peek_here (by rw [hu]; exact hr), hminus hk⟩
  · obtain ⟨s1, j1, j2, j3, j4⟩ := i1 v n d
    exact ⟨s1, j1, j2, j3, j4, fun hb => rewinds (x := { r with val := v, names := n, defs := d }) (hrw hb).2.1 hr rfl (hrw hb).2.2 j1 j3⟩
  · cases t with
    | sym k => cases k <;> simp only [Reads] at hrd ⊢ <;> rw [i4, i5] <;> exact hrd
    | _ => simp only [Reads] at hrd ⊢; first | (rw [i4, i5, i6]; exact hrd) | (rw [i4, i5]; exact hrd)
  · exact ⟨w, n', i7, by rw [i8 (hsign k hk)]; exact hsign k hk⟩
  · exact ⟨w, n', i7, i9 hs⟩
  · obtain ⟨s1, j1, j2, j3, j4⟩ := i3 v n d
    exact ⟨s1, j1, j2, j3, j4, fun hb => rewinds_skipped (x := { u' with pos := p', val := v, names := n, defs := d }) (hrw hb).2.1 hr (hrw hb).2.2 i2 rfl rfl j1 j3⟩

/-- Reading from characters. -/
theorem next_of {u r : St} {c : Nat} (hms : skipWhite false env m = .ok (c, p) u)
    (hlex : ∃ k, ∀ f, k ≤ f → lexChar (run f) m.pos c p env { u with tsp := p } = .ok () r) : EvN env .nextToken m () r := by
  obtain ⟨k, hk⟩ := hlex
  refine ⟨k + 1, fun f hf => ?_⟩
  obtain ⟨g, rfl⟩ : ∃ g, f = g + 1 := ⟨f - 1, by omega⟩
  show run (g + 1) .nextToken env _ = _
  rw [nextToken_of hms]
  exact hk g (by omega)

/-- Reading a heredoc. -/
theorem heredoc_ready [Ending] {syn src decl text ln skipped after : List Nat} {out : GoStr} (hfac : env.hasFactory = true) (hj : Jumps env m s) (hw : White ws nl)
    (hpend : (s.nls = none ∧ skipped = text ++ after) ∨ (Pending env (some (10 :: (text ++ after))) s b0 ∧ nl = false))
    (hI : IsHeredoc syn src out decl text) (hln : RestOfLine ln) (he : AtEol after)
    (h : Here env s.pos (ws ++ (64 :: 40 :: (decl ++ 41 :: (ln ++ 10 :: skipped))))) (hc : Cond env first s b0)
    (hstart : Ending.start (.heredoc (utf8 syn) (.string z out) :: ts) (s.pos + (utf8 ws).length)) (hpast : Ending.past (.heredoc (utf8 syn) (.string z out) :: ts) (s.pos + (utf8 ws).length + 2 + (utf8 decl).length + 1))
    (ih : ∀ (m s : St) (b0 : Nat), Jumps env m s → (false = false → m.pos = s.pos) → (some after ≠ none → m = s) → Pending env (some after) s b0 →
      (s.tok = .heredoc ∨ (Tok.heredoc = .listStart ∧ s.tok = .lb)) → Here env s.pos (ln ++ 10 :: skipped) → Cond env false s b0 →
      Ready env ts m ∧ Moves env ts (ln ++ 10 :: skipped) m) :
    Ready env (.heredoc (utf8 syn) (.string z out) :: ts) m ∧
      Moves env (.heredoc (utf8 syn) (.string z out) :: ts) (ws ++ (64 :: 40 :: (decl ++ 41 :: (ln ++ 10 :: skipped)))) m := by
  have hns : NoSkip (64 :: 40 :: (decl ++ 41 :: (ln ++ 10 :: skipped))) := ⟨rfl, by simp, by simp⟩
  have hn2 : s.nls = none ∨ (s.bol = b0 ∧ nl = false) ∧ ¬ NoHeredoc env := hpend.imp And.left fun h => ⟨⟨h.1.1, h.2⟩, h.1.2.1⟩
  obtain ⟨b', hsk, hst, hbp, hb0⟩ := skip_line hw hn2 h hns hc
  have hn3 : s.nls = none ∨ (b' = s.bol ∧ s.bol ≤ s.pos) := hn2.imp id fun hh => ⟨(hb0 hh.1.2).trans hh.1.1.symm, by have := hc.le hh.2; have := hh.1.1; omega⟩
  have hp := h.append
  generalize hpe : s.pos + (utf8 ws).length = p at *
  obtain ⟨q0, b1, nn, hm⟩ := hj.1
  have hp1 : Here env (p + 1) (40 :: (decl ++ 41 :: (ln ++ 10 :: skipped))) := hp.tail1 (by omega)
  have hp2 : Here env (p + 2) (decl ++ 41 :: (ln ++ 10 :: skipped)) := hp1.tail1 (by omega)
  have hp3 : Here env (p + 2 + (utf8 decl).length + 1) (ln ++ 10 :: skipped) := hp2.append.tail1 (by omega)
  have hp4 := hp3.append
  -- where the text begins
  obtain ⟨T0, hT0, hT, hprev, h2⟩ : ∃ T0, T0 = s.nls.getD (p + 2 + (utf8 decl).length + 1 + (utf8 ln).length + 1) ∧ 1 ≤ T0 ∧
      env.text[T0 - 1]? = some 10 ∧ Here env T0 (text ++ after) := by
    have at10 : ∀ {q rs}, Here env q (10 :: rs) → env.text[q]? = some 10 := by
      intro q rs hq
      have := hq.drop
      rw [utf8_cons, encodeRune_ascii (by omega)] at this
      rw [← Nat.add_zero q, ← List.getElem?_drop, this]
      rfl
    rcases hpend with ⟨hn, rfl⟩ | ⟨⟨-, -, q, hn, hq⟩, -⟩
    · rw [hn]
      refine ⟨_, rfl, by simp, ?_, by simpa using hp4.tail1 (by omega)⟩
      simpa using at10 hp4
    · rw [hn]
      refine ⟨_, rfl, by simp, ?_, by simpa using hq.tail1 (by omega)⟩
      simpa using at10 hq
  have main : ∀ (m : St), (∀ v ns ds, skipWhite false env { m with val := v, names := ns, defs := ds } =
      .ok (64, p) { s with pos := p + 1, bol := b', val := v, names := ns, defs := ds }) → Ready env (.heredoc (utf8 syn) (.string z out) :: ts) m := by
    intro m hms
    have hgood : Good env b' (p + 2 + (utf8 decl).length + 1) := hst.good (by omega)
    refine ready_cons (rest := ln ++ 10 :: skipped) (fun v ns ds => ⟨afterHeredoc { s with pos := p + 1, bol := b', tsp := p, val := v, names := ns, defs := ds } p T0 syn src out decl text,
      next_of (hms v ns ds) ?_, rfl, ⟨rfl, _, _, rfl, rfl⟩, hp3, by simp, ⟨hstart, hpast⟩, ih _ _ b' .refl (fun _ => rfl) (fun _ => rfl) ⟨rfl, fun h => h _ _ hp, T0 + (utf8 text).length, rfl, h2.append⟩ (.inl rfl) hp3
        ⟨hgood, .inl rfl⟩⟩) (by simp) (by simp) ⟨by simp, by simp⟩
    exact EvR.ex (lexAt_heredoc (env := env) (s := { s with pos := p + 1, bol := b', tsp := p, val := v, names := ns, defs := ds }) (start := p) (scan := m.pos) hfac hI hln he hp1 rfl hT0 hT hprev h2)
  have hwid : width (64 :: 40 :: (decl ++ 41 :: (ln ++ 10 :: skipped))) = 1 := rfl
  refine ⟨main m (fun v ns ds => ?_), 64, p, { s with pos := p + 1, bol := b', val := m.val, names := m.names, defs := m.defs }, 64, ?_,
    main { s with pos := p, bol := b', val := m.val, names := m.names, defs := m.defs } (fun v ns ds => ?_), by rw [hm], rfl, by rw [hm], rfl, hstart, ⟨1, fun x hx => peek_here (by rw [hx]; exact hp)⟩, fun hd => ?_, fun hs => rfl⟩
  · exact hj.skips hsk hn3 h hns v ns ds
  · exact hj.skips hsk hn3 h hns m.val m.names m.defs
  · exact skipWhite_exec' (env := env) (s := { s with pos := p, bol := b', val := v, names := ns, defs := ds }) (ws := []) (.nil _ _)
      (hn2.imp id fun hh => ⟨rfl, hbp.resolve_right hh.2⟩) hp hns
  · rw [white_noDigit hw rfl] at hd; cases hd

theorem spelled_styled {t : T} {cs rest : List Nat} (h : Spelled env t cs rest) : Styled env t := by
  refine ⟨fun hw w ht k => ?_, fun k ht => ?_⟩
  · subst ht; exact h.2.2.2 hw k
  · subst ht; exact h.1

/-- What is to be shown about a layout. -/
def Reaches (env : Env) (fin : Option (List Nat)) (prev : Tok) (first : Bool) (pend : Option (List Nat)) (ts : List T) (rs : List Nat) : Prop :=
  ∀ (E : Ending), EndsAt E env fin → Places E env fin → ∀ (m s : St) (b0 : Nat), Jumps env m s → (first = false → m.pos = s.pos) → (pend ≠ none → m = s) → Pending env pend s b0 →
    (s.tok = prev ∨ (prev = .listStart ∧ s.tok = .lb)) → Here env s.pos rs → Cond env first s b0 → Ready env ts m ∧ Moves env ts rs m

/-- What is to be shown about a tag. -/
def Continues (env : Env) (fin : Option (List Nat)) (ts : List T) (rs : List Nat) : Prop :=
  ∀ (E : Ending), EndsAt E env fin → Places E env fin → ∀ (m : St), env.epp = true → Here env m.pos rs → m.nls = none → m.tok = .renderString →
    Good env m.bol (m.pos + 2) → Ready env ts m ∧ Moves env ts rs m

/-- What is to be shown about the parts of a string. -/
def Assembles (env : Env) (prev : Tok) (ps : List Expr) (rs rest : List Nat) : Prop :=
  ∀ (s : St) (ds : Nat) (segs : List Expr), Here env s.pos rs → s.nls = none → (s.tok = prev ∨ (prev = .listStart ∧ s.tok = .lb)) → Good env s.bol s.pos →
    ∃ ps' tail t, EvP env (parts ds segs) s (segs ++ ps') t ∧ ps = bareL ps' ++ textPart tail ∧ t.val = .str tail ∧ t.names = s.names ∧
      t.nls = none ∧ Here env t.pos rest ∧ Good env t.bol t.pos

theorem part_text {buf : GoStr} {segs ps' : List Expr} {q : Pos} {e e' : Expr} (he : bare e = e') :
    (if buf.isEmpty then segs else segs ++ [.string q buf]) ++ [e] ++ ps' = segs ++ ((if buf.isEmpty then [] else [.string q buf]) ++ e :: ps') ∧
      bareL ((if buf.isEmpty then [] else [.string q buf]) ++ e :: ps') = textPart buf ++ e' :: bareL ps' := by
  cases buf <;> simp [textPart, bare, he]

/-- The end of a tag. -/
theorem lex_tagEnd {te next : List Nat} (he : env.epp = true) (hte : TagEnd next te) (h : Here env p (te ++ next)) (hp : s.pos = p + 1) :
    ∃ tk v, lexChar (run n) scan (headC (te ++ next)) p env s = consumeEPP (run n) env { s with pos := p + (utf8 te).length, tok := tk, val := v } := by
  cases hte with
  | plain =>
    refine ⟨.remainder, .nil, ?_⟩
    have h1 : Here env s.pos (62 :: next) := by rw [hp]; exact h.tail1 (by decide)
    show lexChar (run n) scan 37 p env s = _
    rw [lexChar_percent, lexPercent_close he h1]
    simp only [hp]; rfl
  | @line bs hb =>
    refine ⟨s.tok, s.val, ?_⟩
    have h1 : Here env s.pos (37 :: 62 :: (bs ++ (10 :: next))) := by rw [hp]; simpa using h.tail1 (by decide)
    show lexChar (run n) scan 45 p env s = _
    rw [lexChar_minus, lexMinus_close he h1 hb (by unfold IsBlank; simp)]
    simp only [headC_cons, if_true, hp, utf8_cons, utf8_append, List.length_append, enc_len (show 45 < 128 by omega), enc_len (show 37 < 128 by omega),
      enc_len (show 62 < 128 by omega), enc_len (show 10 < 128 by omega)]
    congr 2
    simp [utf8]; omega
  | @trim bs hb h9 h10 =>
    refine ⟨s.tok, s.val, ?_⟩
    have h1 : Here env s.pos (37 :: 62 :: (bs ++ next)) := by rw [hp]; simpa using h.tail1 (by decide)
    show lexChar (run n) scan 45 p env s = _
    rw [lexChar_minus, lexMinus_close he h1 hb h9, if_neg h10]
    simp only [hp, utf8_cons, List.length_append, enc_len (show 45 < 128 by omega), enc_len (show 37 < 128 by omega), enc_len (show 62 < 128 by omega)]
    congr 2
    omega

/-- A tag begins. -/
theorem lex_tag (he : env.epp = true) (h : Here env p (60 :: 37 :: rest)) (hp : s.pos = p + 1) (hne : headC rest ≠ 61) :
    lexChar (run n) scan 60 p env s = run n .nextToken env { s with pos := p + 2 + if headC rest = 45 then 1 else 0 } := by
  have h1 : Here env s.pos (37 :: rest) := by rw [hp]; exact h.tail1 (by decide)
  have h2 : Here env (s.pos + 1) rest := h1.tail1 (by decide)
  rw [lexChar_less]
  unfold lexLess
  ex
  rw [peek_here h1]
  simp only [headC_cons, width_cons, enc_len (show 37 < 128 by omega), Nat.reduceEqDiff, if_false, he, and_self, if_true]
  rw [peek_here (s := { s with pos := s.pos + 1 }) h2]
  dsimp only
  rw [if_neg hne]
  by_cases hm : headC rest = 45
  · have : width rest = 1 := by
      cases rest with
      | nil => cases hm
      | cons x r => rw [headC_cons] at hm; subst hm; rfl
    rw [if_pos hm, if_pos hm, this, hp]
  · rw [if_neg hm, if_neg hm, hp]

theorem lex_renderTag (he : env.epp = true) (h : Here env p (60 :: 37 :: 61 :: rest)) (hp : s.pos = p + 1) :
    lexChar (run n) scan 60 p env s = .ok () { s with pos := p + 3, tok := .renderExpr, val := .nil } := by
  have h1 : Here env s.pos (37 :: 61 :: rest) := by rw [hp]; exact h.tail1 (by decide)
  have h2 : Here env (s.pos + 1) (61 :: rest) := h1.tail1 (by decide)
  rw [lexChar_less]
  unfold lexLess
  ex
  rw [peek_here h1]
  simp only [headC_cons, width_cons, enc_len (show 37 < 128 by omega), Nat.reduceEqDiff, if_false, he, and_self, if_true]
  rw [peek_here (s := { s with pos := s.pos + 1 }) h2]
  simp only [headC_cons, width_cons, enc_len (show 61 < 128 by omega), if_true, adv1, hp]
  rfl

theorem tags_tag {fin : Option (List Nat)} (h : Tags env fin ts rest) : rest = [] ∧ ts = [] ∧ fin = none ∨ Tag rest := by
  cases h with
  | finish => exact .inl ⟨rfl, rfl, rfl⟩
  | render => exact .inr ⟨_, rfl, by simp, by simp⟩
  | trim => exact .inr ⟨_, rfl, by simp, by simp⟩
  | code h => exact .inr ⟨_, rfl, fun e => h (by simp [e]), fun e => h (by simp [e])⟩

theorem continues_finish : Continues env none [] [] := by
  intro E hE hP m he h hn ht hg
  have hL := h.length
  refine reach_end (s := m) (e := m.pos) (bol := m.bol) hE (.inl ?_) rfl rfl rfl hn (fun v ns ds => ?_) rfl
  · simpa using hL.symm
  · exact atEnd (u := { m with val := v, names := ns, defs := ds }) (by show _ ≤ m.pos; simp at hL; omega)

theorem continues_render {fin : Option (List Nat)} (ih : Reaches env fin .renderExpr false none ts rest) :
    Continues env fin (.sym .renderExpr :: ts) (c%'<' :: c%'%' :: c%'=' :: rest) := by
  intro E hE hP m he h hn ht hg
  have hns : NoSkip (60 :: 37 :: 61 :: rest) := ⟨rfl, by simp, by simp⟩
  have h3 : Here env (m.pos + 3) rest := ((h.tail1 (by decide)).tail1 (by decide)).tail1 (by decide)
  have sk : ∀ v ns ds, skipWhite false env { m with val := v, names := ns, defs := ds } = .ok (60, m.pos) { m with pos := m.pos + 1, val := v, names := ns, defs := ds } :=
    fun v ns ds => skipWhite_exec' (env := env) (s := { m with val := v, names := ns, defs := ds }) (ws := []) (.nil _ _) (.inl hn) h hns
  have main : Ready env (y .renderExpr :: ts) m :=
    ready_cons (rest := rest) (fun v ns ds => ⟨{ m with pos := m.pos + 3, tsp := m.pos, tok := .renderExpr, val := .nil, names := ns, defs := ds },
      next_of (sk v ns ds) ⟨0, fun f _ => lex_renderTag (s := { m with pos := m.pos + 1, tsp := m.pos, val := v, names := ns, defs := ds }) he h rfl⟩, rfl, ⟨rfl, rfl⟩, h3, by simp,
      ⟨hP.tag he _ _, E.ahead _ _ _ (hP.tag he _ _)⟩,
      ih E hE hP _ _ m.bol .refl (fun _ => rfl) (fun _ => rfl) hn (.inl rfl) h3 ⟨by simpa using hg.mono (by omega), .inl rfl⟩⟩) (by simp) (by simp) ⟨by simp, by simp⟩
  exact ⟨main, 60, m.pos, _, 60, sk m.val m.names m.defs, main, rfl, rfl, rfl, rfl, hP.tag he _ _, ⟨1, fun x hx => peek_here (by rw [hx]; exact h)⟩, fun _ => rfl, fun _ => rfl⟩

theorem continues_trim {fin : Option (List Nat)} (ih : Reaches env fin .renderString false none ts rest) :
    Continues env fin ts (c%'<' :: c%'%' :: c%'-' :: rest) := by
  intro E hE hP m he h hn ht hg
  have hns : NoSkip (60 :: 37 :: 45 :: rest) := ⟨rfl, by simp, by simp⟩
  have h3 : Here env (m.pos + 3) rest := ((h.tail1 (by decide)).tail1 (by decide)).tail1 (by decide)
  have sk : ∀ v ns ds, skipWhite false env { m with val := v, names := ns, defs := ds } = .ok (60, m.pos) { m with pos := m.pos + 1, val := v, names := ns, defs := ds } :=
    fun v ns ds => skipWhite_exec' (env := env) (s := { m with val := v, names := ns, defs := ds }) (ws := []) (.nil _ _) (.inl hn) h hns
  have main : Ready env ts m := by
    intro v ns ds
    obtain ⟨hrd, -⟩ := ih E hE hP { m with pos := m.pos + 3, tsp := m.pos } { m with pos := m.pos + 3, tsp := m.pos } m.bol .refl (fun _ => rfl) (fun _ => rfl) hn (.inl ht) h3
      ⟨by simpa using hg.mono (by omega), .inl rfl⟩
    obtain ⟨s', r1, r2, r3, r4⟩ := hrd v ns ds
    refine ⟨s', next_of (sk v ns ds) ?_, r2, r3, r4⟩
    obtain ⟨k, r1⟩ := r1.ex
    exact ⟨k, fun f hf => (lex_tag (rest := 45 :: rest) (s := { m with pos := m.pos + 1, tsp := m.pos, val := v, names := ns, defs := ds }) he h rfl (by simp)).trans (r1 f hf)⟩
  exact ⟨main, 60, m.pos, _, 60, sk m.val m.names m.defs, main, rfl, rfl, rfl, rfl, hP.tag he _ _, ⟨1, fun x hx => peek_here (by rw [hx]; exact h)⟩, fun _ => rfl, fun _ => rfl⟩

theorem continues_code {fin : Option (List Nat)} (hh : headC rest ∉ [c%'=', c%'-', c%'%', c%'#']) (ih : Reaches env fin .renderString false none ts rest) :
    Continues env fin ts (c%'<' :: c%'%' :: rest) := by
  intro E hE hP m he h hn ht hg
  have hns : NoSkip (60 :: 37 :: rest) := ⟨rfl, by simp, by simp⟩
  have h3 : Here env (m.pos + 2) rest := (h.tail1 (by decide)).tail1 (by decide)
  have sk : ∀ v ns ds, skipWhite false env { m with val := v, names := ns, defs := ds } = .ok (60, m.pos) { m with pos := m.pos + 1, val := v, names := ns, defs := ds } :=
    fun v ns ds => skipWhite_exec' (env := env) (s := { m with val := v, names := ns, defs := ds }) (ws := []) (.nil _ _) (.inl hn) h hns
  simp only [List.mem_cons, List.not_mem_nil, or_false, not_or] at hh
  have main : Ready env ts m := by
    intro v ns ds
    obtain ⟨hrd, -⟩ := ih E hE hP { m with pos := m.pos + 2, tsp := m.pos } { m with pos := m.pos + 2, tsp := m.pos } m.bol .refl (fun _ => rfl) (fun _ => rfl) hn (.inl ht) h3
      ⟨by simpa using hg, .inl rfl⟩
    obtain ⟨s', r1, r2, r3, r4⟩ := hrd v ns ds
    refine ⟨s', next_of (sk v ns ds) ?_, r2, r3, r4⟩
    obtain ⟨k, r1⟩ := r1.ex
    refine ⟨k, fun f hf => ?_⟩
    have := lex_tag (n := f) (scan := m.pos) (rest := rest) (s := { m with pos := m.pos + 1, tsp := m.pos, val := v, names := ns, defs := ds }) he h rfl hh.1
    rw [if_neg hh.2.1] at this
    exact this.trans (r1 f hf)
  exact ⟨main, 60, m.pos, _, 60, sk m.val m.names m.defs, main, rfl, rfl, rfl, rfl, hP.tag he _ _, ⟨1, fun x hx => peek_here (by rw [hx]; exact h)⟩, fun _ => rfl, fun _ => rfl⟩

theorem layout_ready (hfac : env.hasFactory = true) {fin : Option (List Nat)}
    (hl : Layout env fin prev first pend ts rs) : Reaches env fin prev first pend ts rs := by
  induction hl using Layout.rec (motive_2 := fun fin ts rs _ => Continues env fin ts rs) (motive_3 := fun prev ps rs rest _ => Assembles env prev ps rs rest) with
  | @done prev first ws nl hw =>
    intro E hE hP m s b0 hj _ _ hn _ h _
    obtain ⟨b', -, h2, -⟩ := white_skips hw s.pos s.bol
    have h0 : Here env s.pos (ws ++ []) := by simpa using h
    have hL := h.length
    obtain ⟨q, b, nn, hm⟩ := hj.1
    refine reach_end (s := s) hE (.inl rfl) (by rw [hm]) (by rw [hm]) (by rw [hm]) hn (bol := b') (fun v ns ds => ?_) (by simpa using white_noDigit (rs := []) hw rfl)
    rw [hj.skips h2 (.inl hn) h0 ⟨rfl, by simp, by simp⟩]
    simp only [headC_nil, width, Nat.add_zero, hL]
  | @comment prev first ws nl body hw hb =>
    intro E hE hP m s b0 hj _ _ hn _ h _
    obtain ⟨b', -, h2, -⟩ := white_skips hw s.pos s.bol
    obtain ⟨q, b, nn, hm⟩ := hj.1
    refine reach_end (s := s) hE (.inl rfl) (by rw [hm]) (by rw [hm]) (by rw [hm]) hn (bol := b') (fun v ns ds => ?_) (white_noDigit hw rfl)
    obtain ⟨f, csp, hf, h0⟩ := hj.2 v ns ds
    rw [h0]
    exact loop_comment (s := { s with val := v, names := ns, defs := ds }) h2 hn h hb hf
  | @token fin prev first pend ws nl t cs ts rest hw hsp hfit hpn hl ih =>
    intro E hE hP m s b0 hj hmp hms hn htok h hc
    obtain ⟨hne, -, -, h128, -, hint⟩ := spelled_first hsp
    have hn2 : s.nls = none ∨ (s.bol = b0 ∧ nl = false) ∧ ¬ NoHeredoc env := by
      cases pend with
      | none => exact .inl hn
      | some a => exact .inr ⟨⟨hn.1, (hpn (by simp)).1⟩, hn.2.1⟩
    obtain ⟨b', hsk, hst, hbp, hb0⟩ := skip_line hw hn2 h (spelled_noSkip hsp) hc
    have hn3 : s.nls = none ∨ (b' = s.bol ∧ s.bol ≤ s.pos) := hn2.imp id fun hh => ⟨(hb0 hh.1.2).trans hh.1.1.symm, by have := hc.le hh.2; have := hh.1.1; omega⟩
    have hstart : E.start (t :: ts) (s.pos + (utf8 ws).length) := hP.start h hw (spelled_noSkip hsp) (.token hw hsp hfit hpn hl)
    have hp := h.append
    have hwid : width (cs ++ rest) = 1 := by
      cases cs with
      | nil => exact absurd rfl hne
      | cons c cs => rw [List.cons_append, width_cons]; exact enc_len h128
    generalize hpe : s.pos + (utf8 ws).length = p at *
    have hlc : (utf8 cs).length ≥ 1 := by
      have h1 := utf8_length_le cs
      have h2 := List.length_pos_iff.2 hne
      omega
    have hscan : first = false → ws = [] → 0 < s.pos ∧ p = s.pos := by
      intro hf hws
      have := hc.1
      rw [hf, if_neg (by simp)] at this
      have h4 := this.1
      subst hws
      simp only [utf8, List.flatMap_nil, List.length_nil, Nat.add_zero] at hpe
      omega
    obtain ⟨q0, b1, nn, hm⟩ := hj.1
    -- reading the token from a state before it
    have main : ∀ (m : St), (∀ v ns ds, skipWhite false env { m with val := v, names := ns, defs := ds } =
        .ok (headC (cs ++ rest), p) { s with pos := p + 1, bol := b', val := v, names := ns, defs := ds }) →
        (first = false → ws = [] → ¬ (m.pos < p ∨ p = 0)) → Ready env (t :: ts) m := by
      intro m hms hsc
      obtain ⟨r, ⟨k, h1⟩, h2, h3, h4, h5⟩ := lexSpelled (s := { s with pos := p + 1, bol := b', tsp := p }) (hd := pend.isSome) (b := b') (scan := m.pos) hfac hsp hfit hp hst
        htok (by cases pend with | none => exact .inr ⟨rfl, hn⟩ | some a => exact .inl ⟨rfl, hn.2.1⟩) rfl rfl hsc
      obtain ⟨h3, h3'⟩ := Prod.mk.inj h3
      have hgood : Good env b' r.pos := hst.good (by omega)
      have hr : Here env r.pos rest := by rw [h4]; exact hp.append
      obtain ⟨b2, hpd, hcd⟩ : ∃ b2, Pending env pend r b2 ∧ Cond env false r b2 := by
        cases pend with
        | none =>
          rcases h5 with h5 | ⟨-, h5⟩ | ⟨-, h5⟩
          · exact ⟨b', h3.trans hn, by simpa using hgood, .inl h5⟩
          · exact ⟨r.bol, h3.trans hn, by simpa using h5, .inl rfl⟩
          · exact ⟨b', h3.trans hn, by simpa using hgood, .inr h5⟩
        | some a =>
          obtain ⟨hn1, hn6, p, hn4, hn5⟩ := hn
          have h5 := h5.resolve_right (by simp)
          exact ⟨b', ⟨h5, hn6, p, h3.trans hn4, hn5⟩, by simpa using hgood, .inl h5⟩
      refine ready_cons (rest := rest) (fun v ns ds => ⟨{ r with names := ns, defs := ds }, next_of (hms v ns ds) ⟨k, fun f hf => h1 f hf v ns ds⟩, rfl, ?_, hr, ?_,
        ⟨by show E.start _ r.tsp; rw [h3']; exact hstart, hP.past hr hl⟩, ih E hE hP { r with names := ns, defs := ds } { r with names := ns, defs := ds } b2 .refl (fun _ => rfl) (fun _ => rfl) ?_ h2.tok' hr hcd⟩) ?_ ?_ (spelled_styled hsp)
      · cases t with
        | sym k => cases k <;> exact h2
        | _ => exact h2
      · rintro rfl
        cases pend with
        | none => exact ⟨hsp.2, layout_reread hsp.2 hl, h3.trans hn⟩
        | some a => exact absurd hfit.2 (by simp)
      · cases pend with
        | none => exact hpd
        | some a => exact hpd
      · rintro k rfl; exact hsp.2.2
      · rintro (rfl | rfl)
        · exact hsp.2.2.2 (.inl rfl)
        · exact hsp.2.2.2 (.inr rfl)
    refine ⟨main m (fun v ns ds => ?_) (fun h1 h2 => ?_), headC (cs ++ rest), p, { s with pos := p + 1, bol := b', val := m.val, names := m.names, defs := m.defs }, headC (cs ++ rest), ?_,
      main { s with pos := p, bol := b', val := m.val, names := m.names, defs := m.defs } (fun v ns ds => ?_) (fun h1 h2 => ?_), by rw [hm], rfl, by rw [hm], rfl, hstart, ⟨width (cs ++ rest), fun x hx => peek_here (by rw [hx]; exact hp)⟩, fun hd => ?_, fun hs => ?_⟩
    · rw [hj.skips hsk hn3 h (spelled_noSkip hsp), hwid]
    · have := hscan h1 h2; have := hmp h1; omega
    · have := hj.skips hsk hn3 h (spelled_noSkip hsp) m.val m.names m.defs
      rw [hwid] at this
      exact this
    · have := skipWhite_exec' (env := env) (s := { s with pos := p, bol := b', val := v, names := ns, defs := ds }) (ws := []) (rs := cs ++ rest) (.nil _ _)
        (hn2.imp id fun hh => ⟨rfl, hbp.resolve_right hh.2⟩) hp (spelled_noSkip hsp)
      rw [hwid] at this
      exact this
    · have := hscan h1 h2
      show ¬ (p < p ∨ p = 0)
      omega
    · cases ws with
      | nil => rfl
      | cons c ws =>
        have := white_head hw (by simp)
        rw [List.cons_append, headC_cons] at hd
        rw [headC_cons] at this
        rw [this] at hd; cases hd
    · have : headC (cs ++ rest) = headC cs := by
        cases cs with
        | nil => exact absurd rfl hne
        | cons c cs => rfl
      rw [this]
      exact hint (hs t rfl)
  | @close prev first ws nl rest hw =>
    intro E hE hP m s b0 hj hmp hms hn htok h hc
    have hns : NoSkip (125 :: rest) := ⟨rfl, by simp, by simp⟩
    obtain ⟨b', hsk, hst, hbp, hb0⟩ := skip_line hw (.inl hn) h hns hc
    have hp := h.append
    generalize hpe : s.pos + (utf8 ws).length = p at *
    obtain ⟨q0, b1, nn, hm⟩ := hj.1
    have hat : E.at_ { s with pos := p + 1, bol := b', tsp := p } := by
      refine hE.2 _ hn (hp.tail1 (by omega)) ?_
      exact hst.good (by show p < p + 1; omega)
    have hstart : E.start [] p := (E.last _ hat).1
    have main : ∀ (m : St), (∀ v ns ds, skipWhite false env { m with val := v, names := ns, defs := ds } =
        .ok (125, p) { s with pos := p + 1, bol := b', val := v, names := ns, defs := ds }) → Ready env [] m := by
      intro m hms v ns ds
      refine ⟨{ s with pos := p + 1, bol := b', tsp := p, tok := .rc, val := .nil, names := ns, defs := ds }, next_of (hms v ns ds) ⟨0, fun f _ => ?_⟩, rfl,
        ⟨hE.1.symm, rfl, hE.2 _ hn (hp.tail1 (by omega)) ?_⟩, fun h => ?_⟩
      · exact lexSym (k := .rc) (s := { s with pos := p + 1, bol := b', tsp := p, val := v, names := ns, defs := ds }) (p := p) (rest := rest) rfl (by simp [symText]) hp rfl (by simp [absorbs])
      · exact hst.good (by show p < p + 1; omega)
      · rcases h with h | h
        · exact absurd rfl h
        · have := hE.1
          rw [h] at this; cases this
    refine ⟨main m (fun v ns ds => ?_), 125, p, { s with pos := p + 1, bol := b', val := m.val, names := m.names, defs := m.defs }, 125, ?_,
      main { s with pos := p, bol := b', val := m.val, names := m.names, defs := m.defs } (fun v ns ds => ?_), by rw [hm], rfl, by rw [hm], rfl, hstart, ⟨1, fun x hx => peek_here (by rw [hx]; exact hp)⟩, fun hd => ?_, fun hs => rfl⟩
    · exact hj.skips hsk (.inl hn) h hns v ns ds
    · exact hj.skips hsk (.inl hn) h hns m.val m.names m.defs
    · exact skipWhite_exec' (env := env) (s := { s with pos := p, bol := b', val := v, names := ns, defs := ds }) (ws := []) (.nil _ _) (.inl hn) hp hns
    · rw [white_noDigit hw rfl] at hd; cases hd
  | @interp fin prev first ws nl ps rs rest ts hw hpts hex hl ihp ih =>
    intro E hE hP m s b0 hj hmp hms hn htok h hc
    have hns : NoSkip (34 :: rs) := ⟨rfl, by simp, by simp⟩
    obtain ⟨b', hsk, hst, hbp, hb0⟩ := skip_line hw (.inl hn) h hns hc
    have hp := h.append
    generalize hpe : s.pos + (utf8 ws).length = p at *
    obtain ⟨q0, b1, nn, hm⟩ := hj.1
    have hgood : Good env b' (p + 1) := hst.good (by omega)
    have hstart : E.start (.interp ps :: ts) p := hP.interp _ _ _
    have main : ∀ (m : St), (∀ v ns ds, skipWhite false env { m with val := v, names := ns, defs := ds } =
        .ok (34, p) { s with pos := p + 1, bol := b', val := v, names := ns, defs := ds }) → Ready env (.interp ps :: ts) m := by
      intro m hms
      refine ready_cons (rest := rest) (fun v ns ds => ?_) (by simp) (by simp) ⟨by simp, by simp⟩
      obtain ⟨ps', tail, t, e1, e2, e3, e4, e5, e6, e7⟩ := ihp { s with pos := p + 1, bol := b', tsp := p, val := v, names := ns, defs := ds } (p + 1 - 1) []
        (hp.tail1 (by omega)) hn htok hgood
      have hne : ps' ≠ [] := by
        rintro rfl
        obtain ⟨e, hex⟩ := hex
        rw [e2] at hex
        simp only [bareL_nil, List.nil_append, textPart] at hex
        split at hex <;> simp at hex
      obtain ⟨q, as', e8, e9⟩ := lex_interp (s := { s with pos := p + 1, bol := b', tsp := p, val := v, names := ns, defs := ds }) (start := p) (scan := m.pos) hfac e1 (by simpa using hne) e3
      refine ⟨{ t with tok := .concatenatedString, val := .expr (.concat q as') }, next_of (hms v ns ds) e8.ex, e4, ⟨rfl, _, _, rfl, ?_⟩, e6, by simp, ⟨hP.interp _ _ _, hP.past e6 hl⟩,
        ih E hE hP _ _ t.bol .refl (fun _ => rfl) (fun _ => rfl) e5 (.inl rfl) e6 ⟨by simpa using e7, .inl rfl⟩⟩
      rw [e9, e2]; simp
    refine ⟨main m (fun v ns ds => ?_), 34, p, { s with pos := p + 1, bol := b', val := m.val, names := m.names, defs := m.defs }, 34, ?_,
      main { s with pos := p, bol := b', val := m.val, names := m.names, defs := m.defs } (fun v ns ds => ?_), by rw [hm], rfl, by rw [hm], rfl, hstart, ⟨1, fun x hx => peek_here (by rw [hx]; exact hp)⟩, fun hd => ?_, fun hs => rfl⟩
    · exact hj.skips hsk (.inl hn) h hns v ns ds
    · exact hj.skips hsk (.inl hn) h hns m.val m.names m.defs
    · exact skipWhite_exec' (env := env) (s := { s with pos := p, bol := b', val := v, names := ns, defs := ds }) (ws := []) (.nil _ _) (.inl hn) hp hns
    · rw [white_noDigit hw rfl] at hd; cases hd
  | @quote prev src out rest hq =>
    intro s ds segs h hn htok hgood
    refine ⟨[], out, { s with pos := s.pos + (utf8 src).length + 1, tok := .string, val := .str out }, parts_of h (more_text hq hfac h ?_), by simp, rfl, rfl, hn, h.append.tail1 (by omega), hgood.mono ?_⟩
    · rw [List.append_nil]
      exact more_quote (s := { s with pos := s.pos + (utf8 src).length }) h.append
    show s.pos ≤ s.pos + (utf8 src).length + 1
    omega
  | @name prev src out v cs ps rs rest hq hsp hl ih =>
    intro s ds segs h hn htok hgood
    have hd := h.append
    obtain ⟨e, t, a1, a2, a3, a4, a5, a6, a7, a8⟩ := interp_name (start := s.pos) (s := { s with pos := s.pos + (utf8 src).length + 1 }) hsp (hd.tail1 (by omega)) hn
    have hg2 : Good env t.bol t.pos := by
      rw [a6]
      refine hgood.mono ?_
      have : s.pos + (utf8 src).length + 1 ≤ t.pos := a8
      omega
    obtain ⟨ps', tail, t', e1, e2, e3, e4, e5, e6, e7⟩ := ih { t with tsp := t.pos } ds
      ((if out.isEmpty then segs else segs ++ [.string ⟨s.tsp, ((s.pos + (utf8 src).length + 1 : Nat) : Int) - s.tsp⟩ out]) ++ [e]) a7 a5 (.inl a3) hg2
    obtain ⟨p1, p2⟩ := part_text (buf := out) (segs := segs) (ps' := ps') (q := ⟨s.tsp, ((s.pos + (utf8 src).length + 1 : Nat) : Int) - s.tsp⟩) a2
    rw [p1] at e1
    exact ⟨_, tail, t', parts_of h (more_text hq hfac h (more_dollar hd (by simp) a1 e1)), by rw [p2, e2]; simp, e3, e4.trans a4, e5, e6, e7⟩
  | @expr prev src out ts e e' ps inner rs rest hq hg hv hl hpts ihl ih =>
    intro s ds segs h hn htok hgood
    have hd := h.append
    have hb : Here env (s.pos + (utf8 src).length + 1) (123 :: inner) := hd.tail1 (by omega)
    have hts : ts ≠ [] := by
      obtain ⟨t, r, rfl, -⟩ := G_first (hg [])
      simp
    obtain ⟨hrd, -⟩ := ihl (Ending.brace env rs (Good env)) ⟨rfl, fun s h1 h2 h3 => ⟨h1, h2, h3⟩⟩ ⟨fun _ _ _ _ => trivial, fun _ _ => trivial, fun _ _ _ => trivial, fun _ _ _ => trivial⟩ { s with pos := s.pos + (utf8 src).length + 1 + 1 }
      { s with pos := s.pos + (utf8 src).length + 1 + 1 } s.bol .refl (fun _ => rfl) (fun _ => rfl) hn htok (hb.tail1 (by omega)) ⟨by simpa using hgood.mono (by omega), .inl rfl⟩
    obtain ⟨s1, r1, r2, r3, r4⟩ := hrd s.val s.names s.defs
    obtain ⟨c, p, u, r5, r6, r7⟩ := r4 (.inl hts)
    obtain ⟨e, t, a1, a2, a3, a4, a5, a6, a7⟩ := interp_expr (start := s.pos) (s := { s with pos := s.pos + (utf8 src).length + 1 }) hg hv hb r1 r5 r6 r7
    obtain ⟨ps', tail, t', e1, e2, e3, e4, e5, e6, e7⟩ := ih { t with tsp := t.pos } ds
      ((if out.isEmpty then segs else segs ++ [.string ⟨s.tsp, ((s.pos + (utf8 src).length + 1 : Nat) : Int) - s.tsp⟩ out]) ++ [e]) a7 a5 (.inl a3) a6
    obtain ⟨p1, p2⟩ := part_text (buf := out) (segs := segs) (ps' := ps') (q := ⟨s.tsp, ((s.pos + (utf8 src).length + 1 : Nat) : Int) - s.tsp⟩) a2
    rw [p1] at e1
    exact ⟨_, tail, t', parts_of h (more_text hq hfac h (more_dollar hd (by simp) a1 e1)), by rw [p2, e2]; simp, e3, e4.trans a4, e5, e6, e7⟩
  | @heredoc fin prev first ws nl syn src out decl text ln after ts hw hI hln he hl ih =>
    intro E hE hP m s b0 hj hmp hms hn htok h hc
    have hns : NoSkip (64 :: 40 :: (decl ++ 41 :: (ln ++ 10 :: (text ++ after)))) := ⟨rfl, by simp, by simp⟩
    have h3 := ((h.append.tail1 (by omega)).tail1 (by omega)).append.tail1 (by omega)
    exact heredoc_ready hfac hj hw (.inl ⟨hn, rfl⟩) hI hln he h hc (hP.start h hw hns (.heredoc (prev := prev) (first := first) hw hI hln he hl)) (hP.past h3 hl) (ih E hE hP)
  | @another fin prev first ws syn src out decl text ln skipped after ts hw hI hln he hl ih =>
    intro E hE hP m s b0 hj hmp hms hn htok h hc
    have hns : NoSkip (64 :: 40 :: (decl ++ 41 :: (ln ++ 10 :: skipped))) := ⟨rfl, by simp, by simp⟩
    have h3 := ((h.append.tail1 (by omega)).tail1 (by omega)).append.tail1 (by omega)
    exact heredoc_ready hfac hj hw (.inr ⟨hn, rfl⟩) hI hln he h hc (hP.start h hw hns (.another (prev := prev) (first := first) hw hI hln he hl)) (hP.past h3 hl) (ih E hE hP)
  | @resume fin prev first ws cm skipped after ts hw hcm hl ih =>
    intro E hE hP m s b0 hj hmp hms hn htok h hc
    obtain rfl := hms (by simp)
    obtain ⟨hn1, hn6, q, hn2, hn3⟩ := hn
    obtain ⟨i1, c0, p', u', c, i2, i3, i4, i5, i6, i10, i11, i7, i8, i9⟩ := ih E hE hP m { m with pos := q + 1, bol := q + 1, nls := none } (q + 1) (jump_resume hw hcm hn2 (hn1 ▸ hc.le hn6) h) (by simp) (by simp)
      rfl htok (hn3.tail1 (by omega)) ⟨by simp, .inl rfl⟩
    refine ⟨i1, c0, p', u', c, i2, i3, i4, i5, i6, i10, i11, i7, fun hd => ?_, i9⟩
    rw [white_noDigit hw hcm.noDigit] at hd
    cases hd
  | @resumeEnd prev first ws cm skipped hw hcm =>
    intro E hE hP m s b0 hj hmp hms hn htok h hc
    obtain rfl := hms (by simp)
    obtain ⟨hn1, hn6, q, hn2, hn3⟩ := hn
    have hL := hn3.length
    simp only [utf8, List.flatMap_nil, List.length_nil, Nat.add_zero] at hL
    have hj2 := jump_resume hw hcm hn2 (hn1 ▸ hc.le hn6) h
    refine reach_end hE (s := { m with pos := q + 1, bol := q + 1, nls := none }) (e := q + 1) (bol := q + 1) (.inr (by omega)) rfl rfl rfl rfl (fun v ns ds => ?_) (white_noDigit hw hcm.noDigit)
    obtain ⟨f, csp, hf, h0⟩ := hj2.2 v ns ds
    obtain ⟨g, rfl⟩ : ∃ g, f = g + 1 := ⟨f - 1, by omega⟩
    rw [h0, loop_end (by show env.text.length ≤ q + 1; omega)]
  | @text fin prev first ws nl te cs out o rest ts he hw hte hr ho hne htags ih =>
    intro E hE hP m s b0 hj hmp hms hn htok h hc
    have hns : NoSkip (te ++ (cs ++ rest)) := by cases hte <;> exact ⟨rfl, by simp, by simp⟩
    obtain ⟨b', hsk, hst, hbp, hb0⟩ := skip_line hw (.inl hn) h hns hc
    have hp := h.append
    have hwid : width (te ++ (cs ++ rest)) = 1 := by cases hte <;> rfl
    have hdig : isDecimalDigit (headC (te ++ (cs ++ rest))) = false := by cases hte <;> rfl
    have hte1 : 1 ≤ (utf8 te).length := by
      have := utf8_length_le te
      have h2 : 1 ≤ te.length := by cases hte <;> simp
      omega
    generalize hpe : s.pos + (utf8 ws).length = p at *
    obtain ⟨q0, b1, nn, hm⟩ := hj.1
    have hgood : Good env b' (p + (utf8 te).length + (utf8 cs).length) := hst.good (by omega)
    have main : ∀ (m : St), (∀ v ns ds, skipWhite false env { m with val := v, names := ns, defs := ds } =
        .ok (headC (te ++ (cs ++ rest)), p) { s with pos := p + 1, bol := b', val := v, names := ns, defs := ds }) → Ready env (.render (utf8 o) :: ts) m := by
      intro m hms
      refine ready_cons (rest := rest) (fun v ns ds => ⟨{ s with pos := p + (utf8 te).length + (utf8 cs).length, bol := b', tsp := p, tok := .renderString, val := .str (utf8 o), names := ns, defs := ds },
        next_of (hms v ns ds) ⟨0, fun f _ => ?_⟩, rfl, ⟨rfl, rfl⟩, hp.append.append, by simp, ⟨hP.tag he _ _, E.ahead _ _ _ (hP.tag he _ _)⟩,
        ih E hE hP _ he hp.append.append hn rfl (hgood.mono (Nat.le_add_right _ _))⟩) (by simp) (by simp) ⟨by simp, by simp⟩
      obtain ⟨tk, v', e1⟩ := lex_tagEnd (n := f) (scan := m.pos) (s := { s with pos := p + 1, bol := b', tsp := p, val := v, names := ns, defs := ds }) he hte hp rfl
      rw [e1]
      exact consume_text (s := { s with pos := p + (utf8 te).length, bol := b', tsp := p, val := v', tok := tk, names := ns, defs := ds }) hr
        ((tags_tag htags).imp And.left id) ho hne hp.append
    refine ⟨main m (fun v ns ds => ?_), headC (te ++ (cs ++ rest)), p, { s with pos := p + 1, bol := b', val := m.val, names := m.names, defs := m.defs }, headC (te ++ (cs ++ rest)), ?_,
      main { s with pos := p, bol := b', val := m.val, names := m.names, defs := m.defs } (fun v ns ds => ?_), by rw [hm], rfl, by rw [hm], rfl, hP.tag he _ _, ⟨_, fun x hx => peek_here (by rw [hx]; exact hp)⟩, fun hd => ?_, fun _ => hdig⟩
    · rw [hj.skips hsk (.inl hn) h hns v ns ds, hwid]
    · have := hj.skips hsk (.inl hn) h hns m.val m.names m.defs
      rw [hwid] at this
      exact this
    · have := skipWhite_exec' (env := env) (s := { s with pos := p, bol := b', val := v, names := ns, defs := ds }) (ws := []) (rs := te ++ (cs ++ rest)) (.nil _ _) (.inl hn) hp hns
      rw [hwid] at this
      exact this
    · rw [white_noDigit hw hdig] at hd; cases hd
  | @noText fin prev first ws nl te cs out rest ts he hw hte hr ho htags ih =>
    intro E hE hP m s b0 hj hmp hms hn htok h hc
    have hns : NoSkip (te ++ (cs ++ rest)) := by cases hte <;> exact ⟨rfl, by simp, by simp⟩
    obtain ⟨b', hsk, hst, hbp, hb0⟩ := skip_line hw (.inl hn) h hns hc
    have hp := h.append
    have hwid : width (te ++ (cs ++ rest)) = 1 := by cases hte <;> rfl
    have hdig : isDecimalDigit (headC (te ++ (cs ++ rest))) = false := by cases hte <;> rfl
    have hte1 : 1 ≤ (utf8 te).length := by
      have := utf8_length_le te
      have h2 : 1 ≤ te.length := by cases hte <;> simp
      omega
    generalize hpe : s.pos + (utf8 ws).length = p at *
    obtain ⟨q0, b1, nn, hm⟩ := hj.1
    have hgood : Good env b' (p + (utf8 te).length + (utf8 cs).length) := hst.good (by omega)
    have main : ∀ (m : St), (∀ v ns ds, skipWhite false env { m with val := v, names := ns, defs := ds } =
        .ok (headC (te ++ (cs ++ rest)), p) { s with pos := p + 1, bol := b', val := v, names := ns, defs := ds }) → Ready env ts m := by
      intro m hms v ns ds
      rcases tags_tag htags with ⟨rfl, rfl, rfl⟩ | htag
      · have hat : ∀ x : St, x.pos = env.text.length → E.at_ x := fun x hx => hE.2.2 he x (.inl hx)
        have hout : out = [] := by
          rcases ho with ⟨⟨r, h⟩, -⟩ | ⟨-, h⟩
          · cases h
          · exact h.symm
        subst hout
        refine ⟨{ s with pos := env.text.length, bol := b', tsp := p, tok := .end_, val := .nil, names := ns, defs := ds },
          next_of (hms v ns ds) ⟨0, fun f _ => ?_⟩, rfl, ⟨hE.1.symm, rfl, hat _ rfl⟩, fun _ => ⟨_, _, _, atEnd (by exact Nat.le_refl _), rfl, hE.1.symm, rfl, hat _ rfl⟩⟩
        obtain ⟨tk, v', e1⟩ := lex_tagEnd (n := f) (scan := m.pos) (s := { s with pos := p + 1, bol := b', tsp := p, val := v, names := ns, defs := ds }) he hte hp rfl
        rw [e1]
        exact consume_end (s := { s with pos := p + (utf8 te).length, bol := b', tsp := p, val := v', tok := tk, names := ns, defs := ds }) hr (by simpa using hp.append)
      · obtain ⟨hrd, -⟩ := ih E hE hP { s with pos := p + (utf8 te).length + (utf8 cs).length, bol := b', tsp := p, tok := .renderString, val := .str [] } he hp.append.append hn rfl (hgood.mono (Nat.le_add_right _ _))
        obtain ⟨s', r1, r2, r3, r4⟩ := hrd (.str []) ns ds
        refine ⟨s', next_of (hms v ns ds) ?_, r2, r3, r4⟩
        obtain ⟨k, r1⟩ := r1.ex
        refine ⟨k, fun f hf => ?_⟩
        obtain ⟨tk, v', e1⟩ := lex_tagEnd (n := f) (scan := m.pos) (s := { s with pos := p + 1, bol := b', tsp := p, val := v, names := ns, defs := ds }) he hte hp rfl
        obtain ⟨o', e2, e3⟩ := consume_tag (self := run f) (s := { s with pos := p + (utf8 te).length, bol := b', tsp := p, val := v', tok := tk, names := ns, defs := ds }) hr htag hp.append
        have := Shown.unique e2 ho
        subst this
        rw [e1, e3]
        exact r1 f hf
    refine ⟨main m (fun v ns ds => ?_), headC (te ++ (cs ++ rest)), p, { s with pos := p + 1, bol := b', val := m.val, names := m.names, defs := m.defs }, headC (te ++ (cs ++ rest)), ?_,
      main { s with pos := p, bol := b', val := m.val, names := m.names, defs := m.defs } (fun v ns ds => ?_), by rw [hm], rfl, by rw [hm], rfl, hP.tag he _ _, ⟨_, fun x hx => peek_here (by rw [hx]; exact hp)⟩, fun hd => ?_, fun _ => hdig⟩
    · rw [hj.skips hsk (.inl hn) h hns v ns ds, hwid]
    · have := hj.skips hsk (.inl hn) h hns m.val m.names m.defs
      rw [hwid] at this
      exact this
    · have := skipWhite_exec' (env := env) (s := { s with pos := p, bol := b', val := v, names := ns, defs := ds }) (ws := []) (rs := te ++ (cs ++ rest)) (.nil _ _) (.inl hn) hp hns
      rw [hwid] at this
      exact this
    · rw [white_noDigit hw hdig] at hd; cases hd
  | finish => exact continues_finish
  | render hl ih => exact continues_render ih
  | trim hl ih => exact continues_trim ih
  | code hh hl ih => exact continues_code hh ih

theorem tags_ready (hfac : env.hasFactory = true) {fin : Option (List Nat)} (h : Tags env fin ts rs) : Continues env fin ts rs := by
  cases h with
  | finish => exact continues_finish
  | render hl => exact continues_render (layout_ready hfac hl)
  | trim hl => exact continues_trim (layout_ready hfac hl)
  | code hh hl => exact continues_code hh (layout_ready hfac hl)

theorem source_places (env : Env) (hepp : env.epp = false) : Places (Ending.source env) env none := by
  refine ⟨@fun q prev first pend ws nl rs t ts h1 h2 h3 h4 => ?_, @fun p prev first pend rs t ts h1 h2 => .inr ⟨_, _, _, _, h1.drop, h2⟩, fun _ _ _ => trivial, fun h => by rw [hepp] at h; cases h⟩
  show StartsAt env (t :: ts) _
  unfold StartsAt
  split
  · contradiction
  · trivial
  · rename_i h
    injection h with h5 h6
    subst h5 h6
    exact ⟨_, _, _, _, _, _, _, h1.drop, h2, h3, h4, rfl⟩

/-- The first token of a source. -/
theorem source_ready (hepp : env.epp = false) (hfac : env.hasFactory = true) (hs : Source env ts) (s : St) (hn : s.nls = none) (ht : s.tok = .end_)
    (hp : s.pos = 0) (hb : s.bol = 0) : letI := Ending.source env; Ready env ts s := by
  obtain ⟨rs, h1, h2, h3⟩ := hs
  exact (layout_ready hfac h3 (Ending.source env) ⟨rfl, fun _ h1 h2 => ⟨h1, h2⟩, fun h => by rw [hepp] at h; cases h⟩ (source_places env hepp) s s 0 .refl (fun _ => rfl) (fun _ => rfl) hn (.inl ht) (by rw [hp]; exact Here.start h1 h2) ⟨by simp [hp], .inl hb⟩).1

end
end PP
