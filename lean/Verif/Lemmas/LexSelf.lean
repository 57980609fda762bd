import Verif.Lemmas.Spec

/-! # The functions of the lexer that call the parser -/
namespace PP

section
variable {env : Env} {s t u : St} {self : Self} {m : Nat}

theorem Base.move {q : Nat} (h : Base env s) (hq : q ≤ env.text.length + 1) : Base env { s with pos := q } :=
  ⟨hq, h.tsp, h.nls, h.nls2, h.defs⟩
theorem Base.setTok {t : Tok} {v : TokVal} (h : Base env s) : Base env { s with tok := t, val := v } :=
  ⟨h.pos, h.tsp, h.nls, h.nls2, h.defs⟩
theorem Base.setTsp {q : Nat} (h : Base env s) (hq : q ≤ env.text.length + 1) : Base env { s with tsp := q } :=
  ⟨h.pos, hq, h.nls, h.nls2, h.defs⟩

theorem Adv.to {q : Nat} (h : s.pos ≤ q) : Adv env s { s with pos := q } := ⟨rfl, List.prefix_refl _, R.to s h⟩
theorem Adv.setTok {t : Tok} {v : TokVal} : Adv env s { s with tok := t, val := v } :=
  ⟨rfl, List.prefix_refl _, R.refl s⟩
theorem Adv.setTsp {q : Nat} : Adv env s { s with tsp := q } := ⟨rfl, List.prefix_refl _, R.refl s⟩

theorem psi_move {q : Nat} (hs : s.pos ≤ env.text.length + 1) (h : s.pos < q) (hq : q ≤ env.text.length + 1) :
    psi env s < psi env { s with pos := q } := psi_lt_of (s' := { s with pos := q }) (LtP.to s h) hs hq
theorem psi_move_le {q : Nat} (hs : s.pos ≤ env.text.length + 1) (h : s.pos ≤ q) (hq : q ≤ env.text.length + 1) :
    psi env s ≤ psi env { s with pos := q } := psi_le_of (s' := { s with pos := q }) (R.to s h).1 hs hq

theorem AllN.mono {D D' : List Expr} {σ : Role} {es : List Expr} (h : AllN env D σ es) (hD : ∀ d ∈ D, d ∈ D') :
    AllN env D' σ es := fun e he => (h e he).mono hD

theorem AllN.snoc {D : List Expr} {σ : Role} {es : List Expr} {e : Expr} (h : AllN env D σ es) (he : Node env D σ e) :
    AllN env D σ (es ++ [e]) := by
  intro x hx
  rw [List.mem_append, List.mem_singleton] at hx
  rcases hx with hx | rfl
  · exact h x hx
  · exact he

theorem AllN.nil {D : List Expr} {σ : Role} : AllN env D σ [] := by intro x hx; cases hx

/-- The result of an interpolation. -/
def InterPost (env : Env) (s : St) (e : Expr) (s' : St) : Prop :=
  Adv env s s' ∧ Base env s' ∧ psi env s < psi env s' ∧ Node env s'.defs .segment e

theorem wp_interpolate (H : HSelf env self m) (start : Nat) (hs : Base env s) (hst : start ≤ env.text.length)
    (hdl : ∃ q n, Seen env q 36 n ∧ s.pos = q + n)
    (hm : ML env s + 2 < m) : wp env (interpolate self start) (InterPost env s) (EOK env) s := by
  unfold interpolate
  wpr
  refine wp_peek (fun c n hc => ?_) hs.pos
  dsimp only
  split
  · next h =>
    have h1 := hc.le (by omega)
    have h2 := hc.ge (by omega)
    have hx : b!"${" <:+: env.text := by
      obtain ⟨q, k, h1, h2⟩ := hdl
      have h3 := h1.one (by decide) (by decide)
      rw [h, h2, h3] at hc
      exact dollar_brace h1 hc
    have h3 := psi_move (env := env) (q := s.pos + n) hs.pos (by omega) (by omega)
    wpr
    refine wp_imp (H .nextToken { s with pos := s.pos + n } (hs.move (by omega)) ?_) ?_
    · have := ML_drop h3 (by bnd); show ML env _ + 2 < m; omega
    intro _ t ht
    change Nx env _ _ at ht
    have h4 := ht.psi_le (hs.move (by omega))
    have h4' : psi env s < psi env t := by omega
    refine wp_imp (H (.parse .rc true) t ht.inv ?_) ?_
    · have := B_ML h4' ht.inv.toBase; show B env _ + 42 < m; omega
    rintro e u ⟨h5, h6, h7⟩
    rw [if_pos rfl] at h7
    obtain ⟨e', h8, h9⟩ := Node.interpolated (len := (u.pos : Int) - start) (show start ≤ env.text.length + 1 by omega) h7.1 hx
    rw [h8]
    have h10 := h5.adv.psi_le ht.inv.toBase h5.inv.toBase
    exact ⟨((Adv.to (by bnd)).trans ht.adv).trans h5.adv, h5.inv.toBase, by omega, .text (show start ≤ _ by omega) h9⟩
  · wpr
    have fin : ∀ (t : St), Nx env s t → wp env (do
          let s ← getS
          if s.tok ≠ .identifier then do
            setPos start
            issue .lexMalformedInterpolation
          else
            match s.val with
            | .str name =>
              let len := (s.pos : Int) - start
              pure (.un ⟨start, len⟩ .text (.un ⟨start, len⟩ .variable (.qname ⟨start + 1, (s.pos : Int) - (start + 1 : Nat)⟩ name)))
            | _ => crash .valueAssertion) (InterPost env s) (EOK env) t := by
      intro t ht
      wpr
      split
      · wpr; bnd
      · next h' =>
        have h' : t.tok = .identifier := Decidable.not_not.mp h'
        have := ht.inv.tok
        rw [h'] at this
        obtain ⟨w, hw⟩ := this
        rw [hw]
        refine ⟨ht.adv, ht.inv.toBase, ht.lt (by rw [h']; exact fun h => Tok.noConfusion h), ?_⟩
        exact .text (show start ≤ _ by omega) (.namedVar (show start ≤ _ by omega) (show start + 1 ≤ _ by omega))
    split
    · rw [wp_bind]
      refine wp_imp (H .nextToken { s with tok := .variable, val := .nil } hs.setTok hm) ?_
      intro _ t ht
      have ht' : Nx env { s with tok := .variable, val := .nil } t := ht
      exact fin t ⟨⟨ht'.adv.names, ht'.adv.defs, ht'.adv.r⟩, ht'.inv, ht'.bk, ht'.lt, ht'.digit⟩
    · rw [wp_bind, wp_getS, if_pos (by exact fun h => Tok.noConfusion h)]
      wpr; bnd

theorem wp_handleInterpolation (H : HSelf env self m) (start : Nat) (segs : List Expr) (buf : GoStr)
    (hs : Base env s) (hst : start ≤ env.text.length) (hdl : ∃ q n, Seen env q 36 n ∧ s.pos = q + n)
    (hm : ML env s + 2 < m) (hsegs : AllN env s.defs .segment segs) :
    wp env (handleInterpolation self start segs buf) (fun segs' s' => Adv env s s' ∧ Base env s' ∧
      psi env s < psi env s' ∧ s'.tsp = s'.pos ∧ AllN env s'.defs .segment segs') (EOK env) s := by
  unfold handleInterpolation
  wpr
  refine wp_imp (wp_interpolate H start hs hst hdl hm) ?_
  rintro e t ⟨h1, h2, h3, h4⟩
  refine ⟨h1.trans .setTsp, h2.setTsp h2.pos, h3, trivial, AllN.snoc ?_ h4⟩
  refine AllN.mono ?_ h1.mem
  split
  · exact hsegs
  · exact hsegs.snoc (.textString hs.tsp)

/-- What `delim` and `escapes` have in common. -/
structure DP (env : Env) (s s' : St) : Prop where
  adv : Adv env s s'
  base : Base env s'
  bk : s'.tsp = s.tsp ∨ R env s (back s')

theorem back_eq (h : t.tsp = t.pos) : back t = t := by
  cases t; dsimp only at h; subst h; rfl

theorem R.back_keep (h1 : R env s (back t)) (h2 : R env s t) (h3 : R env t u) (h : u.tsp = t.tsp) :
    R env s (back u) := by
  unfold R LeP nlv back at *
  dsimp only at *
  rw [h]
  generalize s.nls.getD (env.text.length + 3) = a at *
  generalize t.nls.getD (env.text.length + 3) = b at *
  generalize u.nls.getD (env.text.length + 3) = c at *
  omega

theorem DP.trans (h1 : DP env s t) (h2 : DP env t u) : DP env s u := by
  refine ⟨h1.adv.trans h2.adv, h2.base, ?_⟩
  rcases h2.bk with h | h
  · rcases h1.bk with h' | h'
    · exact .inl (h.trans h')
    · exact .inr (h'.back_keep h1.adv.r h2.adv.r h)
  · exact .inr (h1.adv.r.trans h)

theorem DP.to {q : Nat} (hs : Base env s) (h : s.pos ≤ q) (hq : q ≤ env.text.length + 1) : DP env s { s with pos := q } :=
  ⟨.to h, hs.move hq, .inl rfl⟩

/-- What the loop of a delimited string establishes. -/
def DelimPost (env : Env) (d : Nat) (s : St) (segs : List Expr) (s' : St) : Prop :=
  DP env s s' ∧ AllN env s'.defs .segment segs ∧
  ((s'.tok = .string ∧ ∃ w, s'.val = .str w) ∨ (s'.tok = .divide ∧ s'.val = .nil ∧ d = c%'/'))

theorem DelimPost.trans {d : Nat} {segs : List Expr} (h1 : DP env s t) (h2 : DelimPost env d t segs u) :
    DelimPost env d s segs u := ⟨h1.trans h2.1, h2.2⟩

theorem wp_delim_call (H : HSelf env self m) {d ds : Nat} {i : Bool} {h : Handler} {buf : GoStr} {ec start : Nat}
    {segs : List Expr} (hs : Base env s) (hds : ds ≤ env.text.length)
    (hec : ec ≠ 0 → start ≤ env.text.length ∧ s.pos ≤ env.text.length ∧ ∃ q n, Seen env q ec n ∧ s.pos = q + n) (hsegs : AllN env s.defs .segment segs)
    (hm : (ML env s + if ec = 0 then 0 else 3) < m) :
    wp env (self (.delim d ds i h buf ec start segs)) (DelimPost env d s) (EOK env) s := by
  refine wp_imp (H (.delim d ds i h buf ec start segs) s ⟨hs, hds, hec, hsegs⟩ hm) ?_
  rintro segs' s' ⟨h1, h2, h3, h4, h5⟩
  exact ⟨⟨h1, h2, h3⟩, h4, h5⟩

/-- Read a rune and go on with the loop: the rest is smaller. -/
theorem wp_delim_next (H : HSelf env self m) {d ds : Nat} {i : Bool} {h : Handler} {buf : GoStr} {start : Nat}
    {segs : List Expr} (hs : Base env s) (hds : ds ≤ env.text.length) (hst : start ≤ env.text.length)
    (hsegs : AllN env s.defs .segment segs) (hm : ML env s < m) (b : Bool) :
    wp env (next >>= fun cs => self (.delim d ds i h buf cs.1 (if b then cs.2 else start) segs))
      (DelimPost env d s) (EOK env) s := by
  rw [wp_bind]
  refine wp_next (fun c n hc => ?_) hs.pos
  dsimp only
  have h0 := hc.bound
  have h1 := hs.pos
  refine wp_imp (wp_delim_call H (hs.move (by omega)) hds ?_ hsegs ?_) (fun _ _ h => .trans (DP.to hs (by omega) (by omega)) h)
  · intro hc0
    have := hc.le hc0
    dsimp only
    exact ⟨by split <;> omega, by omega, _, _, hc, rfl⟩
  · by_cases hc0 : c = 0
    · rw [if_pos hc0]
      have := ML_mono (psi_move_le (env := env) (q := s.pos + n) h1 (by omega) (by omega))
      omega
    · have h2 := hc.ge hc0
      rw [if_neg hc0]
      have := ML_drop (psi_move (env := env) (q := s.pos + n) h1 (by omega) (by omega)) (by bnd)
      omega

theorem wp_delimBody (d ds : Nat) (i : Bool) (h : Handler) (buf : GoStr) (ec start : Nat) (segs : List Expr)
    (H : HSelf env self (M env (.delim d ds i h buf ec start segs) s))
    (hpre : Pre env (.delim d ds i h buf ec start segs) s) :
    wp env (delimBody self d ds i h buf ec start segs) (DelimPost env d s) (EOK env) s := by
  obtain ⟨hs, hds, hec, hsegs⟩ := hpre
  have hp := hs.pos
  unfold delimBody
  split
  · split
    · unfold unterminatedQuote; wpr; bnd
    · next hd =>
      wpr
      exact ⟨⟨.setTok, hs.setTok, .inl rfl⟩, hsegs, .inr ⟨rfl, rfl, Decidable.not_not.mp hd⟩⟩
  next hec0 =>
  obtain ⟨hst, hpos, hprev⟩ := hec hec0
  simp only [M, if_neg hec0] at H
  split
  · wpr
    exact ⟨⟨.setTok, hs.setTok, .inl rfl⟩, hsegs, .inl ⟨rfl, _, rfl⟩⟩
  split
  · rw [wp_bind]
    refine wp_imp (wp_next_move hpos) ?_
    rintro ⟨c, p⟩ _ ⟨⟨q, rfl, h1, h2⟩, h3, hc⟩
    dsimp only at h3 hc ⊢
    have hb : Base env { s with pos := q } := hs.move (by omega)
    have hml := ML_mono (psi_move_le (env := env) (q := q) hp h1 (by omega))
    split
    · unfold unterminatedQuote; wpr; bnd
    split
    · refine wp_imp (wp_delim_next H (s := { s with pos := q }) hb hds hst hsegs (by omega) false) ?_
      exact fun _ _ h => .trans (DP.to hs h1 (by omega)) h
    · rw [wp_bind]
      refine wp_imp (wp_escapeHandler h c (s := { s with pos := q }) h2) ?_
      rintro out _ ⟨q2, rfl, h4, h5⟩
      dsimp only at h4
      have hml := ML_mono (psi_move_le (env := env) (q := q2) hp (by omega) (by omega))
      refine wp_imp (wp_delim_next H (s := { s with pos := q2 }) (hs.move (by omega)) hds hst hsegs (by omega) false) ?_
      exact fun _ _ h => .trans (DP.to hs (by omega) (by omega)) h
  split
  · next hdl =>
    rw [wp_bind]
    refine wp_imp (wp_handleInterpolation H start segs buf hs hst (by rw [← hdl.1]; exact hprev) (by omega) hsegs) ?_
    rintro segs' t ⟨h1, h2, h3, h4, h5⟩
    have hml := ML_drop h3 h2.pos
    have hbk : DP env s t := ⟨h1, h2, .inr (by rw [back_eq h4]; exact h1.r)⟩
    refine wp_imp (wp_delim_next H h2 hds hst h5 (by omega) true) ?_
    exact fun _ _ h => .trans hbk h
  · exact wp_delim_next H hs hds hst hsegs (by omega) false

/-- What the loop of `applyEscapes` establishes. -/
def EscPost (env : Env) (s : St) (r : GoStr × List Expr) (s' : St) : Prop :=
  DP env s s' ∧ AllN env s'.defs .segment r.2

theorem wp_escapes_call (H : HSelf env self m) {e : Int} {ind : Nat} {fl : GoStr} {i : Bool} {buf : GoStr}
    {segs : List Expr} (hst : DP env s t) (he : e ≤ env.text.length)
    (hsegs : AllN env t.defs .segment segs) (hm : ML env t + 3 < m) :
    wp env (self (.escapes e ind fl i buf segs)) (EscPost env s) (EOK env) t := by
  refine wp_imp (H (.escapes e ind fl i buf segs) t ⟨hst.base, he, hsegs⟩ hm) ?_
  rintro r s' ⟨h1, h2, h3, h4⟩
  exact ⟨hst.trans ⟨h1, h2, h3⟩, h4⟩

theorem wp_escapesBody (e : Int) (ind : Nat) (fl : GoStr) (i : Bool) (buf : GoStr) (segs : List Expr)
    (H : HSelf env self (M env (.escapes e ind fl i buf segs) s))
    (hpre : Pre env (.escapes e ind fl i buf segs) s) :
    wp env (escapesBody self e ind fl i buf segs) (EscPost env s) (EOK env) s := by
  obtain ⟨hs, he, hsegs⟩ := hpre
  have hp := hs.pos
  change HSelf env self (ML env s + 3) at H
  unfold escapesBody
  rw [wp_bind]
  refine wp_next (fun c n hc => ?_) hp
  have h0 := hc.bound
  dsimp only
  split
  · wpr
    exact ⟨.to hs (by omega) (by omega), hsegs⟩
  next hc0 =>
  have hc0' : c ≠ 0 := by omega
  have h1 := hc.le hc0'
  have h2 := hc.ge hc0'
  have h3 : ∀ q, s.pos + n ≤ q → q ≤ env.text.length + 1 → ML env { s with pos := q } + 192 ≤ ML env s := by
    intro q h4 h5
    exact ML_drop (psi_move (env := env) hp (by omega) h5) h5
  -- read on at `q`
  have go : ∀ (q : Nat) (buf : GoStr), s.pos + n ≤ q → q ≤ env.text.length + 1 →
      wp env (self (.escapes e ind fl i buf segs)) (EscPost env s) (EOK env) { s with pos := q } := by
    intro q buf h4 h5
    have := h3 q h4 h5
    exact wp_escapes_call H (.to hs (by omega) h5) he hsegs (by omega)
  have strip : ∀ (q : Nat) (buf : GoStr), s.pos + n ≤ q → q ≤ env.text.length + 1 →
      wp env (stripIndent ind >>= fun _ => self (.escapes e ind fl i buf segs)) (EscPost env s) (EOK env)
        { s with pos := q } := by
    intro q buf h4 h5
    rw [wp_bind]
    refine wp_imp (wp_stripIndent ind (s := { s with pos := q }) h5) ?_
    rintro _ _ ⟨q', rfl, h6, h7⟩
    dsimp only at h6
    exact go q' buf (by omega) h7
  have inter : ∀ (q st : Nat) (buf : GoStr), s.pos + n ≤ q → q ≤ env.text.length + 1 → st ≤ env.text.length →
      (∃ p n, Seen env p 36 n ∧ q = p + n) →
      wp env (handleInterpolation self st segs buf >>= fun segs' => self (.escapes e ind fl i [] segs'))
        (EscPost env s) (EOK env) { s with pos := q } := by
    intro q st buf h4 h5 h6 hdl
    have h7 := h3 q h4 h5
    rw [wp_bind]
    refine wp_imp (wp_handleInterpolation H st segs buf (s := { s with pos := q }) (hs.move h5) h6 hdl (by omega) hsegs) ?_
    rintro segs' t ⟨h8, h9, h10, h11, h12⟩
    have hml := ML_drop h10 h9.pos
    refine wp_escapes_call H (.trans (.to hs (by omega) h5) ⟨h8, h9, .inr ?_⟩) he h12 (by omega)
    rw [back_eq h11]; exact h8.r
  split
  · split
    · next hd => exact inter (s.pos + n) s.pos buf (by omega) (by omega) (by omega) ⟨s.pos, n, by rw [← hd.1]; exact hc, rfl⟩
    · split
      · exact strip _ _ (by omega) (by omega)
      · exact go _ _ (by omega) (by omega)
  · rw [wp_bind]
    refine wp_next (fun c2 n2 hc2 => ?_) (by bnd)
    have h4 := hc2.bound
    dsimp only at h4 ⊢
    split
    · wpr
      exact ⟨.to hs (by omega) (by omega), hsegs⟩
    next he2 =>
    have h5 : s.pos + n < env.text.length := by omega
    split
    · split
      · next hd => exact inter _ (s.pos + n) _ (by omega) (by omega) (by omega) ⟨s.pos + n, n2, by rw [← hd.1]; exact hc2, rfl⟩
      · split
        · exact strip _ _ (by omega) (by omega)
        · exact go _ _ (by omega) (by omega)
    · split
      · exact strip _ _ (by omega) (by omega)
      · have fin : ∀ out, wp env (self (.escapes e ind fl i (buf ++ out) segs)) (EscPost env s) (EOK env)
            { s with pos := s.pos + n + n2 } := fun out => go _ _ (by omega) (by omega)
        repeat' split
        all_goals first
          | exact fin _
          | (rw [wp_bind]
             refine wp_imp (wp_appendUnicode (s := { s with pos := s.pos + n + n2 }) (by bnd)) ?_
             rintro out _ ⟨q, rfl, h6, h7⟩
             dsimp only at h6
             exact go _ _ (by omega) (by omega))

end
end PP
