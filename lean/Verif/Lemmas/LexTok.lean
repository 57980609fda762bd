import Verif.Lemmas.LexSelf

/-! # The token functions of the lexer -/
namespace PP

section
variable {env : Env} {s t u : St} {self : Self} {m : Nat}

/-- What the functions behind the first character of a token do. -/
structure LexPost (env : Env) (t s' : St) : Prop where
  adv : Adv env t s'
  inv : Inv env s'
  bk : s'.tsp = t.tsp ∨ R env t (back s')

/-- Some other token than the last one. -/
macro "notEnd" : tactic => `(tactic|
  first
    | (intro h; cases h; done)
    | (intro h; split at h <;> cases h))

/-- Tokens of which the text does not matter, or of which it is known. -/
macro "spelled" : tactic => `(tactic|
  first
    | exact True.intro
    | assumption
    | (split <;> first
        | exact True.intro
        | assumption))

/-- A token without a value. -/
theorem LexPost.tok {q : Nat} {k : Tok} {v : TokVal} (h : Base env t) (hq : t.pos ≤ q) (hq' : q ≤ env.text.length + 1)
    (hv : ValOK env t.defs t.tsp k v) (hk : k = .end_ → Fin env q t.tsp := by notEnd)
    (hsp : SpeltAt env t.tsp k v := by spelled) : LexPost env t { t with pos := q, tok := k, val := v } :=
  ⟨⟨rfl, List.prefix_refl _, (R.to t hq)⟩, ⟨⟨hq', h.tsp, h.nls, h.nls2, h.defs⟩, hv, hk, hsp⟩, .inl rfl⟩

theorem LexPost.tokHere {k : Tok} {v : TokVal} (h : Base env t)
    (hv : ValOK env t.defs t.tsp k v) (hk : k = .end_ → Fin env t.pos t.tsp := by notEnd)
    (hsp : SpeltAt env t.tsp k v := by spelled) : LexPost env t { t with tok := k, val := v } :=
  LexPost.tok h (Nat.le_refl _) h.pos hv hk hsp

theorem LexPost.of_tok (h : Base env t) (hp : TokPost env t u) : LexPost env t u := by
  obtain ⟨q, k, v, rfl, h1, h2, h3, h4, h5⟩ := hp
  exact .tok h h1 (by omega) (h3 _) (fun h => absurd h h4) h5

theorem LexPost.radix {r : Nat} (h : LexPost env t u) : LexPost env t { u with radix := r } :=
  ⟨⟨h.adv.names, h.adv.defs, h.adv.r⟩, ⟨⟨h.inv.pos, h.inv.tsp, h.inv.nls, h.inv.nls2, h.inv.defs⟩, h.inv.tok, h.inv.fin, h.inv.sp⟩,
    h.bk⟩

theorem LexPost.from (h : DP env s t) (h2 : LexPost env t u) : LexPost env s u := by
  have := h.trans ⟨h2.adv, h2.inv.toBase, h2.bk⟩
  exact ⟨this.adv, h2.inv, this.bk⟩

theorem Nx.lexPost (h : Nx env t u) : LexPost env t u := ⟨h.adv, h.inv, .inr h.bk⟩

theorem wp_adv1 {sz : Nat} {k : Tok} {c : Nat} (h : Base env t) (hc : Seen env t.pos c sz) (hc0 : c ≠ 0)
    (hv : ValOK env t.defs t.tsp k .nil) (hk : k = .end_ → False := by notEnd) (hsp : SpeltAt env t.tsp k .nil := by spelled) : wp env (adv1 sz k) (fun _ s' => LexPost env t s') (EOK env) t := by
  unfold adv1
  wpr
  have := hc.le hc0
  exact .tok h (by omega) (by omega) hv (fun h => (hk h).elim) hsp

theorem wp_setTok {k : Tok} (h : Base env t)
    (hv : ValOK env t.defs t.tsp k .nil) (hk : k = .end_ → False := by notEnd) (hsp : SpeltAt env t.tsp k .nil := by spelled) : wp env (setToken k) (fun _ s' => LexPost env t s') (EOK env) t := by
  wpr
  exact .tokHere h hv (fun h => (hk h).elim) hsp

/-- Numbers. -/
theorem wp_lexNumber (start : Nat) (h : Base env t) (hp : t.pos ≤ env.text.length) (hst : start ≤ t.pos) :
    wp env (lexNumber start) (fun _ s' => LexPost env t s' ∧ (s'.tok = .integer ∨ s'.tok = .float)) (EOK env) t := by
  unfold lexNumber
  wpr
  refine wp_imp (wp_skipDecimalDigits hp) ?_
  rintro _ _ ⟨q, rfl, h1, h2⟩
  refine wp_peek (fun c n hc => ?_) (by bnd)
  dsimp only
  split
  · next h0 =>
    have := hc.le (by omega)
    dsimp only at this
    wpr
    refine wp_imp (wp_consumeFloat start c (s := { t with pos := q + n }) (by bnd) (by bnd)) ?_
    rintro _ s' ⟨h3, h4⟩
    exact ⟨(LexPost.of_tok (h.move (by omega)) h3).from (.to h (by omega) (by omega)), .inr h4⟩
  · split
    · wpr; bnd
    · wpr
      refine wp_from (by bnd) (by bnd) ?_
      exact ⟨(LexPost.tok (k := .integer) (v := .int (parseInt64 10 _)) h h1 (by omega) ⟨_, rfl⟩).radix, by simp⟩

theorem wp_lexZero (start : Nat) (h : Base env t) (hp : t.pos ≤ env.text.length) (hst : start ≤ t.pos) :
    wp env (lexZero start) (fun _ s' => LexPost env t s' ∧ (s'.tok = .integer ∨ s'.tok = .float)) (EOK env) t := by
  unfold lexZero
  wpr
  refine wp_peek (fun c n hc => ?_) (by bnd)
  have fin : ∀ (q r : Nat) (i : Int), t.pos ≤ q → q ≤ env.text.length + 1 →
      LexPost env t { t with radix := r, pos := q, tok := .integer, val := .int i } :=
    fun q r i h1 h2 => (LexPost.tok (k := .integer) (v := .int i) h h1 h2 ⟨_, rfl⟩).radix
  dsimp only at hc ⊢
  split
  · exact ⟨fin t.pos _ _ (Nat.le_refl _) h.pos, .inl rfl⟩
  next hc0 =>
  have h0 := hc.le hc0
  split
  · wpr
    refine wp_imp (wp_advWhile (s := { t with radix := 10, pos := t.pos + n }) _ isHexDigit_zero _ (by bnd) (by bnd)) ?_
    rintro ⟨c2, n2⟩ _ ⟨q, rfl, h1, h2, h3, h4⟩
    dsimp only at h1 h2 h3 h4 ⊢
    split
    · wpr; bnd
    · wpr
      refine wp_from (by bnd) (by bnd) ?_
      exact ⟨fin q _ _ (by omega) (by omega), by simp⟩
  split
  · wpr
    refine wp_imp (wp_consumeFloat start c (s := { t with radix := 10, pos := t.pos + n }) (by bnd) (by bnd)) ?_
    rintro _ s' ⟨⟨q, k, v, rfl, h1, h2, h3, h4, h6⟩, h5⟩
    dsimp only at h1 h3 h5
    exact ⟨(LexPost.tok (q := q) (k := k) (v := v) h (by omega) (by omega) (h3 _) (fun h => absurd h h4) h6).radix, .inr h5⟩
  · wpr
    refine wp_imp (wp_advWhile (s := { t with radix := 10 }) _ isOctalDigit_zero _ (by bnd) (by bnd)) ?_
    rintro ⟨c2, n2⟩ _ ⟨q, rfl, h1, h2, h3, h4⟩
    dsimp only at h1 h2 h3 h4 ⊢
    split
    · wpr; bnd
    split
    · wpr
      refine wp_from (by bnd) (by bnd) ?_
      exact ⟨fin q _ _ (by omega) (by omega), by simp⟩
    · wpr
      exact ⟨fin q _ _ (by omega) (by omega), by simp⟩

/-- Names. -/
theorem wp_name (start : Nat) (tok : Tok) (h : Base env t) (hs : t.pos ≤ env.text.length) (hst : start < t.pos)
    (htok : tok = .identifier ∨ tok = .typeName ∨ (tok = .variable ∧ t.tsp < env.text.length))
    (hts : t.tsp = start) :
    wp env (consumeQualifiedName start tok) (fun _ s' => LexPost env t s') (EOK env) t :=
  wp_imp (wp_consumeQualifiedName start tok hs hst htok hts) fun _ _ h1 => .of_tok h h1.1

theorem wp_lexDollar (start : Nat) (h : Base env t) (hp : t.pos ≤ env.text.length) (hst : start < t.pos)
    (hts : t.tsp = start) :
    wp env (lexDollar start) (fun _ s' => LexPost env t s') (EOK env) t := by
  have go : ∀ (q c n : Nat), t.pos ≤ q → Seen env q c n → q ≤ env.text.length →
      wp env (if isLowercaseLetter c then do
          advance n
          consumeQualifiedName start .variable
        else if isDecimalDigit c then do
          advance n
          let _ ← skipDecimalDigits
          let t ← from_ (start + 1)
          setTokenValue .variable (.int (parseInt64 10 t))
        else if uniIsLetter env c then issue .lexInvalidVariableName
        else setTokenValue .variable (.str [])) (fun _ s' => LexPost env t s') (EOK env) { t with pos := q } := by
    intro q c n h1 hc hq
    split
    · next hl =>
      have hc0 := ne_zero_of isLowercaseLetter_zero hl
      have := hc.le hc0
      wpr
      refine wp_imp (wp_name start .variable (t := { t with pos := q + n }) (h.move (by omega)) (by bnd) (by bnd) ?_ hts) ?_
      · exact .inr (.inr ⟨rfl, by bnd⟩)
      · exact fun _ _ h2 => h2.from (.to h (by omega) (by omega))
    split
    · next hl =>
      have hc0 := ne_zero_of isDecimalDigit_zero hl
      have := hc.le hc0
      wpr
      refine wp_imp (wp_skipDecimalDigits (s := { t with pos := q + n }) (by bnd)) ?_
      rintro _ _ ⟨q2, rfl, h2, h3⟩
      dsimp only at h2
      refine wp_from (by bnd) (by bnd) ?_
      refine .tok (q := q2) h (by omega) (by omega) ⟨by omega, .inr ⟨_, rfl⟩⟩
    split
    · wpr; bnd
    · wpr
      exact .tok h h1 (by omega) ⟨by omega, .inl ⟨_, rfl⟩⟩
  unfold lexDollar
  wpr
  refine wp_peek (fun c n hc => ?_) (by bnd)
  dsimp only
  split
  · next h0 =>
    have h1 := hc.le (by omega)
    wpr
    refine wp_peek (fun c2 n2 hc2 => ?_) (by bnd)
    dsimp only at hc2 ⊢
    split
    · wpr; bnd
    · next h2 =>
      have h3 := hc2.le (by omega)
      wpr
      refine wp_peek (fun c3 n3 hc3 => ?_) (by bnd)
      exact go _ c3 n3 (by omega) hc3 (by bnd)
  · rw [wp_bind, wp_pure]
    exact go t.pos c n (Nat.le_refl _) hc hp

theorem wp_lexAssign (h : Base env t) : wp env lexAssign (fun _ s' => LexPost env t s') (EOK env) t := by
  unfold lexAssign
  wpr
  have := h.pos
  refine wp_peek (fun c n hc => ?_) (by bnd)
  dsimp only
  repeat' split
  all_goals first
    | exact wp_adv1 h hc (by omega) rfl
    | exact wp_setTok h rfl

theorem wp_lexLc (h : Base env t) : wp env lexLc (fun _ s' => LexPost env t s') (EOK env) t := by
  unfold lexLc
  wpr
  exact .tokHere h (by split <;> rfl)

theorem wp_lexPlus (h : Base env t) (hsp : ReadsAt env.text t.tsp b!"+") : wp env lexPlus (fun _ s' => LexPost env t s') (EOK env) t := by
  unfold lexPlus
  wpr
  have := h.pos
  refine wp_peek (fun c n hc => ?_) (by bnd)
  dsimp only
  repeat' split
  all_goals first
    | exact wp_adv1 h hc (by omega) rfl
    | exact wp_setTok h rfl

theorem wp_lexNot (h : Base env t) (hsp : ReadsAt env.text t.tsp b!"!") : wp env lexNot (fun _ s' => LexPost env t s') (EOK env) t := by
  unfold lexNot
  wpr
  have := h.pos
  refine wp_peek (fun c n hc => ?_) (by bnd)
  dsimp only
  repeat' split
  all_goals first
    | exact wp_adv1 h hc (by omega) rfl
    | exact wp_setTok h rfl

theorem wp_lexGreater (h : Base env t) : wp env lexGreater (fun _ s' => LexPost env t s') (EOK env) t := by
  unfold lexGreater
  wpr
  have := h.pos
  refine wp_peek (fun c n hc => ?_) (by bnd)
  dsimp only
  repeat' split
  all_goals first
    | exact wp_adv1 h hc (by omega) rfl
    | exact wp_setTok h rfl

theorem wp_lexTilde (start : Nat) (hst : start ≤ env.text.length) (h : Base env t) :
    wp env (lexTilde start) (fun _ s' => LexPost env t s') (EOK env) t := by
  unfold lexTilde
  wpr
  have := h.pos
  refine wp_peek (fun c n hc => ?_) (by bnd)
  dsimp only
  split
  · exact wp_adv1 h hc (by omega) rfl
  · wpr; bnd

theorem wp_lexColon (start : Nat) (h : Base env t) (hst : start < t.pos) (hp : t.pos ≤ env.text.length)
    (hts : t.tsp = start) :
    wp env (lexColon start) (fun _ s' => LexPost env t s') (EOK env) t := by
  unfold lexColon
  wpr
  refine wp_peek (fun c n hc => ?_) (by bnd)
  dsimp only at hc ⊢
  split
  · next h0 =>
    have h1 := hc.le (by omega)
    wpr
    refine wp_next (fun c2 n2 hc2 => ?_) (by bnd)
    dsimp only at hc2 ⊢
    have hb : Base env { t with tok := .colon, val := .nil, pos := t.pos + n + n2 } := by
      have := hc2.bound
      exact ⟨by bnd, h.tsp, h.nls, h.nls2, h.defs⟩
    have hd : DP env t { t with tok := .colon, val := .nil, pos := t.pos + n + n2 } :=
      ⟨⟨rfl, List.prefix_refl _, R.to t (by omega)⟩, hb, .inl rfl⟩
    split
    · next hl =>
      have := hc2.le (ne_zero_of isUppercaseLetter_zero hl)
      exact wp_imp (wp_name start .typeName hb (by bnd) (by bnd) (.inr (.inl rfl)) hts) fun _ _ h2 => h2.from hd
    split
    · next hl =>
      have := hc2.le (ne_zero_of isLowercaseLetter_zero hl)
      exact wp_imp (wp_name start .identifier hb (by bnd) (by bnd) (.inl rfl) hts) fun _ _ h2 => h2.from hd
    · wpr; bnd
  · exact wp_pure.mpr (.tokHere h rfl)

/-- Looking ahead over white space. -/
theorem look_ahead {brk : Bool} {p : Nat} {cs : Nat × Nat} {k : Tok} (h : Base env t)
    (hs : SkipPost env brk { t with pos := p } cs u) (hk : ValOK env t.defs t.tsp k .nil)
    (hne : k = .end_ → False := by notEnd) (hsp : SpeltAt env t.tsp k .nil := by spelled) :
    LexPost env t { u with pos := t.pos, tok := k, val := .nil } := by
  obtain ⟨n, j, b, h1, rfl, h4, h5, h6, h7, h8⟩ := hs
  refine ⟨⟨rfl, List.prefix_refl _, ?_⟩, ⟨⟨h.pos, h.tsp, h4, ?_, h.defs⟩, hk, fun he => (hne he).elim, hsp⟩, .inl rfl⟩
  · rcases h8 with h8 | h8
    · rw [h8]; exact R.refl t
    · rw [h8]; exact R.drop t h.pos
  · rcases h8 with h8 | h8
    · rw [h8]; exact h.nls2
    · rw [h8]; intro _ hx; cases hx

theorem wp_lexLp (start : Nat) (h : Base env t) (hsp : ReadsAt env.text t.tsp b!"(") :
    wp env (lexLp start) (fun _ s' => LexPost env t s') (EOK env) t := by
  unfold lexLp
  wpr
  by_cases hbol : env.text.length + 1 < t.bol
  · have hs := skipWhite_atEnd (env := env) (s := { t with pos := t.bol }) false (by dsimp only; omega)
    have hw : ∀ {Q : Nat × Nat → St → Prop}, Q (0, t.bol) { t with pos := t.bol } →
        wp env (skipWhite false) Q (EOK env) { t with pos := t.bol } := by
      intro Q hQ
      unfold wp
      rw [hs]; exact hQ
    refine hw ?_
    wpr
    exact LexPost.tokHere h (by split <;> rfl)
  refine wp_imp (wp_skipWhite (s := { t with pos := t.bol }) false (by dsimp only; omega) h.nls) ?_
  rintro cs u hu
  have := look_ahead (k := if cs.2 = start then .wslp else .lp) h hu (by split <;> rfl)
  exact this

theorem wp_lexPipe (h : Base env t) (hsp : ReadsAt env.text t.tsp b!"|") : wp env lexPipe (fun _ s' => LexPost env t s') (EOK env) t := by
  unfold lexPipe
  wpr
  have hp := h.pos
  refine wp_peek (fun c n hc => ?_) (by bnd)
  dsimp only
  split
  · next h0 =>
    have h1 := hc.le (by omega)
    wpr
    refine wp_peek (fun c2 n2 hc2 => ?_) (by bnd)
    dsimp only at hc2 ⊢
    split
    · next h2 =>
      exact wp_imp (wp_adv1 (h.move (by omega)) hc2 (by omega) rfl) fun _ _ h2 => h2.from (.to h (by omega) (by omega))
    · exact wp_imp (wp_setTok (h.move (by omega)) rfl) fun _ _ h2 => h2.from (.to h (by omega) (by omega))
  · wpr
    split
    · exact wp_setTok h rfl
    · wpr
      refine wp_imp (wp_skipWhite false h.pos h.nls) ?_
      rintro cs u hu
      have := look_ahead (k := if endsParameters env cs.1 then .pipeEnd else .pipe) (p := t.pos) h hu (by split <;> rfl)
      exact this

/-- The text of a template. -/
theorem wp_consumeEPP (H : HSelf env self m) (h : Base env t) (hp : t.pos ≤ env.text.length) (hepp : env.epp = true)
    (hm : ML env t + 2 < m) : wp env (consumeEPP self) (fun _ s' => LexPost env t s') (EOK env) t := by
  unfold consumeEPP
  wpr
  refine wp_imp (wp_eppText _ [] 0 hp (by bnd)) ?_
  rintro ⟨buf, tag⟩ _ ⟨⟨q, rfl, h1, h2⟩, h3⟩
  have fin : ∀ k v, ValOK env t.defs t.tsp k v → (k = .end_ → tag = false) → SpeltAt env t.tsp k v →
      LexPost env t { t with pos := q, tok := k, val := v } :=
    fun k v hv hk hsp => .tok h h1 (by omega) hv (fun he => ⟨fun _ => h3 (hk he), fun h => absurd (h.symm.trans hepp) (by decide)⟩) hsp
  dsimp only
  split
  · wpr
    split
    · refine wp_imp (H .nextToken _ ?_ ?_) ?_
      · exact (fin .renderString (.str buf) ⟨hepp, _, rfl⟩ (by notEnd) True.intro).inv.toBase
      · have := ML_mono (psi_move_le (env := env) (q := q) h.pos h1 (by omega))
        show ML env { t with pos := q } + 2 < m
        omega
      · intro _ u hu
        refine (Nx.lexPost hu).from ?_
        have := fin .renderString (.str buf) ⟨hepp, _, rfl⟩ (by notEnd) True.intro
        exact ⟨this.adv, this.inv.toBase, this.bk⟩
    · exact wp_pure.mpr (fin _ _ ⟨hepp, _, rfl⟩ (by notEnd) True.intro)
  next htag =>
  split
  · wpr; exact fin _ _ rfl (fun _ => by simpa using htag) True.intro
  · wpr; exact fin _ _ ⟨hepp, _, rfl⟩ (by notEnd) True.intro

theorem wp_lexPercent (H : HSelf env self m) (h : Base env t) (hp : t.pos ≤ env.text.length)
    (hm : ML env t + 2 < m) : wp env (lexPercent self) (fun _ s' => LexPost env t s') (EOK env) t := by
  unfold lexPercent
  wpr
  split
  · next hepp =>
    wpr
    refine wp_peek (fun c n hc => ?_) (by bnd)
    dsimp only at hc ⊢
    split
    · next h0 =>
      have h1 := hc.le (by omega)
      have h2 := ML_mono (psi_move_le (env := env) (q := t.pos + n) h.pos (by omega) (by omega))
      wpr
      refine wp_imp (wp_consumeEPP H (t := { t with tok := .remainder, val := .nil, pos := t.pos + n }) ?_ (by bnd) hepp ?_) ?_
      · exact ⟨by bnd, h.tsp, h.nls, h.nls2, h.defs⟩
      · have : ML env { t with tok := .remainder, val := .nil, pos := t.pos + n } = ML env { t with pos := t.pos + n } := rfl
        omega
      · intro _ u hu
        have hd : DP env t { t with tok := .remainder, val := .nil, pos := t.pos + n } :=
          ⟨⟨rfl, List.prefix_refl _, R.to t (by omega)⟩, ⟨by bnd, h.tsp, h.nls, h.nls2, h.defs⟩, .inl rfl⟩
        exact hu.from hd
    · exact wp_pure.mpr (.tokHere h rfl)
  · exact wp_pure.mpr (.tokHere h rfl)

theorem wp_lexMinus (H : HSelf env self m) (h : Base env t) (hp : t.pos ≤ env.text.length)
    (hm : ML env t + 2 < m) (hsp : ReadsAt env.text t.tsp b!"-") : wp env (lexMinus self) (fun _ s' => LexPost env t s') (EOK env) t := by
  unfold lexMinus
  wpr
  refine wp_peek (fun c n hc => ?_) (by bnd)
  dsimp only
  split
  · exact wp_adv1 h hc (by omega) rfl
  split
  · exact wp_adv1 h hc (by omega) rfl
  split
  · next h0 =>
    obtain ⟨h0, hepp⟩ := h0
    have h1 := hc.le (by omega)
    wpr
    refine wp_peek (fun c2 n2 hc2 => ?_) (by bnd)
    dsimp only at hc2 ⊢
    split
    · next h2 =>
      have h3 := hc2.le (by omega)
      wpr
      refine wp_imp (wp_advWhile (s := { t with pos := t.pos + n + n2 }) _ (by decide) _ (by bnd) (by bnd)) ?_
      rintro ⟨c3, n3⟩ _ ⟨q, rfl, h4, h5, h6, h7⟩
      dsimp only at h4 h5 h6 ⊢
      have go : ∀ q, t.pos ≤ q → q ≤ env.text.length →
          wp env (consumeEPP self) (fun _ s' => LexPost env t s') (EOK env) { t with pos := q } := by
        intro q h8 h9
        have h10 := ML_mono (psi_move_le (env := env) (q := q) h.pos (by omega) (by omega))
        refine wp_imp (wp_consumeEPP H (t := { t with pos := q }) (h.move (by omega)) (by bnd) hepp (by omega)) ?_
        exact fun _ _ h2 => h2.from (.to h (by omega) (by omega))
      split
      · next h8 =>
        have h9 := h6.le (by omega)
        wpr
        exact go _ (by omega) (by omega)
      · exact go _ (by omega) (by omega)
    · wpr; bnd
  · exact wp_setTok h rfl

theorem wp_lexLess (H : HSelf env self m) (h : Base env t) (hp : t.pos ≤ env.text.length)
    (hm : ML env t + 2 < m) {m1 : Nat} (hlt : Seen env t.tsp 60 m1) (hpos : t.pos = t.tsp + m1) :
    wp env (lexLess self) (fun _ s' => LexPost env t s') (EOK env) t := by
  have h60 := reads_one hlt (by decide) (by decide)
  have hm1 := hlt.one (by decide) (by decide)
  unfold lexLess
  wpr
  refine wp_peek (fun c n hc => ?_) (by bnd)
  dsimp only
  have nt : ∀ q, t.pos ≤ q → q ≤ env.text.length →
      wp env (self .nextToken) (fun _ s' => LexPost env t s') (EOK env) { t with pos := q } := by
    intro q h1 h2
    refine wp_imp (H .nextToken _ (h.move (q := q) (by omega)) ?_) ?_
    · have := ML_mono (psi_move_le (env := env) (q := q) h.pos h1 (by omega))
      show ML env { t with pos := q } + 2 < m
      omega
    · intro _ u hu
      exact (Nx.lexPost hu).from (.to h (by omega) (by omega))
  split
  · next hcv =>
    subst hcv
    have hsp := reads_more h60 (by rw [hpos, hm1] at hc; exact hc) (by decide) (by decide)
    exact wp_adv1 h hc (by omega) rfl
  split
  · next h0 =>
    have h1 := hc.le (by omega)
    wpr
    refine wp_peek (fun c2 n2 hc2 => ?_) (by bnd)
    dsimp only at hc2 ⊢
    have hn := hc.one (by omega) (by omega)
    have hc2' := hc2
    have hc' := hc
    rw [hpos, hm1, hn] at hc2'
    rw [hpos, hm1] at hc'
    split
    · next h2 =>
      have hsp := reads_more (reads_more h60 (h0 ▸ hc') (by decide) (by decide)) (h2 ▸ hc2') (by decide) (by decide)
      exact wp_imp (wp_adv1 (h.move (by omega)) hc2 (by omega) rfl) fun _ _ h2 => h2.from (.to h (by omega) (by omega))
    · exact wp_imp (wp_setTok (h.move (by omega)) rfl) fun _ _ h2 => h2.from (.to h (by omega) (by omega))
  split
  · next hcv =>
    subst hcv
    have hsp := reads_more h60 (by rw [hpos, hm1] at hc; exact hc) (by decide) (by decide)
    exact wp_adv1 h hc (by omega) rfl
  split
  · next hcv =>
    subst hcv
    have hsp := reads_more h60 (by rw [hpos, hm1] at hc; exact hc) (by decide) (by decide)
    exact wp_adv1 h hc (by omega) rfl
  split
  · next hcv =>
    subst hcv
    have hsp := reads_more h60 (by rw [hpos, hm1] at hc; exact hc) (by decide) (by decide)
    exact wp_adv1 h hc (by omega) rfl
  split
  · next h0 =>
    obtain ⟨h0, hepp⟩ := h0
    have h1 := hc.le (by omega)
    wpr
    refine wp_peek (fun c2 n2 hc2 => ?_) (by bnd)
    dsimp only at hc2 ⊢
    have hn := hc.one (by omega) (by omega)
    have hc2' := hc2
    have hc' := hc
    rw [hpos, hm1, hn] at hc2'
    rw [hpos, hm1] at hc'
    split
    · next h2 =>
      have hsp := reads_more (reads_more h60 (h0 ▸ hc') (by decide) (by decide)) (h2 ▸ hc2') (by decide) (by decide)
      exact wp_imp (wp_adv1 (h.move (by omega)) hc2 (by omega) ⟨hepp, rfl⟩) fun _ _ h2 => h2.from (.to h (by omega) (by omega))
    split
    · next h2 =>
      have h3 := hc2.le (by omega)
      wpr
      exact nt _ (by omega) (by omega)
    · exact nt _ (by omega) (by omega)
  · exact wp_setTok h rfl

/-- Delimited strings. -/
theorem wp_consumeDelimited (H : HSelf env self m) (d ds : Nat) (i : Bool) (hd : Handler) (h : Base env t)
    (hds : ds ≤ env.text.length) (hm : ML env t < m) :
    wp env (consumeDelimitedString self d ds i hd) (DelimPost env d t) (EOK env) t := by
  unfold consumeDelimitedString
  exact wp_delim_next H (start := 0) h hds (Nat.zero_le _) AllN.nil hm true

theorem wp_consumeSingle (H : HSelf env self m) (h : Base env t)
    (hp : t.pos ≤ env.text.length) (hm : ML env t < m) :
    wp env (consumeSingleQuotedString self) (fun _ s' => LexPost env t s') (EOK env) t := by
  unfold consumeSingleQuotedString
  wpr
  refine wp_imp (wp_consumeDelimited H _ _ _ _ h (by bnd) hm) ?_
  rintro segs u ⟨h1, h2, h3 | h3⟩
  · obtain ⟨h4, w, h5⟩ := h3
    exact ⟨h1.adv, ⟨h1.base, by rw [h4]; exact ⟨w, h5⟩, by rw [h4]; notEnd, by rw [h4]; exact True.intro⟩, h1.bk⟩
  · exact absurd h3.2.2 (by decide)

theorem wp_consumeDouble (H : HSelf env self m) (h : Base env t)
    (hp : t.pos ≤ env.text.length) (hm : ML env t < m) :
    wp env (consumeDoubleQuotedString self) (fun _ s' => LexPost env t s') (EOK env) t := by
  unfold consumeDoubleQuotedString
  wpr
  refine wp_imp (wp_consumeDelimited H _ _ _ _ h (by bnd) hm) ?_
  rintro segs u ⟨h1, h2, h3 | h3⟩
  · obtain ⟨h4, w, h5⟩ := h3
    have hu : LexPost env t u := ⟨h1.adv, ⟨h1.base, by rw [h4]; exact ⟨w, h5⟩, by rw [h4]; notEnd, by rw [h4]; exact True.intro⟩, h1.bk⟩
    split
    · exact wp_pure.mpr hu
    · wpr
      rw [h5]
      dsimp only
      cases segs with
      | nil => exact wp_pure.mpr hu
      | cons first rest =>
        wpr
        have hf : first.off ≤ env.text.length + 1 := (h2 first (by simp)).off_le
        have hup := h1.base.pos
        refine ⟨⟨hu.adv.names, hu.adv.defs, hu.adv.r⟩, ⟨⟨hup, h1.base.tsp, h1.base.nls, h1.base.nls2, h1.base.defs⟩, ?_, by notEnd, True.intro⟩, hu.bk⟩
        refine ⟨_, rfl, ⟨.concat hf ?_, ?_⟩, rfl, rfl, rfl⟩
        · split
          · exact h2
          · exact h2.snoc (.textString h1.base.tsp)
        · unfold endOk Expr.off Expr.len
          dsimp only [Expr.pos]
          unfold Expr.off at hf
          omega
  · exact absurd h3.2.2 (by decide)

theorem wp_lexSlash (H : HSelf env self m) (h : Base env t)
    (hp : t.pos ≤ env.text.length) (hm : ML env t < m) :
    wp env (lexSlash self) (fun _ s' => LexPost env t s') (EOK env) t := by
  unfold lexSlash
  wpr
  split
  · unfold consumeRegexp
    wpr
    refine wp_imp (wp_consumeDelimited H _ _ _ _ h (by bnd) hm) ?_
    rintro segs u ⟨h1, h2, h3 | h3⟩
    · obtain ⟨h4, w, h5⟩ := h3
      rw [if_pos h4]
      wpr
      rw [if_pos trivial]
      exact wp_pure.mpr ⟨⟨h1.adv.names, h1.adv.defs, h1.adv.r⟩,
        ⟨⟨h1.base.pos, h1.base.tsp, h1.base.nls, h1.base.nls2, h1.base.defs⟩, ⟨w, h5⟩, by notEnd, True.intro⟩, h1.bk⟩
    · obtain ⟨h4, h5, -⟩ := h3
      rw [if_neg (by rw [h4]; decide)]
      wpr
      rw [if_neg (by decide)]
      wpr
      exact ⟨⟨h1.adv.names, h1.adv.defs, h1.adv.r.reset⟩,
        ⟨⟨h.pos, h1.base.tsp, h1.base.nls, h1.base.nls2, h1.base.defs⟩, rfl, by notEnd, True.intro⟩, h1.bk⟩
  · exact wp_setTok h rfl


/-- Heredocs. -/
theorem wp_consumeHeredoc (H : HSelf env self m) (h : Base env t) (hp : t.pos ≤ env.text.length) (hp2 : 2 ≤ t.pos)
    (hat : b!"@(" <:+: env.text) (hm : ML env t + 3 < m) :
    wp env (consumeHeredocString self) (fun _ s' => LexPost env t s') (EOK env) t := by
  unfold consumeHeredocString
  wpr
  refine wp_imp (wp_findTagEnd t.pos _ {} hp (Nat.le_refl _) (by bnd) ⟨fun _ hk => (nomatch hk), fun _ hk => (nomatch hk)⟩) ?_
  rintro hd _ ⟨q, rfl, h1, h2⟩
  dsimp only
  split
  · wpr; bnd
  next htag =>
  have htag : 1 ≤ hd.tag.length := by
    cases hx : hd.tag with
    | nil => rw [hx] at htag; exact absurd rfl htag
    | cons a b => simp
  wpr
  refine wp_peek (fun c n hc => ?_) (by bnd)
  dsimp only at hc ⊢
  refine wp_imp (wp_findStartOfText (t.pos - 2) _ c n (s := { t with pos := q }) ?_ (by omega) (by bnd) h.nls ?_ ?_) ?_
  · intro hc0
    have := hc.le hc0
    exact ⟨by bnd, hc.ge hc0, hc.one hc0⟩
  · unfold charFuel; omega
  · intro _ _
    dsimp only
    unfold charFuel; omega
  rintro _ _ ⟨cs, rfl, h3, h4⟩
  dsimp only at h4 ⊢
  have hcs2 : 2 ≤ cs := by
    rcases h4 with h4 | h4
    · omega
    · exact h.nls2 cs h4
  refine wp_imp (wp_findEndOfText (s := { t with pos := cs, nls := none }) (t.pos - 2) cs hd.tag _ 10 false 0 (by omega)
    (Nat.le_refl _) hcs2 htag h3 (by unfold charFuel; omega) ?_) ?_
  · intro _
    dsimp only
    unfold charFuel; omega
  rintro e _ ⟨⟨q2, rfl⟩, h5, h6, h7, h8⟩
  dsimp only
  -- the state in which the text is read
  have hR : ∀ q, cs ≤ q → R env t { t with pos := q, nls := none } := by
    intro q hq
    have := h.pos
    have := h.nls
    unfold R LeP nlv
    dsimp only
    rcases h4 with ⟨h4, h4'⟩ | h4
    · rw [h4]; dsimp only [Option.getD_none]; omega
    · rw [h4]; dsimp only [Option.getD_none, Option.getD_some]; omega
  -- where it ends
  have hend : ∀ (u : St) (k : Tok) (v : TokVal), t.defs <+: u.defs → u.names = t.names →
      u.tsp ≤ env.text.length + 1 → (∀ d ∈ u.defs, d.isDefinition = true ∧ Node env u.defs .value d) →
      (u.tsp = t.tsp ∨ cs ≤ u.tsp) → ValOK env u.defs u.tsp k v → (k = .end_ → False) → SpeltAt env u.tsp k v →
      LexPost env t { u with pos := q, nls := some (e.heredocEnd + 1), tok := k, val := v } := by
    intro u k v g1 g2 g4 g5 g6 g7 g8 g9
    have hk : ∀ j, some (e.heredocEnd + 1) = some j → j = e.heredocEnd + 1 := by
      intro j hj; injection hj with hj; exact hj.symm
    refine ⟨⟨g2, g1, ?_⟩, ⟨⟨by bnd, g4, ?_, ?_, g5⟩, g7, fun he => (g8 he).elim, g9⟩, ?_⟩
    · unfold R LeP nlv
      dsimp only [Option.getD_some]
      rcases h4 with ⟨h4, h4'⟩ | h4
      · rw [h4]; dsimp only [Option.getD_none]; omega
      · rw [h4]; dsimp only [Option.getD_some]; omega
    · intro j hj; rw [hk j hj]; omega
    · intro j hj; rw [hk j hj]; omega
    · rcases g6 with g6 | g6
      · exact .inl g6
      · right
        unfold R LeP nlv back
        dsimp only [Option.getD_some]
        rcases h4 with ⟨h4, h4'⟩ | h4
        · rw [h4]; dsimp only [Option.getD_none]; omega
        · rw [h4]; dsimp only [Option.getD_some]; omega
  -- the expression
  have hval : ∀ (D : List Expr) (segs : List Expr) (text : GoStr), AllN env D .segment segs →
      (segs.isEmpty = false → ∃ x, (TokVal.expr (.heredoc ⟨t.pos - 2, e.contentEnd - ((t.pos - 2 : Nat) : Int)⟩ hd.syntx
        (.concat ⟨cs, e.contentEnd - cs⟩ segs))) = .expr x ∧ Val env D x ∧ x.isBin = false ∧ x.isDefinition = false ∧ x.isName = false) ∧
      (∃ x, (TokVal.expr (.heredoc ⟨t.pos - 2, e.contentEnd - ((t.pos - 2 : Nat) : Int)⟩ hd.syntx
        (.string ⟨cs, e.contentEnd - cs⟩ text))) = .expr x ∧ Val env D x ∧ x.isBin = false ∧ x.isDefinition = false ∧ x.isName = false) := by
    intro D segs text hs
    have g1 : okPos env ⟨t.pos - 2, e.contentEnd - ((t.pos - 2 : Nat) : Int)⟩ := by show t.pos - 2 ≤ _; omega
    have g2 : okPos env ⟨cs, e.contentEnd - cs⟩ := h3
    refine ⟨fun _ => ⟨_, rfl, ⟨.heredocConcat g1 g2 hs, ?_⟩, rfl, rfl, rfl⟩, ⟨_, rfl, ⟨.heredocString g1 g2, ?_⟩, rfl, rfl, rfl⟩⟩ <;>
      (unfold endOk Expr.off Expr.len; dsimp only [Expr.pos]; omega)
  -- what follows the text
  have fin : ∀ (u : St) (text : GoStr) (segs : List Expr), t.defs <+: u.defs → u.names = t.names →
      u.tsp ≤ env.text.length + 1 → (∀ d ∈ u.defs, d.isDefinition = true ∧ Node env u.defs .value d) →
      (u.tsp = t.tsp ∨ cs ≤ u.tsp) → AllN env u.defs .segment segs →
      wp env (do
        heredocDone q e.heredocEnd
        if segs.isEmpty = false then
          setTokenValue .heredoc (.expr (.heredoc ⟨t.pos - 2, e.contentEnd - ((t.pos - 2 : Nat) : Int)⟩ hd.syntx (.concat ⟨cs, e.contentEnd - cs⟩ segs)))
        else if env.hasFactory then
          setTokenValue .heredoc (.expr (.heredoc ⟨t.pos - 2, e.contentEnd - ((t.pos - 2 : Nat) : Int)⟩ hd.syntx (.string ⟨cs, e.contentEnd - cs⟩ text)))
        else setTokenValue .string (.str text)) (fun _ s' => LexPost env t s') (EOK env) u := by
    intro u text segs g1 g2 g4 g5 g6 g7
    obtain ⟨v1, v2⟩ := hval u.defs segs text g7
    unfold heredocDone
    wpr
    split
    · next hsg => wpr; exact hend u .heredoc _ g1 g2 g4 g5 g6 (v1 hsg) (by notEnd) True.intro
    split
    · wpr; exact hend u .heredoc _ g1 g2 g4 g5 g6 v2 (by notEnd) True.intro
    · wpr; exact hend u .string _ g1 g2 g4 g5 g6 ⟨_, rfl⟩ (by notEnd) True.intro
  split
  · wpr
    refine wp_imp (wp_stripIndent e.indent (s := { t with pos := cs, nls := none }) h3) ?_
    rintro _ _ ⟨q3, rfl, h9, h10⟩
    dsimp only at h9
    have hb : Base env { t with pos := q3, nls := none } :=
      ⟨h10, h.tsp, fun _ hk => (nomatch hk), fun _ hk => (nomatch hk), h.defs⟩
    have h11 := ML_mono (psi_le_of (env := env) (hR q3 h9).1 h.pos h10)
    refine wp_imp (wp_escapes_call H (s := { t with pos := q3, nls := none }) (t := { t with pos := q3, nls := none }) ?_ ?_ AllN.nil ?_) ?_
    · exact ⟨Adv.refl _, hb, .inl rfl⟩
    · omega
    · omega
    rintro ⟨text, segs⟩ u ⟨h12, h13⟩
    dsimp only at h13 ⊢
    have h14 : u.tsp = t.tsp ∨ cs ≤ u.tsp := by
      rcases h12.bk with h14 | h14
      · exact .inl h14
      · right
        have h15 := h14.1
        unfold LeP nlv back at h15
        dsimp only [Option.getD_none] at h15
        omega
    have go : ∀ segs', AllN env u.defs .segment segs' → _ := fun segs' hs =>
      fin u text segs' h12.adv.defs h12.adv.names h12.base.tsp h12.base.defs h14 hs
    split
    · exact go segs h13
    split
    · exact go segs h13
    · exact go _ (h13.snoc (.textString h12.base.tsp))
  · split
    · exact fin { t with pos := q2, nls := none } _ [] (List.prefix_refl _) rfl h.tsp h.defs (.inl rfl) AllN.nil
    · wpr; exact .inl ⟨rfl, hat⟩

theorem wp_lexAt (H : HSelf env self m) (h : Base env t) (hp : t.pos ≤ env.text.length) {n : Nat}
    (hc : Seen env t.tsp 64 n) (hpos : t.pos = t.tsp + n) (hm : ML env t + 3 < m) :
    wp env (lexAt self) (fun _ s' => LexPost env t s') (EOK env) t := by
  unfold lexAt
  wpr
  refine wp_peek (fun c2 n2 hc2 => ?_) (by bnd)
  dsimp only
  have h64 := reads_one hc (by decide) (by decide)
  split
  · next h0 =>
    have h3 := hc.one (by decide) (by decide)
    have hsp := reads_more h64 (by subst h0; rw [hpos, h3] at hc2; exact hc2) (by decide) (by decide)
    exact wp_adv1 h hc2 (by omega) rfl
  split
  · next h0 =>
    have h1 := hc2.le (by omega)
    have h2 := hc2.ge (by omega)
    have h3 := hc.one (by decide) (by decide)
    have h4 := ML_mono (psi_move_le (env := env) (q := t.pos + n2) h.pos (by omega) (by omega))
    wpr
    refine wp_imp (wp_consumeHeredoc H (t := { t with pos := t.pos + n2 }) (h.move (by omega)) (by bnd) (by bnd) ?_ (by omega)) ?_
    · rw [h0, hpos, h3] at hc2
      exact at_paren hc hc2
    · exact fun _ _ h5 => h5.from (.to h (by omega) (by omega))
  · exact wp_setTok h rfl

theorem ite_wp {α : Type} {c : Prop} [Decidable c] {a b : P α} {Q : α → St → Prop} {E : Err → Prop}
    (h1 : c → wp env a Q E s) (h2 : ¬ c → wp env b Q E s) : wp env (if c then a else b) Q E s := by
  by_cases h : c
  · rw [if_pos h]; exact h1 h
  · rw [if_neg h]; exact h2 h

/-- The switch of `nextToken`. -/
theorem wp_lexChar (H : HSelf env self m) (sc : Nat) {c start n : Nat} (h : Base env t) (hc : Seen env start c n)
    (hc0 : c ≠ 0) (hts : t.tsp = start) (hpos : t.pos = start + n) (hm : ML env t + 3 < m) :
    wp env (lexChar self sc c start) (fun _ s' => LexPost env t s' ∧
      (isDecimalDigit c = true → s'.tok = .integer ∨ s'.tok = .float)) (EOK env) t := by
  have hle := hc.le hc0
  have hge := hc.ge hc0
  have hlt := hc.lt hc0
  have hp : t.pos ≤ env.text.length := by omega
  have nodig : ∀ {x : P Unit}, isDecimalDigit c = false → wp env x (fun _ s' => LexPost env t s') (EOK env) t →
      wp env x (fun _ s' => LexPost env t s' ∧ (isDecimalDigit c = true → s'.tok = .integer ∨ s'.tok = .float)) (EOK env) t :=
    fun hd hx => wp_imp hx fun _ _ h1 => ⟨h1, fun h2 => by rw [hd] at h2; cases h2⟩
  have one : ∀ {b : Nat}, c = b → b ≠ 0 → b < 128 → ReadsAt env.text t.tsp [b.toUInt8] := by
    intro b hb h0 h1
    subst hb
    rw [hts]
    exact reads_one hc h0 h1
  unfold lexChar
  rw [wp_bind, wp_getEnv]
  refine ite_wp (fun _ => ?_) (fun hn => ?_)
  · exact wp_imp (wp_lexNumber start h hp (by omega)) fun _ _ h1 => ⟨h1.1, fun _ => h1.2⟩
  by_cases h30 : c = 48
  · subst h30
    refine ite_wp (fun h => absurd h (by decide)) fun _ => ?_
    refine ite_wp (fun h => absurd h (by decide)) fun _ => ?_
    iterate 27 refine ite_wp (fun h => absurd h (by decide)) fun _ => ?_
    refine ite_wp (fun _ => ?_) fun h => absurd rfl h
    exact wp_imp (wp_lexZero start h hp (by omega)) fun _ _ h1 => ⟨h1.1, fun _ => h1.2⟩
  have hd : isDecimalDigit c = false := by
    unfold isDecimalDigit
    simp
    omega
  refine nodig hd ?_
  refine ite_wp (fun _ => ?_) fun _ => ?_
  · exact wp_name start .typeName h hp (by omega) (.inr (.inl rfl)) hts
  refine ite_wp (fun _ => ?_) fun _ => ?_
  · exact wp_name start .identifier h hp (by omega) (.inl rfl) hts
  refine ite_wp (fun h0 => absurd h0 hc0) fun _ => ?_
  refine ite_wp (fun _ => ?_) fun _ => ?_
  · exact wp_lexAssign h
  refine ite_wp (fun _ => ?_) fun _ => ?_
  · exact wp_lexLc h
  refine ite_wp (fun _ => ?_) fun _ => ?_
  · exact wp_setTok h rfl
  refine ite_wp (fun _ => ?_) fun _ => ?_
  · exact wp_setTok h (by split <;> rfl)
  refine ite_wp (fun _ => ?_) fun _ => ?_
  · exact wp_setTok h rfl
  refine ite_wp (fun hv => ?_) fun _ => ?_
  · exact wp_lexLp start h (one hv (by decide) (by decide))
  refine ite_wp (fun _ => ?_) fun _ => ?_
  · exact wp_setTok h rfl
  refine ite_wp (fun _ => ?_) fun _ => ?_
  · exact wp_setTok h rfl
  refine ite_wp (fun _ => ?_) fun _ => ?_
  · exact wp_setTok h rfl
  refine ite_wp (fun _ => ?_) fun _ => ?_
  · exact wp_setTok h rfl
  refine ite_wp (fun _ => ?_) fun _ => ?_
  · exact wp_setTok h rfl
  refine ite_wp (fun _ => ?_) fun _ => ?_
  · exact wp_lexColon start h (by omega) hp hts
  refine ite_wp (fun hv => ?_) fun _ => ?_
  · exact wp_lexMinus H h hp (by omega) (one hv (by decide) (by decide))
  refine ite_wp (fun hv => ?_) fun _ => ?_
  · exact wp_lexPlus h (one hv (by decide) (by decide))
  refine ite_wp (fun hv => ?_) fun _ => ?_
  · have hsp := one hv (by decide) (by decide)
    exact wp_setTok h rfl
  refine ite_wp (fun _ => ?_) fun _ => ?_
  · exact wp_lexPercent H h hp (by omega)
  refine ite_wp (fun hv => ?_) fun _ => ?_
  · exact wp_lexNot h (one hv (by decide) (by decide))
  refine ite_wp (fun _ => ?_) fun _ => ?_
  · exact wp_lexGreater h
  refine ite_wp (fun _ => ?_) fun _ => ?_
  · exact wp_lexTilde start (by omega) h
  refine ite_wp (fun h64 => ?_) fun _ => ?_
  · subst h64; exact wp_lexAt H h hp (by rw [hts]; exact hc) (by omega) hm
  refine ite_wp (fun hv => ?_) fun _ => ?_
  · exact wp_lexLess H h hp (by omega) (by rw [hts]; exact hv ▸ hc) (by omega)
  refine ite_wp (fun hv => ?_) fun _ => ?_
  · exact wp_lexPipe h (one hv (by decide) (by decide))
  refine ite_wp (fun _ => ?_) fun _ => ?_
  · exact wp_consumeDouble H h hp (by omega)
  refine ite_wp (fun _ => ?_) fun _ => ?_
  · exact wp_consumeSingle H h hp (by omega)
  refine ite_wp (fun _ => ?_) fun _ => ?_
  · exact wp_lexSlash H h hp (by omega)
  refine ite_wp (fun _ => ?_) fun _ => ?_
  · exact wp_lexDollar start h hp (by omega) hts
  refine ite_wp (fun h => absurd h h30) fun _ => ?_
  refine ite_wp (fun _ => ?_) fun _ => ?_
  · exact wp_imp (wp_consumeBacktickedString hp) fun _ _ h1 => .of_tok h h1
  · wpr; bnd

theorem Seen.uniq {p c n c' n' : Nat} (h : Seen env p c n) (h' : Seen env p c' n') : c = c' ∧ n = n' := by
  rcases Nat.lt_or_ge p env.text.length with h1 | h1
  · have := (h.dec h1).symm.trans (h'.dec h1)
    injection this with h2 h3
    exact ⟨h2, h3⟩
  · obtain ⟨a, b⟩ := h.atEnd h1
    obtain ⟨a', b'⟩ := h'.atEnd h1
    omega

theorem wp_and {α : Type} {x : P α} {Q Q' : α → St → Prop} {E : Err → Prop} (h : wp env x Q E s) (h' : wp env x Q' E s) :
    wp env x (fun a s' => Q a s' ∧ Q' a s') E s := by
  unfold wp at *
  cases hx : x env s <;> simp only [hx] at h h' ⊢
  · exact ⟨h, h'⟩
  · exact h

/-- White space does not skip a digit. -/
theorem wp_skipWhite_digit {c n : Nat} (hs : s.pos ≤ env.text.length + 1) (hc : Seen env s.pos c n)
    (hd : isDecimalDigit c = true) : wp env (skipWhite false) (fun cs _ => cs.1 = c) (EOK env) s := by
  unfold skipWhite
  wpr
  unfold charFuel skipWhiteLoop
  wpr
  refine wp_next (fun c' n' hc' => ?_) hs
  have := (hc.uniq hc').1
  subst this
  unfold isDecimalDigit at hd
  simp at hd
  dsimp only
  rw [if_neg (by omega), if_neg (by omega), if_neg (by omega), if_neg (by omega), if_neg (by omega), if_neg (by omega), if_pos trivial]
  refine wp_pure.mpr rfl

/-- Where the last token started does not matter. -/
theorem wp_nextTokenBody_stale (H : HSelf env self (ML env s + 2)) (h : Base env { s with tsp := 0 }) :
    wp env (nextTokenBody self) (fun _ s' => Nx env s s') (EOK env) s := by
  unfold nextTokenBody
  wpr
  have hsk : wp env (skipWhite false) (fun cs s' => SkipPost env false s cs s' ∧
      ∀ c n, Seen env s.pos c n → isDecimalDigit c = true → cs.1 = c) (EOK env) s := by
    have h1 := wp_skipWhite (env := env) (s := s) false h.pos h.nls
    by_cases hx : ∃ c n, Seen env s.pos c n ∧ isDecimalDigit c = true
    · obtain ⟨c, n, h2, h3⟩ := hx
      refine wp_imp (wp_and h1 (wp_skipWhite_digit h.pos h2 h3)) ?_
      rintro a s' ⟨h4, h5⟩
      refine ⟨h4, fun c' n' h6 h7 => ?_⟩
      rw [h5, (h2.uniq h6).1]
    · exact wp_imp h1 fun a s' h2 => ⟨h2, fun c n h3 h4 => absurd ⟨c, n, h3, h4⟩ hx⟩
  refine wp_imp hsk ?_
  rintro ⟨c, start⟩ _ ⟨⟨n, k, b, h1, rfl, h4, h5, h6, -, h8⟩, hdig⟩
  dsimp only at h1 h5 h6 hdig ⊢
  simp only [Bool.false_eq_true, false_and, if_false]
  have hk2 : ∀ j, k = some j → 2 ≤ j := by
    rcases h8 with rfl | rfl
    · exact h.nls2
    · intro _ hj; cases hj
  have hbound := h1.bound
  have hb : Base env { s with pos := start + n, nls := k, bol := b, tsp := start } :=
    ⟨by bnd, h5, h4, hk2, h.defs⟩
  have ha : R env { s with pos := start, nls := k } { s with pos := start + n, nls := k, bol := b, tsp := start } :=
    R.to (s := { s with pos := start, nls := k }) (by bnd)
  by_cases hc0 : c = 0
  · subst hc0
    unfold lexChar
    rw [wp_bind, wp_getEnv, if_neg (by omega), if_neg (by rw [isUppercaseLetter_zero]; decide),
      if_neg (by rw [isLowercaseLetter_zero]; decide), if_pos rfl]
    wpr
    refine ⟨⟨rfl, List.prefix_refl _, h6.trans ha⟩, ⟨⟨hb.pos, hb.tsp, hb.nls, hb.nls2, hb.defs⟩, rfl, fun _ => ?_, True.intro⟩, ?_, ?_, ?_⟩
    · rcases h1.zero with h | h
      · exact ⟨fun _ => .inl (by dsimp only; omega), fun _ => .inl h⟩
      · exact ⟨fun _ => .inr h, fun _ => .inr h⟩
    · exact h6
    · intro hne; exact absurd rfl hne
    · intro c n h9 h10
      have := hdig c n h9 h10
      subst this
      exact absurd h10 (by decide)
  · have h9 := h1.le hc0
    have h10 := h1.ge hc0
    have h11 : psi env s ≤ psi env { s with pos := start, nls := k } := psi_le_of h6.1 h.pos h5
    have h12 := psi_move (env := env) (s := { s with pos := start, nls := k }) (q := start + n) h5 (by bnd) (by omega)
    have h13 : psi env s < psi env { s with pos := start + n, nls := k, bol := b, tsp := start } :=
      Nat.lt_of_le_of_lt h11 h12
    have h14 := ML_drop h13 (by bnd)
    refine wp_imp (wp_lexChar H s.pos hb h1 hc0 rfl rfl (by omega)) ?_
    rintro _ s' ⟨h15, h16⟩
    have hadv : Adv env s { s with pos := start + n, nls := k, bol := b, tsp := start } :=
      ⟨rfl, List.prefix_refl _, h6.trans ha⟩
    refine ⟨hadv.trans h15.adv, h15.inv, ?_, ?_, ?_⟩
    · rcases h15.bk with h17 | h17
      · refine h6.trans ?_
        have h18 := (ha.trans h15.adv.r).reset
        have h19 : back s' = { s' with pos := start } := by unfold back; rw [h17]
        rw [h19]
        exact h18
      · exact hadv.r.trans h17
    · intro _
      have := h15.adv.psi_le hb h15.inv.toBase
      omega
    · intro c' n' h17 h18
      have := hdig c' n' h17 h18
      rw [← this] at h18
      exact h16 h18

theorem wp_nextTokenBody (H : HSelf env self (M env .nextToken s)) (h : Pre env .nextToken s) :
    wp env (nextTokenBody self) (fun _ s' => Nx env s s') (EOK env) s := by
  change Base env s at h
  exact wp_nextTokenBody_stale H ⟨h.pos, Nat.zero_le _, h.nls, h.nls2, h.defs⟩

end
end PP
