import Verif.Lemmas.Range3

/-! # Byte ranges of nodes: tokens -/
namespace PP.Rg
open PP

section
variable {env : Env} {s t : St} {b m l0 : Nat} {self : Self}

theorem delimBody' (H : HS env self) (d ds : Nat) (i : Bool) (h : Handler) (buf : GoStr) (ec start : Nat) (segs : List Expr)
    (hp : Pre env (.delim d ds i h buf ec start segs) b m l0 s) :
    wp env (delimBody self d ds i h buf ec start segs) (DPost env i b s) tt s := by
  obtain ⟨hr, hd, h1, h2, h3, h4⟩ := hp
  have call : ∀ (t : St) (buf : GoStr) (ec start : Nat) (segs : List Expr),
      Rd env t → (∀ d ∈ t.defs, InR env true d) → (i = false → t.tsp = s.tsp) → s.tsp ≤ t.tsp → s.pos ≤ t.pos → t.tsp ≤ t.pos → (ec ≠ 0 → t.tsp ≤ start ∧ start < t.pos) →
      Lst env b t.tsp t.tsp segs → wp env (self (.delim d ds i h buf ec start segs)) (DPost env i b s) tt t := by
    intro t buf ec start segs g1 g2 g0 g3 g4 g5 g6 g7
    refine wp_imp (H (.delim d ds i h buf ec start segs) b 0 0 t ⟨g1, g2, by omega, g5, g6, g7⟩) ?_
    rintro es u ⟨k0, k1, k2, k3, k4, k5, k6⟩
    exact ⟨fun h => (k0 h).trans (g0 h), k1, k2, by omega, k4, by omega, k6⟩
  have go : ∀ (t : St) (buf : GoStr), Fr env s t → ec ≠ 0 →
      wp env (do
        let (ec', _) ← next
        self (.delim d ds i h buf ec' start segs)) (DPost env i b s) tt t := by
    intro t buf ht hec
    obtain ⟨g1, g2⟩ := h3 hec
    have k1 := ht.ge; have k2 := ht.tsp
    wpr
    refine next' ht.rd fun c n hc hn hf => ?_
    dsimp only
    refine call _ _ _ _ _ hf.rd ?_ (fun _ => k2) ?_ ?_ ?_ (fun _ => ?_) ?_
    · dsimp only; rw [ht.defs]; exact hd
    all_goals dsimp only
    · omega
    · omega
    · omega
    · exact ⟨by omega, by omega⟩
    · rw [k2]; exact h4
  unfold delimBody
  split
  · split
    · exact trivial
    · wpr
      exact ⟨fun _ => rfl, ⟨hr.1, hr.2⟩, hd, Nat.le_refl _, h2, Nat.le_refl _, (fun h => nomatch h), (fun e h => nomatch h), h4⟩
  next hec =>
  split
  · wpr
    exact ⟨fun _ => rfl, ⟨hr.1, hr.2⟩, hd, Nat.le_refl _, h2, Nat.le_refl _, (fun h => nomatch h), (fun e h => nomatch h), h4⟩
  split
  · wpr
    refine next' hr fun c n hc hn hf => ?_
    dsimp only
    split
    · exact trivial
    split
    · exact go _ _ hf hec
    · wpr
      refine wp_imp (escapeHandler' h c hf.rd) fun out u hu => ?_
      exact wp_bind.1 (go u _ (hf.trans hu) hec)
  split
  · next hi =>
    wpr
    obtain ⟨g1, g2⟩ := h3 hec
    refine wp_imp (handleInterpolation' H hr hd h1 g1 g2 h4) ?_
    rintro es t ⟨k1, k2, k3, k4, k5⟩
    refine next' k2 fun c n hc hn hf => ?_
    dsimp only
    refine call _ _ _ _ _ hf.rd k3 (fun h => (by rw [hi.2] at h; cases h)) ?_ ?_ ?_ (fun h0 => ?_) k1
    all_goals dsimp only
    · omega
    · omega
    · omega
    · have := hc.ge h0
      exact ⟨by omega, by omega⟩
  · exact go s _ (.refl hr) hec

/-- Read a delimited string from `s`, whose token has begun. -/
theorem consumeDelimitedString' (H : HS env self) (d ds : Nat) (i : Bool) (h : Handler) (hr : Rd env s)
    (hd : ∀ d ∈ s.defs, InR env true d) (hs : s.tsp ≤ s.pos) :
    wp env (consumeDelimitedString self d ds i h) (DPost env i s.tsp s) tt s := by
  unfold consumeDelimitedString
  wpr
  refine next' hr fun c n hc hn hf => ?_
  dsimp only
  refine wp_imp (H (.delim d ds i h [] c s.pos []) s.tsp 0 0 { s with pos := s.pos + n } ⟨hf.rd, hd, Nat.le_refl _, ?_, ?_, .nil⟩) ?_
  · dsimp only; omega
  · intro h0
    have := hc.ge h0
    dsimp only; omega
  · rintro es u ⟨k0, k1, k2, k3, k4, k5, k6⟩
    dsimp only at k0 k3 k5
    exact ⟨k0, k1, k2, k3, k4, by omega, k6⟩

/-- A function that reads the rest of a token that begins at `s.tsp`. -/
def Lx (env : Env) (s : St) (x : P Unit) : Prop :=
  wp env x (fun _ t => In env s.tsp t.pos t ∧ s.tsp ≤ t.tsp) tt s

/-- Before the rest of a token is read. -/
structure Pt (env : Env) (s : St) : Prop where
  rd : Rd env s
  defs : ∀ d ∈ s.defs, InR env true d
  lt : s.tsp < s.pos

theorem Pt.lexes {x : P Unit} (h : Pt env s) (hx : Lexes env s.tsp x) : Lx env s x := by
  refine wp_imp (hx s h.rd h.lt) ?_
  rintro _ t ⟨h1, h2⟩
  have h3 := h.lt; have h4 := h1.ge; have h5 := h1.tsp
  refine ⟨⟨h1.nls, by rw [h1.defs]; exact h.defs, by omega, by omega, h1.le, Nat.le_refl _, ?_, ?_⟩, by omega⟩
  · intro e he; exact absurd he (h2.val e)
  · rw [h5]; exact h2.var

theorem Pt.tok {t : Tok} {v : TokVal} {n : Nat} (h : Pt env s) (hn : s.pos + n ≤ env.text.length) (ht : t ≠ .variable)
    (hv : ∀ e, v ≠ .expr e) :
    In env s.tsp (s.pos + n) { s with pos := s.pos + n, tok := t, val := v } ∧ s.tsp ≤ s.tsp := by
  have h3 := h.lt
  refine ⟨⟨h.rd.1, h.defs, Nat.le_refl _, ?_, hn, Nat.le_refl _, ?_, ?_⟩, Nat.le_refl _⟩
  · dsimp only; omega
  · intro e he; exact absurd he (hv e)
  · intro he; exact absurd he ht

theorem Pt.set {t : Tok} {v : TokVal} (h : Pt env s) (ht : t ≠ .variable) (hv : ∀ e, v ≠ .expr e) :
    Lx env s (setTokenValue t v) := by
  exact h.tok (n := 0) h.rd.le ht hv

theorem Pt.setToken {t : Tok} (h : Pt env s) (ht : t ≠ .variable) : Lx env s (setToken t) := by
  exact h.tok (n := 0) h.rd.le ht (fun e h => nomatch h)

theorem Pt.adv1 {t : Tok} {n : Nat} (h : Pt env s) (hn : s.pos + n ≤ env.text.length) (ht : t ≠ .variable) : Lx env s (adv1 n t) := by
  exact h.tok hn ht (fun e h => nomatch h)

theorem Pt.adv (h : Pt env s) {n : Nat} (hn : s.pos + n ≤ env.text.length) : Pt env { s with pos := s.pos + n } :=
  ⟨⟨h.rd.1, hn⟩, h.defs, by have := h.lt; dsimp only; omega⟩

theorem Pt.fr (h : Pt env s) (hf : Fr env s t) : Pt env t :=
  ⟨hf.rd, by rw [hf.defs]; exact h.defs, by have := h.lt; have := hf.ge; have := hf.tsp; omega⟩

theorem Lx.fr {x : P Unit} (h : Lx env t x) (hf : t.tsp = s.tsp) :
    wp env x (fun _ t => In env s.tsp t.pos t ∧ s.tsp ≤ t.tsp) tt t := by
  rw [← hf]; exact h

theorem Pt.next (H : HS env self) (h : Pt env s) : Lx env s (self .nextToken) := by
  have h3 := h.lt
  exact H.tok h.rd h.defs fun t ht h1 h2 h3 => ⟨ht.mono (by omega) (Nat.le_refl _), by omega⟩

/-- `consumeEPP` from anywhere. -/
theorem consumeEPP' (H : HS env self) (hr : Rd env s) (hd : ∀ d ∈ s.defs, InR env true d) :
    wp env (consumeEPP self) (fun _ t => (Fr env s t ∧ (t.tok = .renderString ∨ t.tok = .end_) ∧ ∀ e, t.val ≠ .expr e) ∨
      (In env s.pos t.pos t ∧ s.pos ≤ t.tsp)) tt s := by
  unfold consumeEPP
  wpr
  refine wp_imp (eppText' _ _ _ hr) ?_
  rintro ⟨buf, tag⟩ t ht
  dsimp only
  have h1 := ht.ge
  split
  · wpr
    split
    · refine H.tok (s := { t with tok := .renderString, val := .str buf }) ⟨ht.nls, ht.le⟩ (by dsimp only; rw [ht.defs]; exact hd) fun u hu g1 g2 g3 => ?_
      dsimp only at hu g1
      exact .inr ⟨hu.mono (by omega) (Nat.le_refl _), by omega⟩
    · exact .inl ⟨⟨ht.nls, ht.defs, ht.tsp, ht.ge, ht.le⟩, .inl rfl, fun e h => nomatch h⟩
  split
  · exact .inl ⟨⟨ht.nls, ht.defs, ht.tsp, ht.ge, ht.le⟩, .inr rfl, fun e h => nomatch h⟩
  · exact .inl ⟨⟨ht.nls, ht.defs, ht.tsp, ht.ge, ht.le⟩, .inl rfl, fun e h => nomatch h⟩

theorem Pt.epp (H : HS env self) (h : Pt env s) : Lx env s (consumeEPP self) := by
  have h3 := h.lt
  refine wp_imp (consumeEPP' H h.rd h.defs) ?_
  rintro _ t (⟨h1, h2, h4⟩ | ⟨h1, h2⟩)
  · have g1 := h1.ge; have g2 := h1.tsp
    refine ⟨⟨h1.nls, by rw [h1.defs]; exact h.defs, by omega, by omega, h1.le, Nat.le_refl _, ?_, ?_⟩, by omega⟩
    · intro e he; exact absurd he (h4 e)
    · intro he; rcases h2 with h2 | h2 <;> (rw [h2] at he; cases he)
  · exact ⟨h1.mono (by omega) (Nat.le_refl _), by omega⟩

theorem Pt.dq (H : HS env self) (h : Pt env s) : Lx env s (consumeDoubleQuotedString self) := by
  unfold consumeDoubleQuotedString Lx
  wpr
  refine wp_imp (consumeDelimitedString' H _ _ _ _ h.rd h.defs (Nat.le_of_lt h.lt)) ?_
  rintro segs t ⟨h0, h1, h2, h3, h4, h5, h6, h7, h8⟩
  have g1 := h1.le
  have st : In env s.tsp t.pos t ∧ s.tsp ≤ t.tsp :=
    ⟨⟨h1.1, h2, h3, h4, h1.le, Nat.le_refl _, fun e he => absurd he (h7 e), fun he => absurd he h6⟩, h3⟩
  split
  · exact st
  · wpr
    split
    · next tail htail =>
      split
      · exact st
      · next first rest =>
        wpr
        have hl : Lst env s.tsp t.tsp t.pos (if tail.isEmpty = true then first :: rest
            else first :: rest ++ [Expr.string ⟨t.tsp, (t.pos : Int) - t.tsp⟩ tail]) := by
          split
          · exact h8.mono (Nat.le_refl _) (Nat.le_refl _) (by omega)
          · refine h8.snoc (string_inr h4 g1) h3 ?_ ?_ ?_ ?_
            all_goals pm
        have hf : ∃ r, (if tail.isEmpty = true then first :: rest
            else first :: rest ++ [Expr.string ⟨t.tsp, (t.pos : Int) - t.tsp⟩ tail]) = first :: r := by
          split
          · exact ⟨_, rfl⟩
          · exact ⟨_, rfl⟩
        obtain ⟨r, hr⟩ := hf
        rw [hr] at hl ⊢
        have k1 := hl.lo first (by simp)
        have k2 := hl.off first (by simp)
        have hc : InR env true (.concat ⟨first.off, (t.pos : Int) - first.off⟩ (first :: r)) := by
          refine .node ?_ ?_ rfl ?_
          · pm
          · pm
          · intro k hk
            refine ⟨hl.inr k hk, ?_, fun _ => ?_⟩
            · rcases List.mem_cons.1 hk with rfl | hk
              · exact Nat.le_refl _
              · exact ((List.pairwise_cons.1 hl.ord).1 k hk).1
            · have := hl.hi k hk
              pm
        refine ⟨⟨h1.1, h2, h3, h4, h1.le, Nat.le_refl _, ?_, fun he => nomatch he⟩, h3⟩
        intro e he
        cases he
        refine ⟨hc, k1, ?_, ?_, rfl⟩
        · pm
        · pm
    · exact trivial

theorem Pt.sq (H : HS env self) (h : Pt env s) : Lx env s (consumeSingleQuotedString self) := by
  unfold consumeSingleQuotedString Lx
  wpr
  refine wp_imp (consumeDelimitedString' H _ _ _ _ h.rd h.defs (Nat.le_of_lt h.lt)) ?_
  rintro segs t ⟨h0, h1, h2, h3, h4, h5, h6, h7, h8⟩
  exact ⟨⟨h1.1, h2, h3, h4, h1.le, Nat.le_refl _, fun e he => absurd he (h7 e), fun he => absurd he h6⟩, h3⟩

/-- A string that is not interpolated leaves the token where it is. -/
theorem Pt.slash (H : HS env self) (h : Pt env s) : Lx env s (lexSlash self) := by
  unfold lexSlash Lx
  wpr
  split
  · unfold consumeRegexp
    wpr
    refine wp_imp (consumeDelimitedString' H _ _ _ _ h.rd h.defs (Nat.le_of_lt h.lt)) ?_
    rintro segs t ⟨h0, h1, h2, h3, h4, h5, h6, h7, h8⟩
    have g1 := h.lt; have g2 := h.rd.le
    split
    · wpr
      rw [if_pos trivial]
      exact ⟨⟨h1.1, h2, h3, h4, h1.le, Nat.le_refl _, fun e he => absurd he (h7 e), fun he => nomatch he⟩, h3⟩
    · wpr
      rw [if_neg (by simp)]
      have g3 := h0 rfl
      refine ⟨⟨h1.1, h2, h3, ?_, g2, Nat.le_refl _, (fun e he => nomatch he), (fun he => nomatch he)⟩, h3⟩
      show t.tsp ≤ s.pos
      omega
  · exact h.setToken (by decide)

theorem Lexes.number (start : Nat) : Lexes env start (lexNumber start) := by
  intro s hr hs
  unfold lexNumber
  wpr
  refine wp_imp (skipDecimalDigits' hr) fun _ s1 h1 => ?_
  refine peek' h1.rd fun c n hc hn => ?_
  dsimp only
  have h2 := h1.ge
  split
  · wpr
    refine wp_imp (consumeFloat' start c { s1 with pos := s1.pos + n } ⟨h1.nls, hn⟩ (by dsimp only; omega)) ?_
    rintro _ t ⟨k1, k2⟩
    exact ⟨(h1.trans (Sk.adv h1.rd hn).toFr).trans k1, k2⟩
  split
  · exact trivial
  · wpr
    refine from' fun _ _ => ?_
    exact ⟨⟨h1.nls, h1.defs, h1.tsp, h1.ge, h1.le⟩, (fun e h => nomatch h), (fun h => nomatch h)⟩

theorem Lexes.zero (start : Nat) : Lexes env start (lexZero start) := by
  intro s hr hs
  unfold lexZero
  wpr
  refine peek' (s := { s with radix := 10 }) ⟨hr.1, hr.2⟩ fun c n hc hn => ?_
  dsimp only at hc hn ⊢
  split
  · wpr
    exact ⟨⟨hr.1, rfl, rfl, Nat.le_refl _, hr.2⟩, (fun e h => nomatch h), (fun h => nomatch h)⟩
  split
  · wpr
    refine wp_imp (advWhile' _ _ (s := { s with radix := 10, pos := s.pos + n }) ⟨hr.1, hn⟩) ?_
    rintro ⟨c', n'⟩ t ⟨-, h1, -⟩
    have g1 := h1.ge
    dsimp only at g1 ⊢
    split
    · exact trivial
    · wpr
      refine from' fun _ _ => ?_
      exact ⟨⟨h1.nls, h1.defs, h1.tsp, (by dsimp only; omega), h1.le⟩, (fun e h => nomatch h), (fun h => nomatch h)⟩
  split
  · wpr
    refine wp_imp (consumeFloat' start c { s with radix := 10, pos := s.pos + n } ⟨hr.1, hn⟩ (by dsimp only; omega)) ?_
    rintro _ t ⟨k1, k2⟩
    have g1 := k1.ge
    dsimp only at g1
    exact ⟨⟨k1.nls, k1.defs, k1.tsp, (by omega), k1.le⟩, k2⟩
  · wpr
    refine wp_imp (advWhile' _ _ (s := { s with radix := 10 }) ⟨hr.1, hr.2⟩) ?_
    rintro ⟨c', n'⟩ t ⟨-, h1, -⟩
    have g1 := h1.ge
    dsimp only at g1 ⊢
    split
    · exact trivial
    split
    · wpr
      refine from' fun _ _ => ?_
      exact ⟨⟨h1.nls, h1.defs, h1.tsp, g1, h1.le⟩, (fun e h => nomatch h), (fun h => nomatch h)⟩
    · wpr
      exact ⟨⟨h1.nls, h1.defs, h1.tsp, g1, h1.le⟩, (fun e h => nomatch h), (fun h => nomatch h)⟩

theorem Lexes.dollar (start : Nat) : Lexes env start (lexDollar start) := by
  intro s hr hs
  have rest : ∀ (t : St) (c n : Nat), Fr env s t → t.pos + n ≤ env.text.length →
      wp env (if isLowercaseLetter c then do
          advance n
          consumeQualifiedName start .variable
        else if isDecimalDigit c then do
          advance n
          let _ ← skipDecimalDigits
          let t ← from_ (start + 1)
          setTokenValue .variable (.int (parseInt64 10 t))
        else if uniIsLetter env c then issue .lexInvalidVariableName
        else setTokenValue .variable (.str [])) (fun _ s' => Fr env s s' ∧ TokOk start s') tt t := by
    intro t c n ht hn
    have h1 := ht.ge
    split
    · wpr
      refine wp_imp (consumeQualifiedName' start .variable (by simp) { t with pos := t.pos + n } ⟨ht.nls, hn⟩ (by dsimp only; omega)) ?_
      rintro _ u ⟨k1, k2⟩
      exact ⟨(ht.trans (Sk.adv ht.rd hn).toFr).trans k1, k2⟩
    split
    · wpr
      refine wp_imp (skipDecimalDigits' (s := { t with pos := t.pos + n }) ⟨ht.nls, hn⟩) fun _ u hu => ?_
      refine from' fun _ _ => ?_
      have h2 := (ht.trans (Sk.adv ht.rd hn).toFr).trans hu
      have h3 := h2.ge
      refine ⟨⟨h2.nls, h2.defs, h2.tsp, h2.ge, h2.le⟩, (fun e h => nomatch h), fun _ => ⟨?_, fun v h => nomatch h⟩⟩
      dsimp only; omega
    split
    · exact trivial
    · wpr
      refine ⟨⟨ht.nls, ht.defs, ht.tsp, ht.ge, ht.le⟩, (fun e h => nomatch h), fun _ => ⟨?_, ?_⟩⟩
      · dsimp only; omega
      · intro v hv; cases hv
        simp only [List.length_nil]; omega
  unfold lexDollar
  wpr
  refine peek' hr fun c n hc hn => ?_
  dsimp only
  split
  · wpr
    have hf := (Sk.adv hr hn).toFr
    refine peek' hf.rd fun c' n' hc' hn' => ?_
    dsimp only at hn' ⊢
    split
    · exact trivial
    · wpr
      have hf' := hf.trans (Sk.adv hf.rd hn').toFr
      refine peek' hf'.rd fun c'' n'' hc'' hn'' => ?_
      exact wp_imp (rest _ c'' n'' hf' hn'') fun _ _ h => h
  · wpr
    exact wp_imp (rest s c n (.refl hr) hn) fun _ _ h => h

theorem Lexes.colon (start : Nat) : Lexes env start (lexColon start) := by
  intro s hr hs
  unfold lexColon
  wpr
  refine peek' (s := { s with tok := .colon, val := .nil }) ⟨hr.1, hr.2⟩ fun c n hc hn => ?_
  dsimp only at hc hn ⊢
  split
  · wpr
    refine next' (s := { s with tok := .colon, val := .nil, pos := s.pos + n }) ⟨hr.1, hn⟩ fun c' n' hc' hn' hf => ?_
    dsimp only at hn' ⊢
    have go : ∀ tok : Tok, (tok = .identifier ∨ tok = .typeName ∨ tok = .variable) →
        wp env (consumeQualifiedName start tok) (fun _ s' => Fr env s s' ∧ TokOk start s') tt
          { s with tok := .colon, val := .nil, pos := s.pos + n + n' } := by
      intro tok htok
      refine wp_imp (consumeQualifiedName' start tok htok _ ⟨hr.1, hn'⟩ (by dsimp only; omega)) ?_
      rintro _ u ⟨k1, k2⟩
      have g1 := k1.ge
      dsimp only at g1
      exact ⟨⟨k1.nls, k1.defs, k1.tsp, (by omega), k1.le⟩, k2⟩
    split
    · exact go _ (by simp)
    split
    · exact go _ (by simp)
    · exact trivial
  · wpr
    exact ⟨⟨hr.1, rfl, rfl, Nat.le_refl _, hr.2⟩, (fun e h => nomatch h), (fun h => nomatch h)⟩

theorem Lexes.lp (start : Nat) : Lexes env start (lexLp start) := by
  intro s hr hs
  unfold lexLp skipWhite
  wpr
  refine wp_imp (skipWhiteAny (s := { s with pos := s.bol }) _ _ _ hr.1) ?_
  rintro ⟨c, n⟩ _ ⟨p, b, rfl⟩
  wpr
  refine ⟨⟨hr.1, rfl, rfl, Nat.le_refl _, hr.2⟩, (fun e h => nomatch h), fun h => ?_⟩
  dsimp only at h
  split at h <;> cases h

theorem Lexes.pipe (start : Nat) : Lexes env start lexPipe := by
  intro s hr hs
  unfold lexPipe
  wpr
  refine peek' hr fun c n hc hn => ?_
  dsimp only
  split
  · wpr
    have hf := (Sk.adv hr hn).toFr
    refine peek' hf.rd fun c' n' hc' hn' => ?_
    dsimp only at hn' ⊢
    split
    · unfold adv1
      wpr
      exact ⟨⟨hr.1, rfl, rfl, (by dsimp only; omega), hn'⟩, (fun e h => nomatch h), (fun h => nomatch h)⟩
    · wpr
      exact ⟨⟨hr.1, rfl, rfl, (by dsimp only; omega), hn⟩, (fun e h => nomatch h), (fun h => nomatch h)⟩
  · wpr
    split
    · wpr
      exact ⟨⟨hr.1, rfl, rfl, Nat.le_refl _, hr.2⟩, (fun e h => nomatch h), (fun h => nomatch h)⟩
    · wpr
      refine wp_imp (skipWhite' hr) ?_
      rintro ⟨c, n⟩ t ⟨h1, -⟩
      wpr
      refine ⟨⟨h1.nls, h1.defs, h1.tsp, Nat.le_refl _, hr.2⟩, (fun e h => nomatch h), fun h => ?_⟩
      dsimp only at h
      split at h <;> cases h

/-- Tokens that are decided by the next character. -/
theorem Pt.look {f : Nat × Nat → P Unit} (h : Pt env s) (hf : ∀ c n, Seen env s.pos c n → s.pos + n ≤ env.text.length → Lx env s (f (c, n))) :
    Lx env s (peek >>= f) := by
  unfold Lx
  wpr
  exact peek' h.rd fun c n hc hn => hf c n hc hn

theorem Pt.simple {f : Nat × Nat → P Unit} (h : Pt env s) (hf : ∀ c n, s.pos + n ≤ env.text.length → Lx env s (f (c, n))) :
    Lx env s (peek >>= f) := h.look fun c n _ hn => hf c n hn

theorem Lx.ite {c : Prop} [Decidable c] {x y : P Unit} (hx : c → Lx env s x) (hy : ¬ c → Lx env s y) : Lx env s (if c then x else y) := by
  split
  · exact hx ‹_›
  · exact hy ‹_›

theorem Lx.fail {x : P Unit} (h : ∀ Q, wp env x Q tt s) : Lx env s x := h _

theorem Pt.assign (h : Pt env s) : Lx env s lexAssign := by
  unfold lexAssign
  refine h.simple fun c n hn => ?_
  dsimp only
  repeat' refine Lx.ite (fun _ => ?_) (fun _ => ?_)
  all_goals first | exact h.adv1 hn (by decide) | exact h.setToken (by decide)

theorem Pt.plus (h : Pt env s) : Lx env s lexPlus := by
  unfold lexPlus
  refine h.simple fun c n hn => ?_
  dsimp only
  repeat' refine Lx.ite (fun _ => ?_) (fun _ => ?_)
  all_goals first | exact h.adv1 hn (by decide) | exact h.setToken (by decide)

theorem Pt.notT (h : Pt env s) : Lx env s lexNot := by
  unfold lexNot
  refine h.simple fun c n hn => ?_
  dsimp only
  repeat' refine Lx.ite (fun _ => ?_) (fun _ => ?_)
  all_goals first | exact h.adv1 hn (by decide) | exact h.setToken (by decide)

theorem Pt.greater (h : Pt env s) : Lx env s lexGreater := by
  unfold lexGreater
  refine h.simple fun c n hn => ?_
  dsimp only
  repeat' refine Lx.ite (fun _ => ?_) (fun _ => ?_)
  all_goals first | exact h.adv1 hn (by decide) | exact h.setToken (by decide)

theorem Pt.tilde (h : Pt env s) (start : Nat) : Lx env s (lexTilde start) := by
  unfold lexTilde
  refine h.simple fun c n hn => ?_
  dsimp only
  repeat' refine Lx.ite (fun _ => ?_) (fun _ => ?_)
  all_goals first | exact h.adv1 hn (by decide) | exact trivial

theorem Pt.lc (h : Pt env s) : Lx env s lexLc := by
  unfold lexLc Lx
  wpr
  refine h.tok (n := 0) h.rd.le ?_ (fun e h => nomatch h)
  split <;> decide

/-- After a character. -/
theorem Lx.adv {x : P Unit} {n : Nat} (h : Lx env { s with pos := s.pos + n } x) : Lx env s (do advance n; x) := by
  unfold Lx
  wpr
  exact h

theorem Pt.minus (H : HS env self) (h : Pt env s) : Lx env s (lexMinus self) := by
  unfold lexMinus Lx
  wpr
  refine peek' h.rd fun c n hc hn => ?_
  dsimp only
  split
  · exact h.adv1 hn (by decide)
  split
  · exact h.adv1 hn (by decide)
  split
  · wpr
    have h1 := h.adv hn
    refine peek' h1.rd fun c' n' hc' hn' => ?_
    dsimp only at hn' ⊢
    split
    · wpr
      have h2 := h1.adv (n := n') hn'
      refine wp_imp (advWhile' _ _ h2.rd) ?_
      rintro ⟨c'', n''⟩ t ⟨-, g1, g2⟩
      have h3 := h2.fr g1
      have hts : t.tsp = s.tsp := g1.tsp
      dsimp only at g2 ⊢
      split
      · wpr
        have hn3 : t.pos + n'' ≤ env.text.length := by have := g2.bound; have := g1.le; omega
        exact ((h3.adv hn3).epp H).fr hts
      · exact (h3.epp H).fr hts
    · exact trivial
  · exact h.setToken (by decide)

theorem Pt.percent (H : HS env self) (h : Pt env s) : Lx env s (lexPercent self) := by
  unfold lexPercent Lx
  wpr
  have h0 : Pt env { s with tok := .remainder, val := .nil } := ⟨⟨h.rd.1, h.rd.2⟩, h.defs, h.lt⟩
  split
  · wpr
    refine peek' h0.rd fun c n hc hn => ?_
    dsimp only at hn ⊢
    split
    · wpr
      exact (((h0.adv (n := n) hn).epp H)).fr rfl
    · exact h.setToken (t := .remainder) (by decide)
  · exact h.setToken (t := .remainder) (by decide)

theorem Pt.less (H : HS env self) (h : Pt env s) : Lx env s (lexLess self) := by
  unfold lexLess Lx
  wpr
  refine peek' h.rd fun c n hc hn => ?_
  dsimp only
  have h1 := h.adv hn
  split
  · exact h.adv1 hn (by decide)
  split
  · wpr
    refine peek' h1.rd fun c' n' hc' hn' => ?_
    dsimp only at hn' ⊢
    split
    · exact (h1.adv1 hn' (by decide)).fr rfl
    · exact (h1.setToken (by decide)).fr rfl
  split
  · exact h.adv1 hn (by decide)
  split
  · exact h.adv1 hn (by decide)
  split
  · exact h.adv1 hn (by decide)
  split
  · wpr
    refine peek' h1.rd fun c' n' hc' hn' => ?_
    dsimp only at hn' ⊢
    split
    · exact (h1.adv1 hn' (by decide)).fr rfl
    split
    · wpr
      exact ((h1.adv (n := n') hn').next H).fr rfl
    · exact (h1.next H).fr rfl
  · exact h.setToken (by decide)

theorem Pt.at (h : Pt env s) (hno : ¬ b!"@(" <:+: env.text) {n : Nat} (hc : Seen env s.tsp c%'@' n) (hp : s.pos = s.tsp + n) :
    Lx env s (lexAt self) := by
  unfold lexAt
  refine h.look fun c k hk hn => ?_
  dsimp only
  refine Lx.ite (fun _ => h.adv1 hn (by decide)) (fun _ => Lx.ite (fun h2 => ?_) (fun _ => h.setToken (by decide)))
  subst h2
  have := hc.one (by decide) (by decide)
  subst this
  rw [hp] at hk
  exact absurd (at_paren hc hk) hno

theorem lexChar' (H : HS env self) (hno : ¬ b!"@(" <:+: env.text) (sc : Nat) {c n : Nat} (h : Pt env s) (hc : Seen env s.tsp c n)
    (hp : s.pos = s.tsp + n) : Lx env s (lexChar self sc c s.tsp) := by
  unfold lexChar Lx
  rw [wp_bind, wp_getEnv]
  refine Lx.ite (fun _ => h.lexes (.number _)) (fun _ => ?_)
  refine Lx.ite (fun _ => h.lexes (consumeQualifiedName' _ _ (by simp))) (fun _ => ?_)
  refine Lx.ite (fun _ => h.lexes (consumeQualifiedName' _ _ (by simp))) (fun _ => ?_)
  refine Lx.ite (fun _ => h.setToken (by decide)) (fun _ => ?_)
  refine Lx.ite (fun _ => h.assign) (fun _ => ?_)
  refine Lx.ite (fun _ => h.lc) (fun _ => ?_)
  refine Lx.ite (fun _ => h.setToken (by decide)) (fun _ => ?_)
  refine Lx.ite (fun _ => h.setToken (by split <;> decide)) (fun _ => ?_)
  refine Lx.ite (fun _ => h.setToken (by decide)) (fun _ => ?_)
  refine Lx.ite (fun _ => h.lexes (.lp _)) (fun _ => ?_)
  refine Lx.ite (fun _ => h.setToken (by decide)) (fun _ => ?_)
  refine Lx.ite (fun _ => h.setToken (by decide)) (fun _ => ?_)
  refine Lx.ite (fun _ => h.setToken (by decide)) (fun _ => ?_)
  refine Lx.ite (fun _ => h.setToken (by decide)) (fun _ => ?_)
  refine Lx.ite (fun _ => h.setToken (by decide)) (fun _ => ?_)
  refine Lx.ite (fun _ => h.lexes (.colon _)) (fun _ => ?_)
  refine Lx.ite (fun _ => h.minus H) (fun _ => ?_)
  refine Lx.ite (fun _ => h.plus) (fun _ => ?_)
  refine Lx.ite (fun _ => h.setToken (by decide)) (fun _ => ?_)
  refine Lx.ite (fun _ => h.percent H) (fun _ => ?_)
  refine Lx.ite (fun _ => h.notT) (fun _ => ?_)
  refine Lx.ite (fun _ => h.greater) (fun _ => ?_)
  refine Lx.ite (fun _ => h.tilde _) (fun _ => ?_)
  refine Lx.ite (fun hx => by subst hx; exact h.at hno hc hp) (fun _ => ?_)
  refine Lx.ite (fun _ => h.less H) (fun _ => ?_)
  refine Lx.ite (fun _ => h.lexes (.pipe _)) (fun _ => ?_)
  refine Lx.ite (fun _ => h.dq H) (fun _ => ?_)
  refine Lx.ite (fun _ => h.sq H) (fun _ => ?_)
  refine Lx.ite (fun _ => h.slash H) (fun _ => ?_)
  refine Lx.ite (fun _ => h.lexes (.dollar _)) (fun _ => ?_)
  refine Lx.ite (fun _ => h.lexes (.zero _)) (fun _ => ?_)
  refine Lx.ite (fun _ => h.lexes (consumeBacktickedString' _)) (fun _ => ?_)
  exact trivial

theorem nextTokenBody' (H : HS env self) (hno : ¬ b!"@(" <:+: env.text) (hp : Pre env .nextToken b m l0 s) :
    wp env (nextTokenBody self) (Post env .nextToken b m l0 s) tt s := by
  obtain ⟨hr, hd, hb⟩ := hp
  unfold nextTokenBody
  wpr
  refine wp_imp (skipWhite' hr) ?_
  rintro ⟨c, start⟩ t ⟨h1, h2, h3, n, h4, h5⟩
  dsimp only at h2 h3 h4 h5 ⊢
  by_cases h0 : c = 0
  · subst h0
    unfold lexChar
    rw [wp_bind, wp_getEnv]
    refine ⟨⟨h1.nls, by dsimp only; rw [h1.defs]; exact hd, ?_, ?_, h1.le, Nat.le_refl _, (fun e h => nomatch h), (fun h => nomatch h)⟩, ?_⟩
    · dsimp only; omega
    · exact h3
    · exact h2
  · have hge := h4.ge h0
    refine wp_imp (lexChar' (s := { t with tsp := start }) (n := n) H hno s.pos ⟨⟨h1.nls, h1.le⟩, ?_, ?_⟩ h4 h5) ?_
    · dsimp only; rw [h1.defs]; exact hd
    · dsimp only; omega
    · rintro _ u ⟨k1, k2⟩
      dsimp only at k1 k2
      exact ⟨k1.mono (by omega) (Nat.le_refl _), by omega⟩

end
end PP.Rg
