import Verif.Lemmas.Inv

/-! # Character level functions of the lexer -/
namespace PP

/-- Reduce the actions that do not fail. -/
macro "wpr" : tactic => `(tactic|
  simp only [wp_bind, wp_pure, wp_getS, wp_getEnv, wp_modS, wp_issue, wp_throwE, wp_crash, wp_timeout,
    wp_getPos, wp_setPos, wp_advance, wp_curTok, wp_tokStart, wp_setToken, wp_setTokenValue, wp_here,
    wp_qualifiedName, wp_pushName, wp_popName, wp_issueAt, wp_addDefinition, wp_newLine])

/-- Bounds. -/
macro "bnd" : tactic => `(tactic|
  first
    | omega
    | (show _ ≤ _; omega)
    | (show _ ≤ _; dsimp only; omega)
    | (dsimp only; omega)
    | (unfold charFuel; omega)
    | (unfold charFuel; dsimp only; omega))

section
variable {env : Env} {s : St}

theorem wp_advWhile (p : Nat → Bool) (hp : p 0 = false) (f : Nat) (hs : s.pos ≤ env.text.length + 1)
    (hf : env.text.length + 1 < f + s.pos) :
    wp env (advWhile p f) (fun cn s' => ∃ q, s' = { s with pos := q } ∧ s.pos ≤ q ∧
      q ≤ max s.pos env.text.length ∧ Seen env q cn.1 cn.2 ∧ p cn.1 = false) (EOK env) s := by
  induction f generalizing s with
  | zero => omega
  | succ f ih =>
    unfold advWhile
    wpr
    refine wp_peek (fun c n hc => ?_) hs
    dsimp only
    split
    · next hpc =>
      have h0 : c ≠ 0 := by intro h; rw [h, hp] at hpc; cases hpc
      have h1 := hc.le h0
      have h2 := hc.ge h0
      wpr
      refine wp_imp (ih (by simp only; omega) (by simp only; omega)) ?_
      rintro cn _ ⟨q, rfl, h3, h4, h5, h6⟩
      simp only at h3 h4
      exact ⟨q, rfl, by omega, by omega, h5, h6⟩
    · next hpc =>
      wpr
      exact ⟨s.pos, rfl, Nat.le_refl _, by omega, hc, by simpa using hpc⟩

/-- What `skipWhite` does: `start` is the place of the rune it returns. -/
def SkipPost (env : Env) (brk : Bool) (s : St) (cs : Nat × Nat) (s' : St) : Prop :=
  ∃ n k b, Seen env cs.2 cs.1 n ∧
    s' = { s with pos := if brk = true ∧ cs.1 = 10 then cs.2 else cs.2 + n, nls := k, bol := b } ∧
    (∀ j, k = some j → j ≤ env.text.length + 1) ∧
    cs.2 ≤ env.text.length + 1 ∧ R env s { s with pos := cs.2, nls := k } ∧
    (brk = true → k = s.nls ∧ b = s.bol ∧ s.pos ≤ cs.2) ∧ (k = s.nls ∨ k = none)

theorem SkipPost.of {brk : Bool} {t : St} {cs : Nat × Nat} {s' : St} (h : SkipPost env brk t cs s')
    (q : Nat) (k : Option Nat) (b : Nat) (ht : t = { s with pos := q, nls := k, bol := b })
    (hr : R env s { s with pos := q, nls := k }) (hb : brk = true → k = s.nls ∧ b = s.bol ∧ s.pos ≤ q)
    (hk : k = s.nls ∨ k = none) :
    SkipPost env brk s cs s' := by
  subst ht
  obtain ⟨n, k', b', h1, h2, h4, h5, h6, h7, h8⟩ := h
  refine ⟨n, k', b', h1, h2, h4, h5, hr.trans h6, ?_, by
    rcases h8 with h8 | h8
    · rcases hk with hk | hk
      · exact .inl (h8.trans hk)
      · exact .inr (h8.trans hk)
    · exact .inr h8⟩
  intro hbr
  obtain ⟨a1, a2, a3⟩ := hb hbr
  obtain ⟨c1, c2, c3⟩ := h7 hbr
  exact ⟨c1.trans a1, c2.trans a2, Nat.le_trans a3 c3⟩

theorem wp_skipWhiteLoop (brk : Bool) (f : Nat) (cs : Cmt) (csp : Nat) (hs : s.pos ≤ env.text.length + 1)
    (hn : ∀ k, s.nls = some k → k ≤ env.text.length + 1)
    (hcsp : csp ≤ env.text.length + 1)
    (hf : (if s.nls.isSome then env.text.length + 2 else 0) + env.text.length + 1 < f + s.pos) :
    wp env (skipWhiteLoop brk f cs csp) (SkipPost env brk s) (EOK env) s := by
  induction f generalizing s cs csp with
  | zero => split at hf <;> omega
  | succ f ih =>
    unfold skipWhiteLoop
    wpr
    refine wp_next (fun c n hc => ?_) hs
    dsimp only
    -- the loop goes on behind the rune
    have go : ∀ (q : Nat) (cs : Cmt) (csp : Nat), s.pos < q → q ≤ env.text.length + 1 → csp ≤ env.text.length + 1 →
        wp env (skipWhiteLoop brk f cs csp) (SkipPost env brk s) (EOK env) { s with pos := q } := by
      intro q cs csp h1 h2 h3
      refine wp_imp (ih (s := { s with pos := q }) cs csp h2 hn h3 (by simp only; split at hf <;> simp [*] <;> omega)) ?_
      intro a s' h
      exact h.of q s.nls s.bol rfl (R.to s (by omega)) (fun _ => ⟨rfl, rfl, by omega⟩) (.inl rfl)
    have fin : ∀ (h : ¬ (brk = true ∧ c = 10)), SkipPost env brk s (c, s.pos) { s with pos := s.pos + n } := by
      intro h
      exact ⟨n, s.nls, s.bol, hc, by simp only [if_neg h], hn, hs, R.refl s, fun _ => ⟨rfl, rfl, Nat.le_refl _⟩, .inl rfl⟩
    split
    · next h0 =>
      split
      · wpr; exact hcsp
      · wpr; exact fin (by omega)
    next h0 =>
    have hlt := hc.lt h0
    have hge := hc.ge h0
    have hle := hc.le h0
    split
    · next h10 =>
      split
      · exact go _ _ _ (by omega) (by omega) hcsp
      · split
        · next hbr =>
          wpr
          exact ⟨n, s.nls, s.bol, hc, by simp only [hbr, h10, and_self, if_true], hn, hs, R.refl s,
            fun _ => ⟨rfl, rfl, Nat.le_refl _⟩, .inl rfl⟩
        · next hbr =>
          wpr
          have hq : s.nls.getD (s.pos + n) ≤ env.text.length + 1 := by
            cases hk : s.nls with
            | none => simp only [Option.getD_none]; omega
            | some k => exact hn k hk
          refine wp_imp (ih (s := { s with pos := s.nls.getD (s.pos + n), nls := none, bol := s.nls.getD (s.pos + n) })
            .none csp hq (by intro k hk; cases hk) hcsp ?_) ?_
          · simp only
            cases hk : s.nls with
            | none => simp [hk] at hf ⊢; omega
            | some k => simp [hk] at hf ⊢; omega
          · intro a s' h
            refine h.of _ _ _ rfl ?_ (fun h => absurd h hbr) (.inr rfl)
            exact (R.adv s n).trans (R.newLine (env := env) { s with pos := s.pos + n } hn)
    next h10 =>
    have fin' : SkipPost env brk s (c, s.pos) { s with pos := s.pos + n } := fin (fun h => h10 h.2)
    split
    · split
      · exact go _ _ _ (by omega) (by omega) hs
      · exact go _ _ _ (by omega) (by omega) hcsp
    · split
      · split
        · wpr
          refine wp_peek (fun tc sz htc => ?_) (by bnd)
          dsimp only
          split
          · next h42 =>
            have := htc.le (by omega)
            have := htc.ge (by omega)
            simp only at *
            wpr
            exact go _ _ _ (by omega) (by omega) hs
          · wpr; exact fin'
        · exact go _ _ _ (by omega) (by omega) hcsp
      · split
        · split
          · exact go _ _ _ (by omega) (by omega) hcsp
          · split
            · wpr
              refine wp_peek (fun tc sz htc => ?_) (by bnd)
              dsimp only
              split
              · next h47 =>
                have := htc.le (by omega)
                have := htc.ge (by omega)
                simp only at *
                wpr
                exact go _ _ _ (by omega) (by omega) hcsp
              · exact go _ _ _ (by omega) (by omega) hcsp
            · wpr; exact fin'
        · split
          · exact go _ _ _ (by omega) (by omega) hcsp
          · split
            · wpr; exact fin'
            · exact go _ _ _ (by omega) (by omega) hcsp

theorem wp_skipWhite (brk : Bool) (hs : s.pos ≤ env.text.length + 1)
    (hn : ∀ k, s.nls = some k → k ≤ env.text.length + 1) :
    wp env (skipWhite brk) (SkipPost env brk s) (EOK env) s := by
  unfold skipWhite
  wpr
  exact wp_skipWhiteLoop brk _ _ _ hs hn (by omega) (by unfold charFuel; split <;> omega)

/-- At the end there is nothing to skip. -/
theorem skipWhite_atEnd (brk : Bool) (h : env.text.length ≤ s.pos) :
    skipWhite brk env s = .ok (0, s.pos) s := by
  have hn : next env s = .ok (0, s.pos) s := by
    unfold next peekAt
    simp only [if_pos h, Nat.add_zero]
  show P.bind next _ env s = _
  unfold P.bind
  rw [hn]; rfl

/-- What `skipWhiteInLiteral` does. -/
def LitPost (env : Env) (s : St) (cs : Nat × Nat) (s' : St) : Prop :=
  ∃ n, Seen env cs.2 cs.1 n ∧ s' = { s with pos := cs.2 + n } ∧ s.pos ≤ cs.2 ∧
    cs.2 ≤ max s.pos env.text.length

theorem wp_skipWhiteInLiteralLoop (f : Nat) (hs : s.pos ≤ env.text.length + 1)
    (hf : env.text.length + 1 < f + s.pos) :
    wp env (skipWhiteInLiteralLoop f) (LitPost env s) (EOK env) s := by
  induction f generalizing s with
  | zero => omega
  | succ f ih =>
    unfold skipWhiteInLiteralLoop
    wpr
    refine wp_next (fun c n hc => ?_) hs
    dsimp only
    split
    · next h =>
      have h0 : c ≠ 0 := by omega
      have h1 := hc.le h0
      have h2 := hc.ge h0
      refine wp_imp (ih (by bnd) (by bnd)) ?_
      rintro cs _ ⟨m, h3, rfl, h4, h5⟩
      dsimp only at h4 h5
      exact ⟨m, h3, rfl, by omega, by omega⟩
    · wpr
      exact ⟨n, hc, rfl, Nat.le_refl _, by omega⟩

theorem wp_skipWhiteInLiteral (hs : s.pos ≤ env.text.length + 1) :
    wp env skipWhiteInLiteral (LitPost env s) (EOK env) s := by
  unfold skipWhiteInLiteral
  wpr
  exact wp_skipWhiteInLiteralLoop _ hs (by bnd)

theorem isLetterOrDigit_zero : isLetterOrDigit 0 = false := by decide
theorem isDecimalDigit_zero : isDecimalDigit 0 = false := by decide
theorem isHexDigit_zero : isHexDigit 0 = false := by decide
theorem isOctalDigit_zero : isOctalDigit 0 = false := by decide
theorem isLowercaseLetter_zero : isLowercaseLetter 0 = false := by decide
theorem isUppercaseLetter_zero : isUppercaseLetter 0 = false := by decide

theorem ne_zero_of {p : Nat → Bool} (hp : p 0 = false) {c : Nat} (h : p c = true) : c ≠ 0 := by
  intro h0; rw [h0, hp] at h; cases h

theorem wp_dashLoop (f i : Nat) (hi : i ≤ env.text.length + 1) (hs : s.pos ≤ env.text.length + 1)
    (hf : env.text.length + 1 < f + i) :
    wp env (dashLoop f i) (fun b s' => (b = true → ∃ q, s' = { s with pos := q } ∧ i < q ∧ q ≤ env.text.length) ∧
      (b = false → s' = s)) (EOK env) s := by
  induction f generalizing i with
  | zero => omega
  | succ f ih =>
    unfold dashLoop
    wpr
    refine wp_peekAt (fun c n hc => ?_) hs
    dsimp only
    split
    · next h =>
      have h0 := ne_zero_of isLetterOrDigit_zero h
      wpr
      have := hc.le h0
      have := hc.ge h0
      exact ⟨fun _ => ⟨i + n, rfl, by omega, by omega⟩, fun h => by simp at h⟩
    · split
      · refine wp_pure.mpr ⟨fun h => by simp at h, fun _ => rfl⟩
      · next h =>
        have h0 : c ≠ 0 := by intro h'; rw [h'] at h; exact h (by decide)
        have := hc.le h0
        have := hc.ge h0
        refine wp_imp (ih (i + n) (by omega) (by omega)) ?_
        rintro b s' ⟨h1, h2⟩
        refine ⟨fun hb => ?_, h2⟩
        obtain ⟨q, h3, h4, h5⟩ := h1 hb
        exact ⟨q, h3, by omega, h5⟩

theorem segmentStart_zero (t : Tok) : segmentStart t 0 = false := by cases t <;> decide

theorem wp_nameLoop (start : Nat) (tok : Tok) (f : Nat) (lu hd : Bool) (hst : start ≤ env.text.length + 1)
    (hs : s.pos ≤ env.text.length) (hf : env.text.length < f + s.pos) :
    wp env (nameLoop start tok f lu hd) (fun _ s' => ∃ q, s' = { s with pos := q } ∧ s.pos ≤ q ∧
      q ≤ env.text.length) (EOK env) s := by
  induction f generalizing s lu hd with
  | zero => omega
  | succ f ih =>
    unfold nameLoop
    wpr
    refine wp_imp (wp_advWhile _ isLetterOrDigit_zero _ (by omega) (by bnd)) ?_
    rintro ⟨c, n⟩ _ ⟨q, rfl, h1, h2, hc, -⟩
    dsimp only at hc ⊢
    split
    · next h =>
      wpr
      have h0 : c ≠ 0 := by omega
      have := hc.le h0
      have := hc.ge h0
      refine wp_imp (wp_dashLoop _ _ (by omega) (by show q ≤ _; omega) (by bnd)) ?_
      rintro b s' ⟨h3, h4⟩
      split
      · next hb =>
        obtain ⟨q', rfl, h5, h6⟩ := h3 hb
        refine wp_imp (ih lu true h6 (by bnd)) ?_
        rintro _ _ ⟨q'', rfl, h7, h8⟩
        dsimp only at h7
        exact ⟨q'', rfl, by omega, h8⟩
      · next hb =>
        rw [h4 (by simpa using hb)]
        wpr
        exact ⟨q, rfl, h1, by omega⟩
    · split
      · wpr; exact ⟨q, rfl, h1, by omega⟩
      · next h58 =>
        have h0 : c ≠ 0 := by omega
        have h3 := hc.le h0
        have h4 := hc.ge h0
        wpr
        refine wp_peek (fun c2 n2 hc2 => ?_) (by bnd)
        dsimp only at hc2 ⊢
        split
        · wpr; exact ⟨q, rfl, h1, by omega⟩
        · next h58' =>
          have h0 : c2 ≠ 0 := by omega
          have h5 := hc2.le h0
          have h6 := hc2.ge h0
          wpr
          refine wp_peek (fun c3 n3 hc3 => ?_) (by bnd)
          dsimp only at hc3 ⊢
          split
          · next hseg =>
            have h0 : c3 ≠ 0 := by
              intro h0; rw [h0, segmentStart_zero] at hseg; simp at hseg
            have h7 := hc3.le h0
            have h8 := hc3.ge h0
            wpr
            refine wp_imp (ih _ _ (by bnd) (by bnd)) ?_
            rintro _ _ ⟨q', rfl, h9, h10⟩
            dsimp only at h9
            exact ⟨q', rfl, by omega, h10⟩
          · wpr; exact hst

theorem lookupStr_mem {α} {m : List (GoStr × α)} {k : GoStr} {v : α} (h : lookupStr m k = some v) : (k, v) ∈ m := by
  unfold lookupStr at h
  rw [Option.map_eq_some_iff] at h
  obtain ⟨⟨k', v'⟩, h1, h2⟩ := h
  have h3 := List.mem_of_find?_eq_some h1
  have h4 := List.find?_some h1
  simp only [beq_iff_eq] at h4
  simp only at h2
  subst h2; subst h4
  exact h3

theorem keyword_ok {D : List Expr} {tsp : Nat} {w : GoStr} {k : Tok} (h : (w, k) ∈ keywords)
    (h1 : k ≠ .boolean) (h2 : k ≠ .kDefault) (h3 : k ≠ .kPlan) (hw : w <:+: env.text) :
    ValOK env D tsp k (.str w) := by
  have key : ∀ kv ∈ keywords, kv.2 ≠ .boolean → kv.2 ≠ .kDefault → kv.2 ≠ .kPlan →
      (kv.2 = .kType ∧ kv.1 = b!"type") ∨ (kv.2 = .kProduces ∧ kv.1 = b!"produces") ∨
      (kv.2 = .kConsumes ∧ kv.1 = b!"consumes") ∨ kv.2 ∈ [Tok.kAnd, .kApplication, .kAttr, .kCase, .kClass,
        .kDefine, .kFunction, .kIf, .kIn, .kInherits, .kElse, .kElsif, .kNode, .kOr, .kPrivate,
        .kSite, .kUndef, .kUnless] := by decide
  rcases key _ h h1 h2 h3 with ⟨h4, h5⟩ | ⟨h4, h5⟩ | ⟨h4, h5⟩ | h4
  · dsimp only at h4 h5
    subst h4; subst h5
    exact ⟨⟨_, rfl⟩, hw⟩
  · dsimp only at h4 h5
    subst h4; subst h5
    rfl
  · dsimp only at h4 h5
    subst h4; subst h5
    rfl
  · simp only [List.mem_cons, List.not_mem_nil, or_false] at h4
    rcases h4 with h | h | h | h | h | h | h | h | h | h | h | h | h | h | h | h | h | h <;>
      (rw [h]; exact ⟨_, rfl⟩)

/-- The value that belongs to a word. -/
theorem classify_ok {D : List Expr} {tsp : Nat} {tok : Tok} {hd : Bool} {w : GoStr}
    (htok : tok = .identifier ∨ tok = .typeName ∨ (tok = .variable ∧ tsp < env.text.length))
    (hw : w <:+: env.text) :
    ValOK env D tsp (classify env tok hd w).1 (classify env tok hd w).2 ∧
      (classify env tok hd w).1 ≠ .end_ ∧ (tok ≠ .identifier → (classify env tok hd w).1 = tok) := by
  unfold classify
  split
  · next h =>
    refine ⟨?_, ?_, fun h' => absurd h h'⟩
    · split
      · exact ⟨w, rfl⟩
      · split
        · exact ⟨_, rfl⟩
        · rfl
        · dsimp only
          split
          · next ht => exact ⟨ht, w, rfl⟩
          · exact ⟨w, rfl⟩
        · next k hk1 hk2 hk3 hl =>
          exact keyword_ok (lookupStr_mem hl) hk1
            hk2 hk3 hw
        · exact ⟨w, rfl⟩
    · split
      · exact fun h => Tok.noConfusion h
      · split
        · exact fun h => Tok.noConfusion h
        · exact fun h => Tok.noConfusion h
        · dsimp only
          split <;> exact fun h => Tok.noConfusion h
        · next k hk1 hk2 hk3 hl =>
          have hm := lookupStr_mem hl
          have : ∀ kv ∈ keywords, kv.2 ≠ Tok.end_ := by decide
          exact this _ hm
        · exact fun h => Tok.noConfusion h
  · next h =>
    rcases htok with rfl | rfl | ⟨rfl, ht⟩
    · exact absurd rfl h
    · exact ⟨⟨w, rfl⟩, fun h => Tok.noConfusion h, fun _ => rfl⟩
    · exact ⟨⟨ht, .inl ⟨w, rfl⟩⟩, fun h => Tok.noConfusion h, fun _ => rfl⟩

theorem classify_spelled {tsp : Nat} {tok : Tok} {hd : Bool} {w : GoStr} (htok : tok = .identifier ∨ tok = .typeName)
    (hw : ReadsAt env.text tsp w) : SpeltAt env tsp (classify env tok hd w).1 (classify env tok hd w).2 := by
  unfold classify
  split
  · split
    · exact True.intro
    · split
      · next hl =>
        have h1 := lookupStr_mem hl
        have key : ∀ kv ∈ keywords, kv.2 = .boolean → kv.1 = b!"true" ∨ kv.1 = b!"false" := by decide
        intro b hb
        cases hb
        rcases key _ h1 rfl with h2 | h2 <;> dsimp only at h2 <;> subst h2 <;> exact hw
      · next hl =>
        have key : ∀ kv ∈ keywords, kv.2 = .kDefault → kv.1 = b!"default" := by decide
        have h2 := key _ (lookupStr_mem hl) rfl
        dsimp only at h2; subst h2; exact hw
      · next hl =>
        have key : ∀ kv ∈ keywords, kv.2 = .kPlan → kv.1 = b!"plan" := by decide
        have h2 := key _ (lookupStr_mem hl) rfl
        dsimp only at h2 ⊢; subst h2
        split
        · exact hw
        · exact True.intro
      · next k hk1 hk2 hk3 hl =>
        have h1 := lookupStr_mem hl
        have key : ∀ kv ∈ keywords, kv.2 ≠ .boolean → kv.1 = kv.2.str ∧ kv.2.isKeyword = true := by decide
        obtain ⟨h2, h3⟩ := key _ h1 hk1
        dsimp only at h2 h3 ⊢
        cases k <;> first
          | cases h3; done
          | exact True.intro
          | (rw [h2] at hw; exact hw)
          | (intro w' h'; cases h'; exact hw)
          | exact absurd rfl hk1
      · exact True.intro
  · rcases htok with rfl | rfl
    · exact True.intro
    · intro w' h'; cases h'; exact hw

theorem infix_drop_take (t : GoStr) (a b : Nat) : (t.drop a).take b <:+: t :=
  (List.take_prefix b _).isInfix.trans (List.drop_suffix a t).isInfix

/-- The state after a token: position, token and value are new. -/
def TokPost (env : Env) (s : St) (s' : St) : Prop :=
  ∃ q t v, s' = { s with pos := q, tok := t, val := v } ∧ s.pos ≤ q ∧ q ≤ env.text.length ∧
    (∀ D, ValOK env D s.tsp t v) ∧ t ≠ .end_ ∧ SpeltAt env s.tsp t v

theorem wp_consumeQualifiedName (start : Nat) (tok : Tok) (hs : s.pos ≤ env.text.length)
    (hst : start < s.pos)
    (htok : tok = .identifier ∨ tok = .typeName ∨ (tok = .variable ∧ s.tsp < env.text.length))
    (htsp : s.tsp = start) :
    wp env (consumeQualifiedName start tok) (fun _ s' => TokPost env s s' ∧ (tok ≠ .identifier → s'.tok = tok))
      (EOK env) s := by
  unfold consumeQualifiedName
  wpr
  refine wp_imp (wp_nameLoop start tok _ false false (by omega) hs (by bnd)) ?_
  rintro hd _ ⟨q, rfl, h1, h2⟩
  refine wp_from (by dsimp only; split <;> omega) h2 ?_
  wpr
  have := fun D => classify_ok (D := D) (tsp := s.tsp) (hd := hd) htok
    (infix_drop_take env.text (if tok = .variable then start + 1 else start)
      (q - if tok = .variable then start + 1 else start))
  refine ⟨⟨q, _, _, rfl, h1, h2, fun D => (this D).1, (this []).2.1, ?_⟩, (this []).2.2⟩
  have hne : tok ≠ .variable → SpeltAt env s.tsp (classify env tok hd _).1 (classify env tok hd _).2 := fun hv =>
    classify_spelled (env := env) (tsp := s.tsp) (hd := hd) (tok := tok)
      (w := (env.text.drop (if tok = .variable then start + 1 else start)).take
        (q - if tok = .variable then start + 1 else start))
      (htok.imp_right fun h => h.resolve_right fun h => hv h.1) (by
        rw [if_neg hv, htsp]
        exact List.take_prefix _ _)
  rcases htok with rfl | rfl | ⟨rfl, ht⟩
  · exact hne (by decide)
  · exact hne (by decide)
  · exact True.intro

theorem wp_skipDecimalDigits (hs : s.pos ≤ env.text.length) :
    wp env skipDecimalDigits (fun _ s' => ∃ q, s' = { s with pos := q } ∧ s.pos ≤ q ∧ q ≤ env.text.length)
      (EOK env) s := by
  unfold skipDecimalDigits
  wpr
  refine wp_peek (fun c n hc => ?_) (by bnd)
  dsimp only
  split
  · next h =>
    have h0 : c ≠ 0 := by omega
    have h1 := hc.le h0
    wpr
    refine wp_imp (wp_advWhile _ isDecimalDigit_zero _ (by bnd) (by bnd)) ?_
    rintro _ _ ⟨q, rfl, h2, h3, -⟩
    dsimp only at h2 h3
    exact ⟨q, rfl, by omega, by omega⟩
  · wpr
    refine wp_imp (wp_advWhile _ isDecimalDigit_zero _ (by omega) (by bnd)) ?_
    rintro _ _ ⟨q, rfl, h2, h3, -⟩
    exact ⟨q, rfl, by omega, by omega⟩

theorem wp_needDigits (hs : s.pos ≤ env.text.length) :
    wp env needDigits (fun _ s' => ∃ q, s' = { s with pos := q } ∧ s.pos ≤ q ∧ q ≤ env.text.length)
      (EOK env) s := by
  unfold needDigits
  wpr
  refine wp_imp (wp_skipDecimalDigits hs) ?_
  rintro ok _ ⟨q, rfl, h1, h2⟩
  split
  · wpr; exact ⟨q, rfl, h1, h2⟩
  · wpr; bnd

theorem wp_consumeFloat (start d : Nat) (hs : s.pos ≤ env.text.length) (hst : start ≤ s.pos) :
    wp env (consumeFloat start d) (fun _ s' => TokPost env s s' ∧ s'.tok = .float) (EOK env) s := by
  unfold consumeFloat
  wpr
  refine wp_imp (wp_needDigits hs) ?_
  rintro _ _ ⟨q, rfl, h1, h2⟩
  refine wp_peek (fun c n hc => ?_) (by bnd)
  dsimp only at hc ⊢
  have fin : ∀ (q' : Nat), q ≤ q' → q' ≤ env.text.length →
      wp env (from_ start) (fun t s' => TokPost env s
        { s' with tok := .float, val := .flt { neg := false, text := t } } ∧ True) (EOK env)
        { s with pos := q' } := by
    intro q' h3 h4
    refine wp_from (by bnd) h4 ?_
    exact ⟨⟨q', _, _, rfl, by omega, h4, fun D => ⟨_, rfl⟩, fun h => Tok.noConfusion h, True.intro⟩, trivial⟩
  split
  · next h =>
    have h0 : c ≠ 0 := by omega
    have h3 := hc.le h0
    wpr
    refine wp_imp (wp_needDigits (by bnd)) ?_
    rintro _ _ ⟨q', rfl, h4, h5⟩
    dsimp only at h4
    refine wp_peek (fun c n hc => ?_) (by bnd)
    dsimp only
    split
    · wpr; bnd
    · wpr; exact fin q' (by omega) h5
  · wpr
    split
    · wpr; bnd
    · wpr; exact fin q (by omega) h2

/-- Only the position moves, forward and inside of the text. -/
def MovePost (env : Env) {α : Type} (s : St) (_ : α) (s' : St) : Prop :=
  ∃ q, s' = { s with pos := q } ∧ s.pos ≤ q ∧ q ≤ env.text.length

theorem MovePost.trans {α β : Type} {a : α} {b : β} {t u : St} (h1 : MovePost env s a t) (h2 : MovePost env t b u) :
    MovePost env s b u := by
  obtain ⟨q, rfl, h3, h4⟩ := h1
  obtain ⟨q', rfl, h5, h6⟩ := h2
  exact ⟨q', rfl, Nat.le_trans h3 h5, h6⟩

theorem move_next {c n : Nat} (hs : s.pos ≤ env.text.length) (hc : Seen env s.pos c n) :
    MovePost env s () { s with pos := s.pos + n } := by
  refine ⟨s.pos + n, rfl, by omega, ?_⟩
  have := hc.bound
  omega

theorem wp_next_move (hs : s.pos ≤ env.text.length) :
    wp env next (fun cs s' => MovePost env s () s' ∧ cs.2 = s.pos ∧ Seen env s.pos cs.1 (s'.pos - s.pos)) (EOK env) s := by
  refine wp_next (fun c n hc => ?_) (by bnd)
  refine ⟨move_next hs hc, rfl, ?_⟩
  dsimp only
  rwa [show s.pos + n - s.pos = n by omega]

theorem wp_hexDigits (start k : Nat) (hs : s.pos ≤ env.text.length) (hst : start ≤ env.text.length) :
    wp env (hexDigits start k) (MovePost env s) (EOK env) s := by
  induction k generalizing s with
  | zero => unfold hexDigits; exact ⟨s.pos, rfl, Nat.le_refl _, hs⟩
  | succ k ih =>
    unfold hexDigits
    wpr
    refine wp_imp (wp_next_move hs) ?_
    rintro ⟨d, p⟩ _ ⟨⟨q, rfl, h1, h2⟩, -, -⟩
    dsimp only
    split
    · refine wp_imp (ih h2) ?_
      intro a s' h
      exact MovePost.trans (a := ()) ⟨q, rfl, h1, h2⟩ h
    · wpr; bnd

theorem wp_appendHexadec (hs : s.pos ≤ env.text.length) :
    wp env appendHexadec (MovePost env s) (EOK env) s := by
  unfold appendHexadec
  wpr
  refine wp_imp (wp_next_move hs) ?_
  rintro ⟨d, p⟩ _ ⟨⟨q, rfl, h1, h2⟩, h3, -⟩
  dsimp only at h3 ⊢
  split
  · wpr
    refine wp_imp (wp_next_move h2) ?_
    rintro ⟨d2, p2⟩ _ ⟨⟨q2, rfl, h4, h5⟩, -, -⟩
    dsimp only at h4 ⊢
    split
    · wpr
      refine wp_from (by bnd) h5 ?_
      exact ⟨q2, rfl, by omega, h5⟩
    · wpr; bnd
  · wpr
    refine wp_from (by bnd) h2 ?_
    exact ⟨q, rfl, h1, h2⟩

theorem wp_appendUnicode (hs : s.pos ≤ env.text.length) :
    wp env appendUnicode (MovePost env s) (EOK env) s := by
  unfold appendUnicode
  wpr
  refine wp_imp (wp_next_move hs) ?_
  rintro ⟨d, p⟩ _ ⟨⟨q, rfl, h1, h2⟩, h3, -⟩
  dsimp only at h3 ⊢
  split
  · wpr
    refine wp_imp (wp_hexDigits p 3 h2 (by omega)) ?_
    rintro _ _ ⟨q2, rfl, h4, h5⟩
    dsimp only at h4
    refine wp_from (by bnd) h5 ?_
    exact ⟨q2, rfl, by omega, h5⟩
  · split
    · wpr; bnd
    · wpr
      refine wp_imp (wp_advWhile _ isHexDigit_zero _ (by bnd) (by bnd)) ?_
      rintro ⟨c, n⟩ _ ⟨q2, rfl, h4, h5, hc, -⟩
      dsimp only at h4 h5 hc ⊢
      split
      · next h =>
        have h6 := hc.le (by omega)
        wpr
        refine wp_from (by bnd) (by bnd) ?_
        exact ⟨q2 + n, rfl, by omega, h6⟩
      · wpr; bnd

theorem wp_escapeHandler (h : Handler) (c : Nat) (hs : s.pos ≤ env.text.length) :
    wp env (escapeHandler h c) (MovePost env s) (EOK env) s := by
  have fin : ∀ (x : GoStr), MovePost env s x s := fun _ => ⟨s.pos, rfl, Nat.le_refl _, hs⟩
  unfold escapeHandler
  split
  · wpr; exact fin _
  · wpr; exact fin _
  · wpr
    repeat' split
    all_goals first
      | exact wp_appendUnicode hs
      | exact wp_appendHexadec hs
      | (wpr; exact fin _)

theorem wp_eppComment (f prev : Nat) (hs : s.pos ≤ env.text.length) (hf : env.text.length < f + s.pos) :
    wp env (eppComment f prev) (MovePost env s) (EOK env) s := by
  induction f generalizing s prev with
  | zero => omega
  | succ f ih =>
    unfold eppComment
    wpr
    refine wp_imp (wp_next_move hs) ?_
    rintro ⟨c, p⟩ _ ⟨⟨q, rfl, h1, h2⟩, h3, hc⟩
    dsimp only at h3 hc ⊢
    split
    · wpr; exact ⟨q, rfl, h1, h2⟩
    · next h0 =>
      have h4 := hc.ge h0
      have go : ∀ prev, wp env (eppComment f prev) (MovePost env s) (EOK env) { s with pos := q } := by
        intro prev
        refine wp_imp (ih prev h2 (by bnd)) ?_
        intro a s' h
        exact MovePost.trans (a := ()) ⟨q, rfl, h1, h2⟩ h
      split
      · wpr
        refine wp_peek (fun c2 n2 hc2 => ?_) (by bnd)
        dsimp only at hc2 ⊢
        split
        · next h =>
          have h5 := hc2.le (by omega)
          wpr
          exact ⟨q + n2, rfl, by omega, h5⟩
        · exact go _
      · exact go _

/-- No rune is seen only at the end and at a NUL byte. -/
theorem Seen.zero {p n : Nat} (h : Seen env p 0 n) : env.text.length ≤ p ∨ (0 : UInt8) ∈ env.text := by
  by_cases hp : env.text.length ≤ p
  · exact .inl hp
  have h1 := h.dec (by omega)
  have h2 := decode_valid (r := 0) h1 (by decide)
  obtain ⟨x, hx⟩ := h2.2.2
  refine .inr (List.mem_of_mem_drop (i := p) ?_)
  rw [hx, encodeRune_ascii (by decide)]
  simp

/-- What `consumeEPP` finds: without a tag, the end. -/
def EppPost (env : Env) (s : St) (a : GoStr × Bool) (s' : St) : Prop :=
  MovePost env s a s' ∧ (a.2 = false → env.text.length ≤ s'.pos ∨ (0 : UInt8) ∈ env.text)

theorem wp_eppText (f : Nat) (buf : GoStr) (last : Nat) (hs : s.pos ≤ env.text.length)
    (hf : env.text.length < f + s.pos) :
    wp env (eppText f buf last) (EppPost env s) (EOK env) s := by
  induction f generalizing s buf last with
  | zero => omega
  | succ f ih =>
    unfold eppText
    wpr
    refine wp_imp (wp_next_move hs) ?_
    rintro ⟨c, p⟩ _ ⟨⟨q, rfl, h1, h2⟩, h3, hc⟩
    dsimp only at h3 hc ⊢
    split
    · next h0 =>
      wpr; exact ⟨⟨q, rfl, h1, h2⟩, fun _ => by rw [h0] at hc; rcases hc.zero with h | h
                                                · exact .inl (by dsimp only; omega)
                                                · exact .inr h⟩
    next h0 =>
    have h4 := hc.ge h0
    have go : ∀ q' buf last, q ≤ q' → q' ≤ env.text.length →
        wp env (eppText f buf last) (EppPost env s) (EOK env) { s with pos := q' } := by
      intro q' buf last h5 h6
      refine wp_imp (ih buf last h6 (by bnd)) ?_
      intro a s' h
      exact ⟨MovePost.trans (a := ()) ⟨q', rfl, by omega, h6⟩ h.1, h.2⟩
    split
    · wpr
      refine wp_peek (fun c2 n2 hc2 => ?_) (by bnd)
      dsimp only at hc2 ⊢
      split
      · exact go q _ _ (by omega) h2
      · next h =>
        have h5 := hc2.le (by omega)
        wpr
        refine wp_peek (fun c3 n3 hc3 => ?_) (by bnd)
        dsimp only at hc3 ⊢
        split
        · next h' =>
          have h6 := hc3.le (by omega)
          wpr
          exact go _ _ _ (by omega) h6
        · split
          · next h' =>
            have h6 := hc3.le (by omega)
            wpr
            refine wp_imp (wp_eppComment _ _ (s := { s with pos := q + n2 + n3 }) h6 (by bnd)) ?_
            rintro found _ ⟨q2, rfl, h7, h8⟩
            dsimp only at h7
            split
            · exact go _ _ _ (by omega) h8
            · wpr; bnd
          · wpr
            exact ⟨⟨p, rfl, by omega, by omega⟩, fun h => (nomatch h)⟩
    · split
      · exact go q _ _ (by omega) h2
      · split
        · wpr
          refine wp_peek (fun c2 n2 hc2 => ?_) (by bnd)
          dsimp only at hc2 ⊢
          split
          · next h =>
            have h5 := hc2.le (by omega)
            wpr
            refine wp_peek (fun c3 n3 hc3 => ?_) (by bnd)
            dsimp only at hc3 ⊢
            split
            · next h' =>
              have h6 := hc3.le (by omega)
              wpr
              exact go _ _ _ (by omega) h6
            · exact go _ _ _ (by omega) h5
          · exact go q _ _ (by omega) h2
        · exact go q _ _ (by omega) h2

theorem wp_consumeBacktickedString (hs : s.pos ≤ env.text.length) :
    wp env consumeBacktickedString (fun _ s' => TokPost env s s') (EOK env) s := by
  unfold consumeBacktickedString
  wpr
  refine wp_imp (wp_advWhile _ (by decide) _ (by omega) (by bnd)) ?_
  rintro ⟨c, n⟩ _ ⟨q, rfl, h1, h2, hc, -⟩
  dsimp only at hc ⊢
  split
  · unfold unterminatedQuote; wpr; bnd
  · next h0 =>
    have h3 := hc.le h0
    wpr
    refine wp_from h1 (by bnd) ?_
    exact ⟨q + n, _, _, rfl, by omega, h3, fun D => ⟨_, rfl⟩, fun h => Tok.noConfusion h, True.intro⟩

theorem wp_extractFlags (start : Nat) (hs : s.pos ≤ env.text.length) (hst : start ≤ s.pos) :
    wp env (extractFlags start) (fun _ s' => s' = s) (EOK env) s := by
  unfold extractFlags
  wpr
  refine wp_from hst hs ?_
  split
  · wpr
  · wpr; bnd

theorem wp_withTag (h : HDecl) (start : Nat) (hs : s.pos ≤ env.text.length) (hst : start ≤ s.pos) :
    wp env (h.withTag start) (fun h' s' => s' = s ∧ ∃ t, h' = { h with tag := t }) (EOK env) s := by
  unfold HDecl.withTag
  split
  · wpr
    refine wp_from hst hs ?_
    exact ⟨rfl, _, rfl⟩
  · exact ⟨rfl, h.tag, rfl⟩

end
end PP
