import Verif.Lemmas.LexChars

/-! # Heredocs: the functions that do not call the parser -/
namespace PP

section
variable {env : Env} {s : St}

/-- The positions in the declaration are behind us. -/
def HOk (h : HDecl) (p : Nat) : Prop :=
  (∀ k, h.syntaxStart = some k → k ≤ p) ∧ (∀ k, h.escapeStart = some k → k ≤ p)

theorem HOk.le {h : HDecl} {p q : Nat} (hh : HOk h p) (hpq : p ≤ q) : HOk h q :=
  ⟨fun k hk => Nat.le_trans (hh.1 k hk) hpq, fun k hk => Nat.le_trans (hh.2 k hk) hpq⟩

theorem wp_findTagEnd (start f : Nat) (h : HDecl) (hs : s.pos ≤ env.text.length) (hst : start ≤ s.pos)
    (hf : env.text.length < f + s.pos) (hh : HOk h s.pos) :
    wp env (findTagEnd start f h) (fun _ s' => ∃ q, s' = { s with pos := q } ∧ s.pos < q ∧ q ≤ env.text.length)
      (EOK env) s := by
  induction f generalizing s h with
  | zero => omega
  | succ f ih =>
    unfold findTagEnd
    wpr
    refine wp_peek (fun c n hc => ?_) (by bnd)
    dsimp only
    split
    · wpr; bnd
    next h0 =>
    have hle := hc.le (by omega)
    have hge := hc.ge (by omega)
    have go : ∀ (q : Nat) (h : HDecl), s.pos < q → q ≤ env.text.length → HOk h q →
        wp env (findTagEnd start f h) (fun _ s' => ∃ q, s' = { s with pos := q } ∧ s.pos < q ∧ q ≤ env.text.length)
          (EOK env) { s with pos := q } := by
      intro q h h1 h2 h3
      refine wp_imp (ih h (s := { s with pos := q }) h2 (by bnd) (by bnd) h3) ?_
      rintro _ _ ⟨q', rfl, h4, h5⟩
      dsimp only at h4
      exact ⟨q', rfl, by omega, h5⟩
    split
    · have step3 : ∀ h : HDecl, wp env (h.withTag start >>= fun h => advance n >>= fun _ => pure h)
          (fun _ s' => ∃ q, s' = { s with pos := q } ∧ s.pos < q ∧ q ≤ env.text.length) (EOK env) s := by
        intro h
        wpr
        refine wp_imp (wp_withTag h start hs hst) ?_
        rintro _ _ ⟨rfl, -⟩
        exact ⟨_, rfl, by omega, by omega⟩
      have step2 : ∀ h : HDecl, HOk h s.pos → wp env (match h.escapeStart with
          | some p => do
            let fl ← extractFlags p
            let h ← HDecl.withTag { h with flags := some fl } start
            advance n
            pure h
          | none => do
            let h ← h.withTag start
            advance n
            pure h)
          (fun _ s' => ∃ q, s' = { s with pos := q } ∧ s.pos < q ∧ q ≤ env.text.length) (EOK env) s := by
        intro h hh
        split
        · next p hp =>
          rw [wp_bind]
          refine wp_imp (wp_extractFlags p hs (hh.2 p hp)) ?_
          rintro fl _ rfl
          exact step3 _
        · exact step3 _
      split
      · next p hp =>
        rw [wp_bind]
        refine wp_from (hh.1 p hp) hs ?_
        exact step2 { h with syntx := _ } hh
      · exact step2 h hh
    · split
      · split
        · wpr; bnd
        · wpr
          refine wp_imp (wp_withTag h start hs hst) ?_
          rintro _ s2 ⟨hs2, t, rfl⟩
          rw [hs2]
          exact go (s.pos + n) _ (by omega) hle ⟨by intro k hk; cases hk; exact Nat.le_refl _, (hh.le (by omega)).2⟩
      · split
        · split
          · wpr; bnd
          · split
            · rw [wp_bind]
              refine wp_imp (wp_withTag h start hs hst) ?_
              rintro _ s2 ⟨hs2, t, rfl⟩
              rw [hs2]
              exact go (s.pos + n) _ (by omega) hle ⟨(hh.le (by omega)).1, by intro k hk; cases hk; exact Nat.le_refl _⟩
            · split
              · next p hp =>
                rw [wp_bind]
                refine wp_from (hh.1 p hp) hs ?_
                exact go (s.pos + n) _ (by omega) hle ⟨(by intro k hk; cases hk), by intro k hk; cases hk; exact Nat.le_refl _⟩
              · exact go (s.pos + n) _ (by omega) hle ⟨(hh.le (by omega)).1, by intro k hk; cases hk; exact Nat.le_refl _⟩
        · split
          · split
            · wpr; bnd
            · wpr
              refine wp_imp (wp_advWhile _ (by decide) _ (by bnd) (by bnd)) ?_
              rintro ⟨c2, n2⟩ _ ⟨q, rfl, h1, h2, hc2, -⟩
              dsimp only at h1 h2 hc2 ⊢
              split
              · wpr; bnd
              · have := hc2.le (by omega)
                have := hc2.ge (by omega)
                wpr
                split
                · wpr; bnd
                · wpr
                  refine wp_from h1 (by bnd) ?_
                  exact go (q + n2) _ (by omega) (by omega) (hh.le (by omega))
          · exact go (s.pos + n) _ (by omega) hle (hh.le (by omega))

/-- The text starts behind the declaration, or where the pending heredoc ends. -/
def TextStart (env : Env) (s : St) (_ : Unit) (s' : St) : Prop :=
  ∃ q, s' = { s with pos := q, nls := none } ∧ q ≤ env.text.length + 1 ∧
    ((s.nls = none ∧ s.pos < q) ∨ s.nls = some q)

theorem wp_findStartOfText (hs f c sz : Nat) (h : c ≠ 0 → s.pos + sz ≤ env.text.length + 1 ∧ 1 ≤ sz ∧ (c < 128 → sz = 1))
    (hhs : hs ≤ env.text.length) (hp : s.pos ≤ env.text.length + 1)
    (hn : ∀ k, s.nls = some k → k ≤ env.text.length + 1)
    (hf : 1 ≤ f) (hf' : c ≠ 0 → c ≠ 10 → env.text.length + 3 ≤ f + s.pos) :
    wp env (findStartOfText hs f c sz) (TextStart env s) (EOK env) s := by
  induction f generalizing s c sz with
  | zero => omega
  | succ f ih =>
    unfold findStartOfText
    have go : ∀ (q c sz : Nat), s.pos ≤ q → q ≤ env.text.length + 1 →
        (c ≠ 0 → q + sz ≤ env.text.length + 1 ∧ 1 ≤ sz ∧ (c < 128 → sz = 1)) → 1 ≤ f →
        (c ≠ 0 → c ≠ 10 → env.text.length + 3 ≤ f + q) →
        wp env (findStartOfText hs f c sz) (TextStart env s) (EOK env) { s with pos := q } := by
      intro q c sz h1 h2 h3 h4 h5
      refine wp_imp (ih (s := { s with pos := q }) c sz h3 h2 hn h4 h5) ?_
      rintro _ _ ⟨q', rfl, h6, h7⟩
      refine ⟨q', rfl, h6, ?_⟩
      rcases h7 with ⟨h7, h8⟩ | h7
      · exact .inl ⟨h7, Nat.lt_of_le_of_lt h1 h8⟩
      · exact .inr h7
    have skip : ∀ sz, sz = 1 → 1 ≤ f → env.text.length + 3 ≤ f + 1 + s.pos →
        wp env (skipWhite true >>= fun cs => findStartOfText hs f cs.1 sz) (TextStart env s) (EOK env) s := by
      intro sz h2 h3 h4
      rw [wp_bind]
      refine wp_imp (wp_skipWhite true hp hn) ?_
      rintro ⟨c', st⟩ _ ⟨n, k, b, h5, rfl, h7, h8, h9, h10, -⟩
      obtain ⟨rfl, rfl, h11⟩ := h10 rfl
      dsimp only at h5 h8 h11 ⊢
      by_cases hc0 : c' = 0
      · subst hc0
        rw [if_neg (by simp)]
        have := h5.bound
        exact go _ _ _ (by omega) (by omega) (by intro h; exact absurd rfl h) h3 (by intro h; exact absurd rfl h)
      · have h12 := h5.le hc0
        have h13 := h5.ge hc0
        by_cases hc1 : c' = 10
        · rw [if_pos ⟨rfl, hc1⟩]
          exact go _ _ _ h11 h8 (by intro _; omega) h3 (by intro _ h; exact absurd hc1 h)
        · rw [if_neg (fun h => hc1 h.2)]
          exact go _ _ _ (by omega) (by omega) (by intro _; omega) h3 (by intro _ _; omega)
    split
    · wpr; bnd
    next h0 =>
    obtain ⟨h1, h2, h3⟩ := h h0
    split
    · next h35 =>
      have := hf' h0 (by omega)
      exact skip sz (h3 (by omega)) (by omega) (by omega)
    split
    · next h35 h47 =>
      have h4 := hf' h0 (by omega)
      have h5 := h3 (by omega)
      subst h5
      wpr
      refine wp_next (fun c2 n2 hc2 => ?_) (by bnd)
      dsimp only at hc2 ⊢
      have := hc2.bound
      split
      · exact skip 1 rfl (by omega) (by omega)
      · refine go _ _ _ (by omega) (by omega) ?_ (by omega) (by omega)
        intro hc0
        have := hc2.le hc0
        omega
    split
    · next h10 =>
      wpr
      split
      · next p hp =>
        exact ⟨p, rfl, hn p hp, .inr hp⟩
      · next hp =>
        refine ⟨s.pos + sz, ?_, h1, .inl ⟨hp, by omega⟩⟩
        rw [← hp]
    · next h10 =>
      wpr
      have h4 := hf' h0 h10
      refine wp_peek (fun c2 n2 hc2 => ?_) (by bnd)
      dsimp only at hc2 ⊢
      refine go _ _ _ (by omega) (by omega) ?_ (by omega) (by omega)
      intro hc0
      have := hc2.le hc0
      have := hc2.ge hc0
      exact ⟨by omega, by omega, fun h => hc2.one hc0 h⟩

/-- `pos` is just behind the rune `c` at `n`. -/
def Behind (env : Env) (n c pos : Nat) : Prop := ∃ w, Seen env n c w ∧ pos = n + w

theorem wp_lit (hs : s.pos ≤ env.text.length + 1) :
    wp env skipWhiteInLiteral (fun cs s' => ∃ q, s' = { s with pos := q } ∧ Behind env cs.2 cs.1 q ∧ s.pos ≤ cs.2 ∧
      cs.2 ≤ max s.pos env.text.length ∧ q ≤ env.text.length + 1) (EOK env) s := by
  refine wp_imp (wp_skipWhiteInLiteral hs) ?_
  rintro ⟨c, p⟩ _ ⟨w, h1, rfl, h2, h3⟩
  dsimp only at h1 h2 h3 ⊢
  have := h1.bound
  exact ⟨_, rfl, ⟨w, h1, rfl⟩, h2, h3, by omega⟩

theorem wp_marginOf (lineStart c n : Nat) (sup : Bool) (ind : Nat) (hs : s.pos ≤ env.text.length + 1)
    (hb : Behind env n c s.pos) :
    wp env (marginOf lineStart c n sup ind) (fun r s' => ∃ q, s' = { s with pos := q } ∧ Behind env r.2.1 r.1 q ∧
      n ≤ r.2.1 ∧ s.pos ≤ q ∧ q ≤ env.text.length + 1) (EOK env) s := by
  obtain ⟨w, h1, h2⟩ := hb
  unfold marginOf
  split
  · wpr
    refine wp_imp (wp_lit hs) ?_
    rintro ⟨c2, n2⟩ _ ⟨q, rfl, ⟨w2, h3, rfl⟩, h4, h5, h6⟩
    dsimp only at h3 h4 ⊢
    split
    · wpr
      refine wp_imp (wp_lit (by bnd)) ?_
      rintro ⟨c3, n3⟩ _ ⟨q, rfl, ⟨w3, h7, rfl⟩, h8, h9, h10⟩
      dsimp only at h7 h8 ⊢
      exact ⟨_, rfl, ⟨w3, h7, rfl⟩, by omega, by omega, by omega⟩
    · exact ⟨_, rfl, ⟨w2, h3, rfl⟩, by bnd, by bnd, by bnd⟩
  · split
    · wpr
      refine wp_imp (wp_lit hs) ?_
      rintro ⟨c2, n2⟩ _ ⟨q, rfl, ⟨w2, h3, rfl⟩, h4, h5, h6⟩
      dsimp only at h3 h4 ⊢
      exact ⟨_, rfl, ⟨w2, h3, rfl⟩, by omega, by omega, by omega⟩
    · exact ⟨s.pos, rfl, ⟨w, h1, h2⟩, by bnd, by bnd, by bnd⟩

theorem contentEndOf_ok {text : GoStr} {ls : Nat} {sup : Bool} (h1 : 2 ≤ ls) (h2 : ls ≤ text.length) :
    ∃ ce, contentEndOf text ls sup = some ce ∧ (ls : Int) - 2 ≤ ce ∧ ce ≤ ls := by
  unfold contentEndOf
  split
  · rw [List.getElem?_eq_getElem (show ls - 2 < text.length by omega)]
    refine ⟨_, rfl, ?_⟩
    split <;> omega
  · exact ⟨_, rfl, by omega, by omega⟩

/-- The text ends at most two bytes before its start and the end tag is in the text. -/
def TextEnd (env : Env) (cs : Nat) (s : St) (e : HEnd) (s' : St) : Prop :=
  (∃ q, s' = { s with pos := q }) ∧ (cs : Int) - 2 ≤ e.contentEnd ∧ e.contentEnd ≤ e.heredocEnd ∧
    cs ≤ e.heredocEnd ∧ e.heredocEnd ≤ env.text.length

theorem wp_findEndOfText (hs cs : Nat) (tag : GoStr) (f c : Nat) (sup : Bool) (ind : Nat)
    (hhs : hs ≤ env.text.length) (hcs : cs ≤ s.pos) (hcs2 : 2 ≤ cs) (htag : 1 ≤ tag.length)
    (hp : s.pos ≤ env.text.length + 1) (hf : 1 ≤ f) (hf' : c ≠ 0 → env.text.length + 3 ≤ f + s.pos) :
    wp env (findEndOfText hs tag f c sup ind) (TextEnd env cs s) (EOK env) s := by
  induction f generalizing s c sup ind with
  | zero => omega
  | succ f ih =>
    unfold findEndOfText
    have go : ∀ (q c : Nat) sup ind, s.pos ≤ q → q ≤ env.text.length + 1 → 1 ≤ f →
        (c ≠ 0 → env.text.length + 3 ≤ f + q) →
        wp env (findEndOfText hs tag f c sup ind) (TextEnd env cs s) (EOK env) { s with pos := q } := by
      intro q c sup ind h1 h2 h3 h4
      refine wp_imp (ih (s := { s with pos := q }) c sup ind (by bnd) h2 h3 h4) ?_
      rintro e _ ⟨⟨q', rfl⟩, h5⟩
      exact ⟨⟨q', rfl⟩, h5⟩
    split
    · wpr; bnd
    next h0 =>
    have hf2 := hf' h0
    split
    · wpr
      refine wp_imp (wp_lit hp) ?_
      rintro ⟨c1, n1⟩ _ ⟨q1, rfl, hb1, h1, h2, h3⟩
      dsimp only at hb1 h1 h2 h3 ⊢
      split
      · wpr; bnd
      next hc1 =>
      have hq1 : s.pos < q1 := by
        obtain ⟨w, h4, rfl⟩ := hb1
        have := h4.ge hc1
        omega
      wpr
      refine wp_imp (wp_marginOf s.pos c1 n1 sup ind h3 hb1) ?_
      rintro ⟨c2, n2, sup2, ind2⟩ _ ⟨q2, rfl, hb2, h4, h5, h6⟩
      dsimp only at hb2 h4 h5 h6 ⊢
      split
      · exact go _ _ _ _ (by omega) (by omega) (by omega) (by omega)
      · split
        · next hm =>
          wpr
          refine wp_imp (wp_lit (by bnd)) ?_
          rintro ⟨c3, n3⟩ _ ⟨q3, rfl, hb3, h7, h8, h9⟩
          dsimp only at hb3 h7 h8 h9 ⊢
          have : n3 ≤ q3 := by
            obtain ⟨w, h4, rfl⟩ := hb3
            omega
          split
          · obtain ⟨ce, h10, h11, h12⟩ := contentEndOf_ok (text := env.text) (ls := s.pos) (sup := sup2)
              (by omega) (by omega)
            rw [h10]
            exact ⟨⟨q3, rfl⟩, by dsimp only; omega, by dsimp only; omega, by dsimp only; omega, by dsimp only; omega⟩
          · exact go _ _ _ _ (by omega) (by omega) (by omega) (by omega)
        · exact go _ _ _ _ (by omega) (by omega) (by omega) (by omega)
    · wpr
      refine wp_next (fun c2 n2 hc2 => ?_) (by bnd)
      dsimp only
      have := hc2.bound
      refine go _ _ _ _ (by omega) (by omega) (by omega) ?_
      intro h
      have := hc2.ge h
      omega

theorem wp_stripIndentLoop (start k : Nat) (h1 : start ≤ s.pos) (hs : s.pos ≤ env.text.length + 1) :
    wp env (stripIndentLoop start k) (fun _ s' => ∃ q, s' = { s with pos := q } ∧ start ≤ q ∧
      q ≤ env.text.length + 1) (EOK env) s := by
  induction k generalizing s with
  | zero => unfold stripIndentLoop; exact ⟨s.pos, rfl, h1, hs⟩
  | succ k ih =>
    unfold stripIndentLoop
    wpr
    refine wp_peek (fun c n hc => ?_) (by bnd)
    dsimp only
    split
    · have := hc.bound
      wpr
      refine wp_imp (ih (s := { s with pos := s.pos + n }) (by bnd) (by bnd)) ?_
      rintro _ _ ⟨q, rfl, h⟩
      exact ⟨q, rfl, h⟩
    · exact ⟨start, rfl, Nat.le_refl _, by omega⟩

theorem wp_stripIndent (k : Nat) (hs : s.pos ≤ env.text.length + 1) :
    wp env (stripIndent k) (fun _ s' => ∃ q, s' = { s with pos := q } ∧ s.pos ≤ q ∧
      q ≤ env.text.length + 1) (EOK env) s := by
  unfold stripIndent
  wpr
  exact wp_stripIndentLoop s.pos k (Nat.le_refl _) hs

/-- An ASCII character is its byte. -/
theorem Seen.byte {p c n : Nat} (h : Seen env p c n) (h0 : c ≠ 0) (h1 : c < 128) :
    env.text.drop p = UInt8.ofNat c :: env.text.drop (p + 1) := by
  have h2 := h.dec (h.lt h0)
  obtain ⟨t, ht⟩ := (decode_valid h2 (by simp only [runeError]; omega)).2.2
  rw [encodeRune_ascii h1] at ht
  rw [ht, ← List.drop_drop, ht]
  rfl

theorem reads_one {p c n : Nat} (h : Seen env p c n) (h0 : c ≠ 0) (h1 : c < 128) :
    ReadsAt env.text p [c.toUInt8] := by
  unfold ReadsAt
  rw [h.byte h0 h1]
  exact ⟨_, rfl⟩

theorem reads_more {p c n : Nat} {w : GoStr} (hw : ReadsAt env.text p w) (h : Seen env (p + w.length) c n) (h0 : c ≠ 0)
    (h1 : c < 128) : ReadsAt env.text p (w ++ [c.toUInt8]) := by
  unfold ReadsAt at *
  obtain ⟨r, hr⟩ := hw
  have h2 : env.text.drop (p + w.length) = r := by
    rw [← List.drop_drop, ← hr, List.drop_left]
  rw [h.byte h0 h1] at h2
  exact ⟨env.text.drop (p + w.length + 1), by rw [← hr, ← h2]; simp⟩

theorem dollar_brace {p n m : Nat} (h1 : Seen env p 36 n) (h2 : Seen env (p + 1) 123 m) : b!"${" <:+: env.text := by
  have := reads_more (reads_one h1 (by decide) (by decide)) h2 (by decide) (by decide)
  exact (List.IsPrefix.isInfix this).trans (List.drop_suffix _ _).isInfix

theorem at_paren {p n m : Nat} (h1 : Seen env p 64 n) (h2 : Seen env (p + 1) 40 m) : b!"@(" <:+: env.text := by
  have h3 := h1.byte (by omega) (by omega)
  rw [h2.byte (by omega) (by omega)] at h3
  refine ⟨env.text.take p, env.text.drop (p + 1 + 1), ?_⟩
  have h4 := List.take_append_drop p env.text
  rw [h3] at h4
  rw [List.append_assoc]
  exact h4

end
end PP
