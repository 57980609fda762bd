import Verif.Lemmas.Text1

/-! # Strings in results are UTF-8: the lexer -/
namespace PP.Vt
open PP PP.Props

section
variable {env : Env} {α β : Type} {s : St}

/-! ## Positions -/

theorem Tr.advWhile (p : Nat → Bool) (f : Nat) : Tr env s (PP.advWhile p f) (fun cw t => Seg env s.pos t.pos ∧ Saw env t.pos cw) := by
  induction f generalizing s with
  | zero => exact Tr.timeout
  | succ f ih =>
    unfold PP.advWhile
    refine Tr.bind Tr.peek fun cw t ⟨ht, hw⟩ => ?_
    subst ht
    refine Tr.ite (fun _ => ?_) (fun _ => ?_)
    · refine Tr.bind Tr.advance fun _ u hu => ?_
      exact (ih (s := u)).weak fun cw v hv => ⟨(hu ▸ hw.seg).trans hv.1, hv.2⟩
    · exact Tr.pure ⟨.refl, hw⟩

theorem Tr.skipDecimalDigits : Tr env s PP.skipDecimalDigits (fun _ t => Seg env s.pos t.pos) := by
  unfold PP.skipDecimalDigits
  refine Tr.bind Tr.getEnv fun e t ⟨_, ht⟩ => ?_
  subst ht
  refine Tr.bind Tr.peek fun cw t ⟨ht, hw⟩ => ?_
  subst ht
  dsimp only
  have rest : ∀ u : St, Seg env t.pos u.pos → Tr env u (do
      let p ← PP.getPos
      let _ ← PP.advWhile isDecimalDigit (charFuel e)
      let p' ← PP.getPos
      Pure.pure (decide (p < p'))) (fun _ v => Seg env t.pos v.pos) := by
    intro u hu
    refine Tr.bind Tr.getPos fun p v ⟨_, hv⟩ => ?_
    subst hv
    refine Tr.bind (Tr.advWhile _ _) fun _ w hw => ?_
    refine Tr.bind Tr.getPos fun p' x ⟨_, hx⟩ => ?_
    subst hx
    exact Tr.pure (hu.trans hw.1)
  split
  · refine Tr.bind (Q := fun _ u => Seg env t.pos u.pos) (Tr.advance.weak fun _ u hu => hu ▸ hw.seg) fun _ u hu => rest u hu
  · exact rest t .refl

theorem Tr.dashLoop {f i : Nat} (hi : Seg env s.pos i) : Tr env s (PP.dashLoop f i) (fun _ t => Seg env s.pos t.pos) := by
  induction f generalizing i with
  | zero => exact Tr.timeout
  | succ f ih =>
    unfold PP.dashLoop
    refine Tr.bind Tr.peekAt fun cw t ⟨ht, hw⟩ => ?_
    subst ht
    dsimp only
    refine Tr.ite (fun _ => ?_) (fun _ => Tr.ite (fun _ => ?_) (fun _ => ?_))
    · exact Tr.bind Tr.setPos fun _ u hu => Tr.pure (hu ▸ hi.trans hw.seg)
    · exact Tr.pure .refl
    · exact ih (hi.trans hw.seg)

theorem Tr.nameLoop {start : Nat} {tok : Tok} {f : Nat} {a b : Bool} : Tr env s (PP.nameLoop start tok f a b) (fun _ t => Seg env s.pos t.pos) := by
  induction f generalizing s a b with
  | zero => exact Tr.timeout
  | succ f ih =>
    unfold PP.nameLoop
    refine Tr.bind Tr.getEnv fun e t0 ⟨_, ht⟩ => ?_
    subst ht
    refine Tr.bind (Tr.advWhile _ _) fun cw t ⟨h1, hw⟩ => ?_
    refine Tr.ite (fun _ => ?_) (fun _ => Tr.ite (fun _ => ?_) (fun _ => ?_))
    · refine Tr.bind Tr.getPos fun p u ⟨hp, hu⟩ => ?_
      subst hp hu
      refine Tr.bind (Tr.dashLoop hw.seg) fun _ v hv => Tr.ite (fun _ => ?_) (fun _ => ?_)
      · exact ih.weak fun _ x hx => (h1.trans hv).trans hx
      · exact Tr.pure (h1.trans hv)
    · exact Tr.pure h1
    · refine Tr.bind Tr.getPos fun p u ⟨hp, hu⟩ => ?_
      subst hp hu
      refine Tr.bind Tr.advance fun _ v hv => ?_
      refine Tr.bind Tr.peek fun cw2 v' ⟨hv', hw2⟩ => ?_
      subst hv'
      have h2 : Seg env t0.pos v'.pos := h1.trans (hv ▸ hw.seg)
      try dsimp only
      refine Tr.ite (fun _ => ?_) (fun _ => ?_)
      · exact Tr.bind Tr.setPos fun _ x hx => Tr.pure (hx ▸ h1)
      · refine Tr.bind Tr.advance fun _ x hx => ?_
        refine Tr.bind Tr.peek fun cw3 x' ⟨hx', hw3⟩ => ?_
        subst hx'
        have h3 : Seg env t0.pos x'.pos := h2.trans (hx ▸ hw2.seg)
        try dsimp only
        refine Tr.ite (fun _ => ?_) (fun _ => ?_)
        · refine Tr.bind Tr.advance fun _ y hy => ?_
          exact ih.weak fun _ z hz => (h3.trans (hy ▸ hw3.seg)).trans hz
        · exact Tr.bind Tr.setPos fun _ _ _ => Tr.issue

theorem classify_val (t : Tok) (d : Bool) (w : GoStr) (h : V w) : VOK (classify env t d w).2 := by
  unfold classify
  repeat' split
  all_goals first | exact h | trivial

theorem Tr.consumeQualifiedName {start : Nat} {tok : Tok} (h : Seg env (if tok = .variable then start + 1 else start) s.pos) :
    Tr env s (PP.consumeQualifiedName start tok) (fun _ _ => True) := by
  unfold PP.consumeQualifiedName
  refine Tr.bind Tr.getEnv fun e t ⟨he, ht⟩ => ?_
  subst he ht
  refine Tr.bind Tr.nameLoop fun d u hu => ?_
  refine Tr.bind Tr.from_ fun w v ⟨hv, hw⟩ => ?_
  subst hv
  exact (Ok.setTokenValue (classify_val _ _ _ (hw (h.trans hu)))).tr

/-- A position where a character was read. -/
def At (env : Env) (cp : Nat × Nat) (t : St) : Prop := ∃ n, Saw env cp.2 (cp.1, n) ∧ t.pos = cp.2 + n

theorem At.seg {cp : Nat × Nat} {t : St} (h : At env cp t) : Seg env cp.2 t.pos := by
  obtain ⟨n, h1, h2⟩ := h
  exact h2 ▸ h1.seg
theorem At.one {cp : Nat × Nat} {t : St} (h : At env cp t) (h0 : cp.1 ≠ 0) (h1 : cp.1 < 128) :
    t.pos = cp.2 + 1 ∧ env.text[cp.2]? = some (UInt8.ofNat cp.1) := by
  obtain ⟨n, h2, h3⟩ := h
  obtain ⟨h4, h5⟩ := h2.asc h0 h1
  dsimp only at h4
  exact ⟨h4 ▸ h3, h5⟩

theorem Tr.nextAt : Tr env s PP.next (fun cp t => cp.2 = s.pos ∧ At env cp t) :=
  Tr.next.weak fun cp t ⟨h1, n, h2, h3⟩ => ⟨h1, n, h1 ▸ h2, h1 ▸ h3⟩

theorem Tr.skipWhiteLoop {f : Nat} {c : Cmt} {p : Nat} : Tr env s (PP.skipWhiteLoop false f c p) (At env) := by
  induction f generalizing s c p with
  | zero => exact Tr.timeout
  | succ f ih =>
    unfold PP.skipWhiteLoop
    refine Tr.bind Tr.nextAt fun cp t ⟨h1, h2⟩ => ?_
    dsimp only
    have jmp : ∀ {x : P Unit} {c : Cmt} {p : Nat}, Ok env x (fun _ => True) → Tr env t (x >>= fun _ => PP.skipWhiteLoop false f c p) (At env) :=
      fun hx => Tr.bind hx.tr fun _ _ _ => ih
    refine Tr.ite (fun _ => ?_) (fun _ => Tr.ite (fun _ => ?_) (fun _ => Tr.ite (fun _ => ?_) (fun _ => Tr.ite (fun _ => ?_)
      (fun _ => Tr.ite (fun _ => ?_) (fun _ => Tr.ite (fun _ => ih) (fun _ => Tr.ite (fun _ => Tr.pure h2) (fun _ => ih)))))))
    · exact Tr.ite (fun _ => Tr.bind Tr.setPos fun _ _ _ => Tr.issue) (fun _ => Tr.pure h2)
    · exact Tr.ite (fun _ => ih) (fun _ => Tr.ite (fun h => nomatch h) (fun _ => jmp Ok.newLine))
    · exact Tr.ite (fun _ => ih) (fun _ => ih)
    · refine Tr.ite (fun _ => Tr.bind Tr.peek fun cw u ⟨hu, _⟩ => ?_) (fun _ => ih)
      subst hu
      exact Tr.ite (fun _ => jmp Ok.advance) (fun _ => Tr.pure h2)
    · refine Tr.ite (fun _ => ih) (fun _ => Tr.ite (fun _ => Tr.bind Tr.peek fun cw u ⟨hu, _⟩ => ?_) (fun _ => Tr.pure h2))
      subst hu
      exact Tr.ite (fun _ => jmp Ok.advance) (fun _ => ih)

theorem Tr.skipWhite : Tr env s (PP.skipWhite false) (At env) := by
  unfold PP.skipWhite
  exact Tr.bind Tr.getEnv fun _ _ _ => Tr.skipWhiteLoop

theorem Tr.skipWhiteInLiteralLoop {f : Nat} :
    Tr env s (PP.skipWhiteInLiteralLoop f) (fun cp t => Seg env s.pos cp.2 ∧ At env cp t) := by
  induction f generalizing s with
  | zero => exact Tr.timeout
  | succ f ih =>
    unfold PP.skipWhiteInLiteralLoop
    refine Tr.bind Tr.nextAt fun cp t ⟨h1, h2⟩ => ?_
    dsimp only
    refine Tr.ite (fun _ => ?_) (fun _ => Tr.pure ⟨h1 ▸ .refl, h2⟩)
    exact ih.weak fun _ u hu => ⟨(h1 ▸ h2.seg).trans hu.1, hu.2⟩

theorem Tr.skipWhiteInLiteral : Tr env s PP.skipWhiteInLiteral (fun cp t => Seg env s.pos cp.2 ∧ At env cp t) := by
  unfold PP.skipWhiteInLiteral
  refine Tr.bind Tr.getEnv fun _ t ⟨_, ht⟩ => ?_
  subst ht
  exact Tr.skipWhiteInLiteralLoop

/-! ## Heredocs -/

theorem Tr.marginOf {ls c n p0 indent : Nat} {b : Bool} (hp : Seg env p0 n) (h : At env (c, n) s) :
    Tr env s (PP.marginOf ls c n b indent) (fun r t => Seg env p0 r.2.1 ∧ At env (r.1, r.2.1) t) := by
  have go : ∀ {u : St} {f : Nat × Nat → Nat × Nat × Bool × Nat}, (∀ x, (f x).1 = x.1 ∧ (f x).2.1 = x.2) → Seg env p0 u.pos →
      Tr env u (PP.skipWhiteInLiteral >>= fun cp => Pure.pure (f cp)) (fun r t => Seg env p0 r.2.1 ∧ At env (r.1, r.2.1) t) := by
    intro u f hf hu
    refine Tr.bind Tr.skipWhiteInLiteral fun cp v ⟨h1, h2⟩ => Tr.pure ?_
    rw [(hf cp).1, (hf cp).2]
    exact ⟨hu.trans h1, h2⟩
  unfold PP.marginOf
  refine Tr.ite (fun _ => ?_) (fun _ => Tr.ite (fun _ => ?_) (fun _ => Tr.pure ⟨hp, h⟩))
  · refine Tr.bind Tr.skipWhiteInLiteral fun cp v ⟨h1, h2⟩ => ?_
    dsimp only
    have hv : Seg env p0 cp.2 := (hp.trans h.seg).trans h1
    refine Tr.ite (fun _ => ?_) (fun _ => Tr.pure ⟨hv, h2⟩)
    exact go (f := fun cp => (cp.1, cp.2, true, n - ls)) (fun _ => ⟨rfl, rfl⟩) (hv.trans h2.seg)
  · exact go (f := fun cp => (cp.1, cp.2, true, indent)) (fun _ => ⟨rfl, rfl⟩) (hp.trans h.seg)

theorem Tr.findEndOfText {hs cs f c indent : Nat} {tag : GoStr} {b : Bool} (htag : V tag) (hp : Seg env cs s.pos)
    (hc : c = c%'\n' → s.pos = cs ∨ ∃ q, s.pos = q + 1 ∧ env.text[q]? = some 10) :
    Tr env s (PP.findEndOfText hs tag f c b indent) (fun e _ => (cs : Int) ≤ e.contentEnd → Seg env cs e.contentEnd.toNat) := by
  induction f generalizing s c b indent with
  | zero => exact Tr.timeout
  | succ f ih =>
    have again : ∀ {cp : Nat × Nat} {u : St} {b : Bool} {i : Nat}, Seg env cs cp.2 → At env cp u →
        Tr env u (PP.findEndOfText hs tag f cp.1 b i) (fun e _ => (cs : Int) ≤ e.contentEnd → Seg env cs e.contentEnd.toNat) := by
      intro cp u b i h1 h2
      refine ih (h1.trans h2.seg) fun hn => .inr ?_
      obtain ⟨h3, h4⟩ := h2.one (by rw [hn]; decide) (by rw [hn]; decide)
      exact ⟨cp.2, h3, by rw [h4, hn]; rfl⟩
    unfold PP.findEndOfText
    refine Tr.ite (fun _ => Tr.issueAt) (fun _ => Tr.ite (fun hn => ?_) (fun _ => ?_))
    · refine Tr.bind Tr.getEnv fun e t ⟨he, ht⟩ => ?_
      subst he ht
      refine Tr.bind Tr.getPos fun p t' ⟨hpp, ht⟩ => ?_
      subst hpp ht
      refine Tr.bind Tr.skipWhiteInLiteral fun cp u ⟨h1, h2⟩ => ?_
      try dsimp only
      refine Tr.ite (fun _ => Tr.issueAt) (fun _ => ?_)
      refine Tr.bind (Tr.marginOf (hp.trans h1) h2) fun r v ⟨h3, h4⟩ => ?_
      obtain ⟨c', n', b', i'⟩ := r
      dsimp only at h3 h4 ⊢
      refine Tr.ite (fun _ => again (cp := (c', n')) h3 h4) (fun _ => Tr.ite (fun htx => ?_) (fun _ => again (cp := (c', n')) h3 h4))
      refine Tr.bind Tr.setPos fun _ w hw => ?_
      have hseg : Seg env cs w.pos := by
        rw [hw]
        exact h3.trans ⟨by omega, by rw [Nat.add_sub_cancel_left, htx.2]; exact htag⟩
      refine Tr.bind Tr.skipWhiteInLiteral fun cp2 x ⟨h5, h6⟩ => ?_
      try dsimp only
      refine Tr.ite (fun _ => ?_) (fun _ => again (hseg.trans h5) h6)
      split
      · rename_i ce hce
        refine Tr.pure fun hle => ?_
        dsimp only at hle ⊢
        unfold contentEndOf at hce
        split at hce
        · split at hce
          · rename_i h2le
            rcases hc hn with hcs | ⟨q, hq, hqb⟩
            · split at hce
              · split at hce <;> cases hce <;> exfalso <;> omega
              · cases hce
            · split at hce
              · rename_i bb hbb
                split at hce
                · cases hce
                  have e1 : ((t'.pos : Int) - 2).toNat = q - 1 := by omega
                  have e2 : t'.pos - 2 = q - 1 := by omega
                  rw [e1]
                  rename_i h13
                  refine Seg.drop1 (b := bb) ?_ (by omega) (e2 ▸ hbb) (by rw [h13]; decide)
                  have e3 : q - 1 + 1 = q := by omega
                  rw [e3]
                  exact Seg.drop1 (hq ▸ hp) (by omega) hqb (by decide)
                · cases hce
                  have e1 : ((t'.pos : Int) - 1).toNat = q := by omega
                  rw [e1]
                  exact Seg.drop1 (hq ▸ hp) (by omega) hqb (by decide)
              · cases hce
          · cases hce
        · cases hce
          exact hp
      · exact Tr.crash
    · refine Tr.bind Tr.nextAt fun cp t ⟨h1, h2⟩ => ?_
      exact again (h1 ▸ hp) h2

theorem Tr.withTag {h : HDecl} {n : Nat} (hs : Seg env n s.pos) (ht : V h.tag) :
    Tr env s (h.withTag n) (fun h' t => t = s ∧ V h'.tag ∧ h'.syntx = h.syntx ∧ h'.syntaxStart = h.syntaxStart) := by
  unfold HDecl.withTag
  refine Tr.ite (fun _ => ?_) (fun _ => Tr.pure ⟨rfl, ht, rfl, rfl⟩)
  exact Tr.bind Tr.from_ fun w t ⟨h1, h2⟩ => Tr.pure ⟨h1, h2 hs, rfl, rfl⟩

theorem Tr.extractFlags {n : Nat} : Tr env s (PP.extractFlags n) (fun _ t => t = s) := by
  unfold PP.extractFlags
  refine Tr.bind Tr.from_ fun w t ⟨h1, _⟩ => ?_
  split
  · exact Tr.pure h1
  · exact Tr.bind Tr.setPos fun _ _ _ => Tr.issue

theorem Tr.findTagEnd {start f : Nat} {h : HDecl} (hs : Seg env start s.pos) (ht : V h.tag) (hx : V h.syntx)
    (hp : ∀ p ∈ h.syntaxStart, Seg env p s.pos) :
    Tr env s (PP.findTagEnd start f h) (fun h' _ => V h'.tag ∧ V h'.syntx) := by
  induction f generalizing s h with
  | zero => exact Tr.timeout
  | succ f ih =>
    unfold PP.findTagEnd
    refine Tr.bind Tr.getEnv fun e t ⟨he, ht'⟩ => ?_
    subst he ht'
    refine Tr.bind Tr.peek fun cw t' ⟨ht', hw⟩ => ?_
    subst ht'
    dsimp only
    refine Tr.ite (fun _ => Tr.issueAt) (fun _ => Tr.ite (fun _ => ?_) (fun _ => Tr.ite (fun _ => ?_) (fun _ => Tr.ite (fun _ => ?_)
      (fun _ => Tr.ite (fun _ => ?_) (fun _ => ?_)))))
    · have fin : ∀ {h1 : HDecl} {u : St}, u = t' → V h1.tag → V h1.syntx → Tr env u (h1.withTag start >>= fun h =>
          PP.advance cw.2 >>= fun _ => Pure.pure h) (fun h' _ => V h'.tag ∧ V h'.syntx) := by
        intro h1 u hu h2 h3
        subst hu
        refine Tr.bind (Tr.withTag hs h2) fun h4 w ⟨hw', h5, h6, _⟩ => ?_
        exact Tr.bind Tr.advance fun _ _ _ => Tr.pure ⟨h5, h6 ▸ h3⟩
      split
      · rename_i p hpp
        refine Tr.bind Tr.from_ fun w u ⟨hu, hv⟩ => Tr.bindPure ?_
        subst hu
        split
        · exact Tr.bind Tr.extractFlags fun _ v hv' => Tr.bindPure (fin hv' ht (hv (hp p hpp)))
        · exact Tr.bindPure (fin rfl ht (hv (hp p hpp)))
      · refine Tr.bindPure ?_
        split
        · exact Tr.bind Tr.extractFlags fun _ v hv' => Tr.bindPure (fin hv' ht hx)
        · exact Tr.bindPure (fin rfl ht hx)
    · split
      · exact Tr.issue
      · refine Tr.bind (Tr.withTag hs ht) fun h4 w ⟨hw', h5, h6, _⟩ => ?_
        subst hw'
        refine Tr.bind Tr.advance fun _ x hx' => Tr.bind Tr.getPos fun p y ⟨hpy, hy⟩ => ?_
        subst hpy hy
        refine ih (hs.trans (hx' ▸ hw.seg)) h5 (h6 ▸ hx) fun q hq => ?_
        cases hq
        exact .refl
    · split
      · exact Tr.issue
      · have fin : ∀ {h4 : HDecl} {w : St}, w = t' → V h4.tag → V h4.syntx → (∀ p ∈ h4.syntaxStart, Seg env p t'.pos) →
            Tr env w (PP.advance cw.2 >>= fun _ => PP.getPos >>= fun p => PP.findTagEnd start f { h4 with escapeStart := some p })
              (fun h' _ => V h'.tag ∧ V h'.syntx) := by
          intro h4 w hw' h5 h6 h7
          subst hw'
          refine Tr.bind Tr.advance fun _ x hx' => Tr.bind Tr.getPos fun p y ⟨hpy, hy⟩ => ?_
          subst hpy hy
          exact ih (hs.trans (hx' ▸ hw.seg)) h5 h6 fun q hq => (h7 q hq).trans (hx' ▸ hw.seg)
        refine Tr.ite (fun _ => ?_) (fun _ => ?_)
        · exact Tr.bind (Tr.withTag hs ht) fun h4 w ⟨hw', h5, h6, h7⟩ => fin hw' h5 (h6 ▸ hx) (h7 ▸ hp)
        · split
          · rename_i p hpp
            exact Tr.bind Tr.from_ fun w u ⟨hu, hv⟩ => Tr.bindPure (fin hu ht (hv (hp p hpp)) fun _ h => nomatch h)
          · exact Tr.bindPure (fin rfl ht hx hp)
    · refine Tr.ite (fun _ => Tr.issue) (fun _ => ?_)
      refine Tr.bind Tr.advance fun _ x hx' => Tr.bind Tr.getPos fun p y ⟨hpy, hy⟩ => ?_
      subst hpy hy
      have h1 : Seg env t'.pos y.pos := hx' ▸ hw.seg
      refine Tr.bind (Tr.advWhile _ _) fun cw2 z ⟨hz, hw2⟩ => ?_
      try dsimp only
      refine Tr.ite (fun _ => Tr.issueAt) (fun _ => ?_)
      refine Tr.bind Tr.getPos fun p' y' ⟨hpy, hy⟩ => ?_
      subst hpy hy
      refine Tr.ite (fun _ => Tr.issueAt) (fun _ => ?_)
      refine Tr.bind Tr.from_ fun w u ⟨hu, hv⟩ => ?_
      subst hu
      refine Tr.bind Tr.advance fun _ x' hx'' => ?_
      have h3 : Seg env t'.pos x'.pos := (h1.trans hz).trans (hx'' ▸ hw2.seg)
      exact ih (hs.trans h3) (hv hz) hx fun q hq => (hp q hq).trans h3
    · refine Tr.bind Tr.advance fun _ x hx' => ?_
      exact ih (hs.trans (hx' ▸ hw.seg)) ht hx fun q hq => (hp q hq).trans (hx' ▸ hw.seg)

end

section
variable {env : Env} {α β : Type}

macro_rules | `(tactic| okl) => `(tactic| with_reducible exact Ok.advWhile _ _)

/-- In loops. -/
macro "ok2" h:term : tactic => `(tactic| repeat' first | exact $h | ok1)

theorem Ok.skipWhiteLoop {b : Bool} {f : Nat} {c : Cmt} {p : Nat} : Ok env (PP.skipWhiteLoop b f c p) (fun _ => True) := by
  induction f generalizing c p with
  | zero => rw [PP.skipWhiteLoop]; exact Ok.timeout
  | succ f ih => unfold PP.skipWhiteLoop; ok1; all_goals ok2 ih
macro_rules | `(tactic| okl) => `(tactic| with_reducible exact Ok.skipWhiteLoop)

theorem Ok.skipWhite {b : Bool} : Ok env (PP.skipWhite b) (fun _ => True) := by
  unfold PP.skipWhite; ok
macro_rules | `(tactic| okl) => `(tactic| with_reducible exact Ok.skipWhite)

theorem Ok.skipDecimalDigits : Ok env (PP.skipDecimalDigits) (fun _ => True) := by
  unfold PP.skipDecimalDigits; ok
macro_rules | `(tactic| okl) => `(tactic| with_reducible exact Ok.skipDecimalDigits)

theorem Ok.needDigits : Ok env (PP.needDigits) (fun _ => True) := by
  unfold PP.needDigits; ok
macro_rules | `(tactic| okl) => `(tactic| with_reducible exact Ok.needDigits)

theorem Tr.needDigits {s : St} : Tr env s PP.needDigits (fun _ t => Seg env s.pos t.pos) := by
  unfold PP.needDigits
  refine Tr.bind Tr.skipDecimalDigits fun _ t ht => ?_
  exact Tr.ite (fun _ => Tr.pure ht) (fun _ => Tr.issue)

theorem Tr.consumeFloat {s : St} {start d : Nat} (h : Seg env start s.pos) : Tr env s (PP.consumeFloat start d) (fun _ _ => True) := by
  have fin : ∀ {e : Env} {c : Nat} {t : St}, Seg env start t.pos → Tr env t
      (if uniIsLetter e c then PP.issue .lexDigitExpected
      else do
        let w ← PP.from_ start
        PP.setTokenValue .float (.flt { neg := false, text := w })) (fun _ _ => True) := by
    intro e c t ht
    refine Tr.ite (fun _ => Tr.issue) (fun _ => Tr.bind Tr.from_ fun w u ⟨_, hw⟩ => ?_)
    exact (Ok.setTokenValue (v := .flt { neg := false, text := w }) (hw ht)).tr
  unfold PP.consumeFloat
  refine Tr.bind Tr.getEnv fun e u ⟨_, hu⟩ => ?_
  subst hu
  refine Tr.bind Tr.needDigits fun _ v hv => Tr.bind Tr.peek fun cw w ⟨hw1, hw2⟩ => ?_
  subst hw1
  dsimp only
  refine Tr.ite (fun _ => ?_) (fun _ => ?_)
  · refine Tr.bind Tr.advance fun _ x hx => Tr.bind Tr.needDigits fun _ y hy => Tr.bind Tr.peek fun cw2 z ⟨hz, _⟩ => ?_
    subst hz
    exact Tr.bindPure (fin (((h.trans hv).trans (hx ▸ hw2.seg)).trans hy))
  · exact Tr.bindPure (fin (h.trans hv))

theorem Ok.hexDigits {n k : Nat} : Ok env (PP.hexDigits n k) (fun _ => True) := by
  induction k with
  | zero => unfold PP.hexDigits; ok
  | succ f ih => unfold PP.hexDigits; ok
macro_rules | `(tactic| okl) => `(tactic| with_reducible exact Ok.hexDigits)

theorem Ok.pureV {w : GoStr} (h : V w) : Ok env (Pure.pure w) V := .pure h
macro_rules | `(tactic| okl) => `(tactic| (with_reducible refine Ok.pureV ?_; vl; done))

theorem Ok.appendUnicode : Ok env (PP.appendUnicode) V := by
  unfold PP.appendUnicode; ok
macro_rules | `(tactic| okl) => `(tactic| with_reducible exact Ok.appendUnicode)

theorem V.back {w : GoStr} (h : V w) : V (92 :: w) := (V.byte (by decide)).append h
macro_rules | `(tactic| vl) => `(tactic| (with_reducible apply V.back; vl))

theorem Ok.escapeHandler {h : Handler} {c : Nat} (hx : env.hexEsc = false) : Ok env (PP.escapeHandler h c) V := by
  unfold PP.escapeHandler
  split
  · refine Ok.pureV (V.back ?_)
    split
    · exact V.nil
    · exact V.encode _
  · ok
  · refine Ok.weak (R := fun w => V w) ?_ fun _ h => h
    intro s a t hi hr
    revert a t hi hr
    refine Tr.bind Tr.getEnv fun e u ⟨he, hu⟩ => ?_
    subst he hu
    rw [hx]
    simp only [Bool.false_eq_true, and_false, if_false]
    have : ∀ x : P GoStr, Ok env x V → Tr env u x (fun a _ => V a) := fun x h => h.tr
    refine this _ ?_
    ok
macro_rules | `(tactic| okl) => `(tactic| (with_reducible refine Ok.escapeHandler ?_; assumption))

theorem Ok.eppComment {f : Nat} {i : Nat} : Ok env (PP.eppComment  f i) (fun _ => True) := by
  induction f generalizing i with
  | zero => rw [PP.eppComment]; exact Ok.timeout
  | succ f ih => unfold PP.eppComment; ok1; all_goals ok2 ih
macro_rules | `(tactic| okl) => `(tactic| with_reducible exact Ok.eppComment)

theorem Ok.eppText {f : Nat} {b : GoStr} {i : Nat} (hb : V b) (hi : V (b.take i)) (hl : i ≤ b.length) :
    Ok env (PP.eppText f b i) (fun r => V r.1) := by
  induction f generalizing b i with
  | zero => rw [PP.eppText]; exact Ok.timeout
  | succ f ih =>
    have all : ∀ {w : GoStr} {n : Nat}, V w → n = w.length → Ok env (PP.eppText f (b ++ w) (b.length + n)) (fun r => V r.1) := by
      intro w n hw hn
      refine ih (hb.append hw) ?_ (by rw [List.length_append]; omega)
      rw [List.take_of_length_le (by rw [List.length_append]; omega)]
      exact hb.append hw
    have blank : ∀ {w : GoStr}, V w → Ok env (PP.eppText f (b ++ w) i) (fun r => V r.1) := by
      intro w hw
      refine ih (hb.append hw) ?_ (by rw [List.length_append]; omega)
      rw [List.take_append_of_le_length hl]
      exact hi
    have same : Ok env (PP.eppText f b i) (fun r => V r.1) := ih hb hi hl
    unfold PP.eppText
    ok1
    all_goals repeat' first
      | exact same
      | exact blank (V.encode _)
      | exact all (V.encode _) rfl
      | exact all (V.lit (by decide)) rfl
      | exact Ok.pure hb
      | (refine Ok.pure ?_; show V (if _ then _ else _); split <;> assumption)
      | ok1

theorem Ok.consumeBacktickedString : Ok env (PP.consumeBacktickedString) (fun _ => True) := by
  refine Tr.ok (Q := fun _ _ _ => True) (fun s => ?_) fun _ _ _ _ => trivial
  unfold PP.consumeBacktickedString
  refine Tr.bind Tr.getEnv fun e u ⟨he, hu⟩ => ?_
  subst he hu
  refine Tr.bind Tr.getPos fun p v ⟨hp, hv⟩ => ?_
  subst hp hv
  refine Tr.bind (Tr.advWhile _ _) fun cw w ⟨h1, h2⟩ => ?_
  refine Tr.ite (fun _ => Ok.unterminatedQuote.tr) (fun _ => ?_)
  refine Tr.bind Tr.from_ fun t x ⟨hx, ht⟩ => ?_
  subst hx
  exact Tr.bind (Ok.setTokenValue (v := .str t) (ht h1)).tr fun _ _ _ => Ok.advance.tr
macro_rules | `(tactic| okl) => `(tactic| with_reducible exact Ok.consumeBacktickedString)

theorem Ok.findStartOfText {n : Nat} {f : Nat} {a b : Nat} : Ok env (PP.findStartOfText n f a b) (fun _ => True) := by
  induction f generalizing a b with
  | zero => rw [PP.findStartOfText]; exact Ok.timeout
  | succ f ih => unfold PP.findStartOfText; ok1; all_goals ok2 ih
macro_rules | `(tactic| okl) => `(tactic| with_reducible exact Ok.findStartOfText)

theorem Ok.stripIndentLoop {n k : Nat} : Ok env (PP.stripIndentLoop n k) (fun _ => True) := by
  induction k with
  | zero => unfold PP.stripIndentLoop; ok
  | succ f ih => unfold PP.stripIndentLoop; ok
macro_rules | `(tactic| okl) => `(tactic| with_reducible exact Ok.stripIndentLoop)

theorem Ok.stripIndent {n : Nat} : Ok env (PP.stripIndent n) (fun _ => True) := by
  unfold PP.stripIndent; ok
macro_rules | `(tactic| okl) => `(tactic| with_reducible exact Ok.stripIndent)

theorem Ok.heredocDone {a b : Nat} : Ok env (PP.heredocDone a b) (fun _ => True) := by
  unfold PP.heredocDone; ok
macro_rules | `(tactic| okl) => `(tactic| with_reducible exact Ok.heredocDone)

theorem Ok.adv1 {a : Nat} {b : Tok} : Ok env (PP.adv1 a b) (fun _ => True) := by
  unfold PP.adv1; ok
macro_rules | `(tactic| okl) => `(tactic| with_reducible exact Ok.adv1)

theorem Ok.lexAssign : Ok env (PP.lexAssign) (fun _ => True) := by
  unfold PP.lexAssign; ok
macro_rules | `(tactic| okl) => `(tactic| with_reducible exact Ok.lexAssign)

theorem Ok.lexLc : Ok env (PP.lexLc) (fun _ => True) := by
  unfold PP.lexLc; ok
macro_rules | `(tactic| okl) => `(tactic| with_reducible exact Ok.lexLc)

theorem Ok.lexPlus : Ok env (PP.lexPlus) (fun _ => True) := by
  unfold PP.lexPlus; ok
macro_rules | `(tactic| okl) => `(tactic| with_reducible exact Ok.lexPlus)

theorem Ok.lexNot : Ok env (PP.lexNot) (fun _ => True) := by
  unfold PP.lexNot; ok
macro_rules | `(tactic| okl) => `(tactic| with_reducible exact Ok.lexNot)

theorem Ok.lexGreater : Ok env (PP.lexGreater) (fun _ => True) := by
  unfold PP.lexGreater; ok
macro_rules | `(tactic| okl) => `(tactic| with_reducible exact Ok.lexGreater)

theorem Ok.lexPipe : Ok env (PP.lexPipe) (fun _ => True) := by
  unfold PP.lexPipe; ok
macro_rules | `(tactic| okl) => `(tactic| with_reducible exact Ok.lexPipe)

theorem Tr.lexNumber {s : St} {start : Nat} (h : Seg env start s.pos) : Tr env s (PP.lexNumber start) (fun _ _ => True) := by
  unfold PP.lexNumber
  refine Tr.bind Tr.getEnv fun e u ⟨_, hu⟩ => ?_
  subst hu
  refine Tr.bind Tr.skipDecimalDigits fun _ v hv => Tr.bind Tr.peek fun cw w ⟨hw1, hw2⟩ => ?_
  subst hw1
  refine Tr.ite (fun _ => ?_) (fun _ => ?_)
  · exact Tr.bind Tr.advance fun _ x hx => Tr.consumeFloat ((h.trans hv).trans (hx ▸ hw2.seg))
  · refine Ok.tr ?_
    ok

theorem Ok.lexLp {n : Nat} : Ok env (PP.lexLp n) (fun _ => True) := by
  unfold PP.lexLp; ok
macro_rules | `(tactic| okl) => `(tactic| with_reducible exact Ok.lexLp)

theorem Ok.lexTilde {n : Nat} : Ok env (PP.lexTilde n) (fun _ => True) := by
  unfold PP.lexTilde; ok
macro_rules | `(tactic| okl) => `(tactic| with_reducible exact Ok.lexTilde)

theorem Tr.lexZero {s : St} {start : Nat} (h : Seg env start s.pos) : Tr env s (PP.lexZero start) (fun _ _ => True) := by
  unfold PP.lexZero
  refine Tr.bind Tr.getEnv fun e u ⟨_, hu⟩ => ?_
  subst hu
  refine Tr.bind (Q := fun _ t => t.pos = u.pos) (fun _ t hi hx => by cases hx; exact ⟨⟨hi.val, hi.defs, hi.names⟩, rfl⟩) fun _ t ht => ?_
  refine Tr.bind Tr.peek fun cw w ⟨hw1, hw2⟩ => ?_
  subst hw1
  refine Tr.ite (fun _ => Ok.tr (by ok)) (fun _ => Tr.ite (fun _ => Ok.tr (by ok)) (fun _ => Tr.ite (fun _ => ?_) (fun _ => Ok.tr (by ok))))
  exact Tr.bind Tr.advance fun _ x hx => Tr.consumeFloat (h.trans (ht ▸ hx ▸ hw2.seg))

theorem Tr.lexColon {s : St} {start : Nat} (h : Seg env start s.pos) : Tr env s (PP.lexColon start) (fun _ _ => True) := by
  unfold PP.lexColon
  refine Tr.bind (Q := fun _ t => t.pos = s.pos) (fun _ t hi hx => by cases hx; exact ⟨⟨trivial, hi.defs, hi.names⟩, rfl⟩) fun _ t ht => ?_
  refine Tr.bind Tr.peek fun cw u ⟨hu, hw⟩ => ?_
  subst hu
  refine Tr.ite (fun _ => ?_) (fun _ => Ok.tr (Ok.pure trivial))
  refine Tr.bind Tr.advance fun _ v hv => Tr.bind Tr.nextAt fun cp w ⟨h1, h2⟩ => ?_
  have hs : Seg env start w.pos := (h.trans (ht ▸ hv ▸ hw.seg)).trans (h1 ▸ h2.seg)
  refine Tr.ite (fun _ => ?_) (fun _ => Tr.ite (fun _ => ?_) (fun _ => Tr.issueAt))
  · exact Tr.consumeQualifiedName hs
  · exact Tr.consumeQualifiedName hs

theorem Tr.lexDollar {s : St} {start : Nat} (h : Seg env (start + 1) s.pos) : Tr env s (PP.lexDollar start) (fun _ _ => True) := by
  have fin : ∀ {e : Env} {cw : Nat × Nat} {t : St}, Seg env (start + 1) t.pos → Saw env t.pos cw → Tr env t
      (if isLowercaseLetter cw.1 then do
        PP.advance cw.2
        PP.consumeQualifiedName start .variable
      else if isDecimalDigit cw.1 then do
        PP.advance cw.2
        let _ ← PP.skipDecimalDigits
        let t ← PP.from_ (start + 1)
        PP.setTokenValue .variable (.int (parseInt64 10 t))
      else if uniIsLetter e cw.1 then PP.issue .lexInvalidVariableName
      else PP.setTokenValue .variable (.str [])) (fun _ _ => True) := by
    intro e cw t h1 h2
    refine Tr.ite (fun _ => ?_) (fun _ => Tr.ite (fun _ => ?_) (fun _ => Tr.ite (fun _ => Tr.issue) (fun _ => ?_)))
    · exact Tr.bind Tr.advance fun _ u hu => Tr.consumeQualifiedName (h1.trans (hu ▸ h2.seg))
    · refine Ok.tr ?_
      ok
    · exact (Ok.setTokenValue (v := .str []) V.nil).tr
  unfold PP.lexDollar
  refine Tr.bind Tr.getEnv fun e u ⟨_, hu⟩ => ?_
  subst hu
  refine Tr.bind Tr.peek fun cw u' ⟨hu, hw⟩ => ?_
  subst hu
  dsimp only
  split
  · refine Tr.bind Tr.advance fun _ v hv => Tr.bind Tr.peek fun cw2 w ⟨hw1, hw2⟩ => ?_
    subst hw1
    have h2 := h.trans (hv ▸ hw.seg)
    split
    · exact fun _ _ _ hx => nomatch hx
    · refine Tr.bind Tr.advance fun _ x hx => Tr.bind Tr.peek fun cw3 y ⟨hy, hw3⟩ => ?_
      subst hy
      exact fin (h2.trans (hx ▸ hw2.seg)) hw3
  · exact fin h hw

end
end PP.Vt
