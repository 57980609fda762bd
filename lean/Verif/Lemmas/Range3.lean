import Verif.Lemmas.Range2

/-! # Byte ranges of nodes: the lexer -/
namespace PP.Rg
open PP

section
variable {env : Env} {s t : St} {b m l0 : Nat} {self : Self}

/-! ## `${name...}` becomes a variable -/

/-- The parts of a named access that begins after `start`. -/
theorem InR.kid {g : Bool} {e k : Expr} (h : InR env g e) (hk : k ∈ e.kids) (ht : isText e = false) : InR env g k := by
  have := h.sub k hk
  rwa [ht, Bool.not_false, Bool.and_true] at this

theorem var_inr {start : Nat} {q : Pos} {n : GoStr} (h : InR env false (.qname q n)) (hs : start < q.off) :
    InR env false (.un ⟨start, q.len + 1⟩ .variable (.qname q n)) := by
  have h1 := h.len; have h2 := h.le
  refine .node ?_ ?_ rfl ?_
  · pm
  · pm
  · simp only [Expr.kids, List.mem_singleton, forall_eq]
    exact ⟨h, by pm, fun h => nomatch h⟩

/-- Grow a node to the left without changing its end by more than the move. -/
theorem convert_inr {start : Nat} (l r : Expr) (p : Pos) (f : Expr) (c : Bool) (h : InR env false (.bin p .namedAccess l r))
    (hs : start < p.off) (hc : convertNamedAccessLHS start p l r = some (f, c)) :
    InR env false f ∧ start ≤ f.pos.off ∧ fin f ≤ fin (.bin p .namedAccess l r) := by
  have h1 := h.len; have h2 := h.le
  have hl := h.kid (k := l) (by simp [Expr.kids]) rfl
  have hr := h.kid (k := r) (by simp [Expr.kids]) rfl
  have hlo := h.lo l (by simp [Expr.kids]) rfl
  have hro := h.lo r (by simp [Expr.kids]) rfl
  have mk : ∀ x, InR env false x → start ≤ x.pos.off → 
      InR env false (.bin ⟨start, p.len + 1⟩ .namedAccess x r) ∧ start ≤ (Expr.bin ⟨start, p.len + 1⟩ .namedAccess x r).pos.off ∧
      fin (.bin ⟨start, p.len + 1⟩ .namedAccess x r) ≤ fin (.bin p .namedAccess l r) := by
    intro x hx hxs
    refine ⟨.node ?_ ?_ rfl ?_, ?_, ?_⟩
    · pm
    · pm
    · simp only [Expr.kids, List.forall_mem_cons]
      exact ⟨⟨hx, hxs, fun h => nomatch h⟩, ⟨hr, by pm, fun h => nomatch h⟩, fun _ h => nomatch h⟩
    · exact Nat.le_refl _
    · pm
  unfold convertNamedAccessLHS at hc
  split at hc
  · cases hc
    refine mk _ (var_inr hl ?_) ?_
    · pm
    · exact Nat.le_refl _
  · cases hc
    rename_i q operand keys
    split
    · rename_i rr n
      have ho := hl.kid (k := .qname rr n) (by simp [Expr.kids]) rfl
      have hoo := hl.lo (.qname rr n) (by simp [Expr.kids]) rfl
      have h3 := hl.len; have h4 := hl.le
      refine mk _ (.node ?_ ?_ rfl ?_) ?_
      · pm
      · pm
      · intro k hk
        simp only [Expr.kids, List.mem_cons] at hk
        rcases hk with rfl | hk
        · exact ⟨var_inr ho (by pm), by pm, fun h => nomatch h⟩
        · refine ⟨hl.kid (k := k) (by simp [Expr.kids, hk]) rfl, ?_, fun h => nomatch h⟩
          have := hl.lo k (by simp [Expr.kids, hk]) rfl
          pm
      · exact Nat.le_refl _
    · refine mk _ hl ?_
      pm
  · rename_i q l' r'
    split at hc
    · rename_i f' c' hcv
      cases hc
      have ih := convert_inr l' r' q f' c' hl (by pm) hcv
      exact mk _ ih.1 ih.2.1
    · cases hc
  · rename_i q rv rr l' r' args lam
    split at hc
    · rename_i f' c' hcv
      cases hc
      have hf := hl.kid (k := .bin rr .namedAccess l' r') (by simp [Expr.kids]) rfl
      have hfo := hl.lo (.bin rr .namedAccess l' r') (by simp [Expr.kids]) rfl
      have h3 := hl.len; have h4 := hl.le
      have ih := convert_inr l' r' rr f' c' hf (by pm) hcv
      refine mk _ (.node ?_ ?_ rfl ?_) ?_
      · pm
      · pm
      · intro k hk
        simp only [Expr.kids, List.cons_append, List.mem_cons] at hk
        rcases hk with rfl | hk
        · exact ⟨ih.1, ih.2.1, fun h => nomatch h⟩
        · refine ⟨hl.kid (k := k) (by simp only [Expr.kids, List.cons_append, List.mem_cons]; exact .inr hk) rfl, ?_, fun h => nomatch h⟩
          have := hl.lo k (by simp only [Expr.kids, List.cons_append, List.mem_cons]; exact .inr hk) rfl
          pm
      · exact Nat.le_refl _
    · cases hc
  · cases hc
  · cases hc
    exact ⟨h, by pm, Int.le_refl _⟩

theorem interpolated_inr {start p : Nat} (e e' : Expr) (h : InR env true e) (hs : start < e.pos.off) (hp : fin e ≤ p) (hp' : p ≤ env.text.length)
    (hi : interpolated start ((p : Int) - start) e = some e') :
    InR env false e' ∧ start ≤ e'.pos.off ∧ fin e' ≤ p := by
  replace h := h.weak
  have h1 := h.len; have h2 := h.le
  simp only [fin] at h1 h2 hp
  unfold interpolated at hi
  split at hi
  · cases hi
    rename_i q n
    refine ⟨.node ?_ ?_ rfl ?_, Nat.le_refl _, ?_⟩
    · pm
    · pm
    · simp only [Expr.kids, List.mem_singleton, forall_eq]
      exact ⟨h, by pm, fun h => nomatch h⟩
    · pm
  · cases hi
    rename_i q rr n keys
    have ho := h.kid (k := .qname rr n) (by simp [Expr.kids]) rfl
    have hoo := h.lo (.qname rr n) (by simp [Expr.kids]) rfl
    refine ⟨.node ?_ ?_ rfl ?_, Nat.le_refl _, ?_⟩
    · pm
    · pm
    · intro k hk
      simp only [Expr.kids, List.mem_cons] at hk
      rcases hk with rfl | hk
      · exact ⟨var_inr ho (by pm), by pm, fun h => nomatch h⟩
      · refine ⟨h.kid (k := k) (by simp [Expr.kids, hk]) rfl, ?_, fun h => nomatch h⟩
        have := h.lo k (by simp [Expr.kids, hk]) rfl
        pm
    · pm
  · rename_i q rv rr l' r' args lam
    have hf := h.kid (k := .bin rr .namedAccess l' r') (by simp [Expr.kids]) rfl
    have hfo := h.lo (.bin rr .namedAccess l' r') (by simp [Expr.kids]) rfl
    split at hi
    · rename_i f hcv
      cases hi
      have ih := convert_inr l' r' rr f _ hf (by pm) hcv
      refine ⟨.node ?_ ?_ rfl ?_, Nat.le_refl _, ?_⟩
      · pm
      · pm
      · intro k hk
        simp only [Expr.kids, List.cons_append, List.mem_cons] at hk
        rcases hk with rfl | hk
        · exact ⟨ih.1, ih.2.1, fun h => nomatch h⟩
        · refine ⟨h.kid (k := k) (by simp only [Expr.kids, List.cons_append, List.mem_cons]; exact .inr hk) rfl, ?_, fun h => nomatch h⟩
          have := h.lo k (by simp only [Expr.kids, List.cons_append, List.mem_cons]; exact .inr hk) rfl
          pm
      · pm
    · cases hi
      exact ⟨h, by pm, hp⟩
    · cases hi
  · cases hi
    exact ⟨h, by pm, hp⟩

/-- Interpolation nodes. -/
theorem text_inr {start p : Nat} {e : Expr} (h : InR env false e) (hs : start ≤ e.pos.off) (hp : fin e ≤ p) (h1 : start ≤ p)
    (h2 : p ≤ env.text.length) : InR env true (.un ⟨start, (p : Int) - start⟩ .text e) := by
  refine ⟨?_, ?_, ?_, ?_, ?_⟩
  · pm
  · pm
  · intro k hk; cases List.mem_singleton.1 hk; exact h
  · intro k hk _; cases List.mem_singleton.1 hk; exact hs
  · intro _ k hk; cases List.mem_singleton.1 hk
    pm

theorem interpolate' (H : HS env self) {start : Nat} (hr : Rd env s) (hd : ∀ d ∈ s.defs, InR env true d) (hs : start < s.pos) :
    wp env (interpolate self start) (fun e t => InR env true e ∧ e.pos.off = start ∧ fin e = t.pos ∧
      Rd env t ∧ (∀ d ∈ t.defs, InR env true d) ∧ s.pos ≤ t.pos) tt s := by
  unfold interpolate
  wpr
  refine peek' hr fun c n hc hn => ?_
  dsimp only
  split
  · wpr
    refine H.tok (s := { s with pos := s.pos + n }) ⟨hr.1, hn⟩ hd fun t ht h1 h2 h3 => ?_
    dsimp only at ht h1
    refine wp_imp (H (.parse .rc true) (start + 1) t.pos 0 t (ht.mono (by pm) (Nat.le_refl _))) ?_
    rintro e u ⟨he, h4, h5, h6, h7, h8⟩
    have h9 := h8.le
    split
    · next e' hi =>
      obtain ⟨h10, h11, h12⟩ := interpolated_inr e e' he (by pm) h6 h9 hi
      exact ⟨text_inr h10 h11 h12 (by pm) h9, rfl, by pm, h8.rd, h8.defs, by pm⟩
    · exact trivial
  · wpr
    have fin' : ∀ t : St, t.nls = none → (∀ d ∈ t.defs, InR env true d) → s.pos ≤ t.pos → t.pos ≤ env.text.length →
        wp env (if t.tok ≠ Tok.identifier then do
            setPos start
            issue .lexMalformedInterpolation
          else
            match t.val with
            | .str name =>
              pure (Expr.un ⟨start, (t.pos : Int) - start⟩ .text (.un ⟨start, (t.pos : Int) - start⟩ .variable
                (.qname ⟨start + 1, (t.pos : Int) - (start + 1 : Nat)⟩ name)))
            | _ => crash .valueAssertion)
        (fun e t => InR env true e ∧ e.pos.off = start ∧ fin e = t.pos ∧
          Rd env t ∧ (∀ d ∈ t.defs, InR env true d) ∧ s.pos ≤ t.pos) tt t := by
      intro t h1 h2 h3 h4
      split
      · exact trivial
      split
      · refine ⟨text_inr (.node ?_ ?_ rfl ?_) ?_ ?_ ?_ h4, rfl, ?_, ⟨h1, h4⟩, h2, h3⟩
        · pm
        · pm
        · simp only [Expr.kids, List.mem_singleton, forall_eq]
          refine ⟨.leaf ?_ ?_ rfl, ?_, fun h => nomatch h⟩
          · pm
          · pm
          · pm
        · exact Nat.le_refl _
        · pm
        · pm
        · pm
      · exact trivial
    split
    · wpr
      refine H.tok (s := { s with tok := .variable, val := .nil }) ⟨hr.1, hr.2⟩ hd fun t ht h1 h2 h3 => ?_
      dsimp only at h1
      exact fin' t ht.nls ht.defs (by pm) h3
    · wpr
      exact fin' { s with tok := .variable, val := .nil } hr.1 hd (Nat.le_refl _) hr.2

theorem string_inr {g : Bool} {a p : Nat} {v : GoStr} (h1 : a ≤ p) (h2 : p ≤ env.text.length) : InR env g (.string ⟨a, (p : Int) - a⟩ v) := by
  refine .leaf ?_ ?_ rfl
  · pm
  · pm

theorem handleInterpolation' (H : HS env self) {start : Nat} {segs : List Expr} {buf : GoStr} (hr : Rd env s)
    (hd : ∀ d ∈ s.defs, InR env true d) (hb : b ≤ s.tsp) (hs : s.tsp ≤ start) (hs' : start < s.pos) (hl : Lst env b s.tsp s.tsp segs) :
    wp env (handleInterpolation self start segs buf) (fun es t => Lst env b t.tsp t.tsp es ∧ Rd env t ∧
      (∀ d ∈ t.defs, InR env true d) ∧ t.tsp = t.pos ∧ s.pos ≤ t.pos) tt s := by
  unfold handleInterpolation
  wpr
  refine wp_imp (interpolate' H hr hd hs') ?_
  rintro e t ⟨he, h1, h2, h3, h4, h5⟩
  have h6 := hr.le
  refine ⟨?_, ⟨h3.1, h3.2⟩, h4, trivial, h5⟩
  split
  · refine hl.snoc he hb ?_ ?_ ?_ ?_ <;> first | omega | (dsimp only; omega)
  · refine Lst.snoc (b := start) (hi := s.pos) (hl.snoc (string_inr (by pm) h6) hb ?_ ?_ ?_ ?_) he ?_ ?_ ?_ ?_ ?_
    all_goals pm

/-- The post condition of `delim`. -/
abbrev DPost (env : Env) (i : Bool) (b : Nat) (s : St) (segs : List Expr) (t : St) : Prop :=
  (i = false → t.tsp = s.tsp) ∧ Rd env t ∧ (∀ d ∈ t.defs, InR env true d) ∧ s.tsp ≤ t.tsp ∧ t.tsp ≤ t.pos ∧ s.pos ≤ t.pos ∧
      t.tok ≠ .variable ∧ (∀ e, t.val ≠ .expr e) ∧ Lst env b t.tsp t.tsp segs

end
end PP.Rg
