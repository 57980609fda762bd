import Verif.Lemmas.Range7

/-! # Byte ranges of nodes: the bodies of the recursive functions -/
namespace PP.Rg
open PP

section
variable {env : Env} {s t : St} {b m l0 : Nat} {self : Self} {e : Expr} {Q : Expr → St → Prop}

theorem produce' (H : HS env self) {p : Producer} (hp : wfProducer p = false) (hi : In env b s.pos s) :
    wp env (produce self p) (V env b s.pos s) tt s := by
  cases p
  case argument => exact argument' H hi
  case keyedEntry => exact keyedEntry' H hi
  case selectorEntry => exact selectorEntry' H hi
  case expression => exact H .expression b s.pos 0 s hi
  case parameter => exact parameter' H hi
  all_goals cases hp

theorem L.up {s' : St} {b' : Nat} {es : List Expr} (h : L env l0 b' s' es t) (h1 : b ≤ b') (h2 : s.pos ≤ s'.pos) : L env l0 b s es t :=
  ⟨h.lst, Nat.le_trans h2 h.mono, h.st.mono h1 (Nat.le_refl _)⟩

theorem exprsBody' (H : HS env self) {x : Tok} {p : Producer} {acc : List Expr} (hp : wfProducer p = false) (hi : In env b s.pos s)
    (hl : l0 ≤ b) (ha : Lst env l0 b s.pos acc) : wp env (exprsBody self x p acc) (L env l0 b s) tt s := by
  have g1 := hi.lo; have g2 := hi.tsp; have g3 := hi.le
  unfold exprsBody
  wpr
  split
  · exact ⟨ha.mono (Nat.le_refl _) (by omega) (Int.le_refl _), Nat.le_refl _, hi⟩
  · wpr
    refine V.cps (produce' H hp hi) fun e t n he h1 h2 h3 h4 ht h5 h6 h7 => ?_
    split
    · split
      · exact trivial
      · exact ⟨ha.snoc he hl h1 (by omega) h3 h4, by omega, ht.mono (by omega) (Nat.le_refl _)⟩
    · wpr
      refine H.tok' ht fun u hu j1 j2 j3 => ?_
      refine wp_imp (H (.exprs x p (acc ++ [e])) t.pos 0 l0 u ⟨hp, hu, by omega, ?_⟩) fun es v hv => L.up hv (by omega) (by omega)
      exact ha.snoc he hl h1 (by omega) h3 (by omega)

theorem commaArgsBody' (H : HS env self) {acc : List Expr} (hi : In env b s.pos s)
    (hl : l0 ≤ b) (ha : Lst env l0 b s.pos acc) : wp env (commaArgsBody self acc) (L env l0 b s) tt s := by
  have g1 := hi.lo; have g2 := hi.tsp; have g3 := hi.le
  unfold commaArgsBody
  wpr
  split
  · wpr
    refine H.tok' hi fun u hu j1 j2 j3 => ?_
    refine H.binary hu fun e t n he h1 h2 h3 h4 ht h5 h6 h7 => ?_
    refine wp_imp (H (.commaArgs (acc ++ [e])) n 0 l0 t ⟨ht, by omega, ?_⟩) fun es v hv => L.up hv (by omega) (by omega)
    exact ha.snoc he hl (by omega) (by omega) (by omega) h4
  · exact ⟨ha.mono (Nat.le_refl _) (by omega) (Int.le_refl _), Nat.le_refl _, hi⟩

theorem Lst.one {lo b : Nat} {hi : Int} (he : InR env true e) (h1 : lo ≤ e.pos.off) (h2 : e.pos.off ≤ b) (h3 : fin e ≤ hi) : Lst env lo b hi [e] :=
  Lst.cons .nil he h1 h2 h3 (fun _ h => nomatch h)

theorem syntacticStatement' (H : HS env self) (hi : In env b m s) : wp env (syntacticStatement self) (V env b m s) tt s := by
  unfold syntacticStatement
  wpr
  refine H.binary hi fun e t n he h1 h2 h3 h4 ht h5 h6 h7 => ?_
  refine L.cps (H (.commaArgs [e]) n 0 e.pos.off t ⟨ht, h2, .one he (Nat.le_refl _) h2 h4⟩) fun es u j1 j2 j3 j4 j5 j6 => ?_
  have := he.len
  split
  · vdone j3
  · wpr
    vdone j3

theorem stmtsBody' (H : HS env self) {x : Tok} {acc : List Expr} (hi : In env b m s)
    (hl : l0 ≤ b) (ha : Lst env l0 b m acc) :
    wp env (stmtsBody self x acc) (fun es t => Lst env l0 t.pos t.pos es ∧ s.pos ≤ t.pos ∧ In env b b t) tt s := by
  have g1 := hi.lo; have g2 := hi.tsp; have g3 := hi.le; have g4 := hi.mle
  unfold stmtsBody
  wpr
  split
  · refine ⟨ha.mono (Nat.le_refl _) (by omega) (by omega), Nat.le_refl _, ?_⟩
    refine ⟨hi.nls, hi.defs, g1, g2, g3, by omega, ?_, hi.var⟩
    intro e he
    obtain ⟨h1, h2, h3, h4, h5⟩ := hi.val e he
    have := h1.len
    exact ⟨h1, h2, by pm, h4, h5⟩
  · wpr
    refine V.cps (syntacticStatement' H hi) fun e t n he h1 h2 h3 h4 ht h5 h6 h7 => ?_
    have go : ∀ (u : St) (n' : Nat), t.pos ≤ u.pos → n ≤ n' → In env n' u.pos u →
        wp env (self (.stmts x (acc ++ [e]))) (fun es t => Lst env l0 t.pos t.pos es ∧ s.pos ≤ t.pos ∧ In env b b t) tt u := by
      intro u n' k1 k2 k3
      have k4 := k3.lo; have k5 := k3.tsp
      refine wp_imp (H (.stmts x (acc ++ [e])) n' u.pos l0 u ⟨k3, by omega, ?_⟩) fun es v hv =>
        ⟨hv.1, by have := hv.2.1; omega, hv.2.2.mono (by omega) (by omega)⟩
      exact ha.snoc he hl h1 (by omega) h3 (by omega)
    split
    · wpr
      exact H.tok' ht fun u hu j1 j2 j3 => go u t.pos (by omega) (by omega) hu
    · exact go t n (Nat.le_refl _) (Nat.le_refl _) ht

/-! ## Statement calls -/

theorem setRval_pos {v : Bool} : (setRval v e).pos = e.pos := by
  unfold setRval
  split <;> rfl

theorem setRval_inr {v : Bool} (h : InR env true e) : InR env true (setRval v e) := by
  unfold setRval
  split
  · exact ⟨h.len, h.le, h.sub, h.lo, h.hi⟩
  · exact h

theorem statementArgs_part {lo : Nat} {hi : Int} (h : InR env true e) (h1 : lo ≤ e.pos.off) (h2 : fin e ≤ hi) :
    ∀ x ∈ statementArgs e, Part env true lo hi x := by
  intro x hx
  unfold statementArgs at hx
  split at hx
  · next p es =>
    have k1 := h.lo x hx rfl
    have k2 := h.hi rfl x hx
    exact ⟨h.kid hx rfl, by pm, fun _ => by pm⟩
  · cases List.mem_singleton.1 hx
    refine ⟨setRval_inr h, ?_, fun _ => ?_⟩
    · rw [setRval_pos]; exact h1
    · simp only [fin, setRval_pos]; exact h2

theorem transformLoop_lst {lo b : Nat} {hi : Int} (memo : Expr) (es : List Expr) (h : Lst env lo b hi (memo :: es)) :
    Lst env lo b hi (transformLoop memo es).1 ∧
    ∀ o f, (∀ x ∈ memo :: es, o ≤ x.pos.off ∧ f ≤ fin x) → ∀ x ∈ (transformLoop memo es).1, o ≤ x.pos.off ∧ f ≤ fin x := by
  have rv : ∀ (e : Expr) (o : Nat) (f : Int), o ≤ e.pos.off ∧ f ≤ fin e → o ≤ (setRval false e).pos.off ∧ f ≤ fin (setRval false e) := by
    intro e o f h; simp only [fin, setRval_pos]; exact h
  have cl : ∀ (memo e : Expr), InR env true memo → InR env true e → memo.pos.off ≤ e.pos.off → fin memo ≤ fin e →
      InR env true (.call ⟨memo.off, ((e.off : Int) + e.len) - memo.off⟩ .named false memo (statementArgs e) none) := by
    intro memo e h1 h2 h3 h4
    have k1 := h1.len; have k2 := h2.len; have k3 := h2.le
    refine .node ?_ ?_ rfl ?_
    · pm
    · pm
    · simp only [Expr.kids, Option.toList_none, List.append_nil, List.forall_mem_cons]
      refine ⟨⟨h1, by pm, fun _ => by pm⟩, statementArgs_part h2 h3 (by pm)⟩
  fun_induction transformLoop memo es generalizing lo with
  | case1 memo =>
    have h1 := h.inr memo (by simp)
    have h2 := h.lo memo (by simp)
    have h3 := h.off memo (by simp)
    have h4 := h.hi memo (by simp)
    refine ⟨.one (setRval_inr h1) (by rw [setRval_pos]; exact h2) (by rw [setRval_pos]; exact h3) (by simp only [fin, setRval_pos]; exact h4), ?_⟩
    intro o f hf x hx
    cases List.mem_singleton.1 hx
    exact rv _ _ _ (hf memo (by simp))
  | case2 memo e hm =>
    have h1 := h.inr memo (by simp); have k1 := h.inr e (by simp)
    have h2 := h.lo memo (by simp); have k2 := h.lo e (by simp)
    have h3 := h.off memo (by simp)
    have k4 := h.hi e (by simp)
    have h5 := (List.pairwise_cons.1 h.ord).1 e (by simp)
    refine ⟨.one (cl memo e h1 k1 h5.1 h5.2) (by pm) (by pm) (by pm), ?_⟩
    intro o f hf x hx
    cases List.mem_singleton.1 hx
    have q1 := hf memo (by simp)
    have q2 := hf e (by simp)
    exact ⟨by pm, by pm⟩
  | case3 memo e hm =>
    have h1 := h.inr memo (by simp); have k1 := h.inr e (by simp)
    have h2 := h.lo memo (by simp); have k2 := h.lo e (by simp)
    have h3 := h.off memo (by simp); have k3 := h.off e (by simp)
    have h4 := h.hi memo (by simp); have k4 := h.hi e (by simp)
    have h5 := (List.pairwise_cons.1 h.ord).1 e (by simp)
    refine ⟨Lst.cons (.one (setRval_inr k1) ?_ ?_ ?_) (setRval_inr h1) ?_ ?_ ?_ ?_, ?_⟩
    · rw [setRval_pos]; exact k2
    · rw [setRval_pos]; exact k3
    · simp only [fin, setRval_pos]; exact k4
    · rw [setRval_pos]; exact h2
    · rw [setRval_pos]; exact h3
    · simp only [fin, setRval_pos]; exact h4
    · intro y hy
      cases List.mem_singleton.1 hy
      simp only [fin, setRval_pos]; exact h5
    · intro o f hf x hx
      rcases List.mem_cons.1 hx with rfl | hx
      · exact rv _ _ _ (hf memo (by simp))
      · cases List.mem_singleton.1 hx
        exact rv _ _ _ (hf e (by simp))
  | case4 memo e m rest hm r =>
    rename_i ih
    have h1 := h.inr memo (by simp); have k1 := h.inr e (by simp)
    have h2 := h.lo memo (by simp); have k2 := h.lo e (by simp)
    have h3 := h.off memo (by simp)
    have k4 := h.hi e (by simp)
    have h5 := (List.pairwise_cons.1 h.ord).1 e (by simp)
    have hr : Lst env lo b hi (m :: rest) := h.right (xs := [memo, e])
    obtain ⟨i1, i2⟩ := ih hr
    have hp := h.ord
    have hp1 := (List.pairwise_cons.1 hp).1
    have hp2 := (List.pairwise_cons.1 (List.pairwise_cons.1 hp).2).1
    refine ⟨Lst.cons i1 (cl memo e h1 k1 h5.1 h5.2) (by pm) (by pm) (by pm) ?_, ?_⟩
    · intro y hy
      have := i2 memo.pos.off (fin e) (fun x hx => ⟨(hp1 x (List.mem_cons_of_mem _ hx)).1, (hp2 x hx).2⟩) y hy
      exact ⟨by pm, by pm⟩
    · intro o f hf x hx
      rcases List.mem_cons.1 hx with rfl | hx
      · have q1 := hf memo (by simp)
        have q2 := hf e (by simp)
        exact ⟨by pm, by pm⟩
      · exact i2 o f (fun x hx => hf x (List.mem_cons_of_mem _ (List.mem_cons_of_mem _ hx))) x hx
  | case5 memo e m rest hm r =>
    rename_i ih
    have h1 := h.inr memo (by simp)
    have h2 := h.lo memo (by simp)
    have h3 := h.off memo (by simp)
    have h4 := h.hi memo (by simp)
    have hr : Lst env lo b hi (e :: m :: rest) := h.right (xs := [memo])
    obtain ⟨i1, i2⟩ := ih hr
    have hp1 := (List.pairwise_cons.1 h.ord).1
    refine ⟨Lst.cons i1 (setRval_inr h1) (by rw [setRval_pos]; exact h2) (by rw [setRval_pos]; exact h3) (by simp only [fin, setRval_pos]; exact h4) ?_, ?_⟩
    · intro y hy
      have := i2 memo.pos.off (fin memo) hp1 y hy
      simp only [fin, setRval_pos] at *
      exact this
    · intro o f hf x hx
      rcases List.mem_cons.1 hx with rfl | hx
      · exact rv _ _ _ (hf memo (by simp))
      · exact i2 o f (fun x hx => hf x (List.mem_cons_of_mem _ hx)) x hx

theorem transformCalls' {lo b : Nat} {hi : Int} {es : List Expr} {Q : List Expr → St → Prop} (h : Lst env lo b hi es)
    (k : ∀ es', Lst env lo b hi es' → Q es' s) : wp env (transformCalls es) Q tt s := by
  unfold transformCalls
  split
  · exact k [] .nil
  · next memo rest =>
    have := (transformLoop_lst memo rest h).1
    dsimp only
    split
    · split
      · unfold extraneousComma
        wpr
        repeat' (first | exact trivial | split)
      · exact k _ this
    · exact k _ this

/-! ## Blocks -/

theorem In.skip {p : Nat} {t : St} (hi : In env b m s) (hk : Sk env s t) (h1 : s.pos ≤ p) (h2 : p ≤ env.text.length) :
    In env b m { t with pos := p } := by
  have g1 := hi.lo; have g2 := hi.tsp; have g3 := hi.mle; have g4 := hk.tsp
  refine ⟨hk.nls, ?_, ?_, ?_, h2, ?_, ?_, ?_⟩
  · intro d hd
    exact hi.defs d (hk.defs ▸ hd)
  · show b ≤ t.tsp
    omega
  · show t.tsp ≤ p
    omega
  · show m ≤ p
    omega
  · intro e he
    obtain ⟨k1, k2, k3, k4, k5⟩ := hi.val e (hk.val ▸ he)
    exact ⟨k1, k2, k3, by show _ ≤ (p : Int); omega, k5⟩
  · intro he
    obtain ⟨k1, k2⟩ := hi.var (hk.tok ▸ he)
    refine ⟨by show t.tsp < p; omega, fun v hv => ?_⟩
    have := k2 v (hk.val ▸ hv)
    show t.tsp + 1 + v.length ≤ p
    omega

theorem parseBody' (H : HS env self) {x : Tok} {single : Bool} (hi : In env b m s) :
    wp env (parseBody self x single) (Post env (.parse x single) b m l0 s) tt s := by
  have g1 := hi.lo; have g2 := hi.tsp; have g3 := hi.le; have g4 := hi.mle
  unfold parseBody
  wpr
  refine wp_imp (skipWhite' hi.rd) fun ⟨c, p⟩ t ⟨hk, h1, h2, _⟩ => ?_
  have h1' : s.pos ≤ p := h1
  have h2' : p ≤ t.pos := h2
  have k1 := hk.rd.le
  have h3 := hi.skip hk h1' (by omega)
  split
  · wpr
    split
    · refine ⟨.leaf ?_ ?_ rfl, ?_, fun _ => ?_, ?_, h1, ?_⟩
      · pm
      · pm
      · pm
      · pm
      · pm
      · refine ⟨h3.nls, h3.defs, h3.lo, h3.tsp, h3.le, ?_, ?_, h3.var⟩
        · pm
        · intro e he
          obtain ⟨h1, h2, h3, h4, h5⟩ := h3.val e he
          have := h1.len
          exact ⟨h1, h2, by pm, h4, h5⟩
    · wpr
      refine H.binary h3 fun e u n he j1 j2 j3 j4 hu j5 j6 j7 => ?_
      refine assertToken' ?_
      have j5' : p ≤ n ∧ n ≤ u.tsp := j5
      exact ⟨he, j1, fun _ => by omega, j4, by omega, hu.mono (by omega) (by omega)⟩
  · wpr
    have h4 := h3.lo; have h5 := h3.tsp
    refine wp_imp (H (.stmts x []) b m b { t with pos := p } ⟨h3, Nat.le_refl _, .nil⟩) fun es u ⟨j1, j2, j3⟩ => ?_
    have j2' : p ≤ u.pos := j2
    have j4 := j3.le
    refine transformCalls' j1 fun es' hes => ?_
    refine ⟨.looseNode rfl ?_ ?_ ?_, ?_, fun _ => ?_, ?_, ?_, j3⟩
    · pm
    · pm
    · intro k hk
      refine ⟨hes.inr k hk, ?_⟩
      have := hes.hi k hk
      pm
    · pm
    · pm
    · pm
    · pm
end
end PP.Rg
