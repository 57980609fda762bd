import Verif.Lemmas.Range4

/-! # Byte ranges of nodes: parts of the parser -/
namespace PP.Rg
open PP

section
variable {env : Env} {s t : St} {b m l0 : Nat} {self : Self} {e : Expr} {Q : Expr → St → Prop}

theorem In.addDef (h : In env b m s) (he : InR env true e) : In env b m { s with defs := s.defs ++ [e] } :=
  ⟨h.nls, fun d hd => by
    rcases List.mem_append.1 hd with hd | hd
    · exact h.defs d hd
    · cases List.mem_singleton.1 hd; exact he, h.lo, h.tsp, h.le, h.mle, h.val, h.var⟩

theorem In.names {n : List GoStr} (h : In env b m s) : In env b m { s with names := n } :=
  ⟨h.nls, h.defs, h.lo, h.tsp, h.le, h.mle, h.val, h.var⟩

theorem tokenString' {Q : GoStr → St → Prop} (h : ∀ v, Q v s) : wp env tokenString Q tt s := by
  unfold wp tokenString
  cases s.val <;> first | exact h _ | exact trivial

theorem assertToken' {x : Tok} {Q : Unit → St → Prop} (h : Q () s) : wp env (assertToken x) Q tt s := by
  rw [wp_assertToken]
  split
  · exact h
  · exact trivial

/-! Recursive calls in continuation passing style. -/

theorem HS.expr (H : HS env self) (hi : In env b m s)
    (k : ∀ e t n, InR env true e → b ≤ e.pos.off → e.pos.off ≤ n → (m : Int) ≤ fin e → fin e ≤ t.pos →
      In env n t.pos t → s.pos ≤ n ∧ n ≤ t.tsp → t.tsp ≤ t.pos → t.pos ≤ env.text.length → Q e t) :
    wp env (self .expression) Q tt s := V.cps (b := b) (m := m) (H .expression b m 0 s hi) k

theorem HS.binary (H : HS env self) {l : Lvl} (hi : In env b m s)
    (k : ∀ e t n, InR env true e → b ≤ e.pos.off → e.pos.off ≤ n → (m : Int) ≤ fin e → fin e ≤ t.pos →
      In env n t.pos t → s.pos ≤ n ∧ n ≤ t.tsp → t.tsp ≤ t.pos → t.pos ≤ env.text.length → Q e t) :
    wp env (self (.binary l)) Q tt s := V.cps (b := b) (m := m) (H (.binary l) b m 0 s hi) k

theorem HS.assignment (H : HS env self) (hi : In env b m s)
    (k : ∀ e t n, InR env true e → b ≤ e.pos.off → e.pos.off ≤ n → (m : Int) ≤ fin e → fin e ≤ t.pos →
      In env n t.pos t → s.pos ≤ n ∧ n ≤ t.tsp → t.tsp ≤ t.pos → t.pos ≤ env.text.length → Q e t) :
    wp env (self .assignment) Q tt s := V.cps (b := b) (m := m) (H .assignment b m 0 s hi) k

theorem HS.unary (H : HS env self) (hi : In env b m s)
    (k : ∀ e t n, InR env true e → b ≤ e.pos.off → e.pos.off ≤ n → (m : Int) ≤ fin e → fin e ≤ t.pos →
      In env n t.pos t → s.pos ≤ n ∧ n ≤ t.tsp → t.tsp ≤ t.pos → t.pos ≤ env.text.length → Q e t) :
    wp env (self .unary) Q tt s := V.cps (b := b) (m := m) (H .unary b m 0 s hi) k

theorem HS.primary (H : HS env self) (hi : In env b m s)
    (k : ∀ e t n, InR env true e → b ≤ e.pos.off → e.pos.off ≤ n → (m : Int) ≤ fin e → fin e ≤ t.pos →
      In env n t.pos t → s.pos ≤ n ∧ n ≤ t.tsp → t.tsp ≤ t.pos → t.pos ≤ env.text.length → Q e t) :
    wp env (self .primary) Q tt s := V.cps (b := b) (m := m) (H .primary b m 0 s hi) k

theorem HS.atom (H : HS env self) (hi : In env b m s)
    (k : ∀ e t n, InR env true e → b ≤ e.pos.off → e.pos.off ≤ n → (m : Int) ≤ fin e → fin e ≤ t.pos →
      In env n t.pos t → s.pos ≤ n ∧ n ≤ t.tsp → t.tsp ≤ t.pos → t.pos ≤ env.text.length → Q e t) :
    wp env (self .atom) Q tt s := V.cps (b := b) (m := m) (H .atom b m 0 s hi) k

theorem HS.ifE (H : HS env self) {u : Bool} (hi : In env b m s)
    (k : ∀ e t n, InR env true e → b ≤ e.pos.off → e.pos.off ≤ n → (m : Int) ≤ fin e → fin e ≤ t.pos →
      In env n t.pos t → s.pos ≤ n ∧ n ≤ t.tsp → t.tsp ≤ t.pos → t.pos ≤ env.text.length → Q e t) :
    wp env (self (.ifExpr u)) Q tt s := V.cps (b := b) (m := m) (H (.ifExpr u) b m 0 s hi) k

/-- A list that begins at the current token. -/
theorem HS.exprs (H : HS env self) {x : Tok} {p : Producer} {Q : List Expr → St → Prop} (hp : wfProducer p = false) (hi : In env b s.pos s)
    (k : ∀ es t, Lst env b t.pos t.pos es → s.pos ≤ t.pos → In env b t.pos t → b ≤ t.tsp → t.tsp ≤ t.pos →
      t.pos ≤ env.text.length → Q es t) : wp env (self (.exprs x p [])) Q tt s :=
  L.cps (b := b) (l0 := b) (H (.exprs x p []) b 0 b s ⟨hp, hi, Nat.le_refl _, .nil⟩) k

theorem HS.attrOps (H : HS env self) {Q : List Expr → St → Prop} (hi : In env b s.pos s)
    (k : ∀ es t, Lst env b t.pos t.pos es → s.pos ≤ t.pos → In env b t.pos t → b ≤ t.tsp → t.tsp ≤ t.pos →
      t.pos ≤ env.text.length → Q es t) : wp env (self (.attrOps [])) Q tt s :=
  L.cps (b := b) (l0 := b) (H (.attrOps []) b 0 b s ⟨hi, Nat.le_refl _, .nil⟩) k

theorem HS.caseOptions (H : HS env self) {Q : List Expr → St → Prop} (hi : In env b s.pos s)
    (k : ∀ es t, Lst env b t.pos t.pos es → s.pos ≤ t.pos → In env b t.pos t → b ≤ t.tsp → t.tsp ≤ t.pos →
      t.pos ≤ env.text.length → Q es t) : wp env (self (.caseOptions [])) Q tt s :=
  L.cps (b := b) (l0 := b) (H (.caseOptions []) b 0 b s ⟨hi, Nat.le_refl _, .nil⟩) k

theorem HS.hostnames (H : HS env self) {Q : List Expr → St → Prop} (hi : In env b s.pos s)
    (k : ∀ es t, Lst env b t.pos t.pos es → s.pos ≤ t.pos → In env b t.pos t → b ≤ t.tsp → t.tsp ≤ t.pos →
      t.pos ≤ env.text.length → Q es t) : wp env (self (.hostnames [])) Q tt s :=
  L.cps (b := b) (l0 := b) (H (.hostnames []) b 0 b s ⟨hi, Nat.le_refl _, .nil⟩) k

/-- A block. -/
theorem HS.parse (H : HS env self) {x : Tok} {single : Bool} (hi : In env b m s)
    (k : ∀ e t, InR env true e → b ≤ e.pos.off → fin e ≤ t.pos → s.pos ≤ t.pos →
      In env b b t → b ≤ t.tsp → t.tsp ≤ t.pos → t.pos ≤ env.text.length → Q e t) :
    wp env (self (.parse x single)) Q tt s :=
  wp_imp (H (.parse x single) b m 0 s hi) fun e t ⟨h1, h2, _, h3, h4, h5⟩ => k e t h1 h2 h3 h4 h5 h5.lo h5.tsp h5.le

/-- An optional part. -/
structure Opt (env : Env) (lo : Nat) (hi : Int) (o : Option Expr) : Prop where
  part : ∀ x ∈ o.toList, Part env true lo hi x

theorem Opt.none {lo : Nat} {hi : Int} : Opt env lo hi none := ⟨fun _ h => nomatch h⟩
theorem Opt.some {lo : Nat} {hi : Int} (h : InR env true e) (h1 : lo ≤ e.pos.off) (h2 : fin e ≤ hi) : Opt env lo hi (some e) :=
  ⟨fun x hx => by simp only [Option.toList_some, List.mem_singleton] at hx; subst hx; exact ⟨h, h1, fun _ => h2⟩⟩
theorem Opt.weak {lo lo' : Nat} {hi hi' : Int} {o : Option Expr} (h : Opt env lo hi o) (h1 : lo' ≤ lo) (h2 : hi ≤ hi') :
    ∀ x ∈ o.toList, Part env true lo' hi' x := fun x hx =>
  ⟨(h.part x hx).inr, by have := (h.part x hx).lo; omega, fun _ => by have := (h.part x hx).hi rfl; omega⟩

end

/-- Build a node. -/
macro "inr" : tactic => `(tactic| (
  refine InR.node ?_ ?_ rfl ?_
  · pm
  · pm
  · simp only [Expr.kids, List.forall_mem_cons, List.forall_mem_append, List.mem_nil_iff, false_imp_iff, implies_true, and_true,
      Option.toList_none, Option.toList_some, List.append_nil, List.nil_append]
    (repeat' refine And.intro ?_ ?_)
    all_goals first
      | exact ⟨by assumption, by pm, fun _ => by pm⟩
      | exact Lst.part (by assumption) (by pm) (by pm)
      | exact Opt.weak (by assumption) (by pm) (by pm)
      | exact trivial))

/-- Close the post condition of a value. -/
macro "vdone" h:term : tactic => `(tactic| exact ⟨by first | assumption | inr, by pm, by pm, by pm, _, by pm, by pm, $h⟩)

section
variable {env : Env} {s t : St} {b m l0 : Nat} {self : Self} {e : Expr} {Q : Expr → St → Prop}

theorem identifier' (H : HS env self) {Q : Option GoStr → St → Prop} (hi : In env b m s)
    (k : ∀ n t, In env s.pos t.pos t → s.pos ≤ t.tsp → t.tsp ≤ t.pos → t.pos ≤ env.text.length → Q (some n) t) (k' : ∀ t, Q none t) :
    wp env (identifier self) Q tt s := by
  unfold identifier
  wpr
  split
  · wpr
    refine tokenString' fun v => ?_
    exact H.tok' hi fun t ht h1 h2 h3 => k _ t ht h1 h2 h3
  · split
    · wpr
      exact H.tok' hi fun t ht h1 h2 h3 => k _ t ht h1 h2 h3
    · exact k' _

theorem typeName' (H : HS env self) {Q : Option Expr → St → Prop} (hi : In env b m s)
    (k : ∀ e t, InR env true e → e.pos.off = s.tsp → fin e = s.pos →
      In env s.pos t.pos t → s.pos ≤ t.tsp → t.tsp ≤ t.pos → t.pos ≤ env.text.length → Q (some e) t) (k' : Q none s) :
    wp env (typeName self) Q tt s := by
  have h1 := hi.lo; have h2 := hi.tsp; have h3 := hi.le
  unfold typeName
  wpr
  split
  · wpr
    refine tokenString' fun v => ?_
    refine H.tok' hi fun t ht h1 h2 h3 => k _ t ?_ rfl ?_ ht h1 h2 h3
    · inr
    · pm
  · exact k'

/-! ## Entries of a hash without braces -/

theorem Lst.left {lo b : Nat} {hi : Int} {xs ys : List Expr} (h : Lst env lo b hi (xs ++ ys)) : Lst env lo b hi xs :=
  ⟨fun e he => h.inr e (by simp [he]), fun e he => h.lo e (by simp [he]), fun e he => h.off e (by simp [he]),
    fun e he => h.hi e (by simp [he]), (List.pairwise_append.1 h.ord).1⟩

theorem Lst.right {lo b : Nat} {hi : Int} {xs ys : List Expr} (h : Lst env lo b hi (xs ++ ys)) : Lst env lo b hi ys :=
  ⟨fun e he => h.inr e (by simp [he]), fun e he => h.lo e (by simp [he]), fun e he => h.off e (by simp [he]),
    fun e he => h.hi e (by simp [he]), (List.pairwise_append.1 h.ord).2.1⟩

theorem Lst.cons {lo b : Nat} {hi : Int} {x : Expr} {ys : List Expr} (h : Lst env lo b hi ys) (h1 : InR env true x) (h2 : lo ≤ x.pos.off)
    (h3 : x.pos.off ≤ b) (h4 : fin x ≤ hi) (h5 : ∀ y ∈ ys, x.pos.off ≤ y.pos.off ∧ fin x ≤ fin y) : Lst env lo b hi (x :: ys) :=
  ⟨List.forall_mem_cons.2 ⟨h1, h.inr⟩, List.forall_mem_cons.2 ⟨h2, h.lo⟩, List.forall_mem_cons.2 ⟨h3, h.off⟩,
    List.forall_mem_cons.2 ⟨h4, h.hi⟩, List.pairwise_cons.2 ⟨h5, h.ord⟩⟩

theorem newHash_lst {lo b : Nat} {hi : Int} {c : Expr} {cs : List Expr} (h : Lst env lo b hi (c :: cs)) :
    InR env true (newHash (c :: cs)) ∧ (newHash (c :: cs)).pos.off = c.pos.off ∧
      ∃ l ∈ c :: cs, fin (newHash (c :: cs)) = fin l := by
  have hl : ∃ l ∈ c :: cs, (c :: cs).getLastD (.nop ⟨0, 0⟩) = l ∧ ∀ x ∈ c :: cs, fin x ≤ fin l := by
    refine ⟨(c :: cs).getLast (by simp), List.getLast_mem _, by rw [List.getLastD_eq_getLast?, List.getLast?_eq_some_getLast (by simp)]; rfl, ?_⟩
    intro x hx
    have h1 := List.dropLast_concat_getLast (l := c :: cs) (by simp)
    have h2 := h.ord
    rw [← h1, List.pairwise_append] at h2
    rw [← h1] at hx
    rcases List.mem_append.1 hx with hx | hx
    · exact (h2.2.2 x hx _ (by simp)).2
    · cases List.mem_singleton.1 hx; exact Int.le_refl _
  obtain ⟨l, hl1, hl2, hl3⟩ := hl
  have hf : fin (newHash (c :: cs)) = fin l := by
    unfold newHash
    rw [hl2]
    ps
    simp only [List.headD_cons]
    omega
  have ho : (newHash (c :: cs)).pos.off = c.pos.off := rfl
  refine ⟨?_, ho, l, hl1, hf⟩
  have h1 := hl3 c (by simp)
  have h2 := (h.inr c (by simp)).len
  have h3 := (h.inr l hl1).le
  refine .node ?_ ?_ rfl ?_
  · simp only [fin] at *; omega
  · rw [hf]; exact h3
  · intro k hk
    refine ⟨h.inr k hk, ?_, fun _ => ?_⟩
    · rw [ho]
      rcases List.mem_cons.1 hk with rfl | hk
      · exact Nat.le_refl _
      · exact ((List.pairwise_cons.1 h.ord).1 k hk).1
    · rw [hf]; exact hl3 k hk

theorem process_lst {lo b : Nat} {hi : Int} (es c : List Expr) (h : Lst env lo b hi (c ++ es)) :
    Lst env lo b hi (processHashEntries es c) ∧ ∀ f : Int, (∀ x ∈ c ++ es, f ≤ fin x) → ∀ x ∈ processHashEntries es c, f ≤ fin x := by
  have one : ∀ (lo b : Nat) (hi : Int) (c : Expr) (cs : List Expr) (f : Int), Lst env lo b hi (c :: cs) → (∀ x ∈ c :: cs, f ≤ fin x) →
      f ≤ fin (newHash (c :: cs)) := by
    intro lo b hi c cs f h hf
    obtain ⟨_, _, l, hl, h3⟩ := newHash_lst h
    rw [h3]; exact hf l hl
  induction es generalizing c lo with
  | nil =>
    cases c with
    | nil => exact ⟨h, fun _ _ x hx => nomatch hx⟩
    | cons c cs =>
      rw [List.append_nil] at h
      obtain ⟨h1, h2, l, hl, h3⟩ := newHash_lst h
      have h4 := h.hi l hl
      have h5 := h.lo c (by simp)
      have h6 := h.off c (by simp)
      refine ⟨Lst.cons .nil h1 (by omega) (by omega) (by omega) (fun _ h => nomatch h), ?_⟩
      intro f hf x hx
      rw [List.append_nil] at hf
      cases List.mem_singleton.1 hx
      exact one _ _ _ _ _ f h hf
  | cons e es ih =>
    cases c with
    | nil =>
      unfold processHashEntries
      split
      · exact ih [e] h
      · have h1 : Lst env lo b hi ([] ++ es) := h.right (xs := [e])
        have h0 := List.pairwise_cons.1 h.ord
        have h2 : Lst env e.pos.off b hi ([] ++ es) := ⟨h1.inr, fun x hx => (h0.1 x hx).1, h1.off, h1.hi, h1.ord⟩
        obtain ⟨k1, k2⟩ := ih [] h2
        refine ⟨Lst.cons (k1.mono (h.lo e (by simp)) (Nat.le_refl _) (Int.le_refl _)) (h.inr e (by simp)) (h.lo e (by simp)) (h.off e (by simp)) (h.hi e (by simp)) ?_, ?_⟩
        · intro y hy
          exact ⟨k1.lo y hy, k2 (fin e) (fun x hx => (h0.1 x hx).2) y hy⟩
        · intro f hf x hx
          rcases List.mem_cons.1 hx with rfl | hx
          · exact hf x (by simp)
          · exact k2 f (fun x hx => hf x (by simpa using Or.inr hx)) x hx
    | cons c cs =>
      unfold processHashEntries
      split
      · have h1 : Lst env lo b hi ((c :: cs ++ [e]) ++ es) := by simpa using h
        obtain ⟨k1, k2⟩ := ih _ h1
        refine ⟨k1, fun f hf x hx => k2 f ?_ x hx⟩
        simpa using hf
      · obtain ⟨h1, h2, l, hl, h3⟩ := newHash_lst h.left
        have hp := List.pairwise_append.1 h.ord
        have hr : Lst env lo b hi (e :: es) := h.right
        have h0 := List.pairwise_cons.1 hr.ord
        have h4 : Lst env e.pos.off b hi ([] ++ es) := ⟨(hr.right (xs := [e])).inr, fun x hx => (h0.1 x hx).1, (hr.right (xs := [e])).off, (hr.right (xs := [e])).hi, h0.2⟩
        obtain ⟨k1, k2⟩ := ih [] h4
        have k3 : Lst env lo b hi (e :: processHashEntries es []) := by
          refine Lst.cons (k1.mono (hr.lo e (by simp)) (Nat.le_refl _) (Int.le_refl _)) (hr.inr e (by simp)) (hr.lo e (by simp)) (hr.off e (by simp)) (hr.hi e (by simp)) ?_
          intro y hy
          exact ⟨k1.lo y hy, k2 (fin e) (fun x hx => (h0.1 x hx).2) y hy⟩
        have g1 := h.left.lo c (by simp)
        have g2 := h.left.off c (by simp)
        have g3 := h.left.hi l hl
        have g4 := hp.2.2 c (by simp) e (by simp)
        have g5 := hp.2.2 l hl e (by simp)
        refine ⟨Lst.cons k3 h1 (by omega) (by omega) (by omega) ?_, ?_⟩
        · intro y hy
          rcases List.mem_cons.1 hy with rfl | hy
          · exact ⟨by omega, by omega⟩
          · have j1 := k1.lo y hy
            have j2 := k2 (fin e) (fun x hx => (h0.1 x hx).2) y hy
            exact ⟨by omega, by omega⟩
        · intro f hf x hx
          rcases List.mem_cons.1 hx with rfl | hx
          · exact one _ _ _ _ _ f h.left fun x hx => hf x (List.mem_append.2 (.inl hx))
          rcases List.mem_cons.1 hx with rfl | hx
          · exact hf x (by simp)
          · exact k2 f (fun x hx => hf x (List.mem_append.2 (.inr (List.mem_cons_of_mem _ (by simpa using hx))))) x hx

theorem joinHash_lst {lo b : Nat} {hi : Int} {es : List Expr} (h : Lst env lo b hi es) : Lst env lo b hi (joinHashEntries es) := by
  unfold joinHashEntries
  split
  · exact (process_lst es [] h).1
  · exact h

theorem arrayExpression' (H : HS env self) {Q : List Expr → St → Prop} (hi : In env b s.pos s)
    (k : ∀ es t, Lst env b t.pos t.pos es → s.pos ≤ t.pos → In env b t.pos t → b ≤ t.tsp → t.tsp ≤ t.pos →
      t.pos ≤ env.text.length → Q es t) : wp env (arrayExpression self) Q tt s := by
  unfold arrayExpression
  wpr
  refine H.exprs rfl hi fun es t h1 h2 h3 h4 h5 h6 => ?_
  exact k _ t (joinHash_lst h1) h2 h3 h4 h5 h6

theorem parameterType' (H : HS env self) (hi : In env b m s) : wp env (parameterType self) (V env s.tsp m s) tt s := by
  have h1 := hi.lo; have h2 := hi.tsp; have h3 := hi.le; have h4 := hi.mle
  unfold parameterType
  wpr
  refine typeName' H hi (fun e t he g1 g2 ht g3 g4 g5 => ?_) trivial
  dsimp only
  wpr
  split
  · wpr
    refine H.tok' ht fun u hu k1 k2 k3 => ?_
    refine arrayExpression' H hu fun es v hes j1 hv j2 j3 j4 => ?_
    refine H.tok' hv fun w hw i1 i2 i3 => ?_
    vdone hw
  · vdone ht
end
end PP.Rg
