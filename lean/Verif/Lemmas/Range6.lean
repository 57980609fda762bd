import Verif.Lemmas.Range5

/-! # Byte ranges of nodes: the parser functions -/
namespace PP.Rg
open PP

section
variable {env : Env} {s t : St} {b m l0 : Nat} {self : Self} {e : Expr} {Q : Expr → St → Prop}

/-- `wp` of a call with a list result, for the caller. -/
abbrev KL (env : Env) (b : Nat) (s : St) (Q : List Expr → St → Prop) : Prop :=
  ∀ es t, Lst env b t.pos t.pos es → s.pos ≤ t.pos → In env b t.pos t → b ≤ t.tsp → t.tsp ≤ t.pos → t.pos ≤ env.text.length → Q es t

theorem parameterList' (H : HS env self) {Q : List Expr → St → Prop} (hi : In env b s.pos s) (k : KL env b s Q) :
    wp env (parameterList self) Q tt s := by
  have h1 := hi.lo; have h2 := hi.tsp; have h3 := hi.le
  unfold parameterList
  wpr
  split
  · wpr
    refine H.tok' hi fun t ht g1 g2 g3 => ?_
    refine H.exprs (b := b) rfl (ht.mono (by omega) (Nat.le_refl _)) fun es u j1 j2 j3 j4 j5 j6 => ?_
    exact k es u j1 (by omega) j3 j4 j5 j6
  · exact k [] s .nil (Nat.le_refl _) hi h1 h2 h3

theorem optParameterList' (H : HS env self) {Q : List Expr → St → Prop} (hi : In env b s.pos s) (k : KL env b s Q) :
    wp env (optParameterList self) Q tt s := by
  have h1 := hi.lo; have h2 := hi.tsp; have h3 := hi.le
  unfold optParameterList
  wpr
  split
  · wpr
    refine parameterList' H hi fun es u j1 j2 j3 j4 j5 j6 => ?_
    refine H.tok' j3 fun t ht g1 g2 g3 => ?_
    exact k es t (j1.mono (Nat.le_refl _) (by omega) (by omega)) (by omega) (ht.mono (by omega) (Nat.le_refl _)) (by omega) g2 g3
  · exact k [] s .nil (Nat.le_refl _) hi h1 h2 h3

theorem parameterType'' (H : HS env self) (hi : In env b m s)
    (k : ∀ e t n, InR env true e → s.tsp ≤ e.pos.off → e.pos.off ≤ n → (m : Int) ≤ fin e → fin e ≤ t.pos →
      In env n t.pos t → s.pos ≤ n ∧ n ≤ t.tsp → t.tsp ≤ t.pos → t.pos ≤ env.text.length → Q e t) :
    wp env (parameterType self) Q tt s := V.cps (b := s.tsp) (m := m) (parameterType' H hi) k

theorem optReturnType' (H : HS env self) {Q : Option Expr → St → Prop} (hi : In env b s.pos s)
    (k : ∀ o t, Opt env b t.pos o → s.pos ≤ t.pos → In env b t.pos t → b ≤ t.tsp → t.tsp ≤ t.pos → t.pos ≤ env.text.length → Q o t) :
    wp env (optReturnType self) Q tt s := by
  have h1 := hi.lo; have h2 := hi.tsp; have h3 := hi.le
  unfold optReturnType
  wpr
  split
  · wpr
    refine H.tok' hi fun t ht g1 g2 g3 => ?_
    refine parameterType'' H ht fun e u n he j1 j2 j3 j4 hu j5 j6 j7 => ?_
    exact k _ u (.some he (by omega) j4) (by omega) (hu.mono (by omega) (Nat.le_refl _)) (by omega) j6 j7
  · exact k none s .none (Nat.le_refl _) hi h1 h2 h3

theorem lambdaParameterList' (H : HS env self) {Q : List Expr → St → Prop} (hi : In env b m s) (k : KL env s.pos s Q) :
    wp env (lambdaParameterList self) Q tt s := by
  unfold lambdaParameterList
  wpr
  refine H.tok' hi fun t ht g1 g2 g3 => ?_
  refine H.exprs (b := s.pos) rfl (ht.mono (by omega) (Nat.le_refl _)) fun es u j1 j2 j3 j4 j5 j6 => ?_
  exact k es u j1 (by omega) j3 j4 j5 j6

/-- A block in braces: the closing brace is the current token. -/
theorem braces' (H : HS env self) (hi : In env b m s)
    (k : ∀ e t, InR env true e → s.pos ≤ e.pos.off → fin e ≤ t.pos → s.pos ≤ t.pos →
      In env s.pos s.pos t → s.pos ≤ t.tsp → t.tsp ≤ t.pos → t.pos ≤ env.text.length → Q e t) : wp env (braces self) Q tt s := by
  unfold braces
  wpr
  refine assertToken' ?_
  refine H.tok' hi fun t ht g1 g2 g3 => ?_
  refine H.parse (b := s.pos) ht fun e u he j1 j2 j3 hu j4 j5 j6 => ?_
  exact k e u he j1 j2 (by omega) hu (by omega) j5 j6

theorem lambda' (H : HS env self) (hi : In env b m s) : wp env (lambda self) (V env s.tsp s.pos s) tt s := by
  have h1 := hi.lo; have h2 := hi.tsp; have h3 := hi.le
  unfold lambda
  wpr
  refine lambdaParameterList' H hi fun ps t g1 g2 g3 g4 g5 g6 => ?_
  refine H.tok' g3 fun u hu j1 j2 j3 => ?_
  refine optReturnType' H hu fun o v k1 k2 k3 k4 k5 k6 => ?_
  refine braces' H k3 fun blk w i1 i2 i3 i4 i5 i6 i7 i8 => ?_
  refine H.tok' i5 fun x hx l1 l2 l3 => ?_
  vdone hx

/-- `convertLhsToCall`. -/
theorem convertLhs_pos (l : Expr) : (convertLhs l).pos = l.pos := by
  unfold convertLhs
  split <;> rfl

theorem convertLhs_inr (l : Expr) (h : InR env true l) : InR env true (convertLhs l) := by
  unfold convertLhs
  split
  · next q l' r' =>
    have h1 := h.len; have h2 := h.le
    have hl := h.kid (k := l') (by simp [Expr.kids]) rfl
    have hr := h.kid (k := r') (by simp [Expr.kids]) rfl
    have ih := convertLhs_inr l' hl
    have g1 := h.lo l' (by simp [Expr.kids]) rfl
    have g2 := h.lo r' (by simp [Expr.kids]) rfl
    have g3 := h.hi rfl l' (by simp [Expr.kids])
    have g4 := h.hi rfl r' (by simp [Expr.kids])
    have g5 := convertLhs_pos l'
    have hb : InR env true (.bin q .namedAccess (convertLhs l') r') := by
      refine .node h1 h2 rfl ?_
      simp only [Expr.kids, List.forall_mem_cons]
      refine ⟨⟨ih, ?_, fun _ => ?_⟩, ⟨hr, g2, fun _ => g4⟩, fun _ h => nomatch h⟩
      · rw [g5]; exact g1
      · simp only [fin, g5]; exact g3
    refine .node h1 h2 rfl ?_
    simp only [Expr.kids, List.cons_append, List.nil_append, Option.toList_none, List.forall_mem_cons]
    exact ⟨⟨hb, Nat.le_refl _, fun _ => Int.le_refl _⟩, fun _ h => nomatch h⟩
  · exact h

theorem call_inr {p : Pos} {k : CallKind} {rv : Bool} {f : Expr} {args : List Expr} {lam : Option Expr} {lo b lo' : Nat} {hi hi' : Int}
    (hf : InR env true f) (ha : Lst env lo b hi args) (hl : Opt env lo' hi' lam) (h1 : p.off = f.pos.off) (h2 : p.off ≤ lo) (h3 : p.off ≤ lo')
    (h4 : fin f ≤ (p.off : Int) + p.len) (h5 : args = [] ∨ hi ≤ (p.off : Int) + p.len) (h6 : lam = none ∨ hi' ≤ (p.off : Int) + p.len)
    (h7 : (p.off : Int) + p.len ≤ env.text.length) : InR env true (.call p k rv f args lam) := by
  have h0 := hf.len
  refine .node ?_ h7 rfl ?_
  · pm
  · simp only [Expr.kids, List.cons_append, List.forall_mem_cons, List.forall_mem_append]
    refine ⟨⟨hf, ?_, fun _ => ?_⟩, ?_, ?_⟩
    · pm
    · pm
    · rcases h5 with rfl | h5
      · exact fun _ h => nomatch h
      · exact ha.part h2 h5
    · rcases h6 with rfl | h6
      · exact fun _ h => nomatch h
      · exact hl.weak h3 h6

theorem convertLhsToCall_inr {p q : Pos} {l r : Expr} {args : List Expr} {lam : Option Expr} {lo b lo' : Nat} {hi hi' : Int}
    (h : InR env true (.bin p .namedAccess l r)) (ha : Lst env lo b hi args) (hl : Opt env lo' hi' lam) (h1 : q.off = p.off) (h2 : q.off ≤ lo) (h3 : q.off ≤ lo')
    (h4 : (p.off : Int) + p.len ≤ (q.off : Int) + q.len) (h5 : args = [] ∨ hi ≤ (q.off : Int) + q.len) (h6 : lam = none ∨ hi' ≤ (q.off : Int) + q.len)
    (h7 : (q.off : Int) + q.len ≤ env.text.length) : InR env true (convertLhsToCall p l r args lam q) := by
  have k1 := h.len; have k2 := h.le
  have hl' := h.kid (k := l) (by simp [Expr.kids]) rfl
  have hr := h.kid (k := r) (by simp [Expr.kids]) rfl
  have g1 := h.lo l (by simp [Expr.kids]) rfl
  have g2 := h.lo r (by simp [Expr.kids]) rfl
  have g3 := h.hi rfl l (by simp [Expr.kids])
  have g4 := h.hi rfl r (by simp [Expr.kids])
  have g5 := convertLhs_pos l
  have hb : InR env true (.bin p .namedAccess (convertLhs l) r) := by
    refine .node k1 k2 rfl ?_
    simp only [Expr.kids, List.forall_mem_cons]
    refine ⟨⟨convertLhs_inr l hl', ?_, fun _ => ?_⟩, ⟨hr, g2, fun _ => g4⟩, fun _ h => nomatch h⟩
    · rw [g5]; exact g1
    · simp only [fin, g5]; exact g3
  exact call_inr hb ha hl (by pm) h2 h3 (by pm) h5 h6 h7

theorem callFin (f : Expr) {t : St} {args : List Expr} {lam : Option Expr} {en : Int} (ha : Lst env b t.pos en args)
    (hl : Opt env b en lam) (k1 : s.pos ≤ t.pos) (k2 : In env b t.pos t) (k3 : en ≤ t.pos) :
    f.pos.off ≤ b → fin f ≤ en → InR env true f → wp env (match f with
      | .bin p .namedAccess l r => pure (convertLhsToCall p l r args lam ⟨f.off, en - f.off⟩)
      | _ => pure (.call ⟨f.off, en - f.off⟩ .named true f args lam) : P Expr) (W env b s f) tt t := by
  intro h4 k4 hf
  have k5 := k2.le
  have k6 := hf.len
  split
  · next p l r =>
    refine ⟨?_, rfl, ?_, ?_, k1, k2⟩
    · refine convertLhsToCall_inr hf ha hl rfl (by pm) (by pm) (by pm) (.inr (by pm)) (.inr (by pm)) (by pm)
    · unfold convertLhsToCall; pm
    · unfold convertLhsToCall; pm
  · refine ⟨?_, rfl, ?_, ?_, k1, k2⟩
    · refine call_inr hf ha hl rfl (by pm) (by pm) (by pm) (.inr (by pm)) (.inr (by pm)) (by pm)
    · pm
    · pm

theorem callFunctionExpression' (H : HS env self) (f : Expr) (hi : In env b s.pos s) (hf : InR env true f) (h1 : f.pos.off ≤ b)
    (h2 : fin f ≤ s.pos) : wp env (callFunctionExpression self f) (W env b s f) tt s := by
  have g1 := hi.lo; have g2 := hi.tsp; have g3 := hi.le; have g4 := hf.len
  unfold callFunctionExpression
  wpr
  split
  · wpr
    refine H.tok' hi fun t ht j1 j2 j3 => ?_
    refine H.exprs (b := s.pos) rfl (ht.mono (by omega) (Nat.le_refl _)) fun es u k1 k2 k3 k4 k5 k6 => ?_
    refine H.tok' k3 fun v hv i1 i2 i3 => ?_
    split
    · wpr
      refine V.cps (lambda' H hv) fun l w n hl a1 a2 a3 a4 hw a5 a6 a7 => ?_
      refine callFin (s := s) (en := (l.off : Int) + l.len) f ((joinHash_lst k1).mono (by pm) (by pm) ?_) (.some hl (by pm) (Int.le_refl _)) (by pm) (hw.mono (by pm) (Nat.le_refl _)) ?_ h1 ?_ hf
      all_goals pm
    · wpr
      exact callFin (s := s) f ((joinHash_lst k1).mono (by omega) (by omega) (Int.le_refl _)) .none (by omega) (hv.mono (by omega) (Nat.le_refl _)) (by omega) h1 (by pm) hf
  · wpr
    split
    · wpr
      refine V.cps (lambda' H hi) fun l w n hl a1 a2 a3 a4 hw a5 a6 a7 => ?_
      refine callFin (s := s) (en := (l.off : Int) + l.len) f .nil (.some hl (by pm) (Int.le_refl _)) (by pm) (hw.mono (by pm) (Nat.le_refl _)) ?_ h1 ?_ hf
      all_goals pm
    · wpr
      exact callFin (s := s) f .nil .none (Nat.le_refl _) hi h2 h1 (Int.le_refl _) hf

theorem handleKeyword' (H : HS env self) (hi : In env b m s) : wp env (handleKeyword self) (V env b m s) tt s := by
  have g1 := hi.lo; have g2 := hi.tsp; have g3 := hi.le; have g4 := hi.mle
  unfold handleKeyword
  wpr
  split
  · wpr
    refine tokenString' fun v => ?_
    refine H.tok' hi fun t ht j1 j2 j3 => ?_
    have hq : InR env true (.qname ⟨s.tsp, (s.pos : Int) - s.tsp⟩ v) := by inr
    split
    · refine W.cps (callFunctionExpression' H _ ht hq ?_ ?_) fun e u he k1 k2 k3 k4 hu k5 k6 k7 => ?_
      · pm
      · pm
      · ps at k1
        ps at k2
        vdone hu
    · wpr
      vdone ht
  · exact H (.binary .rel) b m 0 s hi

theorem handleKeyword'' (H : HS env self) (hi : In env b m s)
    (k : ∀ e t n, InR env true e → b ≤ e.pos.off → e.pos.off ≤ n → (m : Int) ≤ fin e → fin e ≤ t.pos →
      In env n t.pos t → s.pos ≤ n ∧ n ≤ t.tsp → t.tsp ≤ t.pos → t.pos ≤ env.text.length → Q e t) :
    wp env (handleKeyword self) Q tt s := V.cps (b := b) (m := m) (handleKeyword' H hi) k

theorem argument' (H : HS env self) (hi : In env b m s) : wp env (argument self) (V env b m s) tt s := by
  unfold argument
  wpr
  refine handleKeyword'' H hi fun e t n he h1 h2 h3 h4 ht h5 h6 h7 => ?_
  split
  · wpr
    refine H.tok' ht fun u hu j1 j2 j3 => ?_
    refine handleKeyword'' H hu fun v w n hv k1 k2 k3 k4 hw k5 k6 k7 => ?_
    have := he.len
    vdone hw
  · vdone ht

theorem keyedEntry' (H : HS env self) (hi : In env b m s) : wp env (keyedEntry self) (V env b m s) tt s := by
  unfold keyedEntry
  wpr
  refine handleKeyword'' H hi fun e t n he h1 h2 h3 h4 ht h5 h6 h7 => ?_
  split
  · exact trivial
  · wpr
    refine H.tok' ht fun u hu j1 j2 j3 => ?_
    refine handleKeyword'' H hu fun v w n hv k1 k2 k3 k4 hw k5 k6 k7 => ?_
    have := he.len
    vdone hw

theorem selectorEntry' (H : HS env self) (hi : In env b m s) : wp env (selectorEntry self) (V env b m s) tt s := by
  have g1 := hi.lo; have g2 := hi.tsp; have g3 := hi.le; have g4 := hi.mle
  unfold selectorEntry
  wpr
  refine H.expr hi fun e t n he h1 h2 h3 h4 ht h5 h6 h7 => ?_
  refine assertToken' ?_
  refine H.tok' ht fun u hu j1 j2 j3 => ?_
  refine H.expr hu fun v w n hv k1 k2 k3 k4 hw k5 k6 k7 => ?_
  have hn : InR env true (.selectorEntry ⟨s.tsp, (w.pos : Int) - s.tsp⟩ e v) := by
    refine .looseNode rfl ?_ ?_ ?_
    · pm
    · pm
    · simp only [Expr.kids, List.forall_mem_cons]
      exact ⟨⟨he, by pm⟩, ⟨hv, by pm⟩, fun _ h => nomatch h⟩
  vdone hw

theorem parameterName' {Q : GoStr → St → Prop} (h : ∀ v, Q v s) : wp env parameterName Q tt s := by
  unfold parameterName
  wpr
  split
  · exact trivial
  split
  · exact h _
  · exact trivial

theorem parameter' (H : HS env self) (hi : In env b s.pos s) : wp env (parameter self) (V env b s.pos s) tt s := by
  have g1 := hi.lo; have g2 := hi.tsp; have g3 := hi.le
  have rest : ∀ (t : St) (ty : Option Expr) (c : Bool), In env b t.pos t → Opt env s.tsp t.pos ty → s.pos ≤ t.pos →
      wp env (do
        let v ← parameterName
        nextTok self
        let t' ← curTok
        let d ← if t' = .assign then do
            nextTok self
            let e ← self .expression
            pure (some e)
          else pure none
        let p ← here s.tsp
        pure (.parameter p v d ty c)) (V env b s.pos s) tt t := by
    intro t ty c ht hty k0
    have q1 := ht.lo; have q2 := ht.tsp; have q3 := ht.le
    wpr
    refine parameterName' fun v => ?_
    refine H.tok' ht fun u hu j1 j2 j3 => ?_
    split
    · wpr
      refine H.tok' hu fun w hw k1 k2 k3 => ?_
      refine H.expr hw fun e x n he h1 h2 h3 h4 hx h5 h6 h7 => ?_
      vdone hx
    · wpr
      vdone hu
  have rest2 : ∀ (t : St) (ty : Option Expr), In env b t.pos t → Opt env s.tsp t.pos ty → s.pos ≤ t.pos →
      wp env (do
        let t ← curTok
        if t = .multiply then nextTok self
        let v ← parameterName
        nextTok self
        let t' ← curTok
        let d ← if t' = .assign then do
            nextTok self
            let e ← self .expression
            pure (some e)
          else pure none
        let p ← here s.tsp
        pure (.parameter p v d ty (t == .multiply))) (V env b s.pos s) tt t := by
    intro t ty ht hty k0
    have q1 := ht.lo; have q2 := ht.tsp; have q3 := ht.le
    wpr
    split
    · wpr
      refine H.tok' ht fun u hu j1 j2 j3 => ?_
      have := rest u ty (t.tok == .multiply) (hu.mono (by omega) (Nat.le_refl _)) ⟨hty.weak (Nat.le_refl _) (by omega)⟩ (by omega)
      simpa only [wp_bind, wp_curTok] using this
    · have := rest t ty (t.tok == .multiply) ht hty k0
      simpa only [wp_bind, wp_curTok] using this
  unfold parameter
  wpr
  split
  · wpr
    refine parameterType'' H hi fun e u n he j1 j2 j3 j4 hu j5 j6 j7 => ?_
    have := rest2 u (some e) (hu.mono (by omega) (Nat.le_refl _)) (.some he j1 j4) (by omega)
    simpa only [wp_bind, wp_curTok] using this
  · wpr
    have := rest2 s none hi .none (Nat.le_refl _)
    simpa only [wp_bind, wp_curTok] using this
end
end PP.Rg
