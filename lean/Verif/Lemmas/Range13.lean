import Verif.Lemmas.Range12

/-! # Byte ranges of nodes: `Parse` -/
namespace PP.Rg
open PP

section
variable {env : Env} {s t : St} {b m l0 : Nat} {self : Self} {e : Expr} {Q : Expr → St → Prop}

/-- What `parseTopExpression` guarantees. -/
structure Top (env : Env) (e : Expr) (t : St) : Prop where
  inr : InR env true e
  hi : fin e ≤ t.pos
  le : t.pos ≤ env.text.length
  defs : ∀ d ∈ t.defs, InR env true d

theorem mkEpp_inr {n : Nat} {ps : List Expr} (hn : n ≤ env.text.length) (he : InR env true e) (h : fin e ≤ n)
    (hp : ∀ p ∈ ps, InR env true p ∧ fin p ≤ n) : InR env true (mkEpp ⟨0, (n : Int)⟩ ps e) := by
  refine .node ?_ ?_ rfl ?_
  · simp [mkEpp, Expr.pos]
  · simp only [fin, mkEpp, pos_lambda]; omega
  · intro k hk
    rcases List.mem_append.1 hk with hk | hk
    · refine ⟨(hp k hk).1, Nat.zero_le _, fun _ => ?_⟩
      have := (hp k hk).2
      simp only [fin, mkEpp, pos_lambda] at *
      omega
    · cases List.mem_singleton.1 hk
      refine ⟨.node ?_ ?_ rfl ?_, Nat.zero_le _, fun _ => ?_⟩
      · simp only [pos_epp]; omega
      · simp only [fin, pos_epp]; omega
      · intro x hx
        cases List.mem_singleton.1 hx
        refine ⟨he, Nat.zero_le _, fun _ => ?_⟩
        simp only [fin, pos_epp] at *
        omega
      · simp only [fin, mkEpp, pos_lambda, pos_epp]; omega

theorem asEppLambda' (he : InR env true e) (h : fin e ≤ s.pos) (hs : s.pos ≤ env.text.length)
    (hd : ∀ d ∈ s.defs, InR env true d) : wp env (asEppLambda e) (Top env) tt s := by
  have pos : ∀ ps x, fin (mkEpp ⟨0, (s.pos : Int) - (0 : Nat)⟩ ps x) ≤ s.pos := by
    intro ps x; simp only [fin, mkEpp, pos_lambda]; omega
  have z : (⟨0, (s.pos : Int) - (0 : Nat)⟩ : Pos) = ⟨0, (s.pos : Int)⟩ := by simp
  unfold asEppLambda
  wpr
  split
  · exact ⟨he, h, hs, hd⟩
  · exact ⟨z ▸ mkEpp_inr hs he h (by simp), pos _ _, hs, hd⟩
  · refine ⟨z ▸ mkEpp_inr hs ?_ ?_ (by simp), pos _ _, hs, hd⟩
    · refine .looseNode rfl ?_ ?_ ?_
      · simp only [pos_block]; omega
      · simp only [fin, pos_block]; omega
      · intro k hk
        cases List.mem_singleton.1 hk
        refine ⟨he, ?_⟩
        simp only [fin, pos_block] at *
        omega
    · simp only [fin, pos_block]; omega

/-- The part of `parseEpp` after the leading text. -/
def eppRest (self : Self) (text : GoStr) : P Expr := do
  let s ← getS
  if s.tok = .end_ then do
    let p ← here 0
    asEppLambda (.renderString p text)
  else if s.tok = .pipe then
    if text.isEmpty = false then issue .parseIllegalEppParameters
    else do
      let ps ← lambdaParameterList self
      self .nextToken
      let body ← self (.parse .end_ false)
      let p ← here 0
      asEppLambda (mkEpp p ps body)
  else do
    let init := if text.isEmpty then [] else [.renderString ⟨0, s.tsp⟩ text]
    let es ← self (.eppLoop init)
    let es ← transformCalls es
    let p ← here 0
    asEppLambda (.block p es)

theorem parseEpp_eq : parseEpp self = (do
    consumeEPP self
    let t ← curTok
    if t = .renderString then do
      let v ← tokenString
      self .nextToken
      eppRest self v
    else eppRest self []) := rfl

theorem parseEpp' (H : HS env self) (hr : Rd env s) (hd : ∀ d ∈ s.defs, InR env true d) :
    wp env (parseEpp self) (Top env) tt s := by
  rw [parseEpp_eq]
  wpr
  refine wp_imp (consumeEPP' H hr hd) fun _ t ht => ?_
  -- from a state with a token
  have fromIn : ∀ text u, In env 0 u.pos u → wp env (eppRest self text) (Top env) tt u := by
    intro text u hu
    have g2 := hu.tsp; have g3 := hu.le
    unfold eppRest
    wpr
    split
    · wpr
      refine asEppLambda' (.leaf ?_ ?_ rfl) ?_ hu.le hu.defs
      · simp only [pos_renderString]; omega
      · simp only [fin, pos_renderString]; omega
      · simp only [fin, pos_renderString]; omega
    split
    · split
      · exact trivial
      · wpr
        refine lambdaParameterList' H hu fun ps v k1 k2 k3 k4 k5 k6 => ?_
        refine H.tok' k3 fun w hw j1 j2 j3 => ?_
        refine wp_imp (H (.parse .end_ false) v.pos w.pos 0 w hw) fun e x ⟨q1, q2, q3, q4, q5, q6⟩ => ?_
        have q7 := q6.le
        have z : (⟨0, (x.pos : Int) - (0 : Nat)⟩ : Pos) = ⟨0, (x.pos : Int)⟩ := by simp
        rw [z]
        refine asEppLambda' (mkEpp_inr q7 q1 q4 ?_) ?_ q7 q6.defs
        · intro p hp
          refine ⟨k1.inr p hp, ?_⟩
          have := k1.hi p hp
          omega
        · simp only [fin, mkEpp, pos_lambda]; omega
    · wpr
      refine wp_imp (H (.eppLoop _) 0 0 0 u ⟨hu, Nat.le_refl _, ?_⟩) fun es v ⟨k1, k2, k3⟩ => ?_
      · split
        · exact .nil
        · refine Lst.one (.leaf ?_ ?_ rfl) ?_ ?_ ?_
          · simp only [pos_renderString]; omega
          · simp only [fin, pos_renderString]; omega
          · exact Nat.zero_le _
          · exact Nat.le_refl _
          · simp only [fin, pos_renderString]; omega
      · have k4 := k3.le
        refine transformCalls' k1 fun es' hes => ?_
        refine asEppLambda' (.looseNode rfl ?_ ?_ ?_) ?_ k4 k3.defs
        · simp only [pos_block]; omega
        · simp only [fin, pos_block]; omega
        · intro k hk
          refine ⟨hes.inr k hk, ?_⟩
          have := hes.hi k hk
          simp only [fin, pos_block] at *
          omega
        · simp only [fin, pos_block]; omega
  have rdt : Rd env t ∧ ∀ d ∈ t.defs, InR env true d := by
    rcases ht with ⟨h1, -, -⟩ | ⟨h1, -⟩
    · exact ⟨h1.rd, by rw [h1.defs]; exact hd⟩
    · exact ⟨h1.rd, h1.defs⟩
  by_cases c : t.tok = .renderString
  · rw [if_pos c]
    wpr
    refine tokenString' fun v => ?_
    refine H.tok rdt.1 rdt.2 fun u hu g1 g2 g3 => ?_
    exact fromIn v u (hu.mono (Nat.zero_le _) (Nat.le_refl _))
  · rw [if_neg c]
    rcases ht with ⟨h1, h2, h3⟩ | ⟨h1, h2⟩
    · have h4 : t.tok = .end_ := h2.resolve_left c
      have g3 := rdt.1.le
      unfold eppRest
      wpr
      rw [if_pos h4]
      wpr
      refine asEppLambda' (.leaf ?_ ?_ rfl) ?_ g3 rdt.2
      · simp only [pos_renderString]; omega
      · simp only [fin, pos_renderString]; omega
      · simp only [fin, pos_renderString]; omega
    · exact fromIn [] t (h1.mono (Nat.zero_le _) (Nat.le_refl _))

theorem parseTop' (H : HS env self) (single : Bool) (hr : Rd env s) (hd : ∀ d ∈ s.defs, InR env true d) :
    wp env (parseTop self single) (Top env) tt s := by
  unfold parseTop
  wpr
  split
  · exact parseEpp' H hr hd
  · wpr
    refine H.tok hr hd fun t ht g1 g2 g3 => ?_
    refine wp_imp (H (.parse .end_ single) s.pos t.pos 0 t ht) fun e u ⟨q1, q2, q3, q4, q5, q6⟩ => ?_
    exact ⟨q1, q4, q6.le, q6.defs⟩

theorem parseProgram' (H : HS env self) (single : Bool) :
    wp env (parseProgram self single) (fun e t => Top env e t ∧ (single = false → ∀ p b ds, e = .program p b ds → ∀ d ∈ ds, InR env true d)) tt s := by
  unfold parseProgram
  wpr
  refine wp_imp (parseTop' (s := { s with pos := 0, defs := [], nls := none }) H single ⟨rfl, Nat.zero_le _⟩ (by simp)) fun e t ht => ?_
  split
  · rename_i hs
    exact ⟨ht, fun h => by simp [h] at hs⟩
  · wpr
    refine ⟨⟨.node ?_ ?_ rfl ?_, ?_, ht.le, ht.defs⟩, ?_⟩
    · simp only [pos_program]; omega
    · have := ht.le; simp only [fin, pos_program]; omega
    · intro k hk
      cases List.mem_singleton.1 hk
      refine ⟨ht.inr, Nat.zero_le _, fun _ => ?_⟩
      have := ht.hi
      simp only [fin, pos_program] at *
      omega
    · simp only [fin, pos_program]; omega
    · intro _ p b ds h
      cases h
      exact ht.defs

end
end PP.Rg
