import Verif.Lemmas.Parse5

/-! # The functions of the parser: definitions and control structures -/
namespace PP

section
variable {env : Env} {s t u : St} {self : Self} {m : Nat}

theorem Mv.push (h : Mv env s t) (n : GoStr) :
    Mv env { s with names := s.names ++ [n] } { t with names := t.names ++ [n] } :=
  ⟨⟨by rw [h.adv.names], h.adv.defs, h.adv.r⟩, ⟨⟨h.inv.pos, h.inv.tsp, h.inv.nls, h.inv.nls2, h.inv.defs⟩, h.inv.tok, h.inv.fin, h.inv.sp⟩, h.bk, h.phi⟩

theorem Mv.pop {n : GoStr} (h : Mv env { s with names := s.names ++ [n] } t) :
    Mv env s { t with names := t.names.dropLast } :=
  ⟨⟨by rw [h.adv.names]; simp, h.adv.defs, h.adv.r⟩, ⟨⟨h.inv.pos, h.inv.tsp, h.inv.nls, h.inv.nls2, h.inv.defs⟩, h.inv.tok, h.inv.fin, h.inv.sp⟩, h.bk, h.phi⟩

/-- What a definition gives. -/
def DefV (env : Env) (D : List Expr) (e : Expr) : Prop := Val env D e ∧ e.isBin = false ∧ e.isName = false

/-- A block with its closing brace. -/
theorem wp_bracesNext (H : HSelf env self m) (hm : B env s ≤ m) (h : Lt env s t) {β : Type} {K : Expr → P β} {Q : β → St → Prop}
    (hK : ∀ b u, Mv env s u → (∀ d ∈ t.defs, d ∈ u.defs) → Node env u.defs .block b → wp env (K b) Q (EOK env) u) :
    wp env (do let b ← braces self; nextTok self; K b) Q (EOK env) t := by
  have b1 := h.B
  rw [wp_bind]
  refine wp_imp (wp_braces H (by omega) h.inv) ?_
  rintro b t2 ⟨h2, g2, -, n2⟩
  rw [wp_bind]
  refine wp_imp (H.next hm (h.trans_le h2.le)) ?_
  rintro _ t3 ⟨h3, g3⟩
  exact hK b t3 h3 (fun d hd => g3 d (g2 d hd)) (n2.mono g3)

/-- Parameters. -/
theorem wp_paramsThen (H : HSelf env self m) (hm : B env s ≤ m) (h : Lt env s t) {β : Type} {K : List Expr → P β} {Q : β → St → Prop}
    (hK : ∀ ps u, Lt env s u → (∀ d ∈ t.defs, d ∈ u.defs) → AllN env u.defs .param ps → wp env (K ps) Q (EOK env) u) :
    wp env (do let ps ← optParameterList self; K ps) Q (EOK env) t := by
  have b1 := h.B
  rw [wp_bind]
  refine wp_imp (wp_optParameterList H (by omega) h.inv) ?_
  rintro ps t2 ⟨h2, n2⟩
  exact hK ps t2 (h.trans_ml h2) (h2.le h.inv).adv.mem n2

/-- A return type. -/
theorem wp_returnThen (H : HSelf env self m) (hm : B env s ≤ m) (h : Lt env s t) {β : Type} {K : Option Expr → P β} {Q : β → St → Prop}
    (hK : ∀ rt u, Lt env s u → (∀ d ∈ t.defs, d ∈ u.defs) → (∀ e, rt = some e → Node env u.defs .value e) →
      wp env (K rt) Q (EOK env) u) :
    wp env (do let rt ← optReturnType self; K rt) Q (EOK env) t := by
  have b1 := h.B
  rw [wp_bind]
  refine wp_imp (wp_optReturnType H (by omega) h.inv) ?_
  rintro ps t2 ⟨h2, n2⟩
  exact hK ps t2 (h.trans_ml h2) (h2.le h.inv).adv.mem n2

/-- The node of a definition. -/
theorem wp_define {mk : Pos → Expr} {start : Nat} (h : Mv env s t) (hst : start ≤ env.text.length + 1)
    (hd : ∀ p, (mk p).isDefinition = true) (hpos : ∀ p, (mk p).pos = p) (hb : ∀ p, (mk p).isBin = false) (hq : ∀ p, (mk p).isName = false)
    (hn : ∀ p D, okPos env p → p.off = start → (∀ d ∈ t.defs, d ∈ D) → mk p ∈ D → Node env D .value (mk p)) :
    wp env (do let p ← here start; addDefinition (mk p)) (After env s s (DefV env)) (EOK env) t := by
  rw [wp_bind, wp_here]
  have hk : Node env (t.defs ++ [mk ⟨start, (t.pos : Int) - start⟩]) .value (mk ⟨start, (t.pos : Int) - start⟩) :=
    hn _ _ hst rfl h.sub (by simp)
  refine wp_addDef h (hd _) hk fun h2 => ?_
  exact ⟨h2, h2.adv.mem, ⟨hk, endHere (hpos _) h.inv.pos⟩, hb _, hq _⟩

theorem wp_functionDefinition (H : HSelf env self m) (hm : B env s + 2 < m) (h : Inv env s) (plan : Bool)
    (hw : s.tok = if plan then .kPlan else .kFunction) (hp : plan = true → env.tasks = true) :
    wp env (functionDefinition self plan) (After env s s (fun D e => DefV env D e ∧ ∃ p n ps b rt, e = .function p plan n ps b rt)) (EOK env) s := by
  have hne : s.tok ≠ .end_ := by rw [hw]; cases plan <;> decide
  have hsp : ReadsAt env.text s.tsp (if plan then b!"plan" else b!"function") := by
    cases plan
    · exact h.here hw
    · exact h.here hw
  have defn : ∀ (t : St) (name : GoStr) (ps : List Expr) (b : Expr) (rt : Option Expr), Mv env s t → AllN env t.defs .param ps →
      Node env t.defs .block b → (∀ e, rt = some e → Node env t.defs .value e) → wp env (do
      let p ← here s.tsp
      addDefinition (.function p plan name ps b rt)) (After env s s (fun D e => DefV env D e ∧ ∃ p n ps b rt, e = .function p plan n ps b rt)) (EOK env) t := by
    intro t name ps b rt h1 h2 h3 h4
    have h5 := wp_define (mk := fun p => .function p plan name ps b rt) h1 h.tsp (fun _ => rfl) (fun _ => rfl) (fun _ => rfl) (fun _ => rfl)
      fun p D hpos hps hD hmem => .function hpos (by rw [Stt, Starts, hps]; exact hsp) hp (fun e he => (h2 e he).mono hD) (h3.mono hD) (fun e he => (h4 e he).mono hD) hmem
    rw [wp_bind, wp_here] at h5 ⊢
    rw [wp_addDefinition] at h5 ⊢
    exact ⟨h5.1, h5.2.1, h5.2.2, _, _, _, _, _, rfl⟩
  unfold functionDefinition
  rw [wp_bind, wp_tokStart, wp_bind]
  refine wp_imp (H.first hm h hne) ?_
  rintro _ t1 ⟨h1, g1⟩
  rw [wp_bind, wp_getS]
  refine ite_wp (fun ht => ?_) fun ht => ?_
  · wpr; exact h1.inv.tsp
  have ht' := Decidable.not_not.mp ht
  rw [wp_bind]
  refine wp_imp (h1.inv.str (by rcases ht' with ht | ht <;> rw [ht] <;> decide)) ?_
  rintro name _ rfl
  rw [wp_bind]
  refine wp_imp (H.next (by omega) h1.lt) ?_
  rintro _ t2 ⟨h2, g2⟩
  cases plan with
  | false =>
    refine ite_wp (fun hx => nomatch hx) fun _ => ?_
    refine wp_paramsThen H (by omega) h2.lt fun ps t3 h3 g3 n3 => ?_
    refine wp_returnThen H (by omega) h3 fun rt t4 h4 g4 n4 => ?_
    refine wp_bracesNext H (by omega) h4 fun b t5 h5 g5 n5 => ?_
    refine ite_wp (fun hx => nomatch hx) fun _ => ?_
    exact defn t5 name ps b rt h5 (n3.mono fun d hd => g5 d (g4 d hd)) n5 fun e he => (n4 e he).mono g5
  | true =>
    refine ite_wp (fun _ => ?_) fun hx => absurd rfl hx
    rw [wp_bind, wp_pushName]
    have h2' := h2.push name
    have hB : B env { s with names := s.names ++ [name] } ≤ m := by show B env s ≤ m; omega
    refine wp_paramsThen H hB h2'.lt fun ps t3 h3 g3 n3 => ?_
    refine wp_returnThen H hB h3 fun rt t4 h4 g4 n4 => ?_
    refine wp_bracesNext H hB h4 fun b t5 h5 g5 n5 => ?_
    refine ite_wp (fun _ => ?_) fun hx => absurd rfl hx
    rw [wp_bind, wp_popName]
    exact defn _ name ps b rt h5.pop (n3.mono fun d hd => g5 d (g4 d hd)) n5 fun e he => (n4 e he).mono g5

theorem wp_hostname (H : HSelf env self m) (hm : B env s + 11 < m) (h : Inv env s) :
    wp env (hostname self) (After env s s (fun D e => Node env D .value e)) (EOK env) s := by
  have hdot : wp env (self (.dottedName s.tsp [])) (After env s s (fun D e => Node env D .value e)) (EOK env) s := by
    refine wp_imp (H (.dottedName s.tsp []) s ⟨h, h.tsp⟩ (by show B env s + 11 < _; omega)) ?_
    exact fun e u hu => ⟨hu.1, hu.1.adv.mem, hu.2⟩
  have lf : ∀ (e : Expr), s.tok ≠ .end_ → Node env s.defs .value e →
      wp env (do nextTok self; pure e) (After env s s (fun D e => Node env D .value e)) (EOK env) s := by
    intro e hne he
    wpr
    refine wp_imp (H.first (by omega) h hne) ?_
    rintro _ t1 ⟨h1, g1⟩
    exact ⟨h1, g1, he.mono g1⟩
  have hex : (∃ e, s.val = .expr e ∧ Val env s.defs e ∧ e.isBin = false ∧ e.isDefinition = false ∧ e.isName = false) → s.tok ≠ .end_ →
      wp env (match s.val with
        | .expr e => do
          nextTok self
          pure e
        | _ => crash .valueAssertion) (After env s s (fun D e => Node env D .value e)) (EOK env) s := by
    rintro ⟨e, h1, h2, -⟩ hne
    rw [h1]
    exact lf e hne h2.1
  unfold hostname
  rw [wp_bind, wp_getS]
  split
  · exact hdot
  · exact hdot
  · exact hdot
  · exact hdot
  · next ht =>
    rw [wp_bind]
    refine wp_imp (h.str (by rw [ht]; decide)) ?_
    rintro v _ rfl
    rw [wp_bind, wp_here]
    exact lf _ (by rw [ht]; decide) (.regexp h.tsp)
  · next ht =>
    rw [wp_bind]
    refine wp_imp (h.str (by rw [ht]; decide)) ?_
    rintro v _ rfl
    rw [wp_bind, wp_here]
    exact lf _ (by rw [ht]; decide) (.string h.tsp)
  · next ht =>
    rw [wp_bind, wp_here]
    exact lf _ (by rw [ht]; decide) (.dflt h.tsp (h.here ht))
  · next ht => have hv := h.tok; rw [ht] at hv; exact hex hv (by rw [ht]; decide)
  · next ht => have hv := h.tok; rw [ht] at hv; exact hex hv (by rw [ht]; decide)
  · wpr; exact h.pos

theorem wp_dottedSegment (h : Inv env s) :
    wp env dottedSegment (fun _ u => u = s ∧ s.tok ≠ .end_) (EOK env) s := by
  unfold dottedSegment
  rw [wp_bind, wp_getEnv, wp_bind, wp_getS]
  split
  · next ht => exact wp_imp (h.str (by rw [ht]; decide)) fun _ _ hu => ⟨hu, by rw [ht]; decide⟩
  · next ht => exact wp_imp (h.str (by rw [ht]; decide)) fun _ _ hu => ⟨hu, by rw [ht]; decide⟩
  · next ht =>
    have hv := h.tok; rw [ht] at hv; obtain ⟨i, hv⟩ := hv; rw [hv]
    exact wp_pure.mpr ⟨rfl, by rw [ht]; decide⟩
  · next ht =>
    have hv := h.tok; rw [ht] at hv; obtain ⟨i, hv⟩ := hv; rw [hv]
    exact wp_pure.mpr ⟨rfl, by rw [ht]; decide⟩
  · wpr; exact h.pos

theorem wp_dottedNameBody (start : Nat) (ns : List GoStr) (H : HSelf env self (M env (.dottedName start ns) s))
    (hpre : Pre env (.dottedName start ns) s) :
    wp env (dottedNameBody self start ns) (Post env (.dottedName start ns) s) (EOK env) s := by
  obtain ⟨h, hst⟩ := hpre
  change HSelf env self (B env s + 11) at H
  unfold dottedNameBody
  rw [wp_bind]
  refine wp_imp (wp_dottedSegment h) ?_
  rintro seg _ ⟨rfl, hne⟩
  rw [wp_bind]
  refine wp_imp (H.first (by omega) h hne) ?_
  rintro _ t1 ⟨h1, g1⟩
  rw [wp_bind, wp_curTok]
  refine ite_wp (fun ht => ?_) fun ht => ?_
  · wpr
    exact ⟨h1, .string hst⟩
  · rw [wp_bind]
    refine wp_imp (H.next (by omega) h1.lt) ?_
    rintro _ t2 ⟨h2, g2⟩
    have b2 := h2.B
    refine wp_imp (H (.dottedName start (ns ++ [seg])) t2 ⟨h2.inv, hst⟩ (by show B env t2 + 11 < _; omega)) ?_
    exact fun e u hu => ⟨h2.trans hu.1, hu.2⟩

theorem wp_hostnamesBody (acc : List Expr) (H : HSelf env self (M env (.hostnames acc) s))
    (hpre : Pre env (.hostnames acc) s) :
    wp env (hostnamesBody self acc) (Post env (.hostnames acc) s) (EOK env) s := by
  obtain ⟨h, hacc⟩ := hpre
  change HSelf env self (B env s + 12) at H
  unfold hostnamesBody
  rw [wp_bind]
  refine wp_imp (wp_hostname H (by omega) h) ?_
  rintro e t1 ⟨h1, g1, n1⟩
  have ha := (hacc.mono g1).snoc n1
  rw [wp_bind, wp_curTok]
  refine ite_wp (fun ht => ?_) fun ht => ?_
  · exact wp_pure.mpr ⟨h1.le, ha⟩
  · rw [wp_bind]
    refine wp_imp (H.next (by omega) h1.lt) ?_
    rintro _ t2 ⟨h2, g2⟩
    rw [wp_bind, wp_curTok]
    refine ite_wp (fun ht => ?_) fun ht => ?_
    · exact wp_pure.mpr ⟨h2.le, ha.mono g2⟩
    · have b2 := h2.B
      refine wp_imp (H (.hostnames (acc ++ [e])) t2 ⟨h2.inv, ha.mono g2⟩ (by show B env t2 + 12 < _; omega)) ?_
      exact fun es u hu => ⟨h2.trans_le hu.1, hu.2⟩

theorem wp_nodeDefinition (H : HSelf env self m) (hm : B env s + 2 < m) (h : Inv env s) (hw : s.tok = .kNode) :
    wp env (nodeDefinition self) (After env s s (DefV env)) (EOK env) s := by
  have fin : ∀ (t : St) (hs : List Expr) (pa : Option Expr), Lt env s t → AllN env t.defs .value hs →
      (∀ e, pa = some e → Node env t.defs .value e) → wp env (do
      let block ← braces self
      nextTok self
      let p ← here s.tsp
      addDefinition (.node p pa hs block)) (After env s s (DefV env)) (EOK env) t := by
    intro t hs pa h1 h2 h3
    refine wp_bracesNext H (by omega) h1 fun b t2 h4 g4 n4 => ?_
    exact wp_define (mk := fun p => .node p pa hs b) h4 h.tsp (fun _ => rfl) (fun _ => rfl) (fun _ => rfl) (fun _ => rfl)
      fun p D hp hps hD hmem => .node hp (by rw [Stt, Starts, hps]; exact h.here hw) (fun e he => (h3 e he).mono fun d hd => hD d (g4 d hd))
        (fun e he => (h2 e he).mono fun d hd => hD d (g4 d hd)) (n4.mono hD) hmem
  unfold nodeDefinition
  rw [wp_bind, wp_tokStart, wp_bind]
  refine wp_imp (H.first hm h (by rw [hw]; decide)) ?_
  rintro _ t1 ⟨h1, g1⟩
  have b1 := h1.B
  rw [wp_bind]
  refine wp_imp (H (.hostnames []) t1 ⟨h1.inv, AllN.nil⟩ (by show B env t1 + 12 < _; omega)) ?_
  rintro hs t2 ⟨h2, n2⟩
  have h2' := h1.lt.trans_le h2
  rw [wp_bind, wp_curTok]
  refine ite_wp (fun ht => ?_) fun ht => ?_
  · rw [wp_bind]
    refine wp_imp (H.next (by omega) h2') ?_
    rintro _ t3 ⟨h3, g3⟩
    have b3 := h3.B
    rw [wp_bind]
    refine wp_imp (wp_hostname H (by omega) h3.inv) ?_
    rintro pa t4 ⟨h4, g4, n4⟩
    rw [wp_bind, wp_pure]
    exact fin t4 hs (some pa) (h3.trans h4).lt (n2.mono fun d hd => g4 d (g3 d hd)) fun e he => by cases he; exact n4
  · rw [wp_bind, wp_pure]
    exact fin t2 hs none h2' n2 fun e he => nomatch he

theorem wp_siteDefinition (H : HSelf env self m) (hm : B env s + 2 < m) (h : Inv env s) (hw : s.tok = .kSite) :
    wp env (siteDefinition self) (After env s s (DefV env)) (EOK env) s := by
  unfold siteDefinition
  rw [wp_bind, wp_tokStart, wp_bind]
  refine wp_imp (H.first hm h (by rw [hw]; decide)) ?_
  rintro _ t1 ⟨h1, g1⟩
  refine wp_bracesNext H (by omega) h1.lt fun b t2 h2 g2 n2 => ?_
  exact wp_define (mk := fun p => .site p b) h2 h.tsp (fun _ => rfl) (fun _ => rfl) (fun _ => rfl) (fun _ => rfl)
    fun p D hp hps hD hmem => .site hp (by rw [Stt, Starts, hps]; exact h.here hw) (n2.mono hD) hmem

theorem wp_resourceDefinition (H : HSelf env self m) (hm : B env s + 2 < m) (h : Inv env s) (app : Bool)
    (hw : s.tok = if app then .kApplication else .kDefine) :
    wp env (resourceDefinition self app) (After env s s (DefV env)) (EOK env) s := by
  unfold resourceDefinition
  rw [wp_bind, wp_tokStart, wp_bind]
  refine wp_imp (H.first hm h (by rw [hw]; cases app <;> decide)) ?_
  rintro _ t1 ⟨h1, g1⟩
  have b1 := h1.B
  rw [wp_bind]
  refine wp_imp (wp_className H (by omega) h1.inv) ?_
  intro name t2 h2
  refine wp_paramsThen H (by omega) (h1.trans h2).lt fun ps t3 h3 g3 n3 => ?_
  refine wp_bracesNext H (by omega) h3 fun b t4 h4 g4 n4 => ?_
  exact wp_define (mk := fun p => .namedDef p _ name ps b) h4 h.tsp (fun _ => rfl) (fun _ => rfl) (fun _ => rfl) (fun _ => rfl)
    fun p D hp hps hD hmem => .namedDef hp (by rw [Stt, Starts, hps]; cases app <;> exact h.here hw) (fun e he => (n3 e he).mono fun d hd => hD d (g4 d hd)) (n4.mono hD) hmem

theorem wp_classExpression (H : HSelf env self m) (hm : B env s + 2 < m) (h : Inv env s) {start : Nat}
    (hst : start ≤ env.text.length + 1) (hcl : ReadsAt env.text start b!"class") :
    wp env (classExpression self start) (After env s s (DefV env)) (EOK env) s := by
  unfold classExpression
  rw [wp_bind]
  refine wp_imp (wp_className H hm h) ?_
  intro cn t1 h1
  dsimp only
  generalize trimPrefix b!"::" cn = name
  rw [wp_bind, wp_pushName]
  have h1' := h1.push name
  have hB : B env { s with names := s.names ++ [name] } ≤ m := by show B env s ≤ m; omega
  refine wp_paramsThen H hB h1'.lt fun ps t2 h2 g2 n2 => ?_
  have fin : ∀ (t : St) (pa : GoStr), Lt env { s with names := s.names ++ [name] } t → (∀ d ∈ t2.defs, d ∈ t.defs) → wp env (do
      let body ← braces self
      nextTok self
      popName
      let qn ← qualifiedName name
      let p ← here start
      addDefinition (.namedDef p (.hostClass pa) qn ps body)) (After env s s (DefV env)) (EOK env) t := by
    intro t pa h3 g3
    refine wp_bracesNext H hB h3 fun b t4 h4 g4 n4 => ?_
    rw [wp_bind, wp_popName, wp_bind, wp_qualifiedName]
    have hp := h4.pop
    exact wp_define (mk := fun p => .namedDef p (.hostClass pa) _ ps b) hp hst (fun _ => rfl) (fun _ => rfl) (fun _ => rfl) (fun _ => rfl)
      fun p D hp hps hD hmem => .namedDef hp (by rw [Stt, Starts, hps]; exact hcl) (fun e he => (n2 e he).mono fun d hd => hD d (g4 d (g3 d hd))) (n4.mono hD) hmem
  rw [wp_bind, wp_curTok]
  refine ite_wp (fun ht => ?_) fun ht => ?_
  · rw [wp_bind]
    refine wp_imp (H.next hB h2) ?_
    rintro _ t3 ⟨h3, g3⟩
    have b3 := h3.B
    rw [wp_bind, wp_curTok]
    refine ite_wp (fun ht => ?_) fun ht => ?_
    · rw [wp_bind]
      refine wp_imp (H.next hB h3.lt) ?_
      rintro _ t4 ⟨h4, g4⟩
      rw [wp_bind, wp_pure]
      exact fin t4 _ h4.lt fun d hd => g4 d (g3 d hd)
    · rw [wp_bind]
      refine wp_imp (wp_className H (by omega) h3.inv) ?_
      intro pa t4 h4
      exact fin t4 pa (h3.trans h4).lt fun d hd => h4.adv.mem d (g3 d hd)
  · rw [wp_bind, wp_pure]
    exact fin t2 _ h2 fun _ h => h

end
end PP
