import Verif.Lemmas.Parse8

/-! # A whole program -/
namespace PP

section
variable {env : Env} {s t u : St} {self : Self} {m : Nat}

/-- What `parseTopExpression` returns: a block, or in a template a lambda around the template. -/
def TopBody (env : Env) (D : List Expr) (e : Expr) : Prop :=
  (env.epp = false ∧ Node env D .block e) ∨
  (env.epp = true ∧ ∃ p ps q b, e = .lambda p ps (.epp q true b) none ∧ okPos env p ∧ okPos env q ∧
    AllN env D .param ps ∧ Node env D .block b)

/-- The state in which `Parse` starts, whatever was parsed before. -/
def startSt (s : St) : St := { s with pos := 0, defs := [], nls := none }

/-- The state after `Parse`. -/
structure Done (env : Env) (s t : St) : Prop where
  pos : t.pos ≤ env.text.length + 1
  defs : ∀ d ∈ t.defs, d.isDefinition = true ∧ Node env t.defs .value d
  names : t.names = s.names
  tok : t.tok = .end_
  fin : env.epp = false ∨ env.workflow = false → env.text.length ≤ t.pos ∨ 0 ∈ env.text

theorem Done.of (h : Inv env t) (hn : t.names = s.names) (ht : t.tok = .end_) : Done env s t :=
  ⟨h.pos, h.defs, hn, ht, (h.fin ht).1⟩

theorem measure_lt : (3 * psiMax env + 2) * 64 + 42 + 64 < parseFuel env.text := by
  unfold psiMax parseFuel
  generalize env.text.length = L
  have h1 : (L + 1) * (2 * (L + 3)) = 2 * (L * L) + 8 * L + 6 := by
    rw [show (L + 1) * (2 * (L + 3)) = 2 * ((L + 1) * (L + 3)) by rw [Nat.mul_left_comm]]
    simp only [Nat.add_mul, Nat.mul_add]; omega
  have h2 : (L + 8) ^ 2 = L * L + 16 * L + 64 := by
    rw [Nat.pow_two]; simp only [Nat.add_mul, Nat.mul_add]; omega
  rw [h1, h2]
  omega

theorem B_le (s : St) : B env s ≤ (3 * psiMax env + 2) * 64 := by
  unfold B; exact Nat.mul_le_mul_right _ (by omega)

theorem start_base (s : St) : Base env { startSt s with tsp := 0 } :=
  ⟨Nat.zero_le _, Nat.zero_le _, fun _ h => (nomatch h), fun _ h => (nomatch h), fun _ h => (nomatch h)⟩

/-- The first token, whatever was parsed before. -/
theorem wp_first (h : Base env { s with tsp := 0 }) :
    wp env (run (parseFuel env.text) .nextToken) (fun _ s' => Nx env s s') (EOK env) s := by
  have h1 := measure_lt (env := env)
  obtain ⟨f, hf⟩ : ∃ f, parseFuel env.text = f + 1 := ⟨parseFuel env.text - 1, by omega⟩
  have h2 := B_le (env := env) s
  have h3 := ML_le_B (env := env) s
  rw [hf]
  refine wp_nextTokenBody_stale (fun n t ht hm => wp_run f n t ht ?_) h
  omega

/-- `asEppLambda`. -/
theorem wp_asEppLambda {e : Expr} (he : env.epp = true)
    (h : (Node env s.defs .block e ∧ ∃ p ss, e = .block p ss) ∨ Node env s.defs .value e ∧ (∃ p v, e = .renderString p v)) :
    wp env (asEppLambda e) (fun e' s' => s' = s ∧ TopBody env s.defs e') (EOK env) s := by
  have hp : okPos env ⟨0, (s.pos : Int) - 0⟩ := Nat.zero_le _
  unfold asEppLambda
  rw [wp_bind, wp_here]
  rcases h with ⟨h1, p, ss, rfl⟩ | ⟨h1, p, v, rfl⟩
  · exact wp_pure.mpr ⟨rfl, .inr ⟨he, _, _, _, _, rfl, hp, hp, AllN.nil, h1⟩⟩
  · refine wp_pure.mpr ⟨rfl, .inr ⟨he, _, _, _, _, rfl, hp, hp, AllN.nil, .block hp ⟨by simp, by simp, by simp⟩ ?_⟩⟩
    intro e he
    rw [List.mem_singleton] at he
    subst he
    exact .stmt h1

theorem block_shape {D : List Expr} {e : Expr} (h : Node env D .block e) : ∃ p ss, e = .block p ss := by
  cases h; exact ⟨_, _, rfl⟩

/-- The state after the first token of a template. -/
inductive First (env : Env) (s t : St) : Prop
  | lexed : Inv env t → t.names = s.names → First env s t
  | text (w : GoStr) : t = { startSt s with pos := t.pos, tok := .renderString, val := .str w } →
      t.pos ≤ env.text.length → First env s t
  | fin : t = { startSt s with pos := t.pos, tok := .end_, val := .nil } → t.pos ≤ env.text.length →
      (env.text.length ≤ t.pos ∨ 0 ∈ env.text) → First env s t

/-- What `consumeEPP` does at the beginning of a template. -/
theorem wp_firstEPP (s : St) :
    wp env (consumeEPP (run (parseFuel env.text))) (fun _ t => First env s t) (EOK env) (startSt s) := by
  unfold consumeEPP
  wpr
  refine wp_imp (wp_eppText _ [] 0 (Nat.zero_le _) (by unfold charFuel; show _ < _ + 0; omega)) ?_
  rintro ⟨buf, tag⟩ _ ⟨⟨q, rfl, h1, h2⟩, h3⟩
  dsimp only
  split
  · wpr
    split
    · refine wp_imp (wp_first ?_) fun _ t ht => .lexed ht.inv ht.adv.names
      exact ⟨by dsimp only; omega, Nat.zero_le _, fun _ h => (nomatch h), fun _ h => (nomatch h), fun _ h => (nomatch h)⟩
    · exact wp_pure.mpr (.text buf rfl h2)
  next htag =>
  split
  · wpr; exact .fin rfl h2 (h3 (by simpa using htag))
  · wpr; exact .text buf rfl h2

/-- What follows the text before the first tag. -/
def eppRest (self : Self) (text : GoStr) : P Expr := do
  let s ← getS
  if s.tok = .end_ then do
    let p ← here 0
    asEppLambda (.renderString p text)
  else if s.tok = .pipe then
    if text.isEmpty = false then issue .parseIllegalEppParameters
    else do
      let ps ← lambdaParameterList self
      self .nextToken
      let body ← self (.parse .end_ false)
      let p ← here 0
      asEppLambda (mkEpp p ps body)
  else do
    let init := if text.isEmpty then [] else [.renderString ⟨0, s.tsp⟩ text]
    let es ← self (.eppLoop init)
    let es ← transformCalls es
    let p ← here 0
    asEppLambda (.block p es)

theorem wp_eppRest {t : St} (s : St) (text : GoStr) (he : env.epp = true)
    (h : (Inv env t ∧ t.names = s.names) ∨ (text = [] ∧ t.tok = .end_ ∧ Done env s t ∧ t.defs = [])) :
    wp env (eppRest (run (parseFuel env.text)) text) (fun e u => Done env s u ∧ TopBody env u.defs e) (EOK env) t := by
  have hm := measure_lt (env := env)
  have hb := B_le (env := env) t
  have hp : ∀ u : St, okPos env ⟨0, (u.pos : Int) - 0⟩ := fun _ => Nat.zero_le _
  unfold eppRest
  rw [wp_bind, wp_getS]
  by_cases ht : t.tok = .end_
  · rw [if_pos ht]
    rw [wp_bind, wp_here]
    have hd : Done env s t := by
      rcases h with h | h
      · exact .of h.1 h.2 ht
      · exact h.2.2.1
    refine wp_imp (wp_asEppLambda he (.inr ⟨.renderString (hp t) he, _, _, rfl⟩)) ?_
    rintro e _ ⟨rfl, h1⟩
    exact ⟨hd, h1⟩
  rw [if_neg ht]
  obtain ⟨hi, hn⟩ := h.resolve_right fun h => ht h.2.1
  refine ite_wp (fun hpipe => ?_) fun hpipe => ?_
  · refine ite_wp (fun hx => hi.pos) fun hx => ?_
    rw [wp_bind]
    have H := wp_run (env := env) (parseFuel env.text)
    unfold lambdaParameterList
    rw [wp_bind]
    refine wp_imp (H.first (by omega) hi ht) ?_
    rintro _ t1 ⟨h1, -⟩
    refine wp_imp (H.exprs (by omega) h1.lt .pipeEnd .parameter) ?_
    rintro ps t2 ⟨h2, -, -, h3⟩
    rw [wp_bind]
    refine wp_imp (H.next (by omega) h2) ?_
    rintro _ t3 ⟨h4, h5⟩
    rw [wp_bind]
    have hb3 := B_le (env := env) t3
    refine wp_imp (H (.parse .end_ false) t3 h4.inv (by show B env t3 + 42 < _; omega)) ?_
    rintro b t4 ⟨h6, h7, h8⟩
    rw [if_neg (by decide)] at h8
    rw [wp_bind, wp_here]
    have hd : Done env s t4 := .of h6.inv (h6.adv.names.trans (h4.adv.names.trans hn)) h7
    refine wp_bind.mpr (wp_here.mpr ?_)
    refine wp_pure.mpr ⟨hd, .inr ⟨he, _, _, _, _, rfl, hp t4, hp t4, ?_, h8⟩⟩
    exact fun e hx => (h3 e hx).mono fun d hd => h6.adv.mem d (h5 d hd)
  · have H := wp_run (env := env) (parseFuel env.text)
    rw [wp_bind]
    refine wp_imp (H (.eppLoop _) t ⟨hi, ?_⟩ (by show B env t + 40 < _; omega)) ?_
    · intro e hx
      split at hx
      · cases hx
      · rw [List.mem_singleton] at hx
        subst hx
        refine ⟨?_, .inl (.renderString (Nat.zero_le _) he)⟩
        have := hi.tsp
        unfold endOk Expr.off Expr.len Expr.pos; dsimp only; omega
    rintro es t1 ⟨h1, h2, h3⟩
    rw [wp_bind]
    have hd : Done env s t1 := .of h1.inv (h1.adv.names.trans hn) h2
    refine wp_imp (wp_transformCalls h3) ?_
    rintro es' _ ⟨⟨rfl, h4⟩, h4'⟩
    rw [wp_bind, wp_here]
    refine wp_imp (wp_asEppLambda he (.inl ⟨.block (hp _) h4' fun e hx => (h4 e hx).node, _, _, rfl⟩)) ?_
    rintro e _ ⟨rfl, h5⟩
    exact ⟨hd, h5⟩

theorem wp_parseEpp (s : St) (he : env.epp = true) :
    wp env (parseEpp (run (parseFuel env.text))) (fun e u => Done env s u ∧ TopBody env u.defs e) (EOK env) (startSt s) := by
  unfold parseEpp
  rw [wp_bind]
  refine wp_imp (wp_firstEPP s) ?_
  intro _ t h
  rw [wp_bind, wp_curTok]
  have hm := measure_lt (env := env)
  have hb := B_le (env := env) t
  cases h with
  | lexed h1 h2 =>
    refine ite_wp (fun ht => ?_) fun ht => wp_eppRest s [] he (.inl ⟨h1, h2⟩)
    rw [wp_bind]
    refine wp_imp (h1.str (by rw [ht]; rfl)) ?_
    rintro v _ rfl
    rw [wp_bind]
    refine wp_imp (wp_nextTok (wp_run _) h1.toBase (by omega)) ?_
    intro _ u hu
    exact wp_eppRest s v he (.inl ⟨hu.inv, hu.adv.names.trans h2⟩)
  | text w h1 h2 =>
    refine ite_wp (fun _ => ?_) fun ht => absurd (by rw [h1]) ht
    rw [wp_bind]
    refine wp_imp (wp_tokenString (.inl ⟨w, by rw [h1]⟩)) ?_
    rintro v _ rfl
    rw [wp_bind]
    refine wp_imp (wp_first ?_) ?_
    · rw [h1]
      exact ⟨by dsimp only; omega, Nat.zero_le _, fun _ h => (nomatch h), fun _ h => (nomatch h), fun _ h => (nomatch h)⟩
    · intro _ u hu
      exact wp_eppRest s v he (.inl ⟨hu.inv, hu.adv.names.trans (by rw [h1]; rfl)⟩)
  | fin h1 h2 h3 =>
    refine ite_wp (fun ht => absurd ht (by rw [h1]; exact fun h => (nomatch h))) fun _ => ?_
    refine wp_eppRest s [] he (.inr ⟨rfl, by rw [h1], ⟨by omega, ?_, by rw [h1]; rfl, by rw [h1], fun _ => h3⟩, by rw [h1]; rfl⟩)
    rw [h1]; exact fun _ h => (nomatch h)

theorem wp_parseTop (s : St) (single : Bool) :
    wp env (parseTop (run (parseFuel env.text)) single)
      (fun e t => Done env s t ∧
        (if single = true ∧ env.epp = false then Val env t.defs e else TopBody env t.defs e))
      (EOK env) (startSt s) := by
  unfold parseTop
  rw [wp_bind, wp_getEnv]
  refine ite_wp (fun he => ?_) fun he => ?_
  · refine wp_imp (wp_parseEpp s he) ?_
    rintro e u ⟨h1, h2⟩
    refine ⟨h1, ?_⟩
    rw [if_neg (by rw [he]; simp)]; exact h2
  · have he' : env.epp = false := by simpa using he
    have hm := measure_lt (env := env)
    rw [wp_bind]
    refine wp_imp (wp_first (start_base s)) ?_
    intro _ t h1
    have hb := B_le (env := env) t
    refine wp_imp (wp_run _ (.parse .end_ single) t h1.inv (by show B env t + 42 < _; omega)) ?_
    rintro e u ⟨h2, h3, h4⟩
    refine ⟨.of h2.inv (h2.adv.names.trans h1.adv.names) h3, ?_⟩
    cases single with
    | true => rw [if_pos rfl] at h4; rw [if_pos ⟨rfl, he'⟩]; exact h4
    | false => rw [if_neg (by decide)] at h4; rw [if_neg (by simp)]; exact .inl ⟨he', h4⟩

/-- What `Parse` gives on a parser in any state. -/
theorem wp_parseProgram (s : St) (single : Bool) :
    wp env (parseProgram (run (parseFuel env.text)) single)
      (fun e t => Done env s t ∧
        (if single = true then (if env.epp = false then Val env t.defs e else TopBody env t.defs e)
         else ∃ b, e = .program ⟨0, t.pos⟩ b t.defs ∧ TopBody env t.defs b))
      (EOK env) s := by
  unfold parseProgram
  rw [wp_bind, wp_modS, wp_bind]
  refine wp_imp (wp_parseTop s single) ?_
  rintro e t ⟨h1, h2⟩
  cases single with
  | true =>
    refine wp_pure.mpr ⟨h1, ?_⟩
    rw [if_pos rfl]
    simpa using h2
  | false =>
    rw [if_neg (by decide), wp_bind, wp_getS]
    refine wp_pure.mpr ⟨h1, ?_⟩
    rw [if_neg (by decide)]
    rw [if_neg (by simp)] at h2
    exact ⟨e, rfl, h2⟩

/-- The outcomes of `Parse`. -/
theorem parseFrom_spec (env : Env) (s : St) (single : Bool) :
    match parseFrom env s single with
    | (.value e, t) => Done env s t ∧
        (if single = true then (if env.epp = false then Val env t.defs e else TopBody env t.defs e)
         else ∃ b, e = .program ⟨0, t.pos⟩ b t.defs ∧ TopBody env t.defs b)
    | (.error (.issue _ p), _) => p ≤ env.text.length + 1
    | (.error (.invalidUnicode p), _) => p ≤ env.text.length + 1
    | (.panic k, _) => EOK env (.crash k)
    | _ => False := by
  have h := wp_parseProgram (env := env) s single
  unfold wp at h
  unfold parseFrom
  cases hr : parseProgram (run (parseFuel env.text)) single env s with
  | ok e t => rw [hr] at h; exact h
  | fail e t =>
    rw [hr] at h
    cases e with
    | issue c p => exact h
    | invalidUnicode p => exact h
    | crash k => exact h
    | timeout => exact h

end
end PP
