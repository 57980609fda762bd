import Verif.Lemmas.Node

/-! # The tree transformations of the parser keep `Node` -/
namespace PP

section
variable {env : Env} {D : List Expr}

theorem Node.okPos {σ : Role} {e : Expr} (h : Node env D σ e) : okPos env e.pos := by
  induction h <;> assumption

theorem Node.off_le {σ : Role} {e : Expr} (h : Node env D σ e) : e.off ≤ env.text.length + 1 := h.okPos

theorem Node.not_keyed {e : Expr} (h : Node env D .value e) : isKeyedEntry e = false := by
  cases h <;> rfl

theorem Node.keyed {e : Expr} (h : Node env D .entry e) : isKeyedEntry e = true := by
  cases h <;> rfl

/-- A sign before a number. -/
theorem Node.setPos {e : Expr} {p : Pos} (h : Node env D .value e) (hb : e.isBin = false)
    (hn : isNumberLit (innermost e) = true) (hsg : ReadsAt env.text p.off b!"-" ∨ ReadsAt env.text p.off b!"+")
    (hp : PP.okPos env p) : Node env D .value (e.setPos p) := by
  cases h with
  | access _ _ h1 h2 => exact .access hp (.inr ⟨hsg, hn⟩) h1 h2
  | call _ _ h1 h2 h3 => exact .call hp (.inl (.inr ⟨hsg, hn⟩)) h1 h2 h3
  | method _ _ h1 h2 h3 => exact .method hp (.inl (.inr ⟨hsg, hn⟩)) h1 h2 h3
  | collect _ _ h1 h2 h3 => exact .collect hp (.inr ⟨hsg, hn⟩) h1 h2 h3
  | integer => exact .integer hp
  | float => exact .float hp
  | bin => cases hb
  | _ => simp [innermost, isNumberLit] at hn

theorem Node.convert {start : Nat} {p : Pos} {l r : Expr} (hs : start ≤ env.text.length + 1)
    (hl : Node env D .value l) (hr : Node env D .value r) (hp : PP.okPos env p) (hx : b!"${" <:+: env.text) :
    ∃ f b, convertNamedAccessLHS start p l r = some (f, b) ∧ Node env D .functor f := by
  fun_induction convertNamedAccessLHS start p l r with
  | case1 p q n rhs =>
    cases hl with
    | qname hq => exact ⟨_, _, rfl, .namedAccess hs (.namedVar hs hq) hr⟩
  | case2 p q o keys rhs _ =>
    cases hl with
    | access hq h0 ho hk =>
      refine ⟨_, _, rfl, .namedAccess hs ?_ hr⟩
      rename_i lhe
      simp only [lhe]
      split
      · cases ho with
        | operand ho =>
          cases ho with
          | qname hr => exact .access hs (.inl rfl) (.operand (.namedVar hs hr)) hk
      · exact .access hq h0 ho hk
  | case3 => cases hl; contradiction
  | case4 => cases hl; contradiction
  | case5 p q rv r' l' r'' args lam rhs f b heq ih =>
    cases hl with
    | method hq h0 hf ha hlam =>
      cases hf with
      | namedAccess h1 h2 h3 =>
        obtain ⟨f', b', e1, e2⟩ := ih h2 h3 h1
        rw [heq] at e1
        cases e1
        exact ⟨_, _, rfl, .namedAccess hs (.method hs (.inr hx) e2 ha hlam) hr⟩
  | case6 p q rv r' l' r'' args lam rhs heq ih =>
    cases hl with
    | method hq h0 hf ha hlam =>
      cases hf with
      | namedAccess h1 h2 h3 =>
        obtain ⟨f', b', e1, e2⟩ := ih h2 h3 h1
        rw [heq] at e1
        cases e1
  | case7 p q rv f args lam rhs hn =>
    cases hl with
    | method hq h0 hf ha hlam =>
      cases hf with
      | namedAccess h1 h2 h3 => exact absurd rfl (hn _ _ _)
  | case8 p l r => exact ⟨_, _, rfl, .namedAccess hp hl hr⟩

theorem Node.interpolated {start : Nat} {len : Int} {e : Expr} (hs : start ≤ env.text.length + 1)
    (h : Node env D .value e) (hx : b!"${" <:+: env.text) : ∃ e', PP.interpolated start len e = some e' ∧ Node env D .value e' := by
  unfold PP.interpolated
  split
  · cases h with
    | qname hq => exact ⟨_, rfl, .namedVar hs hq⟩
  · cases h with
    | access hq h0 ho hk =>
      cases ho with
      | operand ho =>
        cases ho with
        | qname hr => exact ⟨_, rfl, .access hs (.inl rfl) (.operand (.namedVar hs hr)) hk⟩
  · cases h with
    | method hq h0 hf ha hl =>
      cases hf with
      | namedAccess h1 h2 h3 =>
        obtain ⟨f, b, e1, e2⟩ := Node.convert hs h2 h3 h1 hx
        rw [e1]
        cases b
        · exact ⟨_, rfl, .method hq h0 (.namedAccess h1 h2 h3) ha hl⟩
        · exact ⟨_, rfl, .method hs (.inr hx) e2 ha hl⟩
  · exact ⟨_, rfl, h⟩

theorem toDeferredList_eq (es : List Expr) : toDeferredList es = es.map toDeferred := by
  induction es with
  | nil => rfl
  | cons e es ih => simp only [toDeferredList, List.map_cons, ih]

theorem node_deferredCall {p : Pos} {args : List Expr} (hp : PP.okPos env p) (hw : env.workflow = true)
    (h : ∀ a ∈ args, Node env D .value a) : Node env D .value (deferredCall p args) := by
  have hp' : PP.okPos env ⟨p.off, 0⟩ := hp
  exact .method hp (.inl (.inl rfl)) (.namedAccess hp' (.qref (n := b!"Deferred") hp' (.inr (.inr ⟨hw, rfl⟩))) (.qname hp')) h (by intro l hl; cases hl)

theorem Node.toDeferred {σ : Role} {e : Expr} (h : Node env D σ e) (hσ : σ = .value ∨ σ = .entry)
    (hw : env.workflow = true) :
    Node env D σ (PP.toDeferred e) := by
  have hlist : ∀ {es : List Expr} {τ : Role}, (∀ e ∈ es, Node env D τ (PP.toDeferred e)) →
      ∀ e ∈ toDeferredList es, Node env D τ e := by
    intro es τ hes e he
    rw [toDeferredList_eq, List.mem_map] at he
    obtain ⟨x, hx, rfl⟩ := he
    exact hes x hx
  induction h with
  | list hp _ ih =>
    simp only [PP.toDeferred]
    exact .list hp (hlist fun e he => ih e he (.inl rfl))
  | hash hp _ ih =>
    simp only [PP.toDeferred]
    exact .hash hp (hlist fun e he => ih e he (.inr rfl))
  | keyedEntry hp _ _ _ ih1 ih2 =>
    simp only [PP.toDeferred]
    exact .keyedEntry hp (fun h' => absurd (hw.symm.trans h') (by decide)) (ih1 (.inl rfl)) (ih2 (.inl rfl))
  | @call p rv f args lam hp hs hf ha hl ih1 ih2 ih3 =>
    have hp' : PP.okPos env ⟨p.off, 0⟩ := hp
    have ha' := hlist (τ := .value) fun e he => ih2 e he (.inl rfl)
    have hf' := hf
    cases hf <;> simp only [PP.toDeferred] <;> first
      | exact .call hp hs hf' ha hl
      | skip
    · refine node_deferredCall hp hw ?_
      intro a h
      simp only [List.mem_cons, List.not_mem_nil, or_false] at h
      rcases h with rfl | rfl
      · exact .string hp
      · exact .list hp' ha'
    · refine node_deferredCall hp hw ?_
      intro a h
      simp only [List.mem_cons, List.not_mem_nil, or_false] at h
      rcases h with rfl | rfl
      · exact .qname hp'
      · refine .list hp' ?_
        intro x hx
        rcases List.mem_cons.1 hx with rfl | hx
        · exact .qref ‹_› ‹_›
        · exact ha' x hx
  | namedVar hp hq =>
    simp only [PP.toDeferred]
    exact node_deferredCall hp hw (by intro a h; simp only [List.mem_singleton] at h; subst h; exact .string hp)
  | numVar hp hq =>
    simp only [PP.toDeferred]
    exact node_deferredCall hp hw (by intro a h; simp only [List.mem_singleton] at h; subst h; exact .string hp)
  | un hp hs hk he =>
    rcases hk with rfl | rfl | rfl | rfl | ⟨rfl, _⟩ <;> exact .un hp hs (by simp [*]) he
  | heredocString h1 h2 => exact .heredocString h1 h2
  | heredocConcat h1 h2 h3 => exact .heredocConcat h1 h2 h3
  | step h1 h2 h3 => exact .step h1 h2 h3
  | _ => first | (rcases hσ with h | h <;> cases h; done) | (simp only [PP.toDeferred]; constructor <;> assumption)

theorem Node.setRval {e : Expr} {v : Bool} {σ : Role} (h : Node env D σ e) : Node env D σ (PP.setRval v e) := by
  unfold PP.setRval
  split
  · generalize hx : Expr.call .. = x at h
    induction h with
    | call h1 h0 h2 h3 h4 => cases hx; exact .call h1 h0 h2 h3 h4
    | stmt _ ih => exact .stmt (ih hx)
    | operand _ ih => exact .operand (ih hx)
    | elseBlock _ ih => exact .elseBlock (ih hx)
    | elseIf _ ih => cases hx
    | _ => cases hx
  · exact h

theorem setRval_pos (v : Bool) (e : Expr) : (PP.setRval v e).pos = e.pos := by
  unfold PP.setRval; split <;> rfl

/-- The node ends in the text (or one past its end). -/
def endOk (env : Env) (e : Expr) : Prop :=
  0 ≤ (e.off : Int) + e.len ∧ (e.off : Int) + e.len ≤ env.text.length + 1

/-- A value node with a sane end. -/
def Val (env : Env) (D : List Expr) (e : Expr) : Prop := Node env D .value e ∧ endOk env e

theorem Val.mono {D' : List Expr} {e : Expr} (h : Val env D e) (hD : ∀ d ∈ D, d ∈ D') : Val env D' e :=
  ⟨h.1.mono hD, h.2⟩

theorem val_setRval {e : Expr} {v : Bool} (h : Val env D e) : Val env D (PP.setRval v e) := by
  refine ⟨h.1.setRval, ?_⟩
  have := h.2
  unfold endOk Expr.off Expr.len at *
  rw [setRval_pos]; exact this

/-- A statement: a value or a comma separated list of values. -/
def StmtV (env : Env) (D : List Expr) (e : Expr) : Prop :=
  endOk env e ∧ (Node env D .value e ∨
    ∃ p es, e = .commaSep p es ∧ okPos env p ∧ Stt env (.commaSep p es) ∧ 2 ≤ es.length ∧ ∀ x ∈ es, Val env D x)

theorem StmtV.mono {D' : List Expr} {e : Expr} (h : StmtV env D e) (hD : ∀ d ∈ D, d ∈ D') : StmtV env D' e := by
  obtain ⟨h1, h2 | ⟨p, es, h3, h4, h0, h5, h6⟩⟩ := h
  · exact ⟨h1, .inl (h2.mono hD)⟩
  · exact ⟨h1, .inr ⟨p, es, h3, h4, h0, h5, fun x hx => (h6 x hx).mono hD⟩⟩

theorem StmtV.node {e : Expr} (h : StmtV env D e) : Node env D .stmt e := by
  obtain ⟨_, h2 | ⟨p, es, rfl, h4, h0, h5, h6⟩⟩ := h
  · exact .stmt h2
  · exact .comma h4 h0 h5 fun x hx => (h6 x hx).1

theorem StmtV.setRval {e : Expr} {v : Bool} (h : StmtV env D e) : StmtV env D (PP.setRval v e) := by
  obtain ⟨h1, h2 | ⟨p, es, rfl, h4⟩⟩ := h
  · exact ⟨(val_setRval ⟨h2, h1⟩).2, .inl h2.setRval⟩
  · exact ⟨h1, .inr ⟨p, es, rfl, h4⟩⟩

theorem statementArgs_values {e : Expr} (h : StmtV env D e) : ∀ a ∈ statementArgs e, Node env D .value a := by
  obtain ⟨h1, h2 | ⟨p, es, rfl, h4, h0, h5, h6⟩⟩ := h
  · have : statementArgs e = [PP.setRval true e] := by cases h2 <;> rfl
    rw [this]
    intro a ha
    rw [List.mem_singleton] at ha
    subst ha
    exact h2.setRval
  · exact fun a ha => (h6 a ha).1

theorem node_of_isStatementCall {e : Expr} (h : StmtV env D e) (hs : isStatementCall e = true) :
    Node env D .value e := by
  obtain ⟨h1, h2 | ⟨p, es, rfl, h4, h0, h5, h6⟩⟩ := h
  · exact h2
  · cases hs

theorem statementCall_ok {memo e : Expr} (hm : StmtV env D memo) (he : StmtV env D e)
    (hs : isStatementCall memo = true) :
    StmtV env D (.call ⟨memo.off, ((e.off : Int) + e.len) - memo.off⟩ .named false memo (statementArgs e) none) := by
  have h1 := node_of_isStatementCall hm hs
  refine ⟨?_, .inl (.call h1.off_le (.inl (.inl rfl)) h1 (statementArgs_values he) (by intro l hl; cases hl))⟩
  have := he.1
  unfold endOk at *
  simp only [Expr.off, Expr.len, Expr.pos] at *
  omega

theorem transformLoop_ok (memo : Expr) (rest : List Expr) (hm : StmtV env D memo)
    (hr : ∀ e ∈ rest, StmtV env D e) : ∀ e ∈ (transformLoop memo rest).1, StmtV env D e := by
  fun_induction transformLoop memo rest with
  | case1 memo => intro e he; rw [List.mem_singleton] at he; subst he; exact hm.setRval
  | case2 memo e hs =>
    intro x hx; rw [List.mem_singleton] at hx; subst hx
    exact statementCall_ok hm (hr e (by simp)) hs
  | case3 memo e hs =>
    intro x hx
    simp only [List.mem_cons, List.not_mem_nil, or_false] at hx
    rcases hx with rfl | rfl
    · exact hm.setRval
    · exact (hr e (by simp)).setRval
  | case4 memo e m rest hs r ih =>
    intro x hx
    rcases List.mem_cons.1 hx with rfl | hx
    · exact statementCall_ok hm (hr e (by simp)) hs
    · exact ih (hr m (by simp)) (fun y hy => hr y (by simp [hy])) x hx
  | case5 memo e m rest hs r ih =>
    intro x hx
    rcases List.mem_cons.1 hx with rfl | hx
    · exact hm.setRval
    · exact ih (hr e (by simp)) (fun y hy => hr y (List.mem_cons_of_mem _ hy)) x hx

theorem firstComma_mem {es xs : List Expr} (h : firstComma es = some xs) : ∃ p, .commaSep p xs ∈ es := by
  fun_induction firstComma es with
  | case1 => cases h
  | case2 p ys rest => cases h; exact ⟨p, by simp⟩
  | case3 e rest hn ih =>
    obtain ⟨p, hp⟩ := ih h
    exact ⟨p, List.mem_cons_of_mem _ hp⟩

theorem firstComma_none {es : List Expr} (h : firstComma es = none) (p : Pos) (xs : List Expr) : .commaSep p xs ∉ es := by
  fun_induction firstComma es with
  | case1 => simp
  | case2 => cases h
  | case3 e rest hn ih =>
    rw [List.mem_cons, not_or]
    exact ⟨fun h1 => hn _ _ h1.symm, ih h⟩

theorem setRval_call {e f : Expr} {p : Pos} {w : Bool} {args : List Expr} {lam : Option Expr}
    (h : setRval false e = .call p .named w f args lam) : w = false := by
  unfold setRval at h
  split at h
  · cases h; rfl
  · next hn => exact absurd h (hn _ _ _ _ _)

theorem transformLoop_ne (memo : Expr) (rest : List Expr) : (transformLoop memo rest).1 ≠ [] := by
  fun_cases transformLoop memo rest <;> simp

theorem isStatementCall_setRval (e : Expr) : isStatementCall (setRval false e) = isStatementCall e := by
  unfold setRval; split <;> rfl

theorem transformLoop_block (memo : Expr) (rest : List Expr) :
    (∀ p w f args lam, Expr.call p .named w f args lam ∈ (transformLoop memo rest).1 → w = false) ∧
    (∀ e ∈ (transformLoop memo rest).1.dropLast, isStatementCall e = false) ∧
    ((transformLoop memo rest).2 = true ∨
      ∃ q m args, (transformLoop memo rest).1.getLast? = some (.call q .named false m args none) ∧ isStatementCall m = true) := by
  fun_induction transformLoop memo rest with
  | case1 memo =>
    refine ⟨?_, by simp, .inl rfl⟩
    intro p w f args lam h
    rw [List.mem_singleton] at h
    exact setRval_call h.symm
  | case2 memo e hs =>
    refine ⟨?_, by simp, .inr ⟨_, _, _, rfl, hs⟩⟩
    intro p w f args lam h
    rw [List.mem_singleton] at h
    cases h; rfl
  | case3 memo e hs =>
    refine ⟨?_, ?_, .inl rfl⟩
    · intro p w f args lam h
      simp only [List.mem_cons, List.not_mem_nil, or_false] at h
      rcases h with h | h <;> exact setRval_call h.symm
    · intro x hx
      simp only [List.dropLast_cons_cons, List.dropLast_singleton, List.mem_singleton] at hx
      rw [hx, isStatementCall_setRval]
      simpa using hs
  | case4 memo e m rest hs r ih =>
    obtain ⟨h1, h2, h3⟩ := ih
    refine ⟨?_, ?_, ?_⟩
    · intro p w f args lam h
      rcases List.mem_cons.1 h with h | h
      · cases h; rfl
      · exact h1 _ _ _ _ _ h
    · intro x hx
      dsimp only at hx
      rw [List.dropLast_cons_of_ne_nil (transformLoop_ne _ _)] at hx
      rcases List.mem_cons.1 hx with rfl | hx
      · rfl
      · exact h2 x hx
    · rcases h3 with h3 | ⟨q, m', args, h3, h4⟩
      · exact .inl h3
      · exact .inr ⟨q, m', args, by dsimp only; rw [List.getLast?_cons, h3]; rfl, h4⟩
  | case5 memo e m rest hs r ih =>
    obtain ⟨h1, h2, h3⟩ := ih
    refine ⟨?_, ?_, ?_⟩
    · intro p w f args lam h
      rcases List.mem_cons.1 h with h | h
      · exact setRval_call h.symm
      · exact h1 _ _ _ _ _ h
    · intro x hx
      dsimp only at hx
      rw [List.dropLast_cons_of_ne_nil (transformLoop_ne _ _)] at hx
      rcases List.mem_cons.1 hx with rfl | hx
      · rw [isStatementCall_setRval]; simpa using hs
      · exact h2 x hx
    · rcases h3 with h3 | ⟨q, m', args, h3, h4⟩
      · exact .inl h3
      · exact .inr ⟨q, m', args, by dsimp only; rw [List.getLast?_cons, h3]; rfl, h4⟩

theorem BlockOk.nil : BlockOk [] := ⟨by simp, by simp, by simp⟩

theorem extraneousComma_fails {α : Type} (es : List Expr) {env : Env} {s s' : St} {a : α} : extraneousComma es env s ≠ .ok a s' := by
  intro h
  unfold extraneousComma at h
  rw [show ∀ (m : Env → P α), (getEnv >>= m) env s = m env env s from fun _ => rfl] at h
  cases es with
  | nil => cases h
  | cons f es =>
    dsimp only at h
    cases h1 : lineForOffset env.text ((f.off : Int) + f.len) with
    | error e => rw [h1] at h; cases e <;> cases h
    | ok l =>
      rw [h1] at h
      cases h2 : posOnLine env.text ((f.off : Int) + f.len) with
      | error e => rw [h2] at h; cases e <;> cases h
      | ok l => rw [h2] at h; cases h

/-- The statements that `transformCalls` gives. -/
theorem transformCalls_block (es : List Expr) {env : Env} {s s' : St} {r : List Expr} (h : transformCalls es env s = .ok r s') : BlockOk r := by
  unfold transformCalls at h
  split at h
  · cases h; exact .nil
  · next memo rest =>
    obtain ⟨h1, h2, h3⟩ := transformLoop_block memo rest
    dsimp only at h
    split at h
    · next hc =>
      cases hn : firstComma (transformLoop memo rest).1 with
      | some xs => rw [hn] at h; exact absurd h (extraneousComma_fails _)
      | none =>
        rw [hn] at h
        cases h
        exact ⟨h1, h2, fun p es hm => absurd hm (firstComma_none hn p es)⟩
    · next hc =>
      cases h
      exact ⟨h1, h2, fun p es _ => h3.resolve_left hc⟩

/-- An element of a list or an argument: a value or a keyed entry. -/
def ArgV (env : Env) (D : List Expr) (e : Expr) : Prop := Node env D .value e ∨ Node env D .entry e

theorem newHash_ok {c : Expr} {cs : List Expr} (h : ∀ e ∈ c :: cs, Node env D .entry e) :
    Node env D .value (newHash (c :: cs)) :=
  .hash (h c (by simp)).off_le h

theorem processHashEntries_ok (es cs : List Expr) (h : ∀ e ∈ es, ArgV env D e)
    (hc : ∀ e ∈ cs, Node env D .entry e) : ∀ e ∈ processHashEntries es cs, Node env D .value e := by
  have key : ∀ {e}, ArgV env D e → isKeyedEntry e = true → Node env D .entry e := by
    intro e h1 h2
    rcases h1 with h1 | h1
    · rw [h1.not_keyed] at h2; cases h2
    · exact h1
  have val : ∀ {e}, ArgV env D e → ¬ isKeyedEntry e = true → Node env D .value e := by
    intro e h1 h2
    rcases h1 with h1 | h1
    · exact h1
    · exact absurd h1.keyed h2
  fun_induction processHashEntries es cs with
  | case1 => intro e he; cases he
  | case2 c cs => intro e he; rw [List.mem_singleton] at he; subst he; exact newHash_ok hc
  | case3 e es hk ih =>
    refine ih (fun x hx => h x (by simp [hx])) ?_
    intro x hx; rw [List.mem_singleton] at hx; subst hx
    exact key (h _ (by simp)) hk
  | case4 e es hk ih =>
    intro x hx
    rcases List.mem_cons.1 hx with rfl | hx
    · exact val (h _ (by simp)) hk
    · exact ih (fun x hx => h x (by simp [hx])) (by simp) x hx
  | case5 e es c cs hk ih =>
    refine ih (fun x hx => h x (by simp [hx])) ?_
    intro x hx
    rcases List.mem_append.1 hx with hx | hx
    · exact hc x hx
    · rw [List.mem_singleton] at hx; subst hx
      exact key (h _ (by simp)) hk
  | case6 e es c cs hk ih =>
    intro x hx
    rcases List.mem_cons.1 hx with rfl | hx
    · exact newHash_ok hc
    · rcases List.mem_cons.1 hx with rfl | hx
      · exact val (h _ (by simp)) hk
      · exact ih (fun x hx => h x (by simp [hx])) (by simp) x hx

theorem joinHashEntries_ok (es : List Expr) (h : ∀ e ∈ es, ArgV env D e) :
    ∀ e ∈ joinHashEntries es, Node env D .value e := by
  unfold joinHashEntries
  split
  · exact processHashEntries_ok es [] h (by simp)
  · next hn =>
    intro e he
    rcases h e he with h1 | h1
    · exact h1
    · exact absurd (List.any_eq_true.2 ⟨e, he, h1.keyed⟩) hn

/-- The expression in the loop of `primaryExpression`: a value or a named access that is not yet a
call. -/
abbrev Prim (env : Env) (D : List Expr) (e : Expr) : Prop := Node env D .operand e

theorem Node.convertLhs {σ : Role} {e : Expr} (h : Node env D σ e) (hσ : σ = .operand) :
    Node env D .value (PP.convertLhs e) := by
  induction h with
  | @operand e h =>
    unfold PP.convertLhs
    split
    · cases h; contradiction
    · exact h
  | rawAccess h1 _ h3 ih =>
    unfold PP.convertLhs
    exact .method h1 (.inl (.inl rfl)) (.namedAccess h1 (ih rfl) h3) (by simp) (by intro l hl; cases hl)
  | _ => cases hσ

theorem node_convertLhsToCall {p q : Pos} {l r : Expr} {args : List Expr} {lam : Option Expr}
    (hp : PP.okPos env p) (hq : PP.okPos env q) (hpq : q.off = p.off) (hl : Prim env D l) (hr : Node env D .value r)
    (ha : ∀ a ∈ args, Node env D .value a) (hlam : ∀ l, lam = some l → Node env D .lambda l) :
    Node env D .value (convertLhsToCall p l r args lam q) :=
  .method hq (.inl (.inl hpq)) (.namedAccess hp (hl.convertLhs rfl) hr) ha hlam

end
end PP
