import Verif.Lemmas.Parse2

/-! # The functions of the parser: statements and operators -/
namespace PP

section
variable {env : Env} {s t u : St} {self : Self} {m : Nat}

theorem lineIndexLoop_err (f pos : Nat) (rest : GoStr) :
    ∀ e, lineIndexLoop f pos rest = .error e → ∃ q, e = .invalidUnicode q ∧ q ≤ pos + rest.length := by
  induction f generalizing pos rest with
  | zero => intro e h; cases rest <;> cases h
  | succ f ih =>
    intro e h
    cases rest with
    | nil => cases h
    | cons b bs =>
      unfold lineIndexLoop at h
      dsimp only at h
      split at h
      · cases h; exact ⟨pos, rfl, by omega⟩
      split at h
      · cases h
      split at h
      · cases h
      · next e' he =>
        cases h
        obtain ⟨q, h1, h2⟩ := ih _ _ _ he
        refine ⟨q, h1, ?_⟩
        have h3 := decodeRune_width_le (b :: bs)
        simp only [List.length_drop] at h2
        omega

theorem lineIndex_err {text : GoStr} {e : LocErr} (h : lineIndex text = .error e) :
    ∃ q, e = .invalidUnicode q ∧ q ≤ text.length := by
  unfold lineIndex at h
  split at h
  · cases h
  · next e' he =>
    cases h
    obtain ⟨q, h1, h2⟩ := lineIndexLoop_err _ _ _ _ he
    exact ⟨q, h1, by omega⟩

theorem lineIndex_cons {text : GoStr} {li : List Nat} (h : lineIndex text = .ok li) : ∃ l, li = 0 :: l := by
  unfold lineIndex at h
  split at h
  · cases h; exact ⟨_, rfl⟩
  · cases h

theorem posOnLine_err {text : GoStr} {p : Int} (hp : 0 ≤ p) {e : LocErr} (h : posOnLine text p = .error e) :
    ∃ q, e = .invalidUnicode q ∧ q ≤ text.length := by
  unfold posOnLine at h
  split at h
  · next e' he => cases h; exact lineIndex_err he
  next li hli =>
  obtain ⟨l, rfl⟩ := lineIndex_cons hli
  split at h
  · next h0 =>
    unfold searchInts at h0
    rw [List.takeWhile_cons_of_pos (by simp; omega)] at h0
    cases h0
  · next line hl =>
    have hlt : line < (0 :: l).length := by
      have h1 : searchInts (0 :: l) (p + 1) ≤ (0 :: l).length := by
        unfold searchInts
        exact (List.takeWhile_prefix _).length_le
      omega
    rw [List.getElem?_eq_getElem hlt] at h
    dsimp only at h
    split at h <;> cases h

theorem lineForOffset_err {text : GoStr} {p : Int} {e : LocErr} (h : lineForOffset text p = .error e) :
    ∃ q, e = .invalidUnicode q ∧ q ≤ text.length := by
  unfold lineForOffset at h
  split at h
  · cases h
  · next e' he => cases h; exact lineIndex_err he

theorem wp_extraneousComma {α : Type} {es : List Expr} {Q : α → St → Prop} (h0 : es ≠ []) (h : ∀ e ∈ es, Val env t.defs e) :
    wp env (extraneousComma es) Q (EOK env) t := by
  unfold extraneousComma
  rw [wp_bind, wp_getEnv]
  cases es with
  | nil => exact absurd rfl h0
  | cons f r =>
    have hf := (h f (by simp)).2
    dsimp only
    split
    · next q hq =>
      obtain ⟨q', h1, h2⟩ := lineForOffset_err hq
      cases h1
      rw [wp_throwE]; exact Nat.le_succ_of_le h2
    · next hq => obtain ⟨q', h1, h2⟩ := lineForOffset_err hq; cases h1
    · split
      · next q hq =>
        obtain ⟨q', h1, h2⟩ := posOnLine_err hf.1 hq
        cases h1
        rw [wp_throwE]; exact Nat.le_succ_of_le h2
      · next hq => obtain ⟨q', h1, h2⟩ := posOnLine_err hf.1 hq; cases h1
      · rw [wp_throwE]
        have := hf.2
        show ((f.off : Int) + f.len).toNat ≤ env.text.length + 1
        omega

theorem wp_transformCalls {es : List Expr} (h : ∀ e ∈ es, StmtV env t.defs e) :
    wp env (transformCalls es) (fun es' u => (u = t ∧ ∀ e ∈ es', StmtV env t.defs e) ∧ BlockOk es') (EOK env) t := by
  suffices wp env (transformCalls es) (fun es' u => u = t ∧ ∀ e ∈ es', StmtV env t.defs e) (EOK env) t by
    unfold wp at this ⊢
    cases h1 : transformCalls es env t with
    | ok r u => rw [h1] at this; exact ⟨this, transformCalls_block es h1⟩
    | fail e u => rw [h1] at this; exact this
  unfold transformCalls
  split
  · exact wp_pure.mpr ⟨rfl, by intro e he; cases he⟩
  next memo rest =>
  have h1 := transformLoop_ok memo rest (h memo (by simp)) fun e he => h e (by simp [he])
  dsimp only
  split
  · split
    · next es' hes =>
      obtain ⟨p, hp⟩ := firstComma_mem hes
      obtain ⟨h2, h3 | ⟨p', es'', h3, h4, -, h5, h6⟩⟩ := h1 _ hp
      · cases h3
      · cases h3
        refine wp_extraneousComma ?_ h6
        intro h0; rw [h0] at h5; simp at h5
    · exact wp_pure.mpr ⟨rfl, h1⟩
  · exact wp_pure.mpr ⟨rfl, h1⟩

theorem wp_commaArgsBody (acc : List Expr) (H : HSelf env self (M env (.commaArgs acc) s))
    (hpre : Pre env (.commaArgs acc) s) :
    wp env (commaArgsBody self acc) (Post env (.commaArgs acc) s) (EOK env) s := by
  obtain ⟨h, hne, hacc⟩ := hpre
  change HSelf env self (B env s + 5) at H
  unfold commaArgsBody
  rw [wp_bind, wp_curTok]
  refine ite_wp (fun ht => ?_) fun ht => ?_
  · rw [wp_bind]
    refine wp_imp (H.first (by omega) h (by rw [ht]; decide)) ?_
    rintro _ t1 ⟨h1, g1⟩
    rw [wp_bind]
    refine wp_imp (H.rel (by omega) h1.lt) ?_
    rintro e t2 ⟨h2, g2, n2⟩
    have b2 := h2.B
    refine wp_imp (H (.commaArgs (acc ++ [e])) t2 ⟨h2.inv, by simp, ?_⟩ (by show B env t2 + 5 < _; omega)) ?_
    · exact mem_snoc (fun x hx => (hacc x hx).mono fun d hd => g2 d (g1 d hd)) n2
    · rintro es t3 ⟨h3, h4, h5⟩
      refine ⟨.inr (h2.trans_ml h3), ⟨h4.1, h4.2.trans ?_⟩, h5⟩
      cases acc with
      | nil => exact absurd rfl hne
      | cons a r => rfl
  · exact wp_pure.mpr ⟨.inl rfl, ⟨hne, rfl⟩, hacc⟩

theorem wp_syntacticStatement (H : HSelf env self m) (hm : B env s + 32 < m) (h : Inv env s) :
    wp env (syntacticStatement self) (After env s s (fun D e => StmtV env D e)) (EOK env) s := by
  unfold syntacticStatement
  rw [wp_bind]
  refine wp_imp (H (.binary .rel) s h (by show B env s + 32 < m; omega)) ?_
  intro e t1 h1
  change VPost env s e t1 at h1
  have b1 := h1.mv.B
  rw [wp_bind]
  refine wp_imp (H (.commaArgs [e]) t1 ⟨h1.mv.inv, by simp, ?_⟩ (by show B env t1 + 5 < m; omega)) ?_
  · intro x hx; rw [List.mem_singleton] at hx; subst hx; exact h1.val
  rintro es t2 ⟨h2, ⟨h3, h3'⟩, h4⟩
  have g2 := (h2.le h1.mv.inv).adv.mem
  split
  · exact wp_pure.mpr ⟨h1.mv.trans_ml h2, fun d hd => g2 d (h1.mv.adv.mem d hd), (h1.val.mono g2).2, .inl (h1.val.mono g2).1⟩
  · next hx =>
    wpr
    refine ⟨h1.mv.trans_ml h2, fun d hd => g2 d (h1.mv.adv.mem d hd), endHere rfl (h1.mv.trans_ml h2).inv.pos, .inr ⟨_, _, rfl, h1.val.1.off_le, ?_, ?_, h4⟩⟩
    · intro x hx; rw [h3'] at hx; cases hx; rfl
    cases es with
    | nil => exact absurd rfl h3
    | cons a r =>
      cases r with
      | nil => exact absurd rfl (hx a)
      | cons b r => simp

theorem wp_stmtsBody (k : Tok) (acc : List Expr) (H : HSelf env self (M env (.stmts k acc) s))
    (hpre : Pre env (.stmts k acc) s) :
    wp env (stmtsBody self k acc) (Post env (.stmts k acc) s) (EOK env) s := by
  obtain ⟨h, hacc⟩ := hpre
  change HSelf env self (B env s + 40) at H
  unfold stmtsBody
  rw [wp_bind, wp_curTok]
  refine ite_wp (fun ht => ?_) fun ht => ?_
  · exact wp_pure.mpr ⟨.refl h, ht, hacc⟩
  rw [wp_bind]
  refine wp_imp (wp_syntacticStatement H (by omega) h) ?_
  rintro e t1 ⟨h1, g1, n1⟩
  have hacc1 := mem_snoc (fun x hx => (hacc x hx).mono g1) n1
  have go : ∀ t2, Mv env s t2 → (∀ d ∈ t1.defs, d ∈ t2.defs) →
      wp env (self (.stmts k (acc ++ [e]))) (Post env (.stmts k acc) s) (EOK env) t2 := by
    intro t2 h2 g2
    have b2 := h2.B
    refine wp_imp (H (.stmts k (acc ++ [e])) t2 ⟨h2.inv, fun x hx => (hacc1 x hx).mono g2⟩ (by show B env t2 + 40 < _; omega)) ?_
    rintro es t3 ⟨h3, h4, h5⟩
    exact ⟨h2.trans_le h3, h4, h5⟩
  rw [wp_bind, wp_curTok]
  refine ite_wp (fun ht1 => ?_) fun ht1 => ?_
  · rw [wp_bind]
    refine wp_imp (H.next (by omega) h1.lt) ?_
    rintro _ t2 ⟨h2, g2⟩
    exact go t2 h2 g2
  · exact go t1 h1 fun _ h => h

theorem wp_parseBody (k : Tok) (single : Bool) (H : HSelf env self (M env (.parse k single) s))
    (h : Pre env (.parse k single) s) :
    wp env (parseBody self k single) (Post env (.parse k single) s) (EOK env) s := by
  change Inv env s at h
  change HSelf env self (B env s + 42) at H
  unfold parseBody
  rw [wp_bind]
  have hend : wp env (skipWhite false) (fun cs _ => env.text.length ≤ s.pos → cs.2 = s.pos) (EOK env) s := by
    by_cases hlen : env.text.length ≤ s.pos
    · unfold wp; rw [skipWhite_atEnd _ hlen]; exact fun _ => rfl
    · exact wp_imp (wp_skipWhite false h.pos h.nls) fun _ _ _ hl => absurd hl hlen
  refine wp_imp (wp_and (wp_skipWhite false h.pos h.nls) hend) ?_
  rintro ⟨c, start⟩ _ ⟨⟨n, j, b, h1, rfl, h4, h5, h6, -, h8⟩, h0⟩
  dsimp only at h0
  dsimp only at h5 h6
  rw [wp_bind, wp_setPos]
  dsimp only
  have hinv : Inv env { s with pos := start, nls := j, bol := b } := by
    refine ⟨⟨h5, h.tsp, h4, ?_, h.defs⟩, h.tok, fun he => ?_, h.sp⟩
    case refine_2 =>
      refine ⟨fun hx => ?_, (h.fin he).2⟩
      rcases (h.fin he).1 hx with hl | hl
      · exact .inl (by rw [show _ = start from rfl, h0 hl]; exact hl)
      · exact .inr hl
    rcases h8 with rfl | rfl
    · exact h.nls2
    · intro _ hj; cases hj
  have hle : Le env s { s with pos := start, nls := j, bol := b } := by
    refine ⟨⟨rfl, List.prefix_refl _, h6⟩, hinv, ?_⟩
    have := psi_le_of (env := env) h6.1 h.pos h5
    have h9 : psi env { s with pos := start, nls := j, bol := b } = psi env { s with pos := start, nls := j } := rfl
    unfold phi
    rw [h9]
    dsimp only
    omega
  generalize ({ s with pos := start, nls := j, bol := b } : St) = a at hinv hle
  have hB := hle.B
  refine ite_wp (fun hs => ?_) fun hs => ?_
  · rw [wp_bind, wp_curTok]
    refine ite_wp (fun ht => ?_) fun ht => ?_
    · refine wp_pure.mpr ⟨hle, ht, ?_⟩
      rw [if_pos hs]
      exact ⟨.undef h5, by unfold endOk Expr.off Expr.len; dsimp only [Expr.pos]; omega⟩
    · rw [wp_bind]
      refine wp_imp (H (.binary .rel) a hinv (by show B env a + 32 < _; omega)) ?_
      intro e t1 h1
      change VPost env a e t1 at h1
      rw [wp_bind]
      refine wp_assert h1.mv.inv fun ht => ?_
      refine wp_pure.mpr ⟨hle.trans h1.mv.le, ht, ?_⟩
      rw [if_pos hs]
      exact h1.val
  · rw [wp_bind]
    refine wp_imp (H (.stmts k []) a ⟨hinv, by intro e he; cases he⟩ (by show B env a + 40 < _; omega)) ?_
    rintro es t1 ⟨h1, h2, h3⟩
    rw [wp_bind]
    refine wp_imp (wp_transformCalls h3) ?_
    rintro es' _ ⟨⟨rfl, h4⟩, h4'⟩
    wpr
    refine ⟨hle.trans h1, h2, ?_⟩
    rw [if_neg hs]
    exact .block h5 h4' fun e he => (h4 e he).node

theorem wp_className (H : HSelf env self m) (hm : B env s + 2 < m) (h : Inv env s) :
    wp env (className self) (fun _ u => Mv env s u) (EOK env) s := by
  unfold className
  rw [wp_bind, wp_getS]
  refine ite_wp (fun ht => ?_) fun ht => ?_
  · wpr
    refine wp_imp (h.str (by rcases ht with ht | ht <;> rw [ht] <;> decide)) ?_
    rintro n _ rfl
    refine wp_imp (H.first hm h (by rcases ht with ht | ht <;> rw [ht] <;> decide)) ?_
    exact fun _ _ hu => hu.1
  · refine ite_wp (fun ht => ?_) fun ht => ?_
    · wpr; exact h.tsp
    refine ite_wp (fun ht => ?_) fun ht => ?_
    · wpr; exact h.tsp
    · wpr; exact h.tsp

theorem wp_attributeOperation (H : HSelf env self m) (hm : B env s + 2 < m) (h : Inv env s) :
    wp env (attributeOperation self) (After env s s (fun D e => Node env D .attr e)) (EOK env) s := by
  unfold attributeOperation
  rw [wp_bind, wp_tokStart, wp_bind, wp_curTok]
  refine ite_wp (fun ht => ?_) fun ht => ?_
  · wpr
    refine wp_imp (H.first hm h (by rw [ht]; decide)) ?_
    rintro _ t1 ⟨h1, g1⟩
    refine wp_assert h1.inv fun _ => ?_
    refine wp_imp (H.next (by omega) h1.lt) ?_
    rintro _ t2 ⟨h2, g2⟩
    refine wp_imp (H.expr (by omega) h2.lt) ?_
    rintro e t3 ⟨h3, g3, n3⟩
    exact ⟨h3, h3.adv.mem, .attributesOp h.tsp (h.here ht) n3.1⟩
  · rw [wp_bind]
    refine wp_imp (wp_identifier H hm h) ?_
    rintro i t1 ⟨h1, h2⟩
    cases i with
    | none =>
      obtain ⟨rfl, -⟩ := h2 rfl
      wpr; exact h.tsp
    | some n =>
      have h1 := h1 n rfl
      dsimp only
      rw [wp_bind, wp_curTok]
      refine ite_wp (fun ht => ?_) fun ht => ?_
      · wpr
        refine wp_imp (h1.inv.op (by rcases ht with ht | ht <;> rw [ht] <;> decide)) ?_
        rintro op _ ⟨rfl, hop⟩
        have hop : op = b!"=>" ∨ op = b!"+>" := by
          rcases ht with ht | ht <;> rw [ht] at hop
          · exact .inl (hop rfl)
          · exact .inr (hop rfl)
        refine wp_imp (H.next (by omega) h1.lt) ?_
        rintro _ t2 ⟨h2, g2⟩
        refine wp_imp (H.expr (by omega) h2.lt) ?_
        rintro e t3 ⟨h3, g3, n3⟩
        exact ⟨h3, h3.adv.mem, .attributeOp h.tsp n3.1 hop⟩
      · wpr; exact h1.inv.pos

theorem wp_attrOpsBody (acc : List Expr) (H : HSelf env self (M env (.attrOps acc) s))
    (hpre : Pre env (.attrOps acc) s) :
    wp env (attrOpsBody self acc) (Post env (.attrOps acc) s) (EOK env) s := by
  obtain ⟨h, hacc⟩ := hpre
  change HSelf env self (B env s + 5) at H
  unfold attrOpsBody
  rw [wp_bind, wp_curTok]
  refine ite_wp (fun ht => ?_) fun ht => ?_
  · exact wp_pure.mpr ⟨.refl h, hacc⟩
  rw [wp_bind]
  refine wp_imp (wp_attributeOperation H (by omega) h) ?_
  rintro e t1 ⟨h1, g1, n1⟩
  rw [wp_bind, wp_curTok]
  refine ite_wp (fun ht1 => ?_) fun ht1 => ?_
  · exact wp_pure.mpr ⟨h1.le, (hacc.mono g1).snoc n1⟩
  · rw [wp_bind]
    refine wp_imp (H.next (by omega) h1.lt) ?_
    rintro _ t2 ⟨h2, g2⟩
    have b2 := h2.B
    refine wp_imp (H (.attrOps (acc ++ [e])) t2 ⟨h2.inv, ((hacc.mono g1).snoc n1).mono g2⟩ (by show B env t2 + 5 < _; omega)) ?_
    rintro es t3 ⟨h3, h4⟩
    exact ⟨h2.trans_le h3, h4⟩

/-- A new definition. -/
theorem wp_addDef {e : Expr} {Q : Expr → St → Prop} (h : Mv env s t) (hd : e.isDefinition = true)
    (hn : Node env (t.defs ++ [e]) .value e)
    (hq : Mv env s { t with defs := t.defs ++ [e] } → Q e { t with defs := t.defs ++ [e] }) :
    wp env (addDefinition e) Q (EOK env) t := by
  wpr
  refine hq ⟨⟨h.adv.names, h.adv.defs.trans (List.prefix_append _ _), h.adv.r⟩,
    ⟨⟨h.inv.pos, h.inv.tsp, h.inv.nls, h.inv.nls2, ?_⟩, h.inv.tok.mono fun d hd => by simp [hd], h.inv.fin, h.inv.sp⟩, h.bk, h.phi⟩
  intro d hd'
  rw [List.mem_append, List.mem_singleton] at hd'
  rcases hd' with hd' | rfl
  · obtain ⟨h1, h2⟩ := h.inv.defs d hd'
    exact ⟨h1, h2.mono fun x hx => by simp [hx]⟩
  · exact ⟨hd, hn⟩

theorem Mv.sub (_h : Mv env s t) {e : Expr} : ∀ d ∈ t.defs, d ∈ t.defs ++ [e] := fun d hd => by simp [hd]

theorem wp_capabilityMapping (H : HSelf env self m) (hm : B env s + 2 < m) (h : Inv env s) {c : Expr} (kind : GoStr)
    (hc : Node env s.defs .value c) (he : s.tok ≠ .end_) (hk : kind = b!"produces" ∨ kind = b!"consumes") :
    wp env (capabilityMapping self c kind) (After env s s (fun D e => Val env D e ∧ e.isName = false)) (EOK env) s := by
  unfold capabilityMapping
  rw [wp_bind, wp_tokStart, wp_bind]
  refine wp_imp (H.first hm h he) ?_
  rintro _ t1 ⟨h1, g1⟩
  have b1 := h1.B
  rw [wp_bind]
  refine wp_imp (wp_className H (by omega) h1.inv) ?_
  intro cap t2 h2
  have h2' := h1.trans h2
  rw [wp_bind]
  refine wp_assert h2.inv fun _ => ?_
  rw [wp_bind]
  refine wp_imp (H.next (by omega) h2'.lt) ?_
  rintro _ t3 ⟨h3, g3⟩
  rw [wp_bind]
  refine wp_imp (H.attrs (by omega) h3.lt) ?_
  rintro ms t4 ⟨h4, g4, n4⟩
  rw [wp_bind]
  refine wp_assert h4.inv fun _ => ?_
  rw [wp_bind]
  refine wp_imp (H.next (by omega) h4) ?_
  rintro _ t5 ⟨h5, g5⟩
  have gc := hc.mono h5.adv.mem
  have fin : ∀ comp, Node env t5.defs .value comp → wp env (do
        let cap ← qualifiedName cap
        let p ← here s.tsp
        addDefinition (.capabilityMapping p kind cap comp ms))
      (After env s s (fun D e => Val env D e ∧ e.isName = false)) (EOK env) t5 := by
    intro comp hcomp
    rw [wp_bind, wp_qualifiedName, wp_bind, wp_here]
    refine wp_addDef h5 rfl ?_ ?_
    · exact .capabilityMapping h.tsp (hcomp.mono h5.sub) (fun x hx => (n4 x hx).mono fun d hd => h5.sub d (g5 d hd)) (by simp) hk
    · intro h6
      exact ⟨h6, h6.adv.mem, ⟨.capabilityMapping h.tsp (hcomp.mono h5.sub) (fun x hx => (n4 x hx).mono fun d hd => h5.sub d (g5 d hd)) (by simp) hk,
        endHere rfl h5.inv.pos⟩, rfl⟩
  split
  · rw [wp_bind, wp_qualifiedName, wp_bind, wp_pure]
    exact fin _ (.qname gc.okPos)
  · rw [wp_bind, wp_pure]
    exact fin _ gc

end
end PP
