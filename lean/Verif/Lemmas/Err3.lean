import Verif.Lemmas.Err2

/-! # Wrong phrases: blocks, statements, conditionals, definitions -/
namespace PP
open PP.Spec
set_option linter.unusedSimpArgs false
set_option linter.unusedSectionVars false

section
variable [Ending] {env : Env} {ns : List GoStr} {rest : List T} {c : Code} {p : Where}

/-! ## Blocks and statements -/

theorem EvF.andThen {α β γ : Type} {m : Self → P α} {f : Self → α → P β} {g : Self → α → β → P γ} {s : St}
    (h : EvR env (fun self => m self >>= f self) s (Fails rest c p)) :
    EvR env (fun self => m self >>= fun x => f self x >>= g self x) s (Fails rest c p) := by
  obtain ⟨k, h⟩ := h.ex
  refine ⟨k, fun n hn => ?_⟩
  obtain ⟨q, t, h1, h2⟩ := h n hn
  refine ⟨q, t, ?_, h2⟩
  change (P.bind _ _) env s = _ at h1
  show (P.bind _ _) env s = _
  unfold P.bind at h1 ⊢
  dsimp only at h1 ⊢
  cases hm : m (run n) env s with
  | ok a t =>
    rw [hm] at h1
    dsimp only at h1 ⊢
    show (P.bind _ _) env t = _
    unfold P.bind
    rw [h1]
  | _ => rw [hm] at h1; cases h1; rfl

/-- The rest of a statement, from an expression on. -/
def commaRest (acc : List Expr) (self : Self) : P (List Expr) := do
  let e ← self (.binary .rel)
  self (.commaArgs (acc ++ [e]))

theorem b_comma {ts : List T} (h : BadP env ns rest c p (fun self => self (.binary .rel)) ts) (acc : List Expr) :
    BadP env ns rest c p (commaRest acc) ts :=
  fun s hf hn => EvF.bind (h s hf hn)

theorem b_commas {e : Expr} {te ts : List T} (he : DoneP env ns (fun self => self (.binary .rel)) (Is e) te (cBin .rel))
    (h : ∀ acc, BadP env ns rest c p (commaRest acc) ts) (acc : List Expr) :
    BadP env ns rest c p (commaRest acc) (te ++ y .comma :: ts) := by
  intro s hf hn
  nf at hf
  obtain ⟨e', s1, a1, a2, a3, a4⟩ := he _ s hf hn rfl
  obtain ⟨s2, b1, b2, b3⟩ := Feeds.next a3
  refine EvP.bind a1 (EvN.step ?_)
  show EvR env (fun self => commaArgsBody self _) _ _
  unfold commaArgsBody
  ev
  exact EvP.pos (sym_reads a3.reads).1 (EvP.bind b1 (h _ s2 b3 (by rw [b2, a4])))

theorem b_stmt {close : Tok} {ts : List T} (h : ∀ acc, BadP env ns rest c p (commaRest acc) ts) (hc : hd (ts ++ rest) ≠ close) (hl : close ≠ .lb)
    (acc : List Expr) : BadP env ns rest c p (fun self => self (.stmts close acc)) ts := by
  intro s hf hn
  refine EvN.step ?_
  show EvR env (fun self => stmtsBody self close acc) _ _
  unfold stmtsBody
  ev
  refine EvP.neg (hf.ne hc hl) (EvF.bind ?_)
  unfold syntacticStatement
  exact EvF.andThen (m := fun self => self (.binary .rel)) (f := fun self e => self (.commaArgs [e])) (h [] s hf hn)

theorem b_stmts {close : Tok} {es : List Expr} {te semi ts : List T} (he : DoneCommas env ns es te) (ht : FirstTok opens te) (hs : Semi semi)
    (hsm : semi = [] → hd (ts ++ rest) ≠ .semicolon) (ha : cBin .rel (hd (semi ++ (ts ++ rest))) = false) (hco : hd (semi ++ (ts ++ rest)) ≠ .comma)
    (hc : close = .rc ∨ close = .end_) (h : ∀ acc, BadP env ns rest c p (fun self => self (.stmts close acc)) ts) (acc : List Expr) :
    BadP env ns rest c p (fun self => self (.stmts close acc)) (te ++ (semi ++ ts)) := by
  intro s hf hn
  nf at hf
  obtain ⟨e0, s0, es', s1, a1, a2, a3, a4, a5, a6⟩ := he _ s hf hn ha hco
  have hst : ∃ e, EvP env (fun self => syntacticStatement self) s e s1 := by
    cases es' with
    | nil =>
      refine ⟨e0, ?_⟩
      unfold syntacticStatement
      refine EvP.bind a1 (EvP.bind (a2 [e0]) ?_)
      exact EvP.ret
    | cons e1 es =>
      refine ⟨.commaSep ⟨e0.off, (s1.pos : Int) - e0.off⟩ (e0 :: e1 :: es), ?_⟩
      unfold syntacticStatement
      refine EvP.bind a1 (EvP.bind (a2 [e0]) ?_)
      exact EvP.prim ex_here EvP.ret
  obtain ⟨e, hst⟩ := hst
  refine EvN.step ?_
  show EvR env (fun self => stmtsBody self close acc) _ _
  unfold stmtsBody
  ev
  refine EvP.neg (opens_ne ht hf hc) (EvP.bind hst ?_)
  ev
  rcases hs with rfl | rfl
  · rw [List.nil_append] at a5
    exact EvP.neg (a5.ne (hsm rfl)) (h _ s1 a5 a6)
  · nf at a5
    obtain ⟨s2, b1, b2, b3⟩ := Feeds.next a5
    exact EvP.pos (sym_reads a5.reads).1 (EvP.bind b1 (h _ s2 b3 (by rw [b2, a6])))

theorem rel_of_type {e : Expr} (hw : ∀ n, e ≠ .qname z n) {te : List T} (he : DoneType env ns e te) (hp : plain e = true)
    (ht : FirstTok isTypeDef te) : DoneP env ns (fun self => self (.binary .rel)) (Is e) te (cBin .rel) := by
  intro rest s hf hn hr
  obtain ⟨e', s1, a1, a2, a3, a4⟩ := he rest s hf hn (cBin_cRes hr)
  have ht' : s.tok = .kType ∨ s.tok = .renderExpr := by
    have := ht.tok hf rfl
    unfold isTypeDef at this
    split at this <;> simp_all
  exact ⟨e', s1, rel_of_atom a1 (fun p k h => by subst h; exact hw _ a2.symm) (by unfold Is at a2; rw [← plain_bare, a2, hp]) (by rcases ht' with h | h <;> rw [h] <;> rfl) (a3.test hr rfl), a2, a3, a4⟩

theorem Feeds.nextSkip' {t : T} {ts : List T} {s : St} (h : Feeds env (t :: ts) s) (hE : Ending.tok = .end_) : ∃ s' c p u, EvN env .nextToken s () s' ∧ u.names = s.names ∧
    skipWhite false env s' = .ok (c, p) u ∧ Feeds env ts { u with pos := p } := by
  obtain ⟨-, -, h⟩ := h
  obtain ⟨s', h1, h2, h3, h4, -⟩ := h s.val s.names s.defs
  obtain ⟨c, p, u, h5, h6, h7⟩ := h4 (.inr hE)
  exact ⟨s', c, p, u, h1, h6, h5, h7⟩

/-- The statements after an opening brace. -/
theorem block_fails {ts : List T} {s : St} (hE : Ending.tok = .end_) (h : ∀ acc, BadP env ns rest c p (fun self => self (.stmts .rc acc)) ts)
    (hf : Feeds env (y .lc :: (ts ++ rest)) s) (hn : s.names = ns) :
    EvR env (fun self => nextTok self >>= fun _ => parseBlock self .rc) s (Fails rest c p) := by
  obtain ⟨s1, d, q, u, a1, a2, a3, a4⟩ := Feeds.nextSkip' hf hE
  refine EvP.bind a1 (EvN.step ?_)
  show EvR env (fun self => parseBody self .rc false) _ _
  unfold parseBody
  refine EvP.prim a3 ?_
  dsimp only
  ev
  exact EvP.neg nofun (EvF.bind (h [] _ a4 (by show u.names = _; rw [a2, hn])))

theorem b_block {ts : List T} (hE : Ending.tok = .end_) (h : ∀ acc, BadP env ns rest c p (fun self => self (.stmts .rc acc)) ts) :
    BadP env ns rest c p (fun self => braces self) (y .lc :: ts) := by
  intro s hf hn
  nf at hf
  unfold braces
  exact EvP.prim (assertToken_ok (sym_reads hf.reads).1) (block_fails hE h hf hn)

theorem b_brace (hr : hd rest ≠ .lc) : BadP env ns rest .parseExpectedToken .start (fun self => braces self) [] := by
  intro s hf hn
  unfold braces
  exact EvF.bind (EvF.assert hf (hf.ne hr))

/-! ## Conditionals -/

/-- `if` and `unless` from the condition on. -/
def BadIf (env : Env) (ns : List GoStr) (rest : List T) (c : Code) (p : Where) (u : Bool) (ts : List T) : Prop :=
  ∀ t0 s, Feeds env (t0 :: (ts ++ rest)) s → s.names = ns → EvR env (fun self => self (.ifExpr u)) s (Fails rest c p)

theorem b_condition {u : Bool} {ts : List T} (h : BadP env ns rest c p (fun self => self (.binary .or)) ts) : BadIf env ns rest c p u ts := by
  intro t0 s hf hn
  obtain ⟨s1, a1, a2, a3⟩ := Feeds.next hf
  refine EvN.step ?_
  show EvR env (fun self => ifBody self u) _ _
  unfold ifBody
  ev
  exact EvP.bind a1 (EvF.bind (h s1 a3 (by rw [a2, hn])))

theorem b_then {u : Bool} {e : Expr} {te tb : List T} (he : DoneP env ns (fun self => self (.binary .or)) (Is e) te (cBin .or))
    (h : BadP env ns rest c p (fun self => braces self) tb) (hc : cBin .or (hd (tb ++ rest)) = false) : BadIf env ns rest c p u (te ++ tb) := by
  intro t0 s hf hn
  nf at hf
  obtain ⟨s1, a1, a2, a3⟩ := Feeds.next hf
  obtain ⟨c', s2, b1, b2, b3, b4⟩ := he _ s1 a3 (by rw [a2, hn]) hc
  refine EvN.step ?_
  show EvR env (fun self => ifBody self u) _ _
  unfold ifBody
  ev
  exact EvP.bind a1 (EvP.bind b1 (EvF.bind (h s2 b3 b4)))

/-- After the block of an `if`. -/
theorem if_after {u : Bool} {e b : Expr} {te tb r : List T} {t0 : T} {s : St} (he : DoneP env ns (fun self => self (.binary .or)) (Is e) te (cBin .or))
    (hb : DoneBlock env ns b tb) (hbt : FirstTok (isTok .lc) tb) (hf : Feeds env (t0 :: (te ++ (tb ++ r))) s) (hn : s.names = ns) :
    ∃ s4 c' b', Feeds env r s4 ∧ s4.names = ns ∧ ∀ R, EvR env (fun self => do
      let s' ← getS
      let elseE ← match s'.tok with
        | .kElse => do
          nextTok self
          let b ← braces self
          nextTok self
          pure b
        | .kElsif => if u then issue .parseElsifInUnless else self (.ifExpr false)
        | _ => pure (.nop ⟨s'.tsp, 0⟩)
      let p ← here s.tsp
      pure (Expr.ifE p u c' b' elseE)) s4 R → EvR env (fun self => self (.ifExpr u)) s R := by
  obtain ⟨s1, a1, a2, a3⟩ := Feeds.next hf
  have hlc : hd (tb ++ r) = .lc := hd_of_lc hbt
  obtain ⟨c', s2, b1, b2, b3, b4⟩ := he _ s1 a3 (by rw [a2, hn]) (by rw [hlc]; rfl)
  obtain ⟨b', s3, c1, c2, c3, c4⟩ := hb _ s2 b3 b4
  obtain ⟨s4, d1, d2, d3⟩ := Feeds.next c3
  refine ⟨s4, c', b', d3, by rw [d2, c4], fun R h => EvN.step ?_⟩
  show EvR env (fun self => ifBody self u) _ _
  unfold ifBody
  ev
  exact EvP.bind a1 (EvP.bind b1 (EvP.bind c1 (EvP.bind d1 h)))

theorem b_else {u : Bool} {e b : Expr} {te tb ts : List T} (he : DoneP env ns (fun self => self (.binary .or)) (Is e) te (cBin .or))
    (hb : DoneBlock env ns b tb) (hbt : FirstTok (isTok .lc) tb) (h : BadP env ns rest c p (fun self => braces self) ts) :
    BadIf env ns rest c p u (te ++ (tb ++ w .kElse :: ts)) := by
  intro t0 s hf hn
  nf at hf
  obtain ⟨s4, c', b', a1, a2, a3⟩ := if_after (u := u) he hb hbt hf hn
  obtain ⟨s5, d1, d2, d3⟩ := Feeds.next a1
  refine a3 _ ?_
  ev
  dsimp only
  rw [a1.reads.1]
  exact EvP.bind d1 (EvF.bind (h s5 d3 (by rw [d2, a2])))

theorem b_elsif {e b : Expr} {te tb ts : List T} (he : DoneP env ns (fun self => self (.binary .or)) (Is e) te (cBin .or))
    (hb : DoneBlock env ns b tb) (hbt : FirstTok (isTok .lc) tb) (h : BadIf env ns rest c p false ts) :
    BadIf env ns rest c p false (te ++ (tb ++ w .kElsif :: ts)) := by
  intro t0 s hf hn
  nf at hf
  obtain ⟨s4, c', b', a1, a2, a3⟩ := if_after (u := false) he hb hbt hf hn
  refine a3 _ ?_
  ev
  dsimp only
  rw [a1.reads.1]
  exact EvP.neg nofun (EvF.bind (h _ s4 a1 a2))

theorem b_elsifUnless {e b : Expr} {te tb : List T} (he : DoneP env ns (fun self => self (.binary .or)) (Is e) te (cBin .or))
    (hb : DoneBlock env ns b tb) (hbt : FirstTok (isTok .lc) tb) (hr : hd rest = .kElsif) :
    BadIf env ns rest .parseElsifInUnless .after true (te ++ tb) := by
  intro t0 s hf hn
  nf at hf
  obtain ⟨s4, c', b', a1, a2, a3⟩ := if_after (u := true) he hb hbt hf hn
  refine a3 _ ?_
  ev
  dsimp only
  rw [a1.tok_eq (by rw [hr]; nofun), hr]
  exact EvP.pos rfl (EvF.bind (EvF.after a1))

theorem b_if {ts : List T} (h : BadIf env ns rest c p false ts) : BadP env ns rest c p (fun self => self .atom) (w .kIf :: ts) := by
  intro s hf hn
  nf at hf
  refine EvN.step ?_
  show EvR env (fun self => atomBody self) _ _
  unfold atomBody
  ev
  rw [hf.reads.1]
  exact h _ s hf hn

theorem b_unless {ts : List T} (h : BadIf env ns rest c p true ts) : BadP env ns rest c p (fun self => self .atom) (w .kUnless :: ts) := by
  intro s hf hn
  nf at hf
  refine EvN.step ?_
  show EvR env (fun self => atomBody self) _ _
  unfold atomBody
  ev
  rw [hf.reads.1]
  exact h _ s hf hn

/-! ## Case -/

theorem b_optionValues {ts : List T} (h : ∀ acc, BadP env ns rest c p (fun self => self (.exprs .colon .expression acc)) ts) (acc : List Expr) :
    BadP env ns rest c p (fun self => self (.caseOptions acc)) ts := by
  intro s hf hn
  refine EvN.step ?_
  show EvR env (fun self => caseOptionsBody self acc) _ _
  unfold caseOptionsBody caseOption
  refine EvF.bind ?_
  ev
  exact EvF.bind (h [] s hf hn)

theorem b_optionBlock {vs : List Expr} {tv tb : List T} (hv : DoneMany env ns .value vs tv) (hb : BadP env ns rest c p (fun self => braces self) tb)
    (acc : List Expr) : BadP env ns rest c p (fun self => self (.caseOptions acc)) (tv ++ y .colon :: tb) := by
  intro s hf hn
  nf at hf
  obtain ⟨vs', s1, a1, a2, a3, a4⟩ := hv .colon rfl _ s hf hn rfl
  obtain ⟨s2, b1, b2, b3⟩ := Feeds.next a3
  refine EvN.step ?_
  show EvR env (fun self => caseOptionsBody self acc) _ _
  unfold caseOptionsBody caseOption
  refine EvF.bind ?_
  ev
  exact EvP.bind (at_nil a1) (EvP.bind b1 (EvF.bind (hb s2 b3 (by rw [b2, a4]))))

theorem b_options {vs : List Expr} {b : Expr} {tv tb to : List T} (hv : DoneMany env ns .value vs tv) (hb : DoneBlock env ns b tb)
    (ho : ∀ acc, BadP env ns rest c p (fun self => self (.caseOptions acc)) to) (hne : hd (to ++ rest) ≠ .rc) (acc : List Expr) :
    BadP env ns rest c p (fun self => self (.caseOptions acc)) (tv ++ y .colon :: (tb ++ to)) := by
  intro s hf hn
  nf at hf
  obtain ⟨o, s1, a1, a2, a3, a4⟩ := caseOption_of hv hb hf hn
  refine EvN.step ?_
  show EvR env (fun self => caseOptionsBody self acc) _ _
  unfold caseOptionsBody
  refine EvP.bind a1 ?_
  ev
  exact EvP.neg (Feeds.ne (ts := to ++ rest) a3 hne) (ho _ s1 a3 a4)

theorem b_caseTest {ts : List T} (h : BadP env ns rest c p (fun self => self .expression) ts) :
    BadP env ns rest c p (fun self => self .atom) (w .kCase :: ts) := by
  intro s hf hn
  nf at hf
  obtain ⟨s1, a1, a2, a3⟩ := Feeds.next hf
  refine EvN.step ?_
  show EvR env (fun self => atomBody self) _ _
  unfold atomBody
  ev
  rw [hf.reads.1]
  dsimp only
  unfold caseExpression
  ev
  exact EvP.bind a1 (EvF.bind (h s1 a3 (by rw [a2, hn])))

theorem b_case {e : Expr} {te to : List T} (he : DoneP env ns (fun self => self .expression) (Is e) te cExpr)
    (ho : ∀ acc, BadP env ns rest c p (fun self => self (.caseOptions acc)) to) :
    BadP env ns rest c p (fun self => self .atom) (w .kCase :: (te ++ y .lc :: to)) := by
  intro s hf hn
  nf at hf
  obtain ⟨s1, a1, a2, a3⟩ := Feeds.next hf
  obtain ⟨e', s2, b1, b2, b3, b4⟩ := he _ s1 a3 (by rw [a2, hn]) rfl
  obtain ⟨s3, c1, c2, c3⟩ := Feeds.next b3
  refine EvN.step ?_
  show EvR env (fun self => atomBody self) _ _
  unfold atomBody
  ev
  rw [hf.reads.1]
  dsimp only
  unfold caseExpression
  ev
  exact EvP.bind a1 (EvP.bind b1 (EvP.prim (assertToken_ok (sym_reads b3.reads).1) (EvP.bind c1 (EvF.bind (ho [] s3 c3 (by rw [c2, b4]))))))

theorem b_caseBrace {e : Expr} {te : List T} (he : DoneP env ns (fun self => self .expression) (Is e) te cExpr)
    (h1 : cExpr (hd rest) = false) (h2 : hd rest ≠ .lc) :
    BadP env ns rest .parseExpectedToken .start (fun self => self .atom) (w .kCase :: te) := by
  intro s hf hn
  nf at hf
  obtain ⟨s1, a1, a2, a3⟩ := Feeds.next hf
  obtain ⟨e', s2, b1, b2, b3, b4⟩ := he _ s1 a3 (by rw [a2, hn]) h1
  refine EvN.step ?_
  show EvR env (fun self => atomBody self) _ _
  unfold atomBody
  ev
  rw [hf.reads.1]
  dsimp only
  unfold caseExpression
  ev
  exact EvP.bind a1 (EvP.bind b1 (EvF.bind (EvF.assert b3 (b3.ne h2))))

/-! ## Definitions -/

theorem className_fails {s : St} (hf : Feeds env rest s) (h : nameIssue (hd rest) = some c) :
    EvR env (fun self => className self) s (Fails rest c .start) := by
  have ht : nameIssue s.tok = some c := by
    rcases hf.tok with h' | ⟨h', h''⟩
    · rw [h']; exact h
    · rw [h''] ; rw [h'] at h; exact h
  unfold className
  ev
  unfold nameIssue at ht
  split at ht
  · cases ht
  · cases ht
  · rename_i h'; cases ht
    exact EvP.neg (by rw [h']; simp) (EvP.pos (.inl h') (EvF.start hf))
  · rename_i h'; cases ht
    exact EvP.neg (by rw [h']; simp) (EvP.pos (.inr h') (EvF.start hf))
  · rename_i h'; cases ht
    exact EvP.neg (by rw [h']; simp) (EvP.neg (by rw [h']; simp) (EvP.pos h' (EvF.start hf)))
  · rename_i h1 h2 h3 h4 h5; cases ht
    refine EvP.neg (by rintro (h | h); exact h1 h; exact h2 h) (EvP.neg (by rintro (h | h); exact h3 h; exact h4 h) (EvP.neg h5 (EvF.start hf)))

end
end PP
