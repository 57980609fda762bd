import Verif.Lemmas.Gram9
import Verif.Spec.Errors

/-! # What the parser does with a phrase that goes wrong -/
namespace PP
open PP.Spec
set_option linter.unusedSimpArgs false
set_option linter.unusedSectionVars false

section
variable [Ending] {env : Env} {ns : List GoStr} {rest : List T} {c : Code} {p : Where}

/-- The position of an error. -/
def Loc (rest : List T) : Where → Nat → Prop
  | .start, q => Ending.start rest q
  | .after, q => Ending.past rest q
  | .somewhere, _ => True

/-- The computation fails with the issue `c`. -/
def Fails {α : Type} (rest : List T) (c : Code) (p : Where) (r : Res α) : Prop := ∃ q t, r = .fail (.issue c q) t ∧ Loc rest p q

theorem EvF.bind {α β : Type} {m : Self → P α} {f : Self → α → P β} {s : St} (h : EvR env m s (Fails rest c p)) :
    EvR env (fun self => m self >>= f self) s (Fails rest c p) := by
  obtain ⟨k, h⟩ := h.ex
  refine ⟨k, fun g hg => ?_⟩
  obtain ⟨q, t, h1, h2⟩ := h g hg
  refine ⟨q, t, ?_, h2⟩
  show P.bind _ _ env s = _
  unfold P.bind
  rw [h1]

theorem EvF.start {α : Type} {s : St} (h : Feeds env rest s) : EvR env (fun _ => (issueAt s.tsp c : P α)) s (Fails rest c .start) :=
  ⟨0, fun _ _ => ⟨s.tsp, _, rfl, h.start⟩⟩

theorem EvF.after {α : Type} {s : St} (h : Feeds env rest s) : EvR env (fun _ => (issue c : P α)) s (Fails rest c .after) :=
  ⟨0, fun _ _ => ⟨s.pos, _, rfl, h.past⟩⟩

theorem EvF.somewhere {α : Type} {s : St} {q : Nat} : EvR env (fun _ => (issueAt q c : P α)) s (Fails rest c .somewhere) :=
  ⟨0, fun _ _ => ⟨q, _, rfl, trivial⟩⟩

theorem EvF.assert {s : St} {k : Tok} (h : Feeds env rest s) (hk : s.tok ≠ k) :
    EvR env (fun _ => assertToken k) s (Fails rest .parseExpectedToken .start) := by
  refine ⟨0, fun _ _ => ⟨s.tsp, { s with pos := s.tsp }, ?_, h.start⟩⟩
  unfold assertToken
  ex
  rw [if_neg hk]
  rfl

/-- The computation fails. -/
def BadP {α : Type} (env : Env) (ns : List GoStr) (rest : List T) (c : Code) (p : Where) (m : Self → P α) (ts : List T) : Prop :=
  ∀ s, Feeds env (ts ++ rest) s → s.names = ns → EvR env m s (Fails rest c p)

/-- The computation fails, or it stops before `rest`, which does not start with one of the tokens `q`. -/
def Ends {α : Type} (env : Env) (rest : List T) (c : Code) (p : Where) (q : Tok → Bool) (m : Self → P α) (s : St) : Prop :=
  EvR env m s (Fails rest c p) ∨ ∃ a s', EvP env m s a s' ∧ Feeds env rest s' ∧ q (hd rest) = false ∧ c = .parseExpectedToken ∧ p = .start

theorem Ends.bind {α β : Type} {q : Tok → Bool} {m : Self → P α} {f : Self → α → P β} {s : St} (h : Ends env rest c p q m s)
    (h2 : ∀ a s', Feeds env rest s' → q (hd rest) = false → EvR env (fun self => f self a) s' (Fails rest .parseExpectedToken .start)) :
    EvR env (fun self => m self >>= f self) s (Fails rest c p) := by
  rcases h with h | ⟨a, s', h1, h3, h4, rfl, rfl⟩
  · exact EvF.bind h
  · exact EvP.bind h1 (h2 a s' h3 h4)

/-! ## Operators -/

theorem b_operand {l : Lvl} {ts : List T} (h : BadP env ns rest c p (fun self => operand self l) ts) :
    BadP env ns rest c p (fun self => self (.binary l)) ts :=
  fun s hf hn => EvN.step (EvF.bind (h s hf hn))

theorem b_binary {l : Lvl} {a : Expr} {t : T} {k : BinKind} {ta tb : List T}
    (ha : DoneK env ns (fun self => self (.binary l)) (fun e self => self (.binLoop l e)) (Is a) ta (cOpd l))
    (hk : operator l t = some k) (hb : BadP env ns rest c p (fun self => operand self l) tb) :
    BadP env ns rest c p (fun self => self (.binary l)) (ta ++ t :: tb) := by
  intro s hf hn
  obtain ⟨ho1, ho2, ho3⟩ := operator_isOp hk
  nf at hf
  obtain ⟨e, s1, h1, h2, h3, h4⟩ := ha _ s hf hn ho2
  obtain ⟨s2, h5, h6, h7⟩ := Feeds.next h2
  obtain ⟨op, h12, h13⟩ := operator_text (env := env) hk h2.reads
  have h14 : s1.tok = t.tok := h2.tok_eq ho3
  refine h4 _ (EvN.step ?_)
  show EvR env (fun self => binLoopBody self l e) _ _
  unfold binLoopBody
  ev
  refine EvP.pos (by rw [h14]; exact ho1) ?_
  exact EvP.prim h12 (EvP.bind h5 (EvF.bind (hb s2 h7 (by rw [h6, h3]))))

theorem b_opdTighter {l l' : Lvl} {ts : List T} (hl : tighter l = some l') (h : BadP env ns rest c p (fun self => self (.binary l')) ts) :
    BadP env ns rest c p (fun self => operand self l) ts := by
  cases l <;> cases hl <;> exact h

theorem b_noAssign {ts : List T} (h : BadP env ns rest c p (fun self => resource self) ts) :
    BadP env ns rest c p (fun self => self .assignment) ts := by
  intro s hf hn
  refine EvN.step ?_
  show EvR env (fun self => assignmentBody self) _ _
  unfold assignmentBody stepOrResource
  refine EvF.bind ?_
  ev
  exact EvF.bind (h s hf hn)

theorem b_assign {a : Expr} {t : T} {op : GoStr} {ta tb : List T}
    (ha : DoneP env ns (fun self => stepOrResource self) (Is a) ta cRes) (ho : assignOperator t = some op)
    (hb : BadP env ns rest c p (fun self => self .assignment) tb) :
    BadP env ns rest c p (fun self => self .assignment) (ta ++ t :: tb) := by
  intro s hf hn
  obtain ⟨ho1, ho2⟩ := assignOperator_tok ho
  nf at hf
  obtain ⟨e, s1, h1, h2, h3, h4⟩ := ha _ s hf hn ho2
  obtain ⟨s2, h5, h6, h7⟩ := Feeds.next h3
  have h12 := assignOperator_text (env := env) ho h3.reads
  have h14 : s1.tok = t.tok := h3.tok_eq (by show t.tok ≠ _; intro h; rw [h] at ho1; cases ho1)
  refine EvN.step ?_
  show EvR env (fun self => assignmentBody self) _ _
  unfold assignmentBody
  refine EvP.bind h1 (EvN.step ?_)
  show EvR env (fun self => assignLoopBody self e) _ _
  unfold assignLoopBody
  ev
  refine EvP.pos ?_ ?_
  · rw [h14]
    revert ho1
    cases t.tok <;> intro ho1 <;> first | exact Or.inl rfl | exact Or.inr (Or.inl rfl) | exact Or.inr (Or.inr rfl) | cases ho1
  exact EvP.prim h12 (EvP.bind h5 (EvF.bind (hb s2 h7 (by rw [h6, h4]))))

/-! ## Selectors -/

theorem b_value {ts : List T} (h : BadP env ns rest c p (fun self => self (.binary .or)) ts) :
    BadP env ns rest c p (fun self => self .expression) ts :=
  fun s hf hn => EvN.step (EvF.bind (h s hf hn))

/-- After a value, in `expression`. -/
theorem expr_after {e : Expr} {ts r : List T} {s : St} (h : DoneK env ns selHead (fun e self => self (.selLoop e)) (Is e) ts (cBin .or))
    (hf : Feeds env (ts ++ r) s) (hn : s.names = ns) (hr : cBin .or (hd r) = false) :
    ∃ a s1, bare a = e ∧ Feeds env r s1 ∧ s1.names = ns ∧ (EvR env (fun self => self (.selLoop a)) s1 (Fails rest c p) → EvR env (fun self => self .expression) s (Fails rest c p)) ∧
      (s1.tok ≠ .qmark → EvR env (fun self => exprTail self a) s1 (Fails rest c p) → EvR env (fun self => self .expression) s (Fails rest c p)) := by
  obtain ⟨a, s1, h1, h2, h3, h4⟩ := h r s hf hn hr
  refine ⟨a, s1, h1, h2, h3, fun hx => EvN.step ?_, fun hq hx => EvN.step ?_⟩
  · obtain ⟨k, hk⟩ := (h4 _ hx).ex
    refine ⟨k, fun g hg => ?_⟩
    obtain ⟨q, t, h5, h6⟩ := hk g hg
    refine ⟨q, t, ?_, h6⟩
    show (run g (.binary .or) >>= fun x => run g (.selLoop x) >>= exprTail (run g)) env s = _
    have h1 : (run g (.binary .or) >>= fun x => run g (.selLoop x) >>= exprTail (run g)) env s = (selHead (run g) >>= exprTail (run g)) env s := by
      show (P.bind _ _) env s = (P.bind (P.bind _ _) _) env s
      unfold P.bind
      dsimp only
      cases run g (.binary .or) env s <;> rfl
    rw [h1]
    show (P.bind _ _) env s = _
    unfold P.bind
    rw [h5]
  · exact EvP.andThen (m := fun self => self (.binary .or)) (f := fun self e => self (.selLoop e)) (g := exprTail) (h4 _ (selLoop_stop hq)) hx

theorem b_selector {e : Expr} {ts te : List T} (h : DoneK env ns selHead (fun e self => self (.selLoop e)) (Is e) ts (cBin .or))
    (hes : ∀ acc, BadP env ns rest c p (fun self => self (.exprs .rc .selectorEntry acc)) te) :
    BadP env ns rest c p (fun self => self .expression) (ts ++ y .qmark :: y .selc :: te) := by
  intro s hf hn
  nf at hf
  obtain ⟨a, s1, h1, h2, h3, h4, -⟩ := expr_after (rest := rest) (c := c) (p := p) h hf hn rfl
  obtain ⟨s2, h5, h6, h7⟩ := Feeds.next h2
  obtain ⟨s3, h8, h9, h10⟩ := Feeds.next h7
  refine h4 (EvN.step ?_)
  show EvR env (fun self => selLoopBody self a) _ _
  unfold selLoopBody
  ev
  refine EvP.pos (sym_reads h2.reads).1 ?_
  unfold selectorsExpression
  refine EvF.bind (EvP.bind h5 ?_)
  ev
  refine EvP.pos (sym_reads h7.reads).1 ?_
  exact EvP.bind h8 (EvF.bind (hes [] s3 h10 (by rw [h9, h6, h3])))

theorem b_selectOne {e : Expr} {ts te : List T} (h : DoneK env ns selHead (fun e self => self (.selLoop e)) (Is e) ts (cBin .or))
    (hes : BadP env ns rest c p (fun self => selectorEntry self) te) (hne : hd (te ++ rest) ≠ .selc) :
    BadP env ns rest c p (fun self => self .expression) (ts ++ y .qmark :: te) := by
  intro s hf hn
  nf at hf
  obtain ⟨a, s1, h1, h2, h3, h4, -⟩ := expr_after (rest := rest) (c := c) (p := p) h hf hn rfl
  obtain ⟨s2, h5, h6, h7⟩ := Feeds.next h2
  refine h4 (EvN.step ?_)
  show EvR env (fun self => selLoopBody self a) _ _
  unfold selLoopBody
  ev
  refine EvP.pos (sym_reads h2.reads).1 ?_
  unfold selectorsExpression
  refine EvF.bind (EvP.bind h5 ?_)
  ev
  refine EvP.neg (h7.ne hne) (EvF.bind (hes s2 h7 (by rw [h6, h3])))

/-! ## Lists -/

theorem b_elem {k : Elem} {close : Tok} {ts : List T} (h : BadP env ns rest c p (fun self => produce self (producer k)) ts)
    (hc : isEnd close = true) (hne : hd (ts ++ rest) ≠ close) (acc : List Expr) :
    BadP env ns rest c p (fun self => self (.exprs close (producer k) acc)) ts := by
  intro s hf hn
  refine EvN.step ?_
  show EvR env (fun self => exprsBody self close (producer k) acc) _ _
  unfold exprsBody
  ev
  exact EvP.neg (hf.ne hne (isEnd_facts hc).2.2.2.1) (EvF.bind (h s hf hn))

theorem b_elems {k : Elem} {close : Tok} {e : Expr} {te ts : List T}
    (h : DoneP env ns (fun self => produce self (producer k)) (Is e) te (cElem k)) (ht : FirstTok opens te) (hc : isEnd close = true)
    (hes : ∀ acc, BadP env ns rest c p (fun self => self (.exprs close (producer k) acc)) ts) (acc : List Expr) :
    BadP env ns rest c p (fun self => self (.exprs close (producer k) acc)) (te ++ y .comma :: ts) := by
  intro s hf hn
  nf at hf
  obtain ⟨c1, c2, c3, c4, c5⟩ := isEnd_facts hc
  obtain ⟨a, s1, h1, h2, h3, h4⟩ := h _ s hf hn (closer_cElem (t := .comma) rfl nofun k)
  obtain ⟨s2, h5, h6, h7⟩ := Feeds.next h3
  refine EvN.step ?_
  show EvR env (fun self => exprsBody self close (producer k) acc) _ _
  unfold exprsBody
  ev
  refine EvP.neg (ht.ne hf (by simp [opens, c1])) (EvP.bind h1 ?_)
  ev
  exact EvP.neg (by simp [(sym_reads h3.reads).1]) (EvP.bind h5 (hes _ s2 h7 (by rw [h6, h4])))

theorem b_separator {k : Elem} {close : Tok} {e : Expr} {te : List T}
    (h : DoneP env ns (fun self => produce self (producer k)) (Is e) te (cElem k)) (ht : FirstTok opens te) (hc : isEnd close = true)
    (h1 : cElem k (hd rest) = false) (h2 : hd rest ≠ .comma) (h3 : hd rest ≠ close) (acc : List Expr) :
    BadP env ns rest .parseExpectedOneOfTokens .start (fun self => self (.exprs close (producer k) acc)) te := by
  intro s hf hn
  obtain ⟨c1, c2, c3, c4, c5⟩ := isEnd_facts hc
  obtain ⟨a, s1, a1, a2, a3, a4⟩ := h _ s hf hn h1
  refine EvN.step ?_
  show EvR env (fun self => exprsBody self close (producer k) acc) _ _
  unfold exprsBody
  ev
  refine EvP.neg (ht.ne hf (by simp [opens, c1])) (EvP.bind a1 ?_)
  ev
  exact EvP.pos (a3.ne h2) (EvP.pos (a3.ne h3 c4) (EvF.start a3))

/-! ## Elements -/

theorem b_key {ts : List T} (h : BadP env ns rest c p (fun self => self (.binary .rel)) ts) (hk : (keyOf (.word (hd (ts ++ rest)))).isSome = false) :
    BadP env ns rest c p (fun self => handleKeyword self) ts := by
  intro s hf hn
  unfold handleKeyword
  ev
  refine EvP.neg ?_ (h s hf hn)
  have := hf.test (q := fun t => (keyOf (.word t)).isSome) hk rfl
  revert this
  cases s.tok <;> decide

theorem b_arg {ts : List T} (h : BadP env ns rest c p (fun self => handleKeyword self) ts) : BadP env ns rest c p (fun self => argument self) ts := by
  intro s hf hn
  unfold argument
  exact EvF.bind (h s hf hn)

theorem b_argValue {k : Expr} {tk tv : List T} (hk : DoneP env ns (fun self => handleKeyword self) (Is k) tk (cBin .rel))
    (hv : BadP env ns rest c p (fun self => handleKeyword self) tv) : BadP env ns rest c p (fun self => argument self) (tk ++ y .farrow :: tv) := by
  intro s hf hn
  nf at hf
  obtain ⟨a, s1, h1, h2, h3, h4⟩ := hk _ s hf hn rfl
  obtain ⟨s2, h5, h6, h7⟩ := Feeds.next h3
  unfold argument
  refine EvP.bind h1 ?_
  ev
  exact EvP.pos (sym_reads h3.reads).1 (EvP.bind h5 (EvF.bind (hv s2 h7 (by rw [h6, h4]))))

theorem b_entry {ts : List T} (h : BadP env ns rest c p (fun self => handleKeyword self) ts) : BadP env ns rest c p (fun self => keyedEntry self) ts := by
  intro s hf hn
  unfold keyedEntry
  exact EvF.bind (h s hf hn)

theorem b_entryValue {k : Expr} {tk tv : List T} (hk : DoneP env ns (fun self => handleKeyword self) (Is k) tk (cBin .rel))
    (hv : BadP env ns rest c p (fun self => handleKeyword self) tv) : BadP env ns rest c p (fun self => keyedEntry self) (tk ++ y .farrow :: tv) := by
  intro s hf hn
  nf at hf
  obtain ⟨a, s1, h1, h2, h3, h4⟩ := hk _ s hf hn rfl
  obtain ⟨s2, h5, h6, h7⟩ := Feeds.next h3
  unfold keyedEntry
  refine EvP.bind h1 ?_
  ev
  exact EvP.neg (by simp [(sym_reads h3.reads).1]) (EvP.bind h5 (EvF.bind (hv s2 h7 (by rw [h6, h4]))))

theorem b_arrow {k : Expr} {tk : List T} (hk : DoneP env ns (fun self => handleKeyword self) (Is k) tk (cBin .rel))
    (h1 : cBin .rel (hd rest) = false) (h2 : hd rest ≠ .farrow) :
    BadP env ns rest .parseExpectedFarrowAfterKey .after (fun self => keyedEntry self) tk := by
  intro s hf hn
  obtain ⟨a, s1, a1, a2, a3, a4⟩ := hk _ s hf hn h1
  unfold keyedEntry
  refine EvP.bind a1 ?_
  ev
  exact EvP.pos (a3.ne h2) (EvF.after a3)

theorem b_selEntry {ts : List T} (h : BadP env ns rest c p (fun self => self .expression) ts) : BadP env ns rest c p (fun self => selectorEntry self) ts := by
  intro s hf hn
  unfold selectorEntry
  ev
  exact EvF.bind (h s hf hn)

theorem b_selEntryValue {k : Expr} {tk tv : List T} (hk : DoneP env ns (fun self => self .expression) (Is k) tk cExpr)
    (hv : BadP env ns rest c p (fun self => self .expression) tv) : BadP env ns rest c p (fun self => selectorEntry self) (tk ++ y .farrow :: tv) := by
  intro s hf hn
  nf at hf
  obtain ⟨a, s1, h1, h2, h3, h4⟩ := hk _ s hf hn rfl
  obtain ⟨s2, h5, h6, h7⟩ := Feeds.next h3
  unfold selectorEntry
  ev
  exact EvP.bind h1 (EvP.prim (assertToken_ok (sym_reads h3.reads).1) (EvP.bind h5 (EvF.bind (hv s2 h7 (by rw [h6, h4])))))

theorem b_selArrow {k : Expr} {tk : List T} (hk : DoneP env ns (fun self => self .expression) (Is k) tk cExpr)
    (h1 : cExpr (hd rest) = false) (h2 : hd rest ≠ .farrow) :
    BadP env ns rest .parseExpectedToken .start (fun self => selectorEntry self) tk := by
  intro s hf hn
  obtain ⟨a, s1, a1, a2, a3, a4⟩ := hk _ s hf hn h1
  unfold selectorEntry
  ev
  exact EvP.bind a1 (EvF.bind (EvF.assert a3 (a3.ne h2)))

end
end PP
