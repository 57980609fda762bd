import Verif.Lemmas.Gram4

/-! # Atoms, blocks, definitions -/
namespace PP
open PP.Spec
set_option linter.unusedSimpArgs false
set_option linter.unusedSectionVars false

section
variable [Ending] {env : Env} {ns : List GoStr}

/-- A block; the closing brace is left as the current token. -/
def DoneBlock (env : Env) (ns : List GoStr) (b : Expr) (ts : List T) : Prop :=
  ∀ rest s, Feeds env (ts ++ rest) s → s.names = ns →
    ∃ a s', EvP env (fun self => braces self) s a s' ∧ bare a = b ∧ Feeds env (y .rc :: rest) s' ∧ s'.names = ns

theorem g_lambda {ps : List Expr} {r : Option Expr} {b : Expr} {tp tr tb : List T} (hp : DoneMany env ns .param ps tp)
    (hr : DoneP env ns (fun self => optReturnType self) (IsO r) tr cRet) (hb : DoneBlock env ns b tb) (hbt : FirstTok (isTok .lc) tb) :
    DoneP env ns (fun self => lambda self) (Is (.lambda z ps b r)) (y .pipe :: (tp ++ y .pipeEnd :: (tr ++ tb))) (fun _ => false) := by
  intro rest s hf hn _
  nf at hf
  obtain ⟨s1, a1, a2, a3⟩ := Feeds.next hf
  obtain ⟨ps', s2, b1, b2, b3, b4⟩ := hp .pipeEnd rfl _ s1 a3 (by rw [a2, hn]) rfl
  obtain ⟨s3, c1, c2, c3⟩ := Feeds.next b3
  have hlc : hd (tb ++ rest) = .lc := by
    obtain ⟨t, r, rfl, h⟩ := hbt
    show t.tok = _
    simpa [isTok] using h
  obtain ⟨r', s4, d1, d2, d3, d4⟩ := hr _ s3 c3 (by rw [c2, b4]) (by rw [hlc]; rfl)
  obtain ⟨b', s5, e1, e2, e3, e4⟩ := hb rest s4 d3 d4
  obtain ⟨s6, f1, f2, f3⟩ := Feeds.next e3
  refine ⟨.lambda ⟨s.tsp, (s5.pos : Int) - s.tsp⟩ ps' b' r', s6, ?_, ?_, f3, by rw [f2, e4]⟩
  · unfold lambda lambdaParameterList
    ev
    refine EvP.bind (t := s2) (a := ps') (EvP.bind a1 (at_nil b1)) (EvP.bind c1 (EvP.bind d1 (EvP.bind e1 ?_)))
    ev
    refine EvP.bind f1 ?_
    ev
  · unfold Is; unfold IsO at d2; simp only [bare, b2, d2, e2]

def cParams (t : Tok) : Bool := t == .lp || t == .wslp

theorem g_noParams : DoneP env ns (fun self => optParameterList self) (IsL []) [] cParams := by
  intro rest s hf hn hr
  nf at hf
  simp only [cParams, Bool.or_eq_false_iff] at hr
  refine ⟨[], s, ?_, bareL_nil, hf, hn⟩
  unfold optParameterList
  ev
  refine EvP.neg ?_ EvP.ret
  rintro (h | h)
  · exact Feeds.ne (k := .lp) hf (by simpa using hr.1) nofun h
  · exact Feeds.ne (k := .wslp) hf (by simpa using hr.2) nofun h

theorem isParen_reads {t : T} {s : St} (h : isParen t = true) (hr : Reads t s) : s.tok = .lp ∨ s.tok = .wslp := by
  unfold isParen at h
  split at h
  · exact .inl hr.1
  · exact .inr hr.1
  · cases h

theorem g_params {ps : List Expr} {t : T} {tp : List T} (ht : isParen t = true) (hp : DoneMany env ns .param ps tp) :
    DoneP env ns (fun self => optParameterList self) (IsL ps) (t :: (tp ++ [y .rp])) cParams := by
  intro rest s hf hn _
  nf at hf
  obtain ⟨s1, a1, a2, a3⟩ := Feeds.next hf
  obtain ⟨ps', s2, b1, b2, b3, b4⟩ := hp .rp rfl _ s1 a3 (by rw [a2, hn]) rfl
  obtain ⟨s3, c1, c2, c3⟩ := Feeds.next b3
  refine ⟨ps', s3, ?_, b2, c3, by rw [c2, b4]⟩
  have h0 := isParen_reads ht hf.reads
  unfold optParameterList parameterList
  ev
  refine EvP.pos h0 ?_
  refine EvP.bind (t := s2) (a := ps') ?_ (EvP.bind c1 EvP.ret)
  ev
  exact EvP.pos h0 (EvP.bind a1 (at_nil b1))

/-! ## Atoms -/

theorem reads_word {k : Tok} {s : St} (h : Reads (.word k) s) : s.tok = k ∧ s.val = .str (spell k) := ⟨h.1, h.2.1⟩

theorem leafOf_bare {t : T} {e : Expr} (h : leafOf t = some e) (h1 : ∀ ps, t ≠ .interp ps) (h2 : ∀ sy x, t ≠ .heredoc sy x) : bare e = e := by
  unfold leafOf at h
  split at h <;> first | exact absurd rfl (h1 _) | exact absurd rfl (h2 _ _) | (cases h; simp only [bare]; done) | (cases h; simp only [bare]; rfl) | cases h

theorem g_leaf {t : T} {e : Expr} (h : leafOf t = some e) : DoneP env ns (fun self => self .atom) (Is e) [t] cAtom := by
  intro rest s hf hn _
  obtain ⟨s1, a1, a2, a3⟩ := Feeds.next hf
  have hr := hf.reads
  by_cases hv : ∃ v, t = .var v
  · obtain ⟨v, rfl⟩ := hv
    cases h
    refine ⟨.un ⟨s.tsp, (s1.pos : Int) - s.tsp⟩ .variable (.qname ⟨s.tsp + 1, v.length⟩ v), s1, EvN.step ?_, by unfold Is; simp only [bare], a3, by rw [a2, hn]⟩
    show EvP env (fun self => atomBody self) _ _ _
    unfold atomBody
    ev
    rw [hr.1, hr.2]
    dsimp only
    refine EvP.bind a1 ?_
    ev
  by_cases hi : ∃ ps, t = .interp ps
  · obtain ⟨ps, rfl⟩ := hi
    cases h
    obtain ⟨r1, p, ps', r2, r3⟩ := hr
    refine ⟨_, s1, EvN.step (EvP.congr (m' := fun self => leaf self (.concat p ps')) (EvP.bind a1 EvP.ret) fun self => ?_),
      by unfold Is; simp only [bare, r3], a3, by rw [a2, hn]⟩
    show atomBody self env s = _
    unfold atomBody
    ex
    rw [r1, r2]
  by_cases hh : ∃ sy x, t = .heredoc sy x
  · obtain ⟨sy, x, rfl⟩ := hh
    cases h
    obtain ⟨r1, p, x', r2, r3⟩ := hr
    refine ⟨_, s1, EvN.step (EvP.congr (m' := fun self => leaf self (.heredoc p sy x')) (EvP.bind a1 EvP.ret) fun self => ?_),
      by unfold Is; simp only [bare, r3], a3, by rw [a2, hn]⟩
    show atomBody self env s = _
    unfold atomBody
    ex
    rw [r1, r2]
  · refine ⟨e.setPos ⟨s.tsp, (s.pos : Int) - s.tsp⟩, s1, EvN.step (EvP.congr
      (m' := fun self => leaf self (e.setPos ⟨s.tsp, (s.pos : Int) - s.tsp⟩)) (EvP.bind a1 EvP.ret) fun self => ?_),
      (bare_setPos _ _).trans (leafOf_bare h (fun ps h => hi ⟨ps, h⟩) (fun sy x h => hh ⟨sy, x, h⟩)), a3, by rw [a2, hn]⟩
    show atomBody self env s = _
    unfold atomBody
    ex
    unfold leafOf at h
    split at h
    · cases h; rw [hr.1, hr.2.1]; rw [hr.2.2]; rfl
    · cases h; rw [hr.1, hr.2]; rfl
    · cases h; rw [hr.1]; exact bind_ok (tokenString_str hr.2)
    · exact absurd ⟨_, rfl⟩ hi
    · exact absurd ⟨_, _, rfl⟩ hh
    · cases h; rw [hr.1, hr.2]; rfl
    · cases h; rw [hr.1]; rfl
    · cases h; rw [hr.1]; exact bind_ok (tokenString_str hr.2)
    · exact absurd ⟨_, rfl⟩ hv
    · cases h; rw [hr.1]; exact bind_ok (tokenString_str hr.2)
    · cases h; rw [hr.1]; exact bind_ok (tokenString_str hr.2)
    · cases h; rw [hr.1]; exact bind_ok (tokenString_str hr.2)
    · cases h; rw [hr.1]; exact bind_ok (tokenString_str hr.2)
    · cases h; rw [hr.1]; rfl
    · cases h; rw [hr.1]; exact bind_ok (tokenString_str hr.2.1)
    · cases h; rw [hr.1]; exact bind_ok (tokenString_str hr.2.1)
    · cases h

theorem g_paren {e : Expr} {t : T} {ts : List T} (ht : isParen t = true)
    (h : DoneP env ns (fun self => self (.binary .rel)) (Is e) ts (cBin .rel)) :
    DoneP env ns (fun self => self .atom) (Is (.un z .paren e)) (t :: (ts ++ [y .rp])) cAtom := by
  intro rest s hf hn _
  nf at hf
  obtain ⟨s1, a1, a2, a3⟩ := Feeds.next hf
  obtain ⟨e', s2, b1, b2, b3, b4⟩ := h _ s1 a3 (by rw [a2, hn]) rfl
  obtain ⟨s3, c1, c2, c3⟩ := Feeds.next b3
  unfold Is at b2
  refine ⟨.un ⟨s.tsp, (s2.pos : Int) - s.tsp⟩ .paren e', s3, EvN.step ?_, by unfold Is; simp only [bare, b2], c3, by rw [c2, b4]⟩
  show EvP env (fun self => atomBody self) _ _ _
  unfold atomBody
  ev
  have key : EvP env (fun self => do
      nextTok self
      let e ← relationship self
      let p ← here s.tsp
      assertToken .rp
      nextTok self
      pure (Expr.un p .paren e)) s (.un ⟨s.tsp, (s2.pos : Int) - s.tsp⟩ .paren e') s3 := by
    refine EvP.bind a1 (EvP.bind b1 ?_)
    ev
    refine EvP.prim (assertToken_ok (sym_reads b3.reads).1) (EvP.bind c1 ?_)
    ev
  rcases isParen_reads ht hf.reads with h0 | h0 <;> rw [h0] <;> exact key

theorem isBracket_reads {t : T} {s : St} (h : isBracket t = true) (hr : Reads t s) : s.tok = .lb ∨ s.tok = .listStart := by
  unfold isBracket at h
  split at h
  · exact .inl hr.1
  · exact hr.1.symm
  · cases h

theorem g_list {es : List Expr} {t : T} {ts : List T} (ht : isBracket t = true) (h : DoneMany env ns .arg es ts) :
    DoneP env ns (fun self => self .atom) (Is (.list z (gather es))) (t :: (ts ++ [y .rb])) cAtom := by
  intro rest s hf hn _
  nf at hf
  obtain ⟨s1, a1, a2, a3⟩ := Feeds.next hf
  obtain ⟨es', s2, b1, b2, b3, b4⟩ := h .rb rfl _ s1 a3 (by rw [a2, hn]) rfl
  obtain ⟨s3, c1, c2, c3⟩ := Feeds.next b3
  refine ⟨.list ⟨s.tsp, (s2.pos : Int) - s.tsp⟩ (joinHashEntries es'), s3, EvN.step ?_, by unfold Is; simp only [bare, bareL_join, b2], c3, by rw [c2, b4]⟩
  show EvP env (fun self => atomBody self) _ _ _
  unfold atomBody
  ev
  have key : EvP env (fun self => do
      nextTok self
      let es ← arrayExpression self
      let p ← here s.tsp
      nextTok self
      pure (Expr.list p es)) s (.list ⟨s.tsp, (s2.pos : Int) - s.tsp⟩ (joinHashEntries es')) s3 := by
    unfold arrayExpression
    refine EvP.bind a1 (EvP.bind (t := s2) (a := joinHashEntries es') (EvP.bind (at_nil b1) EvP.ret) ?_)
    ev
    refine EvP.bind c1 ?_
    ev
  rcases isBracket_reads ht hf.reads with h0 | h0 <;> rw [h0] <;> exact key

theorem g_hash {es : List Expr} {ts : List T} (h : DoneMany env ns .entry es ts) :
    DoneP env ns (fun self => self .atom) (Is (.hash z es)) (y .lc :: (ts ++ [y .rc])) cAtom := by
  intro rest s hf hn _
  nf at hf
  obtain ⟨s1, a1, a2, a3⟩ := Feeds.next hf
  obtain ⟨es', s2, b1, b2, b3, b4⟩ := h .rc rfl _ s1 a3 (by rw [a2, hn]) rfl
  obtain ⟨s3, c1, c2, c3⟩ := Feeds.next b3
  refine ⟨.hash ⟨s.tsp, (s2.pos : Int) - s.tsp⟩ es', s3, EvN.step ?_, by unfold Is; simp only [bare, b2], c3, by rw [c2, b4]⟩
  show EvP env (fun self => atomBody self) _ _ _
  unfold atomBody
  ev
  rw [(sym_reads hf.reads).1]
  dsimp only
  refine EvP.bind a1 (EvP.bind (at_nil b1) ?_)
  ev
  refine EvP.bind c1 ?_
  ev

/-! ## Conditionals -/

def DoneIf (env : Env) (ns : List GoStr) (u : Bool) (e : Expr) (ts : List T) : Prop :=
  ∀ t0 rest s, Feeds env (t0 :: (ts ++ rest)) s → s.names = ns → cAtom (hd rest) = false →
    ∃ e' s', EvN env (.ifExpr u) s e' s' ∧ bare e' = e ∧ Feeds env rest s' ∧ s'.names = ns

def DoneElse (env : Env) (ns : List GoStr) (u : Bool) (e : Expr) (ts : List T) : Prop :=
  ∀ rest s, Feeds env (ts ++ rest) s → s.names = ns → cAtom (hd rest) = false →
    ∃ e' s', bare e' = e ∧ Feeds env rest s' ∧ s'.names = ns ∧
      ((s.tok = .kElse ∧ ∃ s1 s2, EvN env .nextToken s () s1 ∧ EvP env (fun self => braces self) s1 e' s2 ∧ EvN env .nextToken s2 () s') ∨
       (s.tok = .kElsif ∧ u = false ∧ EvN env (.ifExpr false) s e' s') ∨
       (cAtom s.tok = false ∧ e' = .nop ⟨s.tsp, 0⟩ ∧ s' = s))

theorem g_noElse {u : Bool} : DoneElse env ns u (.nop z) [] := by
  intro rest s hf hn hr
  nf at hf
  exact ⟨.nop ⟨s.tsp, 0⟩, s, by simp only [bare], hf, hn, .inr (.inr ⟨hf.test hr rfl, rfl, rfl⟩)⟩

theorem g_else {u : Bool} {b : Expr} {tb : List T} (h : DoneBlock env ns b tb) : DoneElse env ns u b (w .kElse :: tb) := by
  intro rest s hf hn hr
  nf at hf
  obtain ⟨s1, a1, a2, a3⟩ := Feeds.next hf
  obtain ⟨e', s2, b1, b2, b3, b4⟩ := h rest s1 a3 (by rw [a2, hn])
  obtain ⟨s3, c1, c2, c3⟩ := Feeds.next b3
  exact ⟨e', s3, b2, c3, by rw [c2, b4], .inl ⟨hf.reads.1, s1, s2, a1, b1, c1⟩⟩

theorem g_elsif {e : Expr} {te : List T} (h : DoneIf env ns false e te) : DoneElse env ns false e (w .kElsif :: te) := by
  intro rest s hf hn hr
  nf at hf
  obtain ⟨e', s2, b1, b2, b3, b4⟩ := h _ rest s hf hn hr
  exact ⟨e', s2, b2, b3, b4, .inr (.inl ⟨hf.reads.1, rfl, b1⟩)⟩

theorem g_ifRest {u : Bool} {c b e : Expr} {tc tb te : List T} (hc : DoneP env ns (fun self => self (.binary .or)) (Is c) tc (cBin .or))
    (hb : DoneBlock env ns b tb) (hbt : FirstTok (isTok .lc) tb) (he : DoneElse env ns u e te) :
    DoneIf env ns u (.ifE z u c b e) (tc ++ (tb ++ te)) := by
  intro t0 rest s hf hn hr
  nf at hf
  obtain ⟨s1, a1, a2, a3⟩ := Feeds.next hf
  have hlc : hd (tb ++ (te ++ rest)) = .lc := by
    obtain ⟨t, r, rfl, h⟩ := hbt
    show t.tok = _
    simpa [isTok] using h
  obtain ⟨c', s2, b1, b2, b3, b4⟩ := hc _ s1 a3 (by rw [a2, hn]) (by rw [hlc]; rfl)
  obtain ⟨b', s3, c1, c2, c3, c4⟩ := hb _ s2 b3 b4
  obtain ⟨s4, d1, d2, d3⟩ := Feeds.next c3
  obtain ⟨e', s5, e1, e2, e3, e4⟩ := he rest s4 d3 (by rw [d2, c4]) hr
  unfold Is at b2
  refine ⟨.ifE ⟨s.tsp, (s5.pos : Int) - s.tsp⟩ u c' b' e', s5, EvN.step ?_, by simp only [bare, b2, c2, e1], e2, e3⟩
  show EvP env (fun self => ifBody self u) _ _ _
  unfold ifBody
  ev
  refine EvP.bind a1 (EvP.bind b1 (EvP.bind c1 (EvP.bind d1 ?_)))
  ev
  dsimp only
  rcases e4 with ⟨f1, s6, s7, f2, f3, f4⟩ | ⟨f1, rfl, f2⟩ | ⟨f1, rfl, rfl⟩
  · rw [f1]
    dsimp only
    refine EvP.bind f2 (EvP.bind f3 (EvP.bind f4 ?_))
    ev
  · rw [f1]
    dsimp only
    refine EvP.neg (by simp) (EvP.bind f2 ?_)
    ev
  · revert f1
    cases s5.tok <;> intro f1 <;> first
      | contradiction
      | (dsimp only; ev)

theorem g_if {e : Expr} {ts : List T} (h : DoneIf env ns false e ts) : DoneP env ns (fun self => self .atom) (Is e) (w .kIf :: ts) cAtom := by
  intro rest s hf hn hr
  nf at hf
  obtain ⟨e', s1, a1, a2, a3, a4⟩ := h _ rest s hf hn hr
  refine ⟨e', s1, EvN.step ?_, a2, a3, a4⟩
  show EvP env (fun self => atomBody self) _ _ _
  unfold atomBody
  ev
  rw [hf.reads.1]
  exact a1

theorem g_unless {e : Expr} {ts : List T} (h : DoneIf env ns true e ts) : DoneP env ns (fun self => self .atom) (Is e) (w .kUnless :: ts) cAtom := by
  intro rest s hf hn hr
  nf at hf
  obtain ⟨e', s1, a1, a2, a3, a4⟩ := h _ rest s hf hn hr
  refine ⟨e', s1, EvN.step ?_, a2, a3, a4⟩
  show EvP env (fun self => atomBody self) _ _ _
  unfold atomBody
  ev
  rw [hf.reads.1]
  exact a1

/-! ## Case -/

def notRcOnly (t : Tok) : Bool := t != .rc

theorem caseOption_of {vs : List Expr} {b : Expr} {tv tb rest : List T} {s : St} (hv : DoneMany env ns .value vs tv) (hb : DoneBlock env ns b tb)
    (hf : Feeds env (tv ++ y .colon :: (tb ++ rest)) s) (hn : s.names = ns) :
    ∃ o s', EvP env (fun self => caseOption self) s o s' ∧ bare o = .caseOption z vs b ∧ Feeds env rest s' ∧ s'.names = ns := by
  obtain ⟨vs', s1, a1, a2, a3, a4⟩ := hv .colon rfl _ s hf hn rfl
  obtain ⟨s2, b1, b2, b3⟩ := Feeds.next a3
  obtain ⟨b', s3, c1, c2, c3, c4⟩ := hb rest s2 b3 (by rw [b2, a4])
  obtain ⟨s4, d1, d2, d3⟩ := Feeds.next c3
  refine ⟨.caseOption ⟨s.tsp, (s4.pos : Int) - s.tsp⟩ vs' b', s4, ?_, by simp only [bare, a2, c2], d3, by rw [d2, c4]⟩
  unfold caseOption
  ev
  refine EvP.bind (at_nil a1) (EvP.bind b1 (EvP.bind c1 (EvP.bind d1 ?_)))
  ev

theorem g_option {vs : List Expr} {b : Expr} {tv tb : List T} (hv : DoneMany env ns .value vs tv) (hb : DoneBlock env ns b tb) :
    DoneL env ns (fun acc self => self (.caseOptions acc)) [.caseOption z vs b] (tv ++ y .colon :: tb) notRcOnly := by
  intro rest s hf hn hr
  nf at hf
  obtain ⟨o, s1, a1, a2, a3, a4⟩ := caseOption_of hv hb hf hn
  have hr' : hd rest = .rc := by simpa [notRcOnly] using hr
  refine ⟨[o], s1, fun acc => EvN.step ?_, by simp only [bareL_cons, bareL_nil, a2], a3, a4⟩
  show EvP env (fun self => caseOptionsBody self acc) _ _ _
  unfold caseOptionsBody
  refine EvP.bind a1 ?_
  ev
  refine EvP.pos ?_ EvP.ret
  rw [a3.tok_eq (by rw [hr']; nofun), hr']

theorem g_options {vs os : List Expr} {b : Expr} {tv tb to : List T} (hv : DoneMany env ns .value vs tv) (hb : DoneBlock env ns b tb)
    (ho : DoneL env ns (fun acc self => self (.caseOptions acc)) os to notRcOnly) (ht : FirstTok notRc to) :
    DoneL env ns (fun acc self => self (.caseOptions acc)) (.caseOption z vs b :: os) (tv ++ y .colon :: (tb ++ to)) notRcOnly := by
  intro rest s hf hn hr
  nf at hf
  obtain ⟨o, s1, a1, a2, a3, a4⟩ := caseOption_of hv hb hf hn
  obtain ⟨os', s2, b1, b2, b3, b4⟩ := ho rest s1 a3 a4 hr
  refine ⟨o :: os', s2, fun acc => EvN.step ?_, by simp only [bareL_cons, a2, b2], b3, b4⟩
  show EvP env (fun self => caseOptionsBody self acc) _ _ _
  unfold caseOptionsBody
  refine EvP.bind a1 ?_
  ev
  refine EvP.neg (ht.ne a3 rfl) ?_
  have := b1 (acc ++ [o])
  rw [List.append_assoc] at this
  exact this

theorem g_case {e : Expr} {os : List Expr} {te to : List T} (he : DoneP env ns (fun self => self .expression) (Is e) te cExpr)
    (ho : DoneL env ns (fun acc self => self (.caseOptions acc)) os to notRcOnly) :
    DoneP env ns (fun self => self .atom) (Is (.caseE z e os)) (w .kCase :: (te ++ y .lc :: (to ++ [y .rc]))) cAtom := by
  intro rest s hf hn _
  nf at hf
  obtain ⟨s1, a1, a2, a3⟩ := Feeds.next hf
  obtain ⟨e', s2, b1, b2, b3, b4⟩ := he _ s1 a3 (by rw [a2, hn]) rfl
  obtain ⟨s3, c1, c2, c3⟩ := Feeds.next b3
  obtain ⟨os', s4, d1, d2, d3, d4⟩ := ho _ s3 c3 (by rw [c2, b4]) rfl
  obtain ⟨s5, e1, e2, e3⟩ := Feeds.next d3
  unfold Is at b2
  refine ⟨.caseE ⟨s.tsp, (s4.pos : Int) - s.tsp⟩ e' os', s5, EvN.step ?_, by unfold Is; simp only [bare, b2, d2], e3, by rw [e2, d4]⟩
  show EvP env (fun self => atomBody self) _ _ _
  unfold atomBody
  ev
  rw [hf.reads.1]
  dsimp only
  unfold caseExpression
  ev
  refine EvP.bind a1 (EvP.bind b1 (EvP.prim (assertToken_ok (sym_reads b3.reads).1) (EvP.bind c1 (EvP.bind (at_nil d1) ?_))))
  ev
  refine EvP.bind e1 ?_
  ev

end
end PP
