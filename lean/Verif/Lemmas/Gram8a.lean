import Verif.Lemmas.Gram8

/-! # Type definitions -/
namespace PP
open PP.Spec
set_option linter.unusedSimpArgs false
set_option linter.unusedSectionVars false

section
variable [Ending] {env : Env} {ns : List GoStr}

/-! ### Type aliases -/

theorem typeAlias_of {e : Expr} {te rest : List T} {s : St} (he : DoneP env ns (fun self => self .expression) (Is e) te cExpr)
    (hf : Feeds env (te ++ rest) s) (hn : s.names = ns) (hr : cExpr (hd rest) = false) (hlc : hd rest ≠ .lc) :
    ∃ e' s', EvP env (fun self => typeAliasBody self) s e' s' ∧ bare e' = aliased e ∧ Feeds env rest s' ∧ s'.names = ns := by
  obtain ⟨e', s1, a1, a2, a3, a4⟩ := he _ s hf hn hr
  unfold Is at a2
  subst a2
  have hl : s1.tok ≠ .lc := a3.ne hlc
  cases e' with
  | qref p n d =>
    refine ⟨.qref p n d, s1, ?_, by simp only [bare, aliased], a3, a4⟩
    unfold typeAliasBody
    ev
    refine EvP.bind a1 ?_
    dsimp only
    ev
    exact EvP.neg hl EvP.ret
  | list p es =>
    match es with
    | [e1] =>
      refine ⟨.access ⟨s.tsp, (s1.pos : Int) - s.tsp⟩ (objectRef s.tsp) [e1], s1, ?_, by simp only [bare, aliased, bareL_cons, bareL_nil, objectRef, object], a3, a4⟩
      unfold typeAliasBody
      ev
      refine EvP.bind a1 ?_
      dsimp only
      ev
    | [] =>
      refine ⟨.list p [], s1, ?_, by simp only [bare, aliased, bareL_cons, bareL_nil], a3, a4⟩
      unfold typeAliasBody
      ev
      refine EvP.bind a1 ?_
      dsimp only
      ev
    | e1 :: e2 :: es =>
      refine ⟨.list p (e1 :: e2 :: es), s1, ?_, by simp only [bare, aliased, bareL_cons], a3, a4⟩
      unfold typeAliasBody
      ev
      refine EvP.bind a1 ?_
      dsimp only
      ev
  | hash p es =>
    refine ⟨.access ⟨s.tsp, (s1.pos : Int) - s.tsp⟩ (objectRef s.tsp) [.hash p es], s1, ?_, by simp only [bare, aliased, bareL_cons, bareL_nil, objectRef, object], a3, a4⟩
    unfold typeAliasBody
    ev
    refine EvP.bind a1 ?_
    dsimp only
    ev
  | _ =>
    refine ⟨?_, s1, ?_, ?_, a3, a4⟩
    rotate_left
    · unfold typeAliasBody
      ev
      refine EvP.bind a1 ?_
      dsimp only
      exact EvP.ret
    · simp only [bare, aliased]

theorem extends_of {p : GoStr} {es : List Expr} {te rest : List T} {s : St} (he : DoneMany env ns .entry es te)
    (hf : Feeds env (.type p :: y .lc :: (te ++ y .rc :: rest)) s) (hn : s.names = ns) (hr : cExpr (hd rest) = false) :
    ∃ e' s', EvP env (fun self => typeAliasBody self) s e' s' ∧ bare e' = extended p es ∧ Feeds env rest s' ∧ s'.names = ns := by
  obtain ⟨q, s1, a1, a2, a3⟩ : ∃ q s1, EvN env .expression s (.qref q p (toLowerAscii p)) s1 ∧ Feeds env (y .lc :: (te ++ y .rc :: rest)) s1 ∧ s1.names = ns := by
    obtain ⟨e, s1, h1, h2, h3, h4⟩ := g_leaf (env := env) (ns := ns) (t := .type p) rfl (y .lc :: (te ++ y .rc :: rest)) s hf hn rfl
    unfold Is at h2
    obtain ⟨q, rfl⟩ : ∃ q, e = .qref q p (toLowerAscii p) := by
      cases e <;> simp only [bare] at h2 <;> first | (cases h2; exact ⟨_, rfl⟩) | contradiction
    have ht := (sym_reads h3.reads).1
    exact ⟨q, s1, expression_of_primary (EvN.step (EvP.bind h1 (primLoop_stop rfl (by rw [ht]; rfl)))) (by rw [hf.reads.1]; rfl) (by rw [ht]; rfl), h3, h4⟩
  obtain ⟨hp, es', s2, b1, b2, b3, b4⟩ : ∃ hp es' s2, EvN env .expression s1 (.hash hp es') s2 ∧ bareL es' = es ∧ Feeds env rest s2 ∧ s2.names = ns := by
    obtain ⟨e, s2, h1, h2, h3, h4⟩ := g_hash he rest s1 (by simp only [List.append_assoc, List.cons_append, List.nil_append]; exact a2) a3 (by
      have : ∀ t, cExpr t = false → cAtom t = false := by intro t; cases t <;> intro h <;> first | rfl | cases h
      exact this _ hr)
    unfold Is at h2
    obtain ⟨q, es', rfl, h5⟩ : ∃ q es', e = .hash q es' ∧ bareL es' = es := by
      cases e <;> simp only [bare] at h2 <;> first | (cases h2; exact ⟨_, _, rfl, rfl⟩) | contradiction
    have ht : cExpr s2.tok = false := h3.test hr rfl
    have hp : cPrim s2.tok = false := by
      revert ht; cases s2.tok <;> intro h <;> first | rfl | cases h
    exact ⟨q, es', s2, expression_of_primary (EvN.step (EvP.bind h1 (primLoop_stop rfl hp))) (by rw [(sym_reads a2.reads).1]; rfl) ht, h5, h3, h4⟩
  by_cases hc : p = b!"Object" ∨ p = b!"TypeSet"
  · refine ⟨.access ⟨s.tsp, (s2.pos : Int) - s.tsp⟩ (.qref q p (toLowerAscii p)) [.hash hp es'], s2, ?_, ?_, b3, b4⟩
    · unfold typeAliasBody
      ev
      refine EvP.bind a1 ?_
      dsimp only
      ev
      refine EvP.pos (sym_reads a2.reads).1 (EvP.bind b1 ?_)
      dsimp only
      ev
      exact EvP.pos hc EvP.ret
    · simp only [extended, if_pos hc, bare, bareL_cons, bareL_nil, b2]
  · refine ⟨.access ⟨s.tsp, (s2.pos : Int) - s.tsp⟩ (objectRef s.tsp) [.hash ⟨s.tsp, (s2.pos : Int) - s.tsp⟩
      (.keyedEntry q (.string q b!"parent") (.qref q p (toLowerAscii p)) :: es')], s2, ?_, ?_, b3, b4⟩
    · unfold typeAliasBody
      ev
      refine EvP.bind a1 ?_
      dsimp only
      ev
      refine EvP.pos (sym_reads a2.reads).1 (EvP.bind b1 ?_)
      dsimp only
      ev
      refine EvP.neg hc ?_
      ev
    · simp only [extended, if_neg hc, bare, bareL_cons, bareL_nil, b2, objectRef, object]

/-- A definition that starts with `type Name`, from what follows the name. -/
theorem typeDef_of {n : GoStr} {te rest : List T} {s : St} (hf : Feeds env (w .kType :: .type n :: (te ++ rest)) s) (hn : s.names = ns)
    (ht2 : cPrim (hd (te ++ rest)) = false) {x : Expr} 
    (h : ∀ s1 s2 : St, ∀ p, Feeds env (te ++ rest) s2 → s2.names = ns → EvP env (fun self => parameterType self) s1 (.qref p n (toLowerAscii n)) s2 →
      ∃ e s', EvP env (fun self => typeAliasOrDefinition self) s1 e s' ∧ bare e = x ∧ Feeds env rest s' ∧ s'.names = ns) :
    ∃ e s', EvN env .atom s e s' ∧ Is x e ∧ Feeds env rest s' ∧ s'.names = ns := by
  obtain ⟨s1, a1, a2, a3⟩ := Feeds.next hf
  obtain ⟨te', s2, b1, b2, b3, b4⟩ := g_typ (ns := ns) (n := n) (te ++ rest) s1 a3 (by rw [a2, hn]) ht2
  unfold Is at b2
  obtain ⟨p', hp'⟩ : ∃ p', te' = .qref p' n (toLowerAscii n) := by
    cases te' <;> simp only [bare] at b2 <;> first | (cases b2; exact ⟨_, rfl⟩) | contradiction
  subst hp'
  obtain ⟨e, s3, c1, c2, c3, c4⟩ := h s1 s2 p' b3 b4 b1
  refine ⟨e, s3, EvN.step ?_, c2, c3, c4⟩
  show EvP env (fun self => atomBody self) _ _ _
  unfold atomBody
  ev
  rw [hf.reads.1]
  dsimp only
  refine EvP.prim (tokenString_str hf.reads.2.1) (EvP.bind a1 ?_)
  ev
  exact EvP.pos a3.reads.1 c1

/-- What the parser does with a type definition. -/
def DoneType (env : Env) (ns : List GoStr) (e : Expr) (ts : List T) : Prop := DoneP env ns (fun self => self .atom) (Is e) ts cRes

theorem alias_of {n : GoStr} {te rest : List T} {s : St} {x : Expr} (hf : Feeds env (w .kType :: .type n :: y .assign :: (te ++ rest)) s) (hn : s.names = ns)
    (h : ∀ s1, Feeds env (te ++ rest) s1 → s1.names = ns →
      ∃ e' s', EvP env (fun self => typeAliasBody self) s1 e' s' ∧ bare e' = x ∧ Feeds env rest s' ∧ s'.names = ns) :
    ∃ e s', EvN env .atom s e s' ∧ Is (.typeAlias z n x) e ∧ Feeds env rest s' ∧ s'.names = ns := by
  refine typeDef_of (te := y .assign :: te) hf hn rfl fun s1 s2 p h1 h2 h3 => ?_
  obtain ⟨s3, c1, c2, c3⟩ := Feeds.next h1
  obtain ⟨e', s4, d1, d2, d3, d4⟩ := h s3 c3 (by rw [c2, h2])
  refine ⟨.typeAlias ⟨s1.tsp, (s4.pos : Int) - s1.tsp⟩ n e', _, ?_, by simp only [bare, d2], d3.with s4.names (s4.defs ++ [.typeAlias ⟨s1.tsp, (s4.pos : Int) - s1.tsp⟩ n e']), d4⟩
  unfold typeAliasOrDefinition
  ev
  refine EvP.bind h3 ?_
  ev
  dsimp only
  refine EvP.pos (sym_reads h1.reads).1 (EvP.bind c1 (EvP.bind d1 ?_))
  ev
  unfold addDefinition
  ev

theorem g_typeAlias {n : GoStr} {e : Expr} {te : List T} (he : DoneP env ns (fun self => self .expression) (Is e) te cExpr) :
    DoneType env ns (.typeAlias z n (aliased e)) (w .kType :: .type n :: y .assign :: te) := by
  intro rest s hf hn hr
  nf at hf
  simp only [cRes, Bool.or_eq_false_iff, beq_eq_false_iff_ne] at hr
  exact alias_of hf hn fun s1 h1 h2 => typeAlias_of he h1 h2 hr.1 hr.2

theorem g_typeExtends {n p : GoStr} {es : List Expr} {te : List T} (he : DoneMany env ns .entry es te) :
    DoneType env ns (.typeAlias z n (extended p es)) (w .kType :: .type n :: y .assign :: .type p :: y .lc :: (te ++ [y .rc])) := by
  intro rest s hf hn hr
  simp only [cRes, Bool.or_eq_false_iff, beq_eq_false_iff_ne] at hr
  exact alias_of (te := .type p :: y .lc :: (te ++ [y .rc])) hf hn fun s1 h1 h2 => by
    nf at h1
    exact extends_of he h1 h2 hr.1

theorem typeBody_of {b : Expr} {tb rest : List T} {s : St} (hb : DoneBlock env ns b tb) (hbt : FirstTok (isTok .lc) tb) (hf : Feeds env (tb ++ rest) s)
    (hn : s.names = ns) (start : Nat) (n p : GoStr) :
    ∃ e s', EvP env (fun self => typeDefinitionBody self start n p) s e s' ∧ bare e = .typeDefinition z n p b ∧ Feeds env rest s' ∧ s'.names = ns := by
  have ht : s.tok = .lc := by
    have := hbt.tok hf rfl
    simpa [isTok] using this
  obtain ⟨b', s1, a1, a2, a3, a4⟩ := hb rest s hf hn
  obtain ⟨s2, c1, c2, c3⟩ := Feeds.next a3
  let x : Expr := .typeDefinition ⟨start, (s2.pos : Int) - start⟩ n p b'
  have hb' : EvP env (fun self => nextTok self >>= fun _ => parseBlock self .rc) s b' s1 := by
    refine EvP.congr a1 fun self => ?_
    unfold braces
    rw [bind_ok (assertToken_ok ht)]
  refine ⟨x, { s2 with defs := s2.defs ++ [x] }, ?_, by simp only [x, bare, a2], c3.with s2.names _, by rw [← a4, ← c2]⟩
  unfold typeDefinitionBody
  refine EvP.andThen (m := fun self => nextTok self) (f := fun self _ => parseBlock self .rc) hb' ?_
  refine EvP.bind c1 ?_
  ev
  unfold addDefinition
  ev

theorem g_typeDefinition {n : GoStr} {b : Expr} {tb : List T} (hb : DoneBlock env ns b tb) (hbt : FirstTok (isTok .lc) tb) :
    DoneType env ns (.typeDefinition z n [] b) (w .kType :: .type n :: tb) := by
  intro rest s hf hn hr
  have hh : hd (tb ++ rest) = .lc := hd_of_lc hbt
  refine typeDef_of hf hn (by rw [hh]; rfl) fun s1 s2 p h1 h2 h3 => ?_
  have ht : s2.tok = .lc := by rw [h1.tok_eq (by rw [hh]; nofun), hh]
  obtain ⟨e, s3, c1, c2, c3, c4⟩ := typeBody_of hb hbt h1 h2 s1.tsp n []
  refine ⟨e, s3, ?_, c2, c3, c4⟩
  unfold typeAliasOrDefinition
  ev
  refine EvP.bind h3 ?_
  ev
  dsimp only
  exact EvP.neg (by rw [ht]; nofun) (EvP.neg (by rw [ht]; nofun) (EvP.pos ht c1))

theorem g_typeInherits {n p : GoStr} {b : Expr} {tb : List T} (hb : DoneBlock env ns b tb) (hbt : FirstTok (isTok .lc) tb) :
    DoneType env ns (.typeDefinition z n p b) (w .kType :: .type n :: w .kInherits :: .type p :: tb) := by
  intro rest s hf hn hr
  refine typeDef_of (te := w .kInherits :: .type p :: tb) hf hn rfl fun s1 s2 q h1 h2 h3 => ?_
  have ht : s2.tok = .kInherits := h1.reads.1
  obtain ⟨s3, a1, a2, a3⟩ := Feeds.next h1
  obtain ⟨pp, s4, b1, b2, b3⟩ := typeName_of (n := p) a3
  have hh : hd (tb ++ rest) = .lc := hd_of_lc hbt
  have ht2 : s4.tok = .lc := by rw [Feeds.tok_eq (ts := tb ++ rest) b2 (by rw [hh]; nofun), hh]
  obtain ⟨e, s5, c1, c2, c3, c4⟩ := typeBody_of hb hbt b2 (by rw [b3, a2, h2]) s1.tsp n p
  refine ⟨e, s5, ?_, c2, c3, c4⟩
  unfold typeAliasOrDefinition
  ev
  refine EvP.bind h3 ?_
  ev
  dsimp only
  refine EvP.neg (by rw [ht]; nofun) (EvP.pos ht (EvP.bind a1 (EvP.bind b1 ?_)))
  dsimp only
  exact EvP.prim (assertToken_ok ht2) c1

theorem g_typeMapping {n : GoStr} {es : List Expr} {e : Expr} {te tm : List T} (hes : DoneMany env ns .arg es te)
    (he : DoneP env ns (fun self => self .expression) (Is e) tm cExpr) :
    DoneType env ns (.typeMapping z (.access z (.qref z n (toLowerAscii n)) (gather es)) e)
      (w .kType :: .type n :: y .lb :: (te ++ y .rb :: y .assign :: tm)) := by
  intro rest s hf hn hr
  nf at hf
  simp only [cRes, Bool.or_eq_false_iff] at hr
  obtain ⟨s1, a1, a2, a3⟩ := Feeds.next hf
  obtain ⟨ty, s2, b1, b2, b3, b4⟩ := g_typArgs (ns := ns) (n := n) hes (y .assign :: (tm ++ rest)) s1 (by simp only [List.append_assoc, List.cons_append, List.nil_append]; exact a3) (by rw [a2, hn]) rfl
  obtain ⟨s3, c1, c2, c3⟩ := Feeds.next b3
  obtain ⟨e', s4, d1, d2, d3, d4⟩ := he rest s3 c3 (by rw [c2, b4]) hr.1
  unfold Is at b2 d2
  obtain ⟨q, f, ks, hq⟩ : ∃ q f ks, ty = .access q f ks := by
    cases ty <;> simp only [bare] at b2 <;> first | (exact ⟨_, _, _, rfl⟩) | contradiction
  let x : Expr := .typeMapping ⟨s1.tsp, (s4.pos : Int) - s1.tsp⟩ ty e'
  refine ⟨x, { s4 with defs := s4.defs ++ [x] }, EvN.step ?_, by unfold Is; simp only [x, bare, b2, d2], d3.with s4.names _, d4⟩
  show EvP env (fun self => atomBody self) _ _ _
  unfold atomBody
  ev
  rw [hf.reads.1]
  dsimp only
  refine EvP.prim (tokenString_str hf.reads.2.1) (EvP.bind a1 ?_)
  ev
  refine EvP.pos a3.reads.1 ?_
  unfold typeAliasOrDefinition
  ev
  refine EvP.bind b1 ?_
  ev
  subst hq
  dsimp only
  refine EvP.pos (sym_reads b3.reads).1 (EvP.bind c1 (EvP.bind d1 ?_))
  ev
  unfold addDefinition
  ev

/-! ## The types of resources, mappings of capabilities -/

theorem g_resType {e : Expr} {ts : List T} (h : DoneP env ns (fun self => self .expression) (Is e) ts cExpr) : DoneResType env ns false e ts :=
  DoneP.mono h fun t ht => by
    have : t = .lc := by simpa using ht
    subst this; rfl

theorem g_hiddenType {e : Expr} {ts : List T} (h : DoneP env ns (fun self => self .primary) (Is e) ts cPrim) : DoneResType env ns true e ts :=
  DoneP.mono h fun t ht => by
    have : t = .lc := by simpa using ht
    subst this; rfl

theorem g_resClass {hidden : Bool} : DoneResType env ns hidden (.qname z b!"class") [w .kClass] := by
  intro rest s hf hn hr
  obtain ⟨s1, h1, h2, h3⟩ := Feeds.next hf
  have ht : s1.tok = .lc := by
    have hr : hd rest = .lc := by simpa using hr
    have h3 : Feeds env rest s1 := h3
    rw [h3.tok_eq (by rw [hr]; nofun), hr]
  have ha : EvN env .atom s (.qname ⟨s.tsp, (s1.pos : Int) - s.tsp⟩ b!"class") s1 := by
    refine EvN.step ?_
    show EvP env (fun self => atomBody self) _ _ _
    unfold atomBody
    ev
    rw [(hf.reads).1]
    refine EvP.prim (tokenString_str hf.reads.2.1) (EvP.bind h1 ?_)
    ev
    refine EvP.pos ht ?_
    ev1
    exact EvP.of rfl
  have hp : EvN env .primary s (.qname ⟨s.tsp, (s1.pos : Int) - s.tsp⟩ b!"class") s1 :=
    EvN.step (EvP.bind ha (primLoop_stop rfl (by rw [ht]; rfl)))
  refine ⟨.qname ⟨s.tsp, (s1.pos : Int) - s.tsp⟩ b!"class", s1, ?_, rfl, h3, by rw [h2, hn]⟩
  cases hidden
  · exact expression_of_primary hp (by rw [(hf.reads).1]; rfl) (by rw [ht]; rfl)
  · exact hp

theorem g_mapping {e c : Expr} {k : Tok} {t : T} {n : GoStr} {ops : List Expr} {te to : List T}
    (h : DoneK env ns selHead (fun e self => self (.selLoop e)) (Is e) te (cBin .or)) (hc : component ns e = some c)
    (hk : k = .kProduces ∨ k = .kConsumes) (ht : definitionName t = some n)
    (ho : DoneL env ns (fun acc self => self (.attrOps acc)) ops to notAttrEnd) :
    DoneP env ns (fun self => self .expression) (Is (.capabilityMapping z (spell k) (qualified (ns ++ [n])) c ops))
      (te ++ w k :: t :: y .lc :: (to ++ [y .rc])) cExpr := by
  intro rest s hf hn hr
  nf at hf
  obtain ⟨a, s1, h1, h2, h3, h4⟩ := h _ s hf hn (by show cBin .or k = false; rcases hk with rfl | rfl <;> rfl)
  obtain ⟨s2, h5, h6, h7⟩ := Feeds.next h2
  obtain ⟨s3, h8, h9, h10⟩ := className_of ht h7
  obtain ⟨s4, h11, h12, h13⟩ := Feeds.next h9
  obtain ⟨ops', s5, h14, h15, h16, h17⟩ := ho _ s4 h13 (by rw [h12, h10, h6, h3]) rfl
  obtain ⟨s6, h18, h19, h20⟩ := Feeds.next h16
  have hsel := h4 _ (selLoop_stop (env := env) (e := a) (s := s1) (by rw [h2.reads.1]; rcases hk with rfl | rfl <;> nofun))
  have hn6 : s6.names = ns := by rw [h19, h17]
  unfold Is at h1
  have hsp : tokenString env s1 = .ok (spell k) s1 := tokenString_str h2.reads.2.1
  have hic : isComponent a = true := by
    have hc := hc
    rw [← h1] at hc
    cases a <;> first | rfl | cases hc
  have hcomp : ∃ c', bare c' = c ∧ ∀ f : Expr → P Expr, (match a with
    | .reserved p w _ => qualifiedName w >>= fun n => (pure (Expr.qname p n) : P Expr) >>= f
    | e => (pure e : P Expr) >>= f) env s6 = f c' env s6 := by
    rw [← h1] at hc
    cases a <;> cases hc
    · exact ⟨_, rfl, fun _ => rfl⟩
    · exact ⟨_, rfl, fun _ => rfl⟩
    · exact ⟨_, rfl, fun _ => rfl⟩
    · refine ⟨.qname _ (joinStr b!"::" (s6.names ++ [_])), ?_, fun _ => rfl⟩
      simp only [bare, qualified_eq, hn6]
  obtain ⟨c', hc1, hc2⟩ := hcomp
  let e' : Expr := .capabilityMapping ⟨s1.tsp, (s6.pos : Int) - s1.tsp⟩ (spell k) (joinStr b!"::" (s6.names ++ [n])) c' ops'
  refine ⟨e', { s6 with defs := s6.defs ++ [e'] }, EvN.step ?_, ?_, h20.with _ _, hn6⟩
  · show EvP env (fun self => expressionBody self) _ _ _
    refine EvP.andThen (m := fun self => self (.binary .or)) (f := fun self e => self (.selLoop e)) (g := exprTail) hsel ?_
    unfold exprTail
    ev
    refine EvP.pos (by rw [h2.reads.1]; exact hk) (EvP.prim hsp ?_)
    refine EvP.pos (hic) ?_
    unfold capabilityMapping
    ev
    refine EvP.bind h5 (EvP.bind h8 (EvP.prim (assertToken_ok (sym_reads h9.reads).1) (EvP.bind h11 (EvP.bind (at_nil h14)
      (EvP.prim (assertToken_ok (sym_reads h16.reads).1) (EvP.bind h18 ?_))))))
    refine EvP.congr ?_ (fun self => hc2 _)
    refine EvP.prim (a := joinStr b!"::" (s6.names ++ [n])) rfl ?_
    ev
    exact EvP.of rfl
  · unfold Is; simp only [e', bare, hc1, h15, hn6, qualified_eq]

/-! ## Resource defaults and overrides -/

/-- A name as an expression. -/
theorem plainName_of {t : T} {s s1 : St} {u : Tok} (ht : plainName t = true) (hr : Reads t s) (hx : EvN env .nextToken s () s1)
    (hu : s1.tok = u) (hc : cExpr u = false) (htn : u ≠ .typeName) : ∃ e, EvN env .expression s e s1 := by
  have ha : ∃ e, EvN env .atom s e s1 ∧ plain e = true := by
    unfold plainName at ht
    split at ht
    · rename_i w
      refine ⟨.qname ⟨s.tsp, (s.pos : Int) - s.tsp⟩ w, EvN.step (EvP.congr (m' := fun self => leaf self _) (EvP.bind hx EvP.ret) fun self => ?_), rfl⟩
      show atomBody self env s = _
      unfold atomBody
      ex
      rw [hr.1]; exact bind_ok (tokenString_str hr.2)
    · rename_i k
      refine ⟨.qname ⟨s.tsp, (s.pos : Int) - s.tsp⟩ (styleName k), EvN.step (EvP.congr (m' := fun self => leaf self _) (EvP.bind hx EvP.ret) fun self => ?_), rfl⟩
      show atomBody self env s = _
      unfold atomBody
      ex
      rw [hr.1]; exact bind_ok (tokenString_str hr.2)
    · refine ⟨.dflt ⟨s.tsp, (s.pos : Int) - s.tsp⟩, EvN.step (EvP.congr (m' := fun self => leaf self _) (EvP.bind hx EvP.ret) fun self => ?_), rfl⟩
      show atomBody self env s = _
      unfold atomBody
      ex
      rw [hr.1]
    · refine ⟨.undef ⟨s.tsp, (s.pos : Int) - s.tsp⟩, EvN.step (EvP.congr (m' := fun self => leaf self _) (EvP.bind hx EvP.ret) fun self => ?_), rfl⟩
      show atomBody self env s = _
      unfold atomBody
      ex
      rw [hr.1]
    · refine ⟨.reserved ⟨s.tsp, (s.pos : Int) - s.tsp⟩ b!"attr" false, EvN.step (EvP.congr (m' := fun self => leaf self _) (EvP.bind hx EvP.ret) fun self => ?_), rfl⟩
      show atomBody self env s = _
      unfold atomBody
      ex
      rw [hr.1]; exact bind_ok (tokenString_str hr.2.1)
    · refine ⟨.reserved ⟨s.tsp, (s.pos : Int) - s.tsp⟩ b!"private" false, EvN.step (EvP.congr (m' := fun self => leaf self _) (EvP.bind hx EvP.ret) fun self => ?_), rfl⟩
      show atomBody self env s = _
      unfold atomBody
      ex
      rw [hr.1]; exact bind_ok (tokenString_str hr.2.1)
    · refine ⟨.qname ⟨s.tsp, (s1.pos : Int) - s.tsp⟩ b!"type", EvN.step ?_, rfl⟩
      show EvP env (fun self => atomBody self) _ _ _
      unfold atomBody
      ev
      rw [hr.1]
      refine EvP.prim (tokenString_str hr.2.1) (EvP.bind hx ?_)
      ev
      refine EvP.neg (by rw [hu]; exact htn) ?_
      ev1
      exact EvP.of rfl
    · cases ht
  obtain ⟨e, ha, hp⟩ := ha
  have hcp : cPrim s1.tok = false := by
    rw [hu]
    simp only [cExpr, cOps, Bool.or_eq_false_iff] at hc
    exact hc.1.1.1
  refine ⟨e, expression_of_primary (EvN.step (EvP.bind ha (primLoop_stop hp hcp))) ?_ (by rw [hu]; exact hc)⟩
  unfold plainName at ht
  split at ht <;> first | (rw [hr.1]; rfl) | cases ht

theorem begins_append {ta rest : List T} (h : Begins ta) : (∃ r, ta ++ rest = .sym .multiply :: r) ∨
    ∃ t u r, ta ++ rest = t :: u :: r ∧ plainName t = true ∧ (attributeOperator u).isSome = true := by
  unfold Begins at h
  split at h
  · exact .inl ⟨_, rfl⟩
  · exact .inr ⟨_, _, _, rfl, h⟩
  · exact h.elim

theorem attributeOperator_tok {u : T} (h : (attributeOperator u).isSome = true) : u.tok = .farrow ∨ u.tok = .parrow := by
  unfold attributeOperator at h
  split at h <;> first | exact .inl rfl | exact .inr rfl | cases h

/-- The parser has looked ahead and goes back. -/
theorem attrs_again {ops : List Expr} {ta rest : List T} {s : St} (ho : DoneL env ns (fun acc self => self (.attrOps acc)) ops ta notAttrEnd)
    (hb : Begins ta) (hf : Feeds env (.brace :: (ta ++ y .rc :: rest)) s) (hn : s.names = ns) :
    ∃ s1, EvN env .nextToken s () s1 ∧
      ((s1.tok = .multiply ∧ ∃ ops' s3 s4 s5, EvN env .nextToken { s1 with pos := s.pos } () s3 ∧ EvN env (.attrOps []) s3 ops' s4 ∧ bareL ops' = ops ∧
          s4.tok = .rc ∧ EvN env .nextToken s4 () s5 ∧ Feeds env rest s5 ∧ s5.names = ns) ∨
       (s1.tok ≠ .multiply ∧ ∃ e s2, EvN env .expression s1 e s2 ∧ s2.tok ≠ .colon ∧
          ∃ ops' s3 s4 s5, EvN env .nextToken { s2 with pos := s.pos } () s3 ∧ EvN env (.attrOps []) s3 ops' s4 ∧ bareL ops' = ops ∧
          s4.tok = .rc ∧ EvN env .nextToken s4 () s5 ∧ Feeds env rest s5 ∧ s5.names = ns)) := by
  have tail : ∀ s3 : St, Feeds env (ta ++ y .rc :: rest) s3 → s3.names = ns →
      ∃ ops' s4 s5, EvN env (.attrOps []) s3 ops' s4 ∧ bareL ops' = ops ∧ s4.tok = .rc ∧ EvN env .nextToken s4 () s5 ∧ Feeds env rest s5 ∧ s5.names = ns := by
    intro s3 h3 hn3
    obtain ⟨ops', s4, h4, h5, h6, h7⟩ := ho _ s3 h3 hn3 rfl
    obtain ⟨s5, h8, h9, h10⟩ := Feeds.next h6
    exact ⟨ops', s4, s5, at_nil h4, h5, (sym_reads h6.reads).1, h8, h10, by rw [h9, h7]⟩
  obtain ⟨-, -, hnext⟩ := hf
  obtain ⟨s1, n1, nm1, f1, -, rw1⟩ := hnext s.val s.names s.defs
  obtain ⟨rstar, rnamed⟩ := rw1 rfl
  refine ⟨s1, n1, ?_⟩
  rcases begins_append (rest := y .rc :: rest) hb with ⟨r, hr⟩ | ⟨t, u, r, hr, ht, hu⟩
  · rw [hr] at f1
    refine .inl ⟨(sym_reads f1.reads).1, ?_⟩
    obtain ⟨s3, n3, nm3, f3⟩ := rstar (by rw [hr]; rfl)
    obtain ⟨ops', s4, s5, h⟩ := tail _ f3 (by rw [nm3, nm1, hn])
    exact ⟨ops', _, s4, s5, n3, h⟩
  · rw [hr] at f1
    obtain ⟨hrd, -, h1⟩ := f1
    obtain ⟨s2, n2, nm2, f2, -⟩ := h1 s1.val s1.names s1.defs
    refine .inr ⟨?_, ?_⟩
    · unfold plainName at ht
      split at ht <;> first | (rw [hrd.1]; nofun) | cases ht
    have hu2 := attributeOperator_tok hu
    have ht2 : s2.tok = u.tok := f2.tok_eq (by show u.tok ≠ _; rcases hu2 with h | h <;> rw [h] <;> nofun)
    obtain ⟨s3, n3, nm3, f3⟩ := rnamed t u r hr ht hu s2 n2
    obtain ⟨e, he⟩ := plainName_of (env := env) (s := s1) (s1 := s2) (u := u.tok)
      ht hrd n2 ht2 (by rcases hu2 with h | h <;> rw [h] <;> rfl) (by rcases hu2 with h | h <;> rw [h] <;> nofun)
    obtain ⟨ops', s4, s5, h⟩ := tail _ f3 (by rw [nm3, nm2, nm1, hn])
    refine ⟨e, _, he, ?_, ops', _, s4, s5, n3, h⟩
    show s2.tok ≠ _
    rw [ht2]
    rcases hu2 with h | h <;> rw [h] <;> nofun

theorem resourceDefaults_of {ops : List Expr} {ta rest : List T} {s : St} (ho : DoneL env ns (fun acc self => self (.attrOps acc)) ops ta notAttrEnd)
    (hb : Begins ta) (start : Nat) (first : Expr) (form : Form) (hs : resourceShape first = .defaults)
    (hf : Feeds env (.brace :: (ta ++ y .rc :: rest)) s) (hn : s.names = ns) :
    ∃ p ops' s', EvN env (.resourceExpr start first form) s (.resourceDefaults p form first ops') s' ∧ bareL ops' = ops ∧ Feeds env rest s' ∧ s'.names = ns := by
  obtain ⟨s1, h1, h⟩ := attrs_again ho hb hf hn
  rcases h with ⟨h2, ops', s3, s4, s5, h3, h4, h5, h6, h7, h8, h9⟩ | ⟨h2, e, s2, h10, h11, ops', s3, s4, s5, h3, h4, h5, h6, h7, h8, h9⟩
  · refine ⟨⟨start, (s4.pos : Int) - start⟩, ops', s5, EvN.step ?_, h5, h8, h9⟩
    show EvP env (fun self => resourceExprBody self start first form) _ _ _
    unfold resourceExprBody
    ev
    refine EvP.bind h1 ?_
    ev
    refine EvP.neg (by simp [h2]) ?_
    ev
    refine EvP.pos (by simp [h2]) ?_
    rw [hs]
    ev
    refine EvP.bind h3 (EvP.bind h4 ?_)
    ev
    exact EvP.prim (assertToken_ok h6) (EvP.bind h7 EvP.ret)
  · refine ⟨⟨start, (s4.pos : Int) - start⟩, ops', s5, EvN.step ?_, h5, h8, h9⟩
    show EvP env (fun self => resourceExprBody self start first form) _ _ _
    unfold resourceExprBody
    ev
    refine EvP.bind h1 ?_
    ev
    refine EvP.pos h2 (EvP.bind h10 ?_)
    ev
    refine EvP.pos h11 ?_
    rw [hs]
    ev
    refine EvP.bind h3 (EvP.bind h4 ?_)
    ev
    exact EvP.prim (assertToken_ok h6) (EvP.bind h7 EvP.ret)

theorem resourceOverride_of {ops : List Expr} {ta rest : List T} {s : St} (ho : DoneL env ns (fun acc self => self (.attrOps acc)) ops ta notAttrEnd)
    (hb : Begins ta) (start : Nat) (first : Expr) (form : Form) (hs : resourceShape first = .override)
    (hf : Feeds env (.brace :: (ta ++ y .rc :: rest)) s) (hn : s.names = ns) :
    ∃ p ops' s', EvN env (.resourceExpr start first form) s (.resourceOverride p form first ops') s' ∧ bareL ops' = ops ∧ Feeds env rest s' ∧ s'.names = ns := by
  obtain ⟨s1, h1, h⟩ := attrs_again ho hb hf hn
  rcases h with ⟨h2, ops', s3, s4, s5, h3, h4, h5, h6, h7, h8, h9⟩ | ⟨h2, e, s2, h10, h11, ops', s3, s4, s5, h3, h4, h5, h6, h7, h8, h9⟩
  · refine ⟨⟨start, (s4.pos : Int) - start⟩, ops', s5, EvN.step ?_, h5, h8, h9⟩
    show EvP env (fun self => resourceExprBody self start first form) _ _ _
    unfold resourceExprBody
    ev
    refine EvP.bind h1 ?_
    ev
    refine EvP.neg (by simp [h2]) ?_
    ev
    refine EvP.pos (by simp [h2]) ?_
    rw [hs]
    ev
    refine EvP.bind h3 (EvP.bind h4 ?_)
    ev
    exact EvP.prim (assertToken_ok h6) (EvP.bind h7 EvP.ret)
  · refine ⟨⟨start, (s4.pos : Int) - start⟩, ops', s5, EvN.step ?_, h5, h8, h9⟩
    show EvP env (fun self => resourceExprBody self start first form) _ _ _
    unfold resourceExprBody
    ev
    refine EvP.bind h1 ?_
    ev
    refine EvP.pos h2 (EvP.bind h10 ?_)
    ev
    refine EvP.pos h11 ?_
    rw [hs]
    ev
    refine EvP.bind h3 (EvP.bind h4 ?_)
    ev
    exact EvP.prim (assertToken_ok h6) (EvP.bind h7 EvP.ret)

theorem shape_defaults {e a : Expr} (h : bare a = e) (hd : isDefaults e = true) : resourceShape a = .defaults := by
  subst h
  cases a with
  | qref => rfl
  | access p x ks =>
    rw [bare] at hd
    cases x with
    | qref q n d =>
      rw [bare] at hd
      match ks with
      | [k] =>
        rw [bareL_cons, bareL_nil] at hd
        have hd : (n == b!"Resource") = true := hd
        show (if n = b!"Resource" then Shape.defaults else .override) = _
        rw [if_pos (by simpa using hd)]
      | [] => cases hd
      | _ :: _ :: _ => simp only [bareL_cons] at hd; cases hd
    | _ => rw [bare] at hd; cases hd
  | _ => rw [bare] at hd; cases hd

theorem shape_override {e a : Expr} (h : bare a = e) (hd : isOverride e = true) : resourceShape a = .override := by
  subst h
  cases a with
  | access p x ks =>
    rw [bare] at hd
    cases x with
    | qref q n d =>
      rw [bare] at hd
      match ks with
      | [k] =>
        rw [bareL_cons, bareL_nil] at hd
        have hd : (!(n == b!"Resource")) = true := hd
        show (if n = b!"Resource" then Shape.defaults else .override) = _
        rw [if_neg (by simpa using hd)]
      | [] => rfl
      | _ :: _ :: _ => rfl
    | _ => rfl
  | _ => rw [bare] at hd; cases hd

theorem g_defaults {e : Expr} {ops : List Expr} {te ta : List T} (h : DoneP env ns (fun self => self .expression) (Is e) te cExpr)
    (hd : isDefaults e = true) (ho : DoneL env ns (fun acc self => self (.attrOps acc)) ops ta notAttrEnd) (hb : Begins ta) :
    DoneP env ns (fun self => resource self) (Is (.resourceDefaults z .regular e ops)) (te ++ .brace :: (ta ++ [y .rc])) cRes := by
  intro rest s hf hn hr
  nf at hf
  obtain ⟨a, s1, h1, h2, h3, h4⟩ := h _ s hf hn rfl
  obtain ⟨p, ops', s2, h5, h6, h7, h8⟩ := resourceDefaults_of ho hb a.off a .regular (shape_defaults h2 hd) h3 h4
  refine ⟨.resourceDefaults p .regular a ops', s2, ?e, ?_, h7, h8⟩
  case e =>
    unfold resource
    refine EvP.bind h1 ?_
    ev
    exact EvP.pos h3.reads.1 h5
  · unfold Is at *; simp only [bare, h2, h6]

theorem g_override {e : Expr} {ops : List Expr} {te ta : List T} (h : DoneP env ns (fun self => self .expression) (Is e) te cExpr)
    (hd : isOverride e = true) (ho : DoneL env ns (fun acc self => self (.attrOps acc)) ops ta notAttrEnd) (hb : Begins ta) :
    DoneP env ns (fun self => resource self) (Is (.resourceOverride z .regular e ops)) (te ++ .brace :: (ta ++ [y .rc])) cRes := by
  intro rest s hf hn hr
  nf at hf
  obtain ⟨a, s1, h1, h2, h3, h4⟩ := h _ s hf hn rfl
  obtain ⟨p, ops', s2, h5, h6, h7, h8⟩ := resourceOverride_of ho hb a.off a .regular (shape_override h2 hd) h3 h4
  refine ⟨.resourceOverride p .regular a ops', s2, ?e, ?_, h7, h8⟩
  case e =>
    unfold resource
    refine EvP.bind h1 ?_
    ev
    exact EvP.pos h3.reads.1 h5
  · unfold Is at *; simp only [bare, h2, h6]

theorem hidden_of {t : T} {f : Form} {te rest : List T} {e : Expr} {s : St} (ht : hiddenForm t = some f)
    (h : DoneP env ns (fun self => self .primary) (Is e) te cPrim) (hf : Feeds env (t :: (te ++ .brace :: rest)) s) (hn : s.names = ns) :
    ∃ a s1, bare a = e ∧ Feeds env (.brace :: rest) s1 ∧ s1.names = ns ∧
      ∀ x s2, EvN env (.resourceExpr s.tsp a f) s1 x s2 → EvN env .unary s x s2 := by
  obtain ⟨s0, h01, h02, h03⟩ := Feeds.next hf
  obtain ⟨a, s1, h1, h2, h3, h4⟩ := h _ s0 h03 (by rw [h02, hn]) rfl
  refine ⟨a, s1, h2, h3, h4, fun x s2 hx => EvN.step ?_⟩
  show EvP env (fun self => unaryBody self) _ _ _
  unfold unaryBody
  ev
  unfold hiddenForm at ht
  split at ht
  · cases ht
    rw [(sym_reads hf.reads).1]
    exact EvP.bind h01 (EvP.bind h1 (EvP.prim (assertToken_ok h3.reads.1) hx))
  · cases ht
    rw [(sym_reads hf.reads).1]
    exact EvP.bind h01 (EvP.bind h1 (EvP.prim (assertToken_ok h3.reads.1) hx))
  · cases ht

theorem g_hiddenDefaults {t : T} {f : Form} {e : Expr} {ops : List Expr} {te ta : List T} (ht : hiddenForm t = some f)
    (h : DoneP env ns (fun self => self .primary) (Is e) te cPrim)
    (hd : isDefaults e = true) (ho : DoneL env ns (fun acc self => self (.attrOps acc)) ops ta notAttrEnd) (hb : Begins ta) :
    DoneP env ns (fun self => self .unary) (Is (.resourceDefaults z f e ops)) (t :: (te ++ .brace :: (ta ++ [y .rc]))) cPrim := by
  intro rest s hf hn hr
  nf at hf
  obtain ⟨a, s1, h2, h3, h4, h1⟩ := hidden_of ht h hf hn
  obtain ⟨p, ops', s2, h5, h6, h7, h8⟩ := resourceDefaults_of ho hb s.tsp a f (shape_defaults h2 hd) h3 h4
  refine ⟨.resourceDefaults p f a ops', s2, h1 _ _ h5, ?_, h7, h8⟩
  unfold Is at *; simp only [bare, h2, h6]

theorem g_hiddenOverride {t : T} {f : Form} {e : Expr} {ops : List Expr} {te ta : List T} (ht : hiddenForm t = some f)
    (h : DoneP env ns (fun self => self .primary) (Is e) te cPrim)
    (hd : isOverride e = true) (ho : DoneL env ns (fun acc self => self (.attrOps acc)) ops ta notAttrEnd) (hb : Begins ta) :
    DoneP env ns (fun self => self .unary) (Is (.resourceOverride z f e ops)) (t :: (te ++ .brace :: (ta ++ [y .rc]))) cPrim := by
  intro rest s hf hn hr
  nf at hf
  obtain ⟨a, s1, h2, h3, h4, h1⟩ := hidden_of ht h hf hn
  obtain ⟨p, ops', s2, h5, h6, h7, h8⟩ := resourceOverride_of ho hb s.tsp a f (shape_override h2 hd) h3 h4
  refine ⟨.resourceOverride p f a ops', s2, h1 _ _ h5, ?_, h7, h8⟩
  unfold Is at *; simp only [bare, h2, h6]

theorem g_rendered {e : Expr} {te : List T} (he : DoneP env ns (fun self => self .expression) (Is e) te cExpr) :
    DoneType env ns (.un z .render e) (y .renderExpr :: te) := by
  intro rest s hf hn hr
  nf at hf
  obtain ⟨s1, a1, a2, a3⟩ := Feeds.next hf
  obtain ⟨e', s2, b1, b2, b3, b4⟩ := he rest s1 a3 (by rw [a2, hn]) (by simp only [cRes, Bool.or_eq_false_iff] at hr; exact hr.1)
  refine ⟨.un ⟨s.tsp, (s2.pos : Int) - s.tsp⟩ .render e', s2, EvN.step ?_, by unfold Is at *; simp only [bare, b2], b3, b4⟩
  show EvP env (fun self => atomBody self) _ _ _
  unfold atomBody
  ev
  rw [(sym_reads hf.reads).1]
  dsimp only
  refine EvP.bind a1 (EvP.bind b1 ?_)
  ev

theorem cBin_cRes {t : Tok} (h : cBin .rel t = false) : cRes t = false := by
  simp only [cBin, cOpd, cAssign, Bool.or_eq_false_iff] at h
  exact h.1.1

theorem g_typeStmt {e : Expr} (hw : ∀ n, e ≠ .qname z n) {ss : List Expr} {te semi ts : List T}
    (he : DoneType env ns e te) (hp : plain e = true) (hcall : withRval false e = e) (hsn : isStatementName e = false) (ht : FirstTok isTypeDef te) (hs : Semi semi) (ha : Apart (semi ++ ts))
    (hts : ts = [] ∨ FirstTok opens ts) (h : DoneStmts env ns ss ts) : DoneStmts env ns (e :: ss) (te ++ (semi ++ ts)) := by
  rw [← hcall]
  refine g_stmt ?_ hp (ht.imp fun t => by cases t <;> simp [isTypeDef, opens, closer]) hsn hs ha hts h
  intro rest s hf hn hr
  obtain ⟨e', s1, a1, a2, a3, a4⟩ := he rest s hf hn (cBin_cRes hr)
  have ht' : s.tok = .kType ∨ s.tok = .renderExpr := by
    have := ht.tok hf rfl
    unfold isTypeDef at this
    split at this <;> simp_all
  exact ⟨e', s1, rel_of_atom a1 (fun p k h => by subst h; exact hw _ a2.symm) (by unfold Is at a2; rw [← plain_bare, a2, hp]) (by rcases ht' with h | h <;> rw [h] <;> rfl) (a3.test hr rfl), a2, a3, a4⟩

end
end PP
