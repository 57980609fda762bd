import Verif.Lemmas.Err4

/-! # Wrong phrases: types, attributes, resources -/
namespace PP
open PP.Spec
set_option linter.unusedSimpArgs false
set_option linter.unusedSectionVars false

section
variable [Ending] {env : Env} {ns : List GoStr} {rest : List T} {c : Code} {p : Where}

/-! ## Definitions of types -/

theorem type_atom {n : GoStr} {r : List T} {s : St} (hf : Feeds env (w .kType :: .type n :: r) s) (hn : s.names = ns) :
    ∃ s1, Feeds env (.type n :: r) s1 ∧ s1.names = ns ∧
      ∀ R, EvR env (fun self => typeAliasOrDefinition self) s1 R → EvR env (fun self => self .atom) s R := by
  obtain ⟨s1, a1, a2, a3⟩ := Feeds.next hf
  refine ⟨s1, a3, by rw [a2, hn], fun R h => EvN.step ?_⟩
  show EvR env (fun self => atomBody self) _ _
  unfold atomBody
  ev
  rw [hf.reads.1]
  dsimp only
  refine EvP.prim (tokenString_str hf.reads.2.1) (EvP.bind a1 ?_)
  ev
  exact EvP.pos a3.reads.1 h

/-- After `type Name`. -/
theorem type_after {n : GoStr} {r : List T} {s : St} (hf : Feeds env (w .kType :: .type n :: r) s) (hn : s.names = ns)
    (h1 : hd r ≠ .lb) (h2 : hd r ≠ .listStart) :
    ∃ start s2, Feeds env r s2 ∧ s2.names = ns ∧ ∀ R, EvR env (fun self => do
      let t ← curTok
      if t = .assign then do
        nextTok self
        let body ← typeAliasBody self
        let p ← here start
        addDefinition (.typeAlias p n body)
      else if t = .kInherits then do
        nextTok self
        let tn ← typeName self
        match tn with
        | some (.qref _ parent _) => do
          assertToken .lc
          typeDefinitionBody self start n parent
        | some _ => crash .exprAssertion
        | none => issue .parseInheritsMustBeTypeName
      else if t = .lc then typeDefinitionBody self start n []
      else issue .lexUnexpectedToken) s2 R → EvR env (fun self => self .atom) s R := by
  obtain ⟨s1, a1, a2, a3⟩ := type_atom hf hn
  obtain ⟨q, s2, b1, b2, b3⟩ := typeName_of a1
  have ht : s2.tok ≠ .lb := by
    rcases b2.tok with h | ⟨h, -⟩
    · rw [h]; exact h1
    · exact absurd h h2
  have hp : EvP env (fun self => parameterType self) s1 (.qref q n (toLowerAscii n)) s2 := by
    unfold parameterType
    ev
    refine EvP.bind b1 ?_
    dsimp only
    ev
    exact EvP.neg ht EvP.ret
  refine ⟨s1.tsp, s2, b2, by rw [b3, a2], fun R h => a3 _ ?_⟩
  unfold typeAliasOrDefinition
  ev
  exact EvP.bind hp h

theorem b_typeAlias {n : GoStr} {ts : List T} (h : BadP env ns rest c p (fun self => self .expression) ts) :
    BadP env ns rest c p (fun self => self .atom) (w .kType :: .type n :: y .assign :: ts) := by
  intro s hf hn
  nf at hf
  obtain ⟨start, s2, a1, a2, a3⟩ := type_after hf hn nofun nofun
  obtain ⟨s3, b1, b2, b3⟩ := Feeds.next a1
  refine a3 _ ?_
  ev
  refine EvP.pos (sym_reads a1.reads).1 (EvP.bind b1 (EvF.bind ?_))
  unfold typeAliasBody
  ev
  exact EvF.bind (h s3 b3 (by rw [b2, a2]))

theorem b_typeExtends {n q : GoStr} {ts : List T} (h : BadP env ns rest c p (fun self => self .expression) (y .lc :: ts)) :
    BadP env ns rest c p (fun self => self .atom) (w .kType :: .type n :: y .assign :: .type q :: y .lc :: ts) := by
  intro s hf hn
  nf at hf
  obtain ⟨start, s2, a1, a2, a3⟩ := type_after hf hn nofun nofun
  obtain ⟨s3, b1, b2, b3⟩ := Feeds.next a1
  obtain ⟨q', s4, c1, c2, c3⟩ : ∃ q' s1, EvN env .expression s3 (.qref q' q (toLowerAscii q)) s1 ∧ Feeds env (y .lc :: (ts ++ rest)) s1 ∧ s1.names = ns := by
    obtain ⟨e, s1, h1, h2, h3, h4⟩ := g_leaf (env := env) (ns := ns) (t := .type q) rfl (y .lc :: (ts ++ rest)) s3 b3 (by rw [b2, a2]) rfl
    unfold Is at h2
    obtain ⟨q', rfl⟩ : ∃ q', e = .qref q' q (toLowerAscii q) := by
      cases e <;> simp only [bare] at h2 <;> first | (cases h2; exact ⟨_, rfl⟩) | contradiction
    have ht := (sym_reads h3.reads).1
    exact ⟨q', s1, expression_of_primary (EvN.step (EvP.bind h1 (primLoop_stop rfl (by rw [ht]; rfl)))) (by rw [b3.reads.1]; rfl) (by rw [ht]; rfl), h3, h4⟩
  refine a3 _ ?_
  ev
  refine EvP.pos (sym_reads a1.reads).1 (EvP.bind b1 (EvF.bind ?_))
  unfold typeAliasBody
  ev
  refine EvP.bind c1 ?_
  dsimp only
  ev
  exact EvP.pos (sym_reads c2.reads).1 (EvF.bind (h s4 c2 c3))

theorem typeBody_fails {start : Nat} {n q : GoStr} {ts : List T} {s : St} (hE : Ending.tok = .end_)
    (h : ∀ acc, BadP env ns rest c p (fun self => self (.stmts .rc acc)) ts) (hf : Feeds env (y .lc :: (ts ++ rest)) s) (hn : s.names = ns) :
    EvR env (fun self => typeDefinitionBody self start n q) s (Fails rest c p) := by
  unfold typeDefinitionBody
  exact EvF.andThen (m := fun self => nextTok self) (f := fun self _ => parseBlock self .rc) (block_fails hE h hf hn)

theorem b_typeDefinition {n : GoStr} {ts : List T} (hE : Ending.tok = .end_) (h : ∀ acc, BadP env ns rest c p (fun self => self (.stmts .rc acc)) ts) :
    BadP env ns rest c p (fun self => self .atom) (w .kType :: .type n :: y .lc :: ts) := by
  intro s hf hn
  nf at hf
  obtain ⟨start, s2, a1, a2, a3⟩ := type_after hf hn nofun nofun
  have ht := (sym_reads a1.reads).1
  refine a3 _ ?_
  ev
  exact EvP.neg (by rw [ht]; nofun) (EvP.neg (by rw [ht]; nofun) (EvP.pos ht (typeBody_fails hE h a1 a2)))

/-- After `type Name inherits Parent`. -/
theorem inherits_after {n q : GoStr} {r : List T} {s : St} {R : Res Expr → Prop} (hf : Feeds env (w .kType :: .type n :: w .kInherits :: .type q :: r) s) (hn : s.names = ns) :
    ∃ start s4, Feeds env r s4 ∧ s4.names = ns ∧
      (EvR env (fun self => assertToken .lc >>= fun _ => typeDefinitionBody self start n q) s4 R → EvR env (fun self => self .atom) s R) := by
  obtain ⟨start, s2, a1, a2, a3⟩ := type_after hf hn nofun nofun
  obtain ⟨s3, b1, b2, b3⟩ := Feeds.next a1
  obtain ⟨q', s4, c1, c2, c3⟩ := typeName_of b3
  refine ⟨start, s4, c2, by rw [c3, b2, a2], fun h => a3 _ ?_⟩
  have ht := a1.reads.1
  ev
  refine EvP.neg (by rw [ht]; nofun) (EvP.pos ht (EvP.bind b1 (EvP.bind c1 ?_)))
  exact h

theorem b_typeInherits {n q : GoStr} {ts : List T} (hE : Ending.tok = .end_) (h : ∀ acc, BadP env ns rest c p (fun self => self (.stmts .rc acc)) ts) :
    BadP env ns rest c p (fun self => self .atom) (w .kType :: .type n :: w .kInherits :: .type q :: y .lc :: ts) := by
  intro s hf hn
  nf at hf
  obtain ⟨start, s4, a1, a2, a3⟩ := inherits_after (R := Fails rest c p) hf hn
  exact a3 (EvP.prim (assertToken_ok (sym_reads a1.reads).1) (typeBody_fails hE h a1 a2))

theorem b_typeBrace {n q : GoStr} (h : hd rest ≠ .lc) :
    BadP env ns rest .parseExpectedToken .start (fun self => self .atom) [w .kType, .type n, w .kInherits, .type q] := by
  intro s hf hn
  nf at hf
  obtain ⟨start, s4, a1, a2, a3⟩ := inherits_after (R := Fails rest .parseExpectedToken .start) hf hn
  exact a3 (EvF.bind (EvF.assert a1 (a1.ne h)))

theorem b_typeParent {n : GoStr} (h : hd rest ≠ .typeName) :
    BadP env ns rest .parseInheritsMustBeTypeName .after (fun self => self .atom) [w .kType, .type n, w .kInherits] := by
  intro s hf hn
  nf at hf
  obtain ⟨start, s2, a1, a2, a3⟩ := type_after hf hn nofun nofun
  obtain ⟨s3, b1, b2, b3⟩ := Feeds.next a1
  refine a3 _ ?_
  have ht := a1.reads.1
  ev
  refine EvP.neg (by rw [ht]; nofun) (EvP.pos ht (EvP.bind b1 (EvP.bind (t := s3) (a := none) ?_ (EvF.after b3))))
  unfold typeName
  ev
  exact EvP.neg (b3.ne h) EvP.ret

theorem b_typeWrong {n : GoStr} (h1 : hd rest ≠ .lb) (h2 : hd rest ≠ .listStart) (h3 : hd rest ≠ .assign) (h4 : hd rest ≠ .kInherits) (h5 : hd rest ≠ .lc) :
    BadP env ns rest .lexUnexpectedToken .after (fun self => self .atom) [w .kType, .type n] := by
  intro s hf hn
  nf at hf
  obtain ⟨start, s2, a1, a2, a3⟩ := type_after hf hn h1 h2
  refine a3 _ ?_
  ev
  exact EvP.neg (a1.ne h3) (EvP.neg (a1.ne h4) (EvP.neg (a1.ne h5) (EvF.after a1)))

theorem b_typeArgs {n : GoStr} {ts : List T} (h : ∀ acc, BadP env ns rest c p (fun self => self (.exprs .rb .argument acc)) ts) :
    BadP env ns rest c p (fun self => self .atom) (w .kType :: .type n :: y .lb :: ts) := by
  intro s hf hn
  nf at hf
  obtain ⟨s1, a1, a2, a3⟩ := type_atom hf hn
  refine a3 _ ?_
  unfold typeAliasOrDefinition
  ev
  exact EvF.bind (b_typArgs (n := n) h s1 a1 a2)

/-- After `type Name[arguments]`. -/
theorem mapping_after {n : GoStr} {es : List Expr} {te r : List T} {s : St} (hes : DoneMany env ns .arg es te)
    (hf : Feeds env (w .kType :: .type n :: y .lb :: (te ++ y .rb :: r)) s) (hn : s.names = ns) :
    ∃ start ty s2, Feeds env r s2 ∧ s2.names = ns ∧ ∀ R, EvR env (fun self => do
      let t ← curTok
      if t = .assign then do
        nextTok self
        let m ← self .expression
        let p ← here start
        addDefinition (.typeMapping p ty m)
      else issue .parseExpectedTypeNameAfterType) s2 R → EvR env (fun self => self .atom) s R := by
  obtain ⟨s1, a1, a2, a3⟩ := type_atom hf hn
  obtain ⟨q, s2, h1, h2, h3⟩ := typeName_of a1
  obtain ⟨s3, h4, h5, h6⟩ := Feeds.next h2
  obtain ⟨es', s4, h7, h8, h9, h10⟩ := hes .rb rfl _ s3 h6 (by rw [h5, h3, a2]) rfl
  obtain ⟨s5, h11, h12, h13⟩ := Feeds.next h9
  have hp : EvP env (fun self => parameterType self) s1 (.access ⟨s1.tsp, (s4.pos : Int) - s1.tsp⟩ (.qref q n (toLowerAscii n)) (joinHashEntries es')) s5 := by
    unfold parameterType
    ev
    refine EvP.bind h1 ?_
    dsimp only
    ev
    refine EvP.pos (sym_reads h2.reads).1 (EvP.bind h4 ?_)
    unfold arrayExpression
    refine EvP.bind (t := s4) (a := joinHashEntries es') (EvP.bind (at_nil h7) EvP.ret) ?_
    ev
    refine EvP.bind h11 ?_
    ev
  refine ⟨s1.tsp, .access ⟨s1.tsp, (s4.pos : Int) - s1.tsp⟩ (.qref q n (toLowerAscii n)) (joinHashEntries es'), s5, h13, by rw [h12, h10], fun R h => a3 _ ?_⟩
  unfold typeAliasOrDefinition
  ev
  exact EvP.bind hp h

theorem b_typeMapping {n : GoStr} {es : List Expr} {te ts : List T} (hes : DoneMany env ns .arg es te)
    (h : BadP env ns rest c p (fun self => self .expression) ts) :
    BadP env ns rest c p (fun self => self .atom) (w .kType :: .type n :: y .lb :: (te ++ y .rb :: y .assign :: ts)) := by
  intro s hf hn
  nf at hf
  obtain ⟨start, ty, s2, a1, a2, a3⟩ := mapping_after hes hf hn
  obtain ⟨s3, b1, b2, b3⟩ := Feeds.next a1
  refine a3 _ ?_
  ev
  exact EvP.pos (sym_reads a1.reads).1 (EvP.bind b1 (EvF.bind (h s3 b3 (by rw [b2, a2]))))

theorem b_typeNoMapping {n : GoStr} {es : List Expr} {te : List T} (hes : DoneMany env ns .arg es te) (h : hd rest ≠ .assign) :
    BadP env ns rest .parseExpectedTypeNameAfterType .after (fun self => self .atom) (w .kType :: .type n :: y .lb :: (te ++ [y .rb])) := by
  intro s hf hn
  nf at hf
  obtain ⟨start, ty, s2, a1, a2, a3⟩ := mapping_after hes hf hn
  refine a3 _ ?_
  ev
  exact EvP.neg (a1.ne h) (EvF.after a1)

/-! ## Attributes -/

theorem namesAttribute_eq (t : Tok) : namesAttribute t = (t == .identifier || t.isKeyword) := by cases t <;> rfl

theorem b_attrName (h : namesAttribute (hd rest) = false) (h1 : hd rest ≠ .multiply) :
    BadP env ns rest .parseExpectedAttributeName .start (fun self => attributeOperation self) [] := by
  intro s hf hn
  nf at hf
  have ht : namesAttribute s.tok = false := hf.test h rfl
  rw [namesAttribute_eq, Bool.or_eq_false_iff, beq_eq_false_iff_ne] at ht
  unfold attributeOperation
  ev
  refine EvP.neg (hf.ne h1) ?_
  refine EvP.bind (t := { s with pos := s.tsp }) (a := none) ?_ ?_
  · unfold identifier
    ev
    refine EvP.neg ht.1 ?_
    have : keywordOf s.tok = none := by unfold keywordOf; rw [ht.2]; rfl
    rw [this]
    dsimp only
    ev
  · exact ⟨0, fun _ _ => ⟨s.tsp, _, rfl, hf.start⟩⟩

theorem b_attrArrow {t : T} {n : GoStr} (ht : attributeOf t = some n) (h1 : hd rest ≠ .farrow) (h2 : hd rest ≠ .parrow) :
    BadP env ns rest .parseInvalidAttribute .after (fun self => attributeOperation self) [t] := by
  intro s hf hn
  nf at hf
  obtain ⟨s1, a1, a2, a3⟩ := Feeds.next hf
  obtain ⟨d1, d2, d3, d4⟩ := attributeOf_reads ht hf.reads a1
  unfold attributeOperation
  ev
  refine EvP.neg d1 (EvP.bind d4 ?_)
  ev
  exact EvP.neg (by rintro (h | h); exact a3.ne h1 nofun h; exact a3.ne h2 nofun h) (EvF.after a3)

theorem b_attrValue {t u : T} {n op : GoStr} {te : List T} (ht : attributeOf t = some n) (hu : attributeOperator u = some op)
    (h : BadP env ns rest c p (fun self => self .expression) te) :
    BadP env ns rest c p (fun self => attributeOperation self) (t :: u :: te) := by
  intro s hf hn
  nf at hf
  obtain ⟨s1, a1, a2, a3⟩ := Feeds.next hf
  obtain ⟨s2, b1, b2, b3⟩ := Feeds.next a3
  obtain ⟨d1, d2, d3, d4⟩ := attributeOf_reads ht hf.reads a1
  obtain ⟨e1, e2⟩ := attributeOperator_reads (env := env) hu a3.reads
  unfold attributeOperation
  ev
  refine EvP.neg d1 (EvP.bind d4 ?_)
  ev
  exact EvP.pos e1 (EvP.prim e2 (EvP.bind b1 (EvF.bind (h s2 b3 (by rw [b2, a2, hn])))))

theorem b_attrSplat {te : List T} (h : BadP env ns rest c p (fun self => self .expression) te) :
    BadP env ns rest c p (fun self => attributeOperation self) (y .multiply :: y .farrow :: te) := by
  intro s hf hn
  nf at hf
  obtain ⟨s1, a1, a2, a3⟩ := Feeds.next hf
  obtain ⟨s2, b1, b2, b3⟩ := Feeds.next a3
  unfold attributeOperation
  ev
  exact EvP.pos (sym_reads hf.reads).1 (EvP.bind a1 (EvP.prim (assertToken_ok (sym_reads a3.reads).1) (EvP.bind b1 (EvF.bind (h s2 b3 (by rw [b2, a2, hn]))))))

theorem b_splatArrow (h : hd rest ≠ .farrow) : BadP env ns rest .parseExpectedToken .start (fun self => attributeOperation self) [y .multiply] := by
  intro s hf hn
  nf at hf
  obtain ⟨s1, a1, a2, a3⟩ := Feeds.next hf
  unfold attributeOperation
  ev
  exact EvP.pos (sym_reads hf.reads).1 (EvP.bind a1 (EvF.bind (EvF.assert a3 (a3.ne h))))

/-- What may follow attributes. -/
def afterAttrs (semi : Bool) (t : Tok) : Bool := t == .rc || (semi && t == .semicolon)

def BadAttrs (env : Env) (ns : List GoStr) (rest : List T) (c : Code) (p : Where) (semi : Bool) (ts : List T) : Prop :=
  ∀ s, Feeds env (ts ++ rest) s → s.names = ns → ∀ acc, Ends env rest c p (afterAttrs semi) (fun self => self (.attrOps acc)) s

theorem b_attr {semi : Bool} {ta : List T} (h : BadP env ns rest c p (fun self => attributeOperation self) ta)
    (h1 : hd (ta ++ rest) ≠ .semicolon) (h2 : hd (ta ++ rest) ≠ .rc) : BadAttrs env ns rest c p semi ta := by
  intro s hf hn acc
  refine .inl (EvN.step ?_)
  show EvR env (fun self => attrOpsBody self acc) _ _
  unfold attrOpsBody
  ev
  exact EvP.neg (by rintro (h | h); exact hf.ne h1 nofun h; exact hf.ne h2 nofun h) (EvF.bind (h s hf hn))

theorem b_attrs {semi : Bool} {a : Expr} {ta tb : List T} (ha : DoneAttr env ns a ta) (h : BadAttrs env ns rest c p semi tb) :
    BadAttrs env ns rest c p semi (ta ++ y .comma :: tb) := by
  intro s hf hn acc
  nf at hf
  obtain ⟨a', s1, a1, a2, a3, a4, a5, a6⟩ := ha _ s hf hn rfl
  obtain ⟨s2, b1, b2, b3⟩ := Feeds.next a5
  have step : ∀ R, EvR env (fun self => self (.attrOps (acc ++ [a']))) s2 R → EvR env (fun self => self (.attrOps acc)) s R := by
    intro R hx
    refine EvN.step ?_
    show EvR env (fun self => attrOpsBody self acc) _ _
    unfold attrOpsBody
    ev
    refine EvP.neg (by rintro (h | h); exact a1 h; exact a2 h) (EvP.bind a3 ?_)
    ev
    exact EvP.neg (not_not_intro (sym_reads a5.reads).1) (EvP.bind b1 hx)
  rcases h s2 b3 (by rw [b2, a6]) (acc ++ [a']) with h | ⟨x, s', g1, g2, g3⟩
  · exact .inl (step _ h)
  · exact .inr ⟨x, s', step _ g1, g2, g3⟩

theorem b_attrsEnd {semi : Bool} {a : Expr} {ta : List T} (ha : DoneAttr env ns a ta) (h1 : cExpr (hd rest) = false) (h2 : hd rest ≠ .comma)
    (h3 : hd rest ≠ .rc) (h4 : semi = true → hd rest ≠ .semicolon) : BadAttrs env ns rest .parseExpectedToken .start semi ta := by
  intro s hf hn acc
  obtain ⟨a', s1, a1, a2, a3, a4, a5, a6⟩ := ha _ s hf hn h1
  refine .inr ⟨acc ++ [a'], s1, EvN.step ?_, a5, ?_, rfl, rfl⟩
  · show EvP env (fun self => attrOpsBody self acc) _ _ _
    unfold attrOpsBody
    ev
    refine EvP.neg (by rintro (h | h); exact a1 h; exact a2 h) (EvP.bind a3 ?_)
    ev
    exact EvP.pos (a5.ne h2) EvP.ret
  · cases semi
    · simp [afterAttrs, h3]
    · simp [afterAttrs, h3, h4 rfl]

theorem b_attrsSemicolon (h : hd rest = .semicolon) : BadAttrs env ns rest .parseExpectedToken .start false [] := by
  intro s hf hn acc
  nf at hf
  refine .inr ⟨acc, s, EvN.step ?_, hf, by rw [h]; rfl, rfl, rfl⟩
  show EvP env (fun self => attrOpsBody self acc) _ _ _
  unfold attrOpsBody
  ev
  exact EvP.pos (.inl (by rw [hf.tok_eq (by rw [h]; nofun), h])) EvP.ret

theorem afterAttrs_false : afterAttrs false = fun t => t == .rc := by
  funext t; simp [afterAttrs]

theorem BadAttrs.rc {ts : List T} (h : BadAttrs env ns rest c p false ts) :
    ∀ s, Feeds env (ts ++ rest) s → s.names = ns → Ends env rest c p (fun t => t == .rc) (fun self => self (.attrOps [])) s := by
  intro s hf hn
  have := h s hf hn []
  rw [afterAttrs_false] at this
  exact this

/-- Attributes and the closing brace. -/
theorem attrs_fail {α : Type} {ts : List T} {s : St} {f : Self → List Expr → P α} (h : BadAttrs env ns rest c p false ts) (hf : Feeds env (ts ++ rest) s) (hn : s.names = ns) :
    EvR env (fun self => do
      let ops ← self (.attrOps [])
      assertToken .rc
      f self ops) s (Fails rest c p) := by
  refine Ends.bind (h.rc s hf hn) fun a s' h1 h2 => ?_
  exact EvF.bind (EvF.assert h1 (h1.ne (by simpa using h2)))

/-! ## Mappings of capabilities -/

theorem component_is {a e x : Expr} (h : bare a = e) (hc : component ns e = some x) : isComponent a = true := by
  rw [← h] at hc
  cases a <;> first | rfl | cases hc

theorem map_after {e x : Expr} {k : Tok} {te r : List T} {s : St} (h : DoneK env ns selHead (fun e self => self (.selLoop e)) (Is e) te (cBin .or))
    (hc : component ns e = some x) (hk : k = .kProduces ∨ k = .kConsumes) (hf : Feeds env (te ++ w k :: r) s) (hn : s.names = ns) :
    ∃ a cap s1, Feeds env (w k :: r) s1 ∧ s1.names = ns ∧ (EvR env (fun self => capabilityMapping self a cap) s1 (Fails rest c p) →
      EvR env (fun self => self .expression) s (Fails rest c p)) := by
  obtain ⟨a, s1, h1, h2, h3, -, h4⟩ := expr_after (rest := rest) (c := c) (p := p) h hf hn
    (by show cBin .or k = false; rcases hk with rfl | rfl <;> rfl)
  refine ⟨a, spell k, s1, h2, h3, fun hx => h4 (by rw [h2.reads.1]; rcases hk with rfl | rfl <;> nofun) ?_⟩
  unfold exprTail
  ev
  exact EvP.pos (by rw [h2.reads.1]; exact hk) (EvP.prim (tokenString_str h2.reads.2.1) (EvP.pos (component_is h1 hc) hx))

theorem b_mappingName {e x : Expr} {k : Tok} {te : List T} (h : DoneK env ns selHead (fun e self => self (.selLoop e)) (Is e) te (cBin .or))
    (hc : component ns e = some x) (hk : k = .kProduces ∨ k = .kConsumes) (hi : nameIssue (hd rest) = some c) :
    BadP env ns rest c .start (fun self => self .expression) (te ++ [w k]) := by
  intro s hf hn
  nf at hf
  obtain ⟨a, cap, s1, h1, h2, h3⟩ := map_after (rest := rest) (c := c) (p := .start) h hc hk hf hn
  obtain ⟨s2, h4, h5, h6⟩ := Feeds.next h1
  refine h3 ?_
  unfold capabilityMapping
  ev
  exact EvP.bind h4 (EvF.bind (className_fails h6 hi))

theorem b_mappingBrace {e x : Expr} {k : Tok} {t : T} {n : GoStr} {te : List T} (h : DoneK env ns selHead (fun e self => self (.selLoop e)) (Is e) te (cBin .or))
    (hc : component ns e = some x) (hk : k = .kProduces ∨ k = .kConsumes) (ht : definitionName t = some n) (hr : hd rest ≠ .lc) :
    BadP env ns rest .parseExpectedToken .start (fun self => self .expression) (te ++ [w k, t]) := by
  intro s hf hn
  nf at hf
  obtain ⟨a, cap, s1, h1, h2, h3⟩ := map_after (rest := rest) (c := .parseExpectedToken) (p := .start) h hc hk hf hn
  obtain ⟨s2, h4, h5, h6⟩ := Feeds.next h1
  obtain ⟨s3, h7, h8, h9⟩ := className_of ht h6
  refine h3 ?_
  unfold capabilityMapping
  ev
  exact EvP.bind h4 (EvP.bind h7 (EvF.bind (EvF.assert h8 (h8.ne hr))))

theorem b_mapping {e x : Expr} {k : Tok} {t : T} {n : GoStr} {te to : List T} (h : DoneK env ns selHead (fun e self => self (.selLoop e)) (Is e) te (cBin .or))
    (hc : component ns e = some x) (hk : k = .kProduces ∨ k = .kConsumes) (ht : definitionName t = some n) (ho : BadAttrs env ns rest c p false to) :
    BadP env ns rest c p (fun self => self .expression) (te ++ w k :: t :: y .lc :: to) := by
  intro s hf hn
  nf at hf
  obtain ⟨a, cap, s1, h1, h2, h3⟩ := map_after (rest := rest) (c := c) (p := p) h hc hk hf hn
  obtain ⟨s2, h4, h5, h6⟩ := Feeds.next h1
  obtain ⟨s3, h7, h8, h9⟩ := className_of ht h6
  obtain ⟨s4, h10, h11, h12⟩ := Feeds.next h8
  refine h3 ?_
  unfold capabilityMapping
  ev
  exact EvP.bind h4 (EvP.bind h7 (EvP.prim (assertToken_ok (sym_reads h8.reads).1) (EvP.bind h10 (attrs_fail ho h12 (by rw [h11, h9, h5, h2])))))

/-! ## Resources -/

/-- The bodies of a resource: the first title fails, or what comes after it. -/
def BadBodies (env : Env) (ns : List GoStr) (rest : List T) (c : Code) (p : Where) (ts : List T) : Prop :=
  ∀ s, Feeds env (ts ++ rest) s → s.names = ns → s.tok ≠ .multiply ∧
    (EvR env (fun self => self .expression) s (Fails rest c p) ∨
     ∃ title s1, EvN env .expression s title s1 ∧ s1.tok = .colon ∧
       ∀ acc, Ends env rest c p (fun t => t == .rc) (fun self => self (.resourceBodies title acc)) s1)

theorem b_bodyTitle {te : List T} (h : BadP env ns rest c p (fun self => self .expression) te) (h1 : hd (te ++ rest) ≠ .multiply) :
    BadBodies env ns rest c p te :=
  fun s hf hn => ⟨hf.ne h1, .inl (h s hf hn)⟩

/-- The attributes after a title fail. -/
theorem body_fail {title : Expr} {acc : List Expr} {s1 s2 : St} (hc : s1.tok = .colon) (h2 : EvN env .nextToken s1 () s2)
    (h : EvR env (fun self => self (.attrOps [])) s2 (Fails rest c p)) : EvR env (fun self => self (.resourceBodies title acc)) s1 (Fails rest c p) := by
  refine EvN.step ?_
  show EvR env (fun self => resourceBodiesBody self title acc) _ _
  unfold resourceBodiesBody resourceBody
  ev
  refine EvP.neg (by rw [hc]; nofun) (EvF.bind ?_)
  ev
  exact EvP.neg (not_not_intro hc) (EvP.bind h2 (EvF.bind h))

/-- A title and its attributes. -/
theorem body_ok {title : Expr} {acc ops : List Expr} {s1 s2 s3 : St} {R : Res (List Expr) → Prop} (hc : s1.tok = .colon)
    (h2 : EvN env .nextToken s1 () s2) (h : EvN env (.attrOps []) s2 ops s3) (hx : EvR env (fun self => do
      let t ← curTok
      if t ≠ Tok.semicolon then pure (acc ++ [Expr.resourceBody ⟨title.off, (s3.pos : Int) - title.off⟩ title ops])
      else do
        nextTok self
        let t ← curTok
        if t ≠ Tok.rc then do
          let title' ← self .expression
          self (.resourceBodies title' (acc ++ [Expr.resourceBody ⟨title.off, (s3.pos : Int) - title.off⟩ title ops]))
        else self (.resourceBodies title (acc ++ [Expr.resourceBody ⟨title.off, (s3.pos : Int) - title.off⟩ title ops]))) s3 R) :
    EvR env (fun self => self (.resourceBodies title acc)) s1 R := by
  refine EvN.step ?_
  show EvR env (fun self => resourceBodiesBody self title acc) _ _
  unfold resourceBodiesBody resourceBody
  ev
  refine EvP.neg (by rw [hc]; nofun) (EvP.bind (t := s3) (a := .resourceBody ⟨title.off, (s3.pos : Int) - title.off⟩ title ops) ?_ hx)
  ev
  refine EvP.neg (not_not_intro hc) (EvP.bind h2 (EvP.bind h ?_))
  ev

theorem b_bodyAttrs {e : Expr} {te ta : List T} (he : DoneP env ns (fun self => self .expression) (Is e) te cExpr)
    (ht : FirstTok opens te) (hs : StartsNot isStar te) (h : BadAttrs env ns rest c p true ta) :
    BadBodies env ns rest c p (te ++ y .colon :: ta) := by
  intro s hf hn
  nf at hf
  obtain ⟨title, s1, a1, a2, a3, a4⟩ := he _ s hf hn rfl
  obtain ⟨s2, b1, b2, b3⟩ := Feeds.next a3
  have hc := (sym_reads a3.reads).1
  refine ⟨notStar_tok hs ht hf, .inr ⟨title, s1, a1, hc, fun acc => ?_⟩⟩
  rcases h s2 b3 (by rw [b2, a4]) [] with h | ⟨ops, s3, g1, g2, g3, g4, g5⟩
  · exact .inl (body_fail hc b1 h)
  · simp only [afterAttrs, Bool.true_and, Bool.or_eq_false_iff, beq_eq_false_iff_ne] at g3
    refine .inr ⟨acc ++ [.resourceBody ⟨title.off, (s3.pos : Int) - title.off⟩ title ops], s3, body_ok hc b1 g1 ?_, g2, by simpa using g3.1, g4, g5⟩
    ev
    exact EvP.pos (g2.ne g3.2) EvP.ret

theorem b_bodies {e : Expr} {ops : List Expr} {te ta tb : List T} (he : DoneP env ns (fun self => self .expression) (Is e) te cExpr)
    (ht : FirstTok opens te) (hs : StartsNot isStar te) (ha : DoneL env ns (fun acc self => self (.attrOps acc)) ops ta notAttrEnd)
    (hb : BadBodies env ns rest c p tb) (hne : hd (tb ++ rest) ≠ .rc) :
    BadBodies env ns rest c p (te ++ y .colon :: (ta ++ y .semicolon :: tb)) := by
  intro s hf hn
  nf at hf
  obtain ⟨title, s1, a1, a2, a3, a4⟩ := he _ s hf hn rfl
  obtain ⟨s2, b1, b2, b3⟩ := Feeds.next a3
  have hc := (sym_reads a3.reads).1
  obtain ⟨ops', s3, c1, c2, c3, c4⟩ := ha _ s2 b3 (by rw [b2, a4]) rfl
  obtain ⟨s4, d1, d2, d3⟩ := Feeds.next c3
  have d3 : Feeds env (tb ++ rest) s4 := d3
  obtain ⟨-, hb⟩ := hb s4 d3 (by rw [d2, c4])
  refine ⟨notStar_tok hs ht hf, .inr ⟨title, s1, a1, hc, fun acc => ?_⟩⟩
  rcases hb with hb | ⟨title', s5, e1, e2, e3⟩
  · refine .inl (body_ok hc b1 (at_nil c1) ?_)
    ev
    refine EvP.neg (not_not_intro (sym_reads c3.reads).1) (EvP.bind d1 ?_)
    ev
    exact EvP.pos (d3.ne hne) (EvF.bind hb)
  · have step : ∀ R, EvR env (fun self => self (.resourceBodies title' (acc ++ [.resourceBody ⟨title.off, (s3.pos : Int) - title.off⟩ title ops']))) s5 R →
        EvR env (fun self => self (.resourceBodies title acc)) s1 R := by
      intro R hx
      refine body_ok hc b1 (at_nil c1) ?_
      ev
      refine EvP.neg (not_not_intro (sym_reads c3.reads).1) (EvP.bind d1 ?_)
      ev
      exact EvP.pos (d3.ne hne) (EvP.bind e1 hx)
    rcases e3 (acc ++ [.resourceBody ⟨title.off, (s3.pos : Int) - title.off⟩ title ops']) with h | ⟨x, s', g1, g2⟩
    · exact .inl (step _ h)
    · exact .inr ⟨x, s', step _ g1, g2⟩

theorem b_laterTitle {e x : Expr} {ops : List Expr} {te ta tx : List T} (he : DoneP env ns (fun self => self .expression) (Is e) te cExpr)
    (ht : FirstTok opens te) (hs : StartsNot isStar te) (ha : DoneL env ns (fun acc self => self (.attrOps acc)) ops ta notAttrEnd)
    (hx : DoneP env ns (fun self => self .expression) (Is x) tx cExpr) (hxt : FirstTok opens tx)
    (h1 : cExpr (hd rest) = false) (h2 : hd rest ≠ .colon) (h3 : hd rest ≠ .rc) :
    BadBodies env ns rest .parseExpectedTitle .somewhere (te ++ y .colon :: (ta ++ y .semicolon :: tx)) := by
  intro s hf hn
  nf at hf
  obtain ⟨title, s1, a1, a2, a3, a4⟩ := he _ s hf hn rfl
  obtain ⟨s2, b1, b2, b3⟩ := Feeds.next a3
  have hc := (sym_reads a3.reads).1
  obtain ⟨ops', s3, c1, c2, c3, c4⟩ := ha _ s2 b3 (by rw [b2, a4]) rfl
  obtain ⟨s4, d1, d2, d3⟩ := Feeds.next c3
  have d3 : Feeds env (tx ++ rest) s4 := d3
  obtain ⟨x', s5, e1, e2, e3, e4⟩ := hx _ s4 d3 (by rw [d2, c4]) h1
  refine ⟨notStar_tok hs ht hf, .inr ⟨title, s1, a1, hc, fun acc => .inl (body_ok hc b1 (at_nil c1) ?_)⟩⟩
  ev
  refine EvP.neg (not_not_intro (sym_reads c3.reads).1) (EvP.bind d1 ?_)
  ev
  refine EvP.pos (hxt.ne d3 rfl) (EvP.bind e1 (EvN.step ?_))
  show EvR env (fun self => resourceBodiesBody self x' _) _ _
  unfold resourceBodiesBody resourceBody
  ev
  refine EvP.neg (e3.ne h3) (EvF.bind ?_)
  ev
  exact EvP.pos (e3.ne h2) EvF.somewhere

/-- The bodies of a resource, from the brace on. -/
theorem resourceExpr_fails {start : Nat} {a : Expr} {form : Form} {tb : List T} {s : St} (hb : BadBodies env ns rest c p tb)
    (hf : Feeds env (y .lc :: (tb ++ rest)) s) (hn : s.names = ns) : EvR env (fun self => self (.resourceExpr start a form)) s (Fails rest c p) := by
  obtain ⟨s1, a1, a2, a3⟩ := Feeds.next hf
  obtain ⟨b1, b2⟩ := hb s1 a3 (by rw [a2, hn])
  refine EvN.step ?_
  show EvR env (fun self => resourceExprBody self start a form) _ _
  unfold resourceExprBody
  ev
  refine EvP.bind a1 ?_
  ev
  refine EvP.pos b1 ?_
  rcases b2 with b2 | ⟨title, s2, c1, c2, c3⟩
  · exact EvF.bind b2
  · refine EvP.bind c1 (EvP.bind EvP.ret ?_)
    ev
    refine EvP.neg (not_not_intro c2) ?_
    dsimp only
    refine Ends.bind (c3 []) fun bs s3 d1 d2 => ?_
    ev
    exact EvF.bind (EvF.assert d1 (d1.ne (by simpa using d2)))

theorem b_resource {e : Expr} {te tb : List T} (h : DoneResType env ns false e te) (hb : BadBodies env ns rest c p tb) :
    BadP env ns rest c p (fun self => resource self) (te ++ y .lc :: tb) := by
  intro s hf hn
  nf at hf
  obtain ⟨a, s1, h1, h2, h3, h4⟩ := h _ s hf hn rfl
  unfold resource
  refine EvP.bind h1 ?_
  ev
  exact EvP.pos (sym_reads h3.reads).1 (resourceExpr_fails hb h3 h4)

theorem b_hidden {t : T} {f : Form} {e : Expr} {te tb : List T} (ht : hiddenForm t = some f) (h : DoneResType env ns true e te)
    (hb : BadBodies env ns rest c p tb) : BadP env ns rest c p (fun self => self .unary) (t :: (te ++ y .lc :: tb)) := by
  intro s hf hn
  nf at hf
  obtain ⟨s1, a1, a2, a3⟩ := hidden_after (R := Fails rest c p) ht hf
  obtain ⟨a, s2, h1, h2, h3, h4⟩ := h _ s1 a1 (by rw [a2, hn]) rfl
  exact a3 (EvP.bind h1 (EvP.prim (assertToken_ok (sym_reads h3.reads).1) (resourceExpr_fails hb h3 h4)))

/-- A title without a colon. -/
theorem noTitle {start : Nat} {a x : Expr} {form : Form} {tx : List T} {s : St} {R : Res Expr → Prop} (hx : DoneP env ns (fun self => self .expression) (Is x) tx cExpr)
    (hxt : FirstTok opens tx) (hs : StartsNot isStar tx) (h1 : cExpr (hd rest) = false) (h2 : hd rest ≠ .colon)
    (hf : Feeds env (y .lc :: (tx ++ rest)) s) (hn : s.names = ns)
    (h : ∀ s2, EvR env (fun self => match resourceShape a with
      | .resource =>
        if statementCalls.contains (qnameOf a) then do
          setPos s.pos
          nextTok self
          let es ← expressions self .rc .keyedEntry
          let hp ← here s.pos
          let p ← here start
          nextTok self
          pure (.call p .named true a [.hash hp es] none)
        else issueAt start .parseResourceWithoutTitle
      | .defaults => do
        setPos s.pos
        nextTok self
        let ops ← self (.attrOps [])
        let p ← here start
        assertToken .rc
        nextTok self
        pure (.resourceDefaults p form a ops)
      | .override => do
        setPos s.pos
        nextTok self
        let ops ← self (.attrOps [])
        let p ← here start
        assertToken .rc
        nextTok self
        pure (.resourceOverride p form a ops)
      | .error => issueAt a.off .parseInvalidResource) s2 R) : EvR env (fun self => self (.resourceExpr start a form)) s R := by
  obtain ⟨s1, a1, a2, a3⟩ := Feeds.next hf
  have a3 : Feeds env (tx ++ rest) s1 := a3
  obtain ⟨x', s2, b1, b2, b3, b4⟩ := hx _ s1 a3 (by rw [a2, hn]) h1
  refine EvN.step ?_
  show EvR env (fun self => resourceExprBody self start a form) _ _
  unfold resourceExprBody
  ev
  refine EvP.bind a1 ?_
  ev
  refine EvP.pos (notStar_tok hs hxt a3) (EvP.bind b1 (EvP.bind EvP.ret ?_))
  ev
  exact EvP.pos (b3.ne h2) (h s2)

theorem b_title {e x : Expr} {te tx : List T} (h : DoneResType env ns false e te) (hr : namesResource e = true)
    (hx : DoneP env ns (fun self => self .expression) (Is x) tx cExpr)
    (hxt : FirstTok opens tx) (hs : StartsNot isStar tx) (h1 : cExpr (hd rest) = false) (h2 : hd rest ≠ .colon) :
    BadP env ns rest .parseResourceWithoutTitle .somewhere (fun self => resource self) (te ++ y .lc :: tx) := by
  intro s hf hn
  nf at hf
  obtain ⟨a, s1, b1, b2, b3, b4⟩ := h _ s hf hn rfl
  unfold resource
  refine EvP.bind b1 ?_
  ev
  refine EvP.pos (sym_reads b3.reads).1 (noTitle hx hxt hs h1 h2 b3 b4 fun s2 => ?_)
  unfold Is at b2
  rw [← b2] at hr
  cases a <;> simp only [bare] at hr <;> first | cases hr | skip
  rename_i q n
  refine EvP.neg ?_ EvF.somewhere
  show ¬ statementCalls.contains n = true
  rw [← statementFunctions_eq]
  have hr : (!statementFunctions.contains n) = true := hr
  simpa using hr

theorem b_invalidResource {e x : Expr} {te tx : List T} (h : DoneP env ns (fun self => self .expression) (Is e) te cExpr) (hr : noResource e = true)
    (hx : DoneP env ns (fun self => self .expression) (Is x) tx cExpr)
    (hxt : FirstTok opens tx) (hs : StartsNot isStar tx) (h1 : cExpr (hd rest) = false) (h2 : hd rest ≠ .colon) :
    BadP env ns rest .parseInvalidResource .somewhere (fun self => resource self) (te ++ y .lc :: tx) := by
  intro s hf hn
  nf at hf
  obtain ⟨a, s1, b1, b2, b3, b4⟩ := h _ s hf hn rfl
  unfold resource
  refine EvP.bind b1 ?_
  ev
  refine EvP.pos (sym_reads b3.reads).1 (noTitle hx hxt hs h1 h2 b3 b4 fun s2 => ?_)
  unfold Is at b2
  rw [← b2] at hr
  have : resourceShape a = .error := by
    cases a <;> first | rfl | (rw [bare] at hr; cases hr)
  rw [this]
  exact EvF.somewhere

/-! ## Resource defaults and overrides -/

theorem begins_cases {ts : List T} (h : Begins ts) : (∃ r, ts = .sym .multiply :: r) ∨
    ∃ t u r, ts = t :: u :: r ∧ plainName t = true ∧ (attributeOperator u).isSome = true := by
  have := begins_append (rest := []) h
  rwa [List.append_nil] at this

/-- The parser has looked ahead and goes back. -/
theorem attrs_retry {r : List T} {s : St} (hb : Begins r) (hf : Feeds env (.brace :: r) s) (hn : s.names = ns) :
    ∃ s1, EvN env .nextToken s () s1 ∧
      ((s1.tok = .multiply ∧ ∃ s3, EvN env .nextToken { s1 with pos := s.pos } () s3 ∧ Feeds env r s3 ∧ s3.names = ns) ∨
       (s1.tok ≠ .multiply ∧ ∃ e s2, EvN env .expression s1 e s2 ∧ s2.tok ≠ .colon ∧
          ∃ s3, EvN env .nextToken { s2 with pos := s.pos } () s3 ∧ Feeds env r s3 ∧ s3.names = ns)) := by
  obtain ⟨-, -, hnext⟩ := hf
  obtain ⟨s1, n1, nm1, f1, -, rw1⟩ := hnext s.val s.names s.defs
  obtain ⟨rstar, rnamed⟩ := rw1 rfl
  refine ⟨s1, n1, ?_⟩
  rcases begins_cases hb with ⟨r, rfl⟩ | ⟨t, u, r, rfl, ht, hu⟩
  · refine .inl ⟨(sym_reads f1.reads).1, ?_⟩
    obtain ⟨s3, n3, nm3, f3⟩ := rstar rfl
    exact ⟨s3, n3, f3, by rw [nm3, nm1, hn]⟩
  · obtain ⟨hrd, -, h1⟩ := f1
    obtain ⟨s2, n2, nm2, f2, -⟩ := h1 s1.val s1.names s1.defs
    refine .inr ⟨?_, ?_⟩
    · unfold plainName at ht
      split at ht <;> first | (rw [hrd.1]; nofun) | cases ht
    have hu2 := attributeOperator_tok hu
    have ht2 : s2.tok = u.tok := f2.tok_eq (by show u.tok ≠ _; rcases hu2 with h | h <;> rw [h] <;> nofun)
    obtain ⟨s3, n3, nm3, f3⟩ := rnamed t u r rfl ht hu s2 n2
    obtain ⟨e, he⟩ := plainName_of (env := env) (s := s1) (s1 := s2) (u := u.tok)
      ht hrd n2 ht2 (by rcases hu2 with h | h <;> rw [h] <;> rfl) (by rcases hu2 with h | h <;> rw [h] <;> nofun)
    refine ⟨e, _, he, ?_, _, n3, f3, by rw [nm3, nm2, nm1, hn]⟩
    show s2.tok ≠ _
    rw [ht2]
    rcases hu2 with h | h <;> rw [h] <;> nofun

theorem defaults_fails {start : Nat} {a : Expr} {form : Form} {ta : List T} {s : St} (ho : BadAttrs env ns rest c p false ta) (hb : Begins (ta ++ rest))
    (hs : resourceShape a = .defaults ∨ resourceShape a = .override)
    (hf : Feeds env (.brace :: (ta ++ rest)) s) (hn : s.names = ns) : EvR env (fun self => self (.resourceExpr start a form)) s (Fails rest c p) := by
  obtain ⟨s1, a1, a2⟩ := attrs_retry hb hf hn
  have key : ∀ s3, Feeds env (ta ++ rest) s3 → s3.names = ns → ∀ g : Self → List Expr → Pos → P Expr, EvR env (fun self => do
      let ops ← self (.attrOps [])
      let p ← here start
      assertToken .rc
      g self ops p) s3 (Fails rest c p) := by
    intro s3 h1 h2 g
    refine Ends.bind (ho.rc s3 h1 h2) fun x s' h3 h4 => ?_
    ev
    exact EvF.bind (EvF.assert h3 (h3.ne (by simpa using h4)))
  refine EvN.step ?_
  show EvR env (fun self => resourceExprBody self start a form) _ _
  unfold resourceExprBody
  ev
  refine EvP.bind a1 ?_
  ev
  rcases a2 with ⟨b1, s3, b2, b3, b4⟩ | ⟨b1, e, s2, c1, c2, s3, b2, b3, b4⟩
  · refine EvP.neg (by simp [b1]) (EvP.bind EvP.ret ?_)
    ev
    refine EvP.pos (by simp [b1]) ?_
    rcases hs with hs | hs <;> rw [hs] <;> dsimp only <;> ev <;>
      exact EvP.bind b2 (key s3 b3 b4 _)
  · refine EvP.pos b1 (EvP.bind c1 (EvP.bind EvP.ret ?_))
    ev
    refine EvP.pos c2 ?_
    rcases hs with hs | hs <;> rw [hs] <;> dsimp only <;> ev <;>
      exact EvP.bind b2 (key s3 b3 b4 _)

theorem shape_of {e a : Expr} (h : bare a = e) (hd : isDefaults e = true ∨ isOverride e = true) :
    resourceShape a = .defaults ∨ resourceShape a = .override :=
  hd.imp (shape_defaults h) (shape_override h)

theorem b_defaults {e : Expr} {te ta : List T} (h : DoneP env ns (fun self => self .expression) (Is e) te cExpr)
    (hd : isDefaults e = true ∨ isOverride e = true) (hb : Begins (ta ++ rest)) (ho : BadAttrs env ns rest c p false ta) :
    BadP env ns rest c p (fun self => resource self) (te ++ .brace :: ta) := by
  intro s hf hn
  nf at hf
  obtain ⟨a, s1, h1, h2, h3, h4⟩ := h _ s hf hn rfl
  unfold resource
  refine EvP.bind h1 ?_
  ev
  exact EvP.pos h3.reads.1 (defaults_fails ho hb (shape_of h2 hd) h3 h4)

theorem b_hiddenDefaults {t : T} {f : Form} {e : Expr} {te ta : List T} (ht : hiddenForm t = some f)
    (h : DoneP env ns (fun self => self .primary) (Is e) te cPrim)
    (hd : isDefaults e = true ∨ isOverride e = true) (hb : Begins (ta ++ rest)) (ho : BadAttrs env ns rest c p false ta) :
    BadP env ns rest c p (fun self => self .unary) (t :: (te ++ .brace :: ta)) := by
  intro s hf hn
  nf at hf
  obtain ⟨s1, a1, a2, a3⟩ := hidden_after (R := Fails rest c p) ht hf
  obtain ⟨a, s2, h1, h2, h3, h4⟩ := h _ s1 a1 (by rw [a2, hn]) rfl
  exact a3 (EvP.bind h1 (EvP.prim (assertToken_ok h3.reads.1) (defaults_fails ho hb (shape_of h2 hd) h3 h4)))

theorem b_noResource {ts : List T} (h : BadP env ns rest c p (fun self => self .expression) ts) : BadP env ns rest c p (fun self => resource self) ts := by
  intro s hf hn
  unfold resource
  exact EvF.bind (h s hf hn)

end
end PP
