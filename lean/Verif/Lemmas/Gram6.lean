import Verif.Lemmas.Gram5

/-! # Definitions, attributes, resource bodies -/
namespace PP
open PP.Spec
set_option linter.unusedSimpArgs false
set_option linter.unusedSectionVars false

section
variable [Ending] {env : Env} {ns : List GoStr}

theorem hd_of_lc {tb rest : List T} (h : FirstTok (isTok .lc) tb) : hd (tb ++ rest) = .lc := by
  obtain ⟨t, r, rfl, h⟩ := h
  show t.tok = _
  simpa [isTok] using h

/-! ## Definitions -/

theorem className_of {t : T} {n : GoStr} {rest : List T} {s : St} (h : definitionName t = some n) (hf : Feeds env (t :: rest) s) :
    ∃ s1, EvP env (fun self => className self) s n s1 ∧ Feeds env rest s1 ∧ s1.names = s.names := by
  obtain ⟨s1, a1, a2, a3⟩ := Feeds.next hf
  have hr := hf.reads
  refine ⟨s1, ?_, a3, a2⟩
  unfold className
  ev
  unfold definitionName at h
  split at h
  · cases h
    exact EvP.pos (.inr hr.1) (EvP.prim (tokenString_str hr.2) (EvP.bind a1 EvP.ret))
  · cases h
    exact EvP.pos (.inr hr.1) (EvP.prim (tokenString_str hr.2) (EvP.bind a1 EvP.ret))
  · cases h
    exact EvP.pos (.inl hr.1) (EvP.prim (tokenString_str hr.2) (EvP.bind a1 EvP.ret))
  · cases h

theorem definitionName_tok {t : T} {n : GoStr} (h : definitionName t = some n) : t.tok = .identifier ∨ t.tok = .typeName := by
  unfold definitionName at h
  split at h <;> first | exact .inl rfl | exact .inr rfl | cases h

def DoneParent (env : Env) (ns : List GoStr) (p : GoStr) (ts : List T) : Prop :=
  ∀ rest s, Feeds env (ts ++ rest) s → s.names = ns → hd rest ≠ .kInherits → ∃ s', Feeds env rest s' ∧ s'.names = ns ∧
    ((s.tok = .kInherits ∧ ∃ s1, EvN env .nextToken s () s1 ∧
        ((s1.tok = .kDefault ∧ p = b!"default" ∧ EvN env .nextToken s1 () s') ∨
         (s1.tok ≠ .kDefault ∧ EvP env (fun self => className self) s1 p s'))) ∨
     (s.tok ≠ .kInherits ∧ p = [] ∧ s' = s))

theorem g_noParent : DoneParent env ns [] [] := by
  intro rest s hf hn hr
  nf at hf
  exact ⟨s, hf, hn, .inr ⟨hf.ne hr, rfl, rfl⟩⟩

theorem g_parent {n : GoStr} {t : T} (h : parentOf t = some n) : DoneParent env ns n [w .kInherits, t] := by
  intro rest s hf hn _
  nf at hf
  obtain ⟨s1, a1, a2, a3⟩ := Feeds.next hf
  unfold parentOf at h
  split at h
  · cases h
    obtain ⟨s2, b1, b2, b3⟩ := Feeds.next a3
    exact ⟨s2, b3, by rw [b2, a2, hn], .inl ⟨hf.reads.1, s1, a1, .inl ⟨a3.reads.1, rfl, b1⟩⟩⟩
  · obtain ⟨s2, b1, b2, b3⟩ := className_of h a3
    refine ⟨s2, b2, by rw [b3, a2, hn], .inl ⟨hf.reads.1, s1, a1, .inr ⟨a3.ne ?_, b1⟩⟩⟩
    show t.tok ≠ _
    rcases definitionName_tok h with h | h <;> rw [h] <;> nofun

def cClassRest (t : Tok) : Bool := t != .lc && t != .kInherits

theorem parent_hd {p : GoStr} {tq rest : List T} (h : G ns .parent p tq) (hr : hd rest = .lc) : cParams (hd (tq ++ rest)) = false := by
  cases h
  · rw [List.nil_append, hr]; rfl
  · rfl

theorem g_class {n p : GoStr} {ps : List Expr} {b : Expr} {t : T} {tp tq tb : List T} (ht : definitionName t = some n)
    (hp : DoneP env (ns ++ [local_ n]) (fun self => optParameterList self) (IsL ps) tp cParams)
    (hq : DoneParent env (ns ++ [local_ n]) p tq) (hq' : ∀ rest, hd rest = .lc → cParams (hd (tq ++ rest)) = false)
    (hb : DoneBlock env (ns ++ [local_ n]) b tb) (hbt : FirstTok (isTok .lc) tb) :
    DoneP env ns (fun self => self .atom) (Is (.namedDef z (.hostClass p) (qualified (ns ++ [local_ n])) ps b)) (w .kClass :: t :: (tp ++ (tq ++ tb))) cAtom := by
  intro rest s hf hn _
  nf at hf
  obtain ⟨s1, a1, a2, a3⟩ := Feeds.next hf
  obtain ⟨s2, b1, b2, b3⟩ := className_of ht a3
  have b3' : s2.names = ns := by rw [b3, a2, hn]
  have b2 := b2.with (s2.names ++ [local_ n]) s2.defs
  have hlc : hd (tb ++ rest) = .lc := hd_of_lc hbt
  obtain ⟨ps', s3, c1, c2, c3, c4⟩ := hp _ _ b2 (by rw [b3']) (hq' _ hlc)
  obtain ⟨s4, d1, d2, d3⟩ := hq _ s3 c3 c4 (by rw [hlc]; nofun)
  obtain ⟨b', s5, e1, e2, e3, e4⟩ := hb rest s4 d1 d2
  obtain ⟨s6, f1, f2, f3⟩ := Feeds.next e3
  have hnm : s6.names = ns ++ [local_ n] := by rw [f2, e4]
  let e' : Expr := .namedDef ⟨s.tsp, (s6.pos : Int) - s.tsp⟩ (.hostClass p) (joinStr b!"::" (s6.names.dropLast ++ [trimPrefix b!"::" n])) ps' b'
  have f4 := f3.with s6.names.dropLast (s6.defs ++ [e'])
  refine ⟨e', _, EvN.step ?_, ?_, f4, by rw [hnm]; simp⟩
  · show EvP env (fun self => atomBody self) _ _ _
    unfold atomBody
    ev
    rw [hf.reads.1]
    dsimp only
    refine EvP.prim (tokenString_str hf.reads.2.1) (EvP.bind a1 ?_)
    ev
    refine EvP.neg (a3.ne ?_) ?_
    · show t.tok ≠ _
      rcases definitionName_tok ht with h | h <;> rw [h] <;> nofun
    unfold classExpression pushName popName
    refine EvP.bind b1 ?_
    rw [← local_eq]
    ev
    refine EvP.bind c1 ?_
    ev
    dsimp only
    have key : EvP env (fun self => do
        let body ← braces self
        nextTok self
        modS fun s => { s with names := s.names.dropLast }
        let qn ← qualifiedName (local_ n)
        let pp ← here s.tsp
        addDefinition (.namedDef pp (.hostClass p) qn ps' body)) s4 e' { s6 with names := s6.names.dropLast, defs := s6.defs ++ [e'] } := by
      refine EvP.bind e1 (EvP.bind f1 ?_)
      ev
      refine EvP.prim (a := joinStr b!"::" (s6.names.dropLast ++ [local_ n])) rfl ?_
      ev
      unfold addDefinition
      rw [local_eq]
      ev
    rcases d3 with ⟨g1, s7, g2, g3⟩ | ⟨g1, rfl, rfl⟩
    · refine EvP.pos g1 (EvP.bind g2 ?_)
      ev
      rcases g3 with ⟨g4, rfl, g5⟩ | ⟨g4, g5⟩
      · exact EvP.pos g4 (EvP.bind g5 key)
      · exact EvP.neg g4 (EvP.bind g5 key)
    · exact EvP.neg g1 key
  · unfold Is; unfold IsL at c2
    simp only [e', bare, c2, e2, hnm, List.dropLast_concat, qualified_eq, local_eq]

theorem g_definition {app : Bool} {n : GoStr} {ps : List Expr} {b : Expr} {t : T} {tp tb rest : List T} {s : St} {t0 : T} (ht : definitionName t = some n)
    (hp : DoneP env ns (fun self => optParameterList self) (IsL ps) tp cParams) (hb : DoneBlock env ns b tb) (hbt : FirstTok (isTok .lc) tb)
    (hf : Feeds env (t0 :: t :: (tp ++ (tb ++ rest))) s) (hn : s.names = ns) :
    ∃ e s', EvP env (fun self => resourceDefinition self app) s e s' ∧
      bare e = .namedDef z (if app then .application else .define) n ps b ∧ Feeds env rest s' ∧ s'.names = ns := by
  obtain ⟨s1, a1, a2, a3⟩ := Feeds.next hf
  obtain ⟨s2, b1, b2, b3⟩ := className_of ht a3
  have hlc : hd (tb ++ rest) = .lc := hd_of_lc hbt
  obtain ⟨ps', s3, c1, c2, c3, c4⟩ := hp _ s2 b2 (by rw [b3, a2, hn]) (by rw [hlc]; rfl)
  obtain ⟨b', s5, e1, e2, e3, e4⟩ := hb rest s3 c3 c4
  obtain ⟨s6, f1, f2, f3⟩ := Feeds.next e3
  let e' : Expr := .namedDef ⟨s.tsp, (s6.pos : Int) - s.tsp⟩ (if app then .application else .define) n ps' b'
  refine ⟨e', { s6 with defs := s6.defs ++ [e'] }, ?_, ?_, f3.with s6.names _, by rw [f2, e4]⟩
  · unfold resourceDefinition
    ev
    refine EvP.bind a1 (EvP.bind b1 (EvP.bind c1 (EvP.bind e1 (EvP.bind f1 ?_))))
    ev
    unfold addDefinition
    ev
  · unfold IsL at c2
    simp only [e', bare, c2, e2]

theorem g_define {n : GoStr} {ps : List Expr} {b : Expr} {t : T} {tp tb : List T} (ht : definitionName t = some n)
    (hp : DoneP env ns (fun self => optParameterList self) (IsL ps) tp cParams) (hb : DoneBlock env ns b tb) (hbt : FirstTok (isTok .lc) tb) :
    DoneP env ns (fun self => self .atom) (Is (.namedDef z .define n ps b)) (w .kDefine :: t :: (tp ++ tb)) cAtom := by
  intro rest s hf hn _
  nf at hf
  obtain ⟨e, s', h1, h2, h3, h4⟩ := g_definition (app := false) ht hp hb hbt hf hn
  refine ⟨e, s', EvN.step ?_, h2, h3, h4⟩
  show EvP env (fun self => atomBody self) _ _ _
  unfold atomBody
  ev
  rw [hf.reads.1]
  exact h1

theorem g_application {n : GoStr} {ps : List Expr} {b : Expr} {t : T} {tp tb : List T} (ht : definitionName t = some n)
    (hp : DoneP env ns (fun self => optParameterList self) (IsL ps) tp cParams) (hb : DoneBlock env ns b tb) (hbt : FirstTok (isTok .lc) tb) :
    DoneP env ns (fun self => self .atom) (Is (.namedDef z .application n ps b)) (w .kApplication :: t :: (tp ++ tb)) cAtom := by
  intro rest s hf hn _
  nf at hf
  obtain ⟨e, s', h1, h2, h3, h4⟩ := g_definition (app := true) ht hp hb hbt hf hn
  refine ⟨e, s', EvN.step ?_, h2, h3, h4⟩
  show EvP env (fun self => atomBody self) _ _ _
  unfold atomBody
  ev
  rw [hf.reads.1]
  exact h1

theorem definitionName_reads {t : T} {n : GoStr} {s : St} (h : definitionName t = some n) (hr : Reads t s) :
    (s.tok = .identifier ∨ s.tok = .typeName) ∧ s.val = .str n := by
  unfold definitionName at h
  split at h
  · cases h; exact ⟨.inl hr.1, hr.2⟩
  · cases h; exact ⟨.inl hr.1, hr.2⟩
  · cases h; exact ⟨.inr hr.1, hr.2⟩
  · cases h

theorem ret_hd {r : Option Expr} {tr rest : List T} (h : G ns .ret r tr) (hr : hd rest = .lc) : cParams (hd (tr ++ rest)) = false := by
  cases h
  · rw [List.nil_append, hr]; rfl
  · rfl

theorem g_function {n : GoStr} {ps : List Expr} {r : Option Expr} {b : Expr} {t : T} {tp tr tb : List T} (ht : definitionName t = some n)
    (hp : DoneP env ns (fun self => optParameterList self) (IsL ps) tp cParams)
    (hr : DoneP env ns (fun self => optReturnType self) (IsO r) tr cRet) (hr' : ∀ rest, hd rest = .lc → cParams (hd (tr ++ rest)) = false)
    (hb : DoneBlock env ns b tb) (hbt : FirstTok (isTok .lc) tb) :
    DoneP env ns (fun self => self .atom) (Is (.function z false n ps b r)) (w .kFunction :: t :: (tp ++ (tr ++ tb))) cAtom := by
  intro rest s hf hn _
  nf at hf
  obtain ⟨s1, a1, a2, a3⟩ := Feeds.next hf
  obtain ⟨s2, b1, b2, b3⟩ := Feeds.next a3
  have hlc : hd (tb ++ rest) = .lc := hd_of_lc hbt
  obtain ⟨ps', s3, c1, c2, c3, c4⟩ := hp _ s2 b3 (by rw [b2, a2, hn]) (hr' _ hlc)
  obtain ⟨r', s4, d1, d2, d3, d4⟩ := hr _ s3 c3 c4 (by rw [hlc]; rfl)
  obtain ⟨b', s5, e1, e2, e3, e4⟩ := hb rest s4 d3 d4
  obtain ⟨s6, f1, f2, f3⟩ := Feeds.next e3
  let e' : Expr := .function ⟨s.tsp, (s6.pos : Int) - s.tsp⟩ false n ps' b' r'
  have hx := definitionName_reads ht a3.reads
  refine ⟨e', { s6 with defs := s6.defs ++ [e'] }, EvN.step ?_, ?_, f3.with s6.names _, by rw [f2, e4]⟩
  · show EvP env (fun self => atomBody self) _ _ _
    unfold atomBody
    ev
    rw [hf.reads.1]
    dsimp only
    unfold functionDefinition
    ev
    refine EvP.bind a1 ?_
    ev
    refine EvP.neg (not_not_intro hx.1) (EvP.prim (tokenString_str hx.2) (EvP.bind b1 ?_))
    dsimp only
    refine EvP.neg nofun (EvP.bind c1 (EvP.bind d1 (EvP.bind e1 (EvP.bind f1 ?_))))
    refine EvP.neg nofun ?_
    ev
    unfold addDefinition
    ev
  · unfold Is; unfold IsL at c2; unfold IsO at d2
    simp only [e', bare, c2, d2, e2]

theorem g_plan {n : GoStr} {ps : List Expr} {r : Option Expr} {b : Expr} {t : T} {tp tr tb : List T} (ht : definitionName t = some n)
    (hp : DoneP env (ns ++ [n]) (fun self => optParameterList self) (IsL ps) tp cParams)
    (hr : DoneP env (ns ++ [n]) (fun self => optReturnType self) (IsO r) tr cRet) (hr' : ∀ rest, hd rest = .lc → cParams (hd (tr ++ rest)) = false)
    (hb : DoneBlock env (ns ++ [n]) b tb) (hbt : FirstTok (isTok .lc) tb) :
    DoneP env ns (fun self => self .atom) (Is (.function z true n ps b r)) (w .kPlan :: t :: (tp ++ (tr ++ tb))) cAtom := by
  intro rest s hf hn _
  nf at hf
  obtain ⟨s1, a1, a2, a3⟩ := Feeds.next hf
  obtain ⟨s2, b1, b2, b3⟩ := Feeds.next a3
  have hlc : hd (tb ++ rest) = .lc := hd_of_lc hbt
  have b2' : s2.names = ns := by rw [b2, a2, hn]
  have b3 := b3.with (s2.names ++ [n]) s2.defs
  obtain ⟨ps', s3, c1, c2, c3, c4⟩ := hp _ _ b3 (by rw [b2']) (hr' _ hlc)
  obtain ⟨r', s4, d1, d2, d3, d4⟩ := hr _ s3 c3 c4 (by rw [hlc]; rfl)
  obtain ⟨b', s5, e1, e2, e3, e4⟩ := hb rest s4 d3 d4
  obtain ⟨s6, f1, f2, f3⟩ := Feeds.next e3
  have hnm : s6.names = ns ++ [n] := by rw [f2, e4]
  let e' : Expr := .function ⟨s.tsp, (s6.pos : Int) - s.tsp⟩ true n ps' b' r'
  have hx := definitionName_reads ht a3.reads
  refine ⟨e', { s6 with names := s6.names.dropLast, defs := s6.defs ++ [e'] }, EvN.step ?_, ?_, f3.with _ _, by rw [hnm]; simp⟩
  · show EvP env (fun self => atomBody self) _ _ _
    unfold atomBody
    ev
    rw [hf.reads.1]
    dsimp only
    unfold functionDefinition pushName popName
    ev
    refine EvP.bind a1 ?_
    ev
    refine EvP.neg (not_not_intro hx.1) (EvP.prim (tokenString_str hx.2) (EvP.bind b1 ?_))
    dsimp only
    refine EvP.pos rfl ?_
    ev
    refine EvP.bind c1 (EvP.bind d1 (EvP.bind e1 (EvP.bind f1 ?_)))
    refine EvP.pos rfl ?_
    ev
    unfold addDefinition
    ev
  · unfold Is; unfold IsL at c2; unfold IsO at d2
    simp only [e', bare, c2, d2, e2]

theorem g_site {b : Expr} {tb : List T} (hb : DoneBlock env ns b tb) :
    DoneP env ns (fun self => self .atom) (Is (.site z b)) (w .kSite :: tb) cAtom := by
  intro rest s hf hn _
  nf at hf
  obtain ⟨s1, a1, a2, a3⟩ := Feeds.next hf
  obtain ⟨b', s5, e1, e2, e3, e4⟩ := hb rest s1 a3 (by rw [a2, hn])
  obtain ⟨s6, f1, f2, f3⟩ := Feeds.next e3
  let e' : Expr := .site ⟨s.tsp, (s6.pos : Int) - s.tsp⟩ b'
  refine ⟨e', { s6 with defs := s6.defs ++ [e'] }, EvN.step ?_, ?_, f3.with s6.names _, by rw [f2, e4]⟩
  · show EvP env (fun self => atomBody self) _ _ _
    unfold atomBody
    ev
    rw [hf.reads.1]
    dsimp only
    unfold siteDefinition
    ev
    refine EvP.bind a1 (EvP.bind e1 (EvP.bind f1 ?_))
    ev
    unfold addDefinition
    ev
  · unfold Is
    simp only [e', bare, e2]

end
end PP
