import Verif.Lemmas.Gram6

/-! # Nodes, attributes, resource bodies -/
namespace PP
open PP.Spec
set_option linter.unusedSimpArgs false
set_option linter.unusedSectionVars false

section
variable [Ending] {env : Env} {ns : List GoStr}

/-! ## Nodes -/

def cHost (t : Tok) : Bool := t == .dot

theorem g_host {t : T} {e : Expr} (h : hostOf t = some e) : DoneP env ns (fun self => hostname self) (Is e) [t] cHost := by
  intro rest s hf hn _
  obtain ⟨s1, a1, a2, a3⟩ := Feeds.next hf
  have hr := hf.reads
  unfold hostOf at h
  split at h
  · rename_i v
    cases h
    refine ⟨.string ⟨s.tsp, (s.pos : Int) - s.tsp⟩ v, s1, ?_, by unfold Is; simp only [bare], a3, by rw [a2, hn]⟩
    unfold hostname
    ev
    rw [hr.1]
    dsimp only
    refine EvP.prim (tokenString_str hr.2) ?_
    ev
    refine EvP.bind a1 ?_
    ev
  · rename_i v
    cases h
    refine ⟨.regexp ⟨s.tsp, (s.pos : Int) - s.tsp⟩ v, s1, ?_, by unfold Is; simp only [bare], a3, by rw [a2, hn]⟩
    unfold hostname
    ev
    rw [hr.1]
    dsimp only
    refine EvP.prim (tokenString_str hr.2) ?_
    ev
    refine EvP.bind a1 ?_
    ev
  · cases h
    refine ⟨.dflt ⟨s.tsp, (s.pos : Int) - s.tsp⟩, s1, ?_, by unfold Is; simp only [bare], a3, by rw [a2, hn]⟩
    unfold hostname
    ev
    rw [hr.1]
    dsimp only
    ev
    refine EvP.bind a1 ?_
    ev
  · cases h

theorem segmentOf_reads {t : T} {x : GoStr} {s : St} (h : segmentOf t = some x) (hr : Reads t s) :
    (s.tok = .identifier ∨ s.tok = .typeName ∨ s.tok = .integer) ∧ dottedSegment env s = .ok x s := by
  unfold dottedSegment
  ex
  unfold segmentOf at h
  split at h
  · cases h; refine ⟨.inl hr.1, ?_⟩; rw [hr.1]; exact tokenString_str hr.2
  · cases h; refine ⟨.inl hr.1, ?_⟩; rw [hr.1]; exact tokenString_str hr.2
  · cases h; refine ⟨.inr (.inl hr.1), ?_⟩; rw [hr.1]; exact tokenString_str hr.2
  · cases h; refine ⟨.inr (.inr hr.1), ?_⟩; rw [hr.1, hr.2.1]; rfl
  · cases h

def DoneSegs (env : Env) (ns : List GoStr) (ss : List GoStr) (ts : List T) : Prop :=
  ∀ rest s, Feeds env (ts ++ rest) s → s.names = ns → hd rest ≠ .dot →
    (s.tok = .identifier ∨ s.tok = .typeName ∨ s.tok = .integer) ∧
    ∃ s', Feeds env rest s' ∧ s'.names = ns ∧ ∀ start acc, ∃ p, EvN env (.dottedName start acc) s (.string p (joinStr b!"." (acc ++ ss))) s'

theorem g_seg {t : T} {x : GoStr} (h : segmentOf t = some x) : DoneSegs env ns [x] [t] := by
  intro rest s hf hn hr
  obtain ⟨s1, a1, a2, a3⟩ := Feeds.next hf
  obtain ⟨b1, b2⟩ := segmentOf_reads (env := env) h hf.reads
  refine ⟨b1, s1, a3, by rw [a2, hn], fun start acc => ⟨⟨start, (s1.pos : Int) - start⟩, EvN.step ?_⟩⟩
  show EvP env (fun self => dottedNameBody self start acc) _ _ _
  unfold dottedNameBody
  refine EvP.prim b2 (EvP.bind a1 ?_)
  ev
  refine EvP.pos (a3.ne hr) ?_
  ev

theorem g_segs {t : T} {x : GoStr} {ss : List GoStr} {ts : List T} (h : segmentOf t = some x) (hs : DoneSegs env ns ss ts) :
    DoneSegs env ns (x :: ss) (t :: y .dot :: ts) := by
  intro rest s hf hn hr
  nf at hf
  obtain ⟨s1, a1, a2, a3⟩ := Feeds.next hf
  obtain ⟨b1, b2⟩ := segmentOf_reads (env := env) h hf.reads
  obtain ⟨s2, c1, c2, c3⟩ := Feeds.next a3
  obtain ⟨-, s3, d1, d2, d3⟩ := hs rest s2 c3 (by rw [c2, a2, hn]) hr
  refine ⟨b1, s3, d1, d2, fun start acc => ?_⟩
  obtain ⟨p, d4⟩ := d3 start (acc ++ [x])
  rw [List.append_assoc] at d4
  refine ⟨p, EvN.step ?_⟩
  show EvP env (fun self => dottedNameBody self start acc) _ _ _
  unfold dottedNameBody
  refine EvP.prim b2 (EvP.bind a1 ?_)
  ev
  exact EvP.neg (not_not_intro (sym_reads a3.reads).1) (EvP.bind c1 d4)

theorem g_hostName {ss : List GoStr} {ts : List T} (h : DoneSegs env ns ss ts) :
    DoneP env ns (fun self => hostname self) (Is (.string z (dottedWith ss))) ts cHost := by
  intro rest s hf hn hr
  obtain ⟨a1, s1, a2, a3, a4⟩ := h rest s hf hn (by simpa [cHost] using hr)
  obtain ⟨p, a5⟩ := a4 s.tsp []
  rw [List.nil_append] at a5
  refine ⟨.string p (joinStr b!"." ss), s1, ?_, by unfold Is; simp only [bare, dottedWith_eq], a2, a3⟩
  unfold hostname
  ev
  rcases a1 with a1 | a1 | a1 <;> rw [a1] <;> exact a5

def cHosts (t : Tok) : Bool := !(t == .kInherits || t == .lc)

theorem cHosts_eq {t : Tok} (h : cHosts t = false) : t = .kInherits ∨ t = .lc := by
  revert h; cases t <;> intro h <;> first | contradiction | exact .inl rfl | exact .inr rfl

theorem g_lastHost {h : Expr} {th : List T} (hh : DoneP env ns (fun self => hostname self) (Is h) th cHost) :
    DoneL env ns (fun acc self => self (.hostnames acc)) [h] th cHosts := by
  intro rest s hf hn hr
  have hr := cHosts_eq hr
  obtain ⟨h', s1, a1, a2, a3, a4⟩ := hh rest s hf hn (by rcases hr with hr | hr <;> rw [hr] <;> rfl)
  unfold Is at a2
  refine ⟨[h'], s1, fun acc => EvN.step ?_, by simp only [bareL_cons, bareL_nil, a2], a3, a4⟩
  show EvP env (fun self => hostnamesBody self acc) _ _ _
  unfold hostnamesBody
  refine EvP.bind a1 ?_
  ev
  refine EvP.pos (a3.ne ?_) ?_
  · rcases hr with hr | hr <;> rw [hr] <;> nofun
  · ev

theorem g_lastHostComma {h : Expr} {th : List T} (hh : DoneP env ns (fun self => hostname self) (Is h) th cHost) :
    DoneL env ns (fun acc self => self (.hostnames acc)) [h] (th ++ [y .comma]) cHosts := by
  intro rest s hf hn hr
  nf at hf
  have hr := cHosts_eq hr
  obtain ⟨h', s1, a1, a2, a3, a4⟩ := hh _ s hf hn rfl
  obtain ⟨s2, b1, b2, b3⟩ := Feeds.next a3
  unfold Is at a2
  refine ⟨[h'], s2, fun acc => EvN.step ?_, by simp only [bareL_cons, bareL_nil, a2], b3, by rw [b2, a4]⟩
  show EvP env (fun self => hostnamesBody self acc) _ _ _
  unfold hostnamesBody
  refine EvP.bind a1 ?_
  ev
  refine EvP.neg (not_not_intro (sym_reads a3.reads).1) (EvP.bind b1 ?_)
  ev
  refine EvP.pos ?_ EvP.ret
  rw [b3.tok_eq (by rcases hr with hr | hr <;> rw [hr] <;> nofun)]
  exact hr

theorem g_hosts {h : Expr} {hs : List Expr} {th ts : List T} (hh : DoneP env ns (fun self => hostname self) (Is h) th cHost)
    (hhs : DoneL env ns (fun acc self => self (.hostnames acc)) hs ts cHosts) (ht : FirstTok opensHost ts) :
    DoneL env ns (fun acc self => self (.hostnames acc)) (h :: hs) (th ++ y .comma :: ts) cHosts := by
  intro rest s hf hn hr
  nf at hf
  obtain ⟨h', s1, a1, a2, a3, a4⟩ := hh _ s hf hn rfl
  obtain ⟨s2, b1, b2, b3⟩ := Feeds.next a3
  obtain ⟨hs', s3, c1, c2, c3, c4⟩ := hhs rest s2 b3 (by rw [b2, a4]) hr
  unfold Is at a2
  refine ⟨h' :: hs', s3, fun acc => EvN.step ?_, by simp only [bareL_cons, a2, c2], c3, c4⟩
  show EvP env (fun self => hostnamesBody self acc) _ _ _
  unfold hostnamesBody
  refine EvP.bind a1 ?_
  ev
  refine EvP.neg (not_not_intro (sym_reads a3.reads).1) (EvP.bind b1 ?_)
  ev
  refine EvP.neg ?_ ?_
  · rintro (h | h)
    · exact FirstTok.ne (k := .kInherits) ht b3 rfl rfl h
    · exact FirstTok.ne (k := .lc) ht b3 rfl rfl h
  · have := c1 (acc ++ [h'])
    rw [List.append_assoc] at this
    exact this

def DoneNodeParent (env : Env) (ns : List GoStr) (p : Option Expr) (ts : List T) : Prop :=
  ∀ rest s, Feeds env (ts ++ rest) s → s.names = ns → hd rest = .lc → ∃ p' s', bareO p' = p ∧ Feeds env rest s' ∧ s'.names = ns ∧
    ((s.tok = .kInherits ∧ ∃ s1 h, EvN env .nextToken s () s1 ∧ EvP env (fun self => hostname self) s1 h s' ∧ p' = some h) ∨
     (s.tok ≠ .kInherits ∧ p' = none ∧ s' = s))

theorem g_noNodeParent : DoneNodeParent env ns none [] := by
  intro rest s hf hn hr
  nf at hf
  exact ⟨none, s, bareO_none, hf, hn, .inr ⟨hf.ne (by rw [hr]; nofun), rfl, rfl⟩⟩

theorem g_nodeParent {h : Expr} {th : List T} (hh : DoneP env ns (fun self => hostname self) (Is h) th cHost) :
    DoneNodeParent env ns (some h) (w .kInherits :: th) := by
  intro rest s hf hn hr
  nf at hf
  obtain ⟨s1, a1, a2, a3⟩ := Feeds.next hf
  obtain ⟨h', s2, b1, b2, b3, b4⟩ := hh rest s1 a3 (by rw [a2, hn]) (by rw [hr]; rfl)
  unfold Is at b2
  exact ⟨some h', s2, by simp only [bareO_some, b2], b3, b4, .inl ⟨hf.reads.1, s1, h', a1, b1, rfl⟩⟩

theorem nodeParent_hd {p : Option Expr} {tq rest : List T} (h : G ns .nodeParent p tq) (hr : hd rest = .lc) : cHosts (hd (tq ++ rest)) = false := by
  cases h
  · rw [List.nil_append, hr]; rfl
  · rfl

theorem g_node {hs : List Expr} {p : Option Expr} {b : Expr} {th tp tb : List T}
    (hh : DoneL env ns (fun acc self => self (.hostnames acc)) hs th cHosts)
    (hp : DoneNodeParent env ns p tp) (hp' : ∀ rest, hd rest = .lc → cHosts (hd (tp ++ rest)) = false)
    (hb : DoneBlock env ns b tb) (hbt : FirstTok (isTok .lc) tb) :
    DoneP env ns (fun self => self .atom) (Is (.node z p hs b)) (w .kNode :: (th ++ (tp ++ tb))) cAtom := by
  intro rest s hf hn _
  nf at hf
  obtain ⟨s1, a1, a2, a3⟩ := Feeds.next hf
  have hlc : hd (tb ++ rest) = .lc := hd_of_lc hbt
  obtain ⟨hs', s2, b1, b2, b3, b4⟩ := hh _ s1 a3 (by rw [a2, hn]) (hp' _ hlc)
  obtain ⟨p', s3, c1, c2, c3, c4⟩ := hp _ s2 b3 b4 hlc
  obtain ⟨b', s5, e1, e2, e3, e4⟩ := hb rest s3 c2 c3
  obtain ⟨s6, f1, f2, f3⟩ := Feeds.next e3
  let e' : Expr := .node ⟨s.tsp, (s6.pos : Int) - s.tsp⟩ p' hs' b'
  refine ⟨e', { s6 with defs := s6.defs ++ [e'] }, EvN.step ?_, ?_, f3.with s6.names _, by rw [f2, e4]⟩
  · show EvP env (fun self => atomBody self) _ _ _
    unfold atomBody
    ev
    rw [hf.reads.1]
    dsimp only
    unfold nodeDefinition
    ev
    refine EvP.bind a1 (EvP.bind (at_nil b1) ?_)
    ev
    dsimp only
    have key : EvP env (fun self => do
        let body ← braces self
        nextTok self
        let pp ← here s.tsp
        addDefinition (.node pp p' hs' body)) s3 e' { s6 with defs := s6.defs ++ [e'] } := by
      refine EvP.bind e1 (EvP.bind f1 ?_)
      ev
      unfold addDefinition
      ev
    rcases c4 with ⟨g1, s7, h', g2, g3, rfl⟩ | ⟨g1, rfl, rfl⟩
    · exact EvP.pos g1 (EvP.bind g2 (EvP.bind g3 key))
    · exact EvP.neg g1 key
  · unfold Is
    simp only [e', bare, e2, c1, b2]

/-! ## Attributes -/

theorem attributeOf_reads {t : T} {name : GoStr} {s s1 : St} (h : attributeOf t = some name) (hr : Reads t s) (hx : EvN env .nextToken s () s1) :
    s.tok ≠ .multiply ∧ s.tok ≠ .semicolon ∧ s.tok ≠ .rc ∧ EvP env (fun self => identifier self) s (some name) s1 := by
  unfold identifier
  unfold attributeOf at h
  split at h
  · cases h
    rw [hr.1]
    refine ⟨nofun, nofun, nofun, ?_⟩
    ev
    refine EvP.pos hr.1 (EvP.prim (tokenString_str hr.2) (EvP.bind hx ?_))
    ev
  · cases h
    rw [hr.1]
    refine ⟨nofun, nofun, nofun, ?_⟩
    ev
    refine EvP.pos hr.1 (EvP.prim (tokenString_str hr.2) (EvP.bind hx ?_))
    ev
  · cases h
    rw [hr.1]
    refine ⟨nofun, nofun, nofun, ?_⟩
    ev
    refine EvP.neg (by rw [hr.1]; nofun) ?_
    rw [hr.1]
    refine EvP.bind hx ?_
    exact EvP.ret
  · rename_i k
    split at h
    · cases h
    · cases h
      obtain ⟨h1, -, h2, h3⟩ := hr
      rw [h1]
      refine ⟨(fun h => by rw [h] at h2; cases h2), (fun h => by rw [h] at h2; cases h2), (fun h => by rw [h] at h2; cases h2), ?_⟩
      ev
      refine EvP.neg (by rw [h1]; intro h; rw [h] at h2; cases h2) ?_
      rw [h1]
      have : keywordOf k = some (spell k) := by unfold keywordOf; rw [if_pos h2, spell_eq h2 h3]
      rw [this]
      exact EvP.bind hx EvP.ret
  · cases h

theorem attributeOperator_reads {t : T} {op : GoStr} {s : St} (h : attributeOperator t = some op) (hr : Reads t s) :
    (s.tok = .farrow ∨ s.tok = .parrow) ∧ tokenString env s = .ok op s := by
  unfold attributeOperator at h
  split at h
  · cases h; exact ⟨.inl hr.1, by rw [tokenString_nil hr.2, hr.1]; rfl⟩
  · cases h; exact ⟨.inr hr.1, by rw [tokenString_nil hr.2, hr.1]; rfl⟩
  · cases h

def DoneAttr (env : Env) (ns : List GoStr) (a : Expr) (ts : List T) : Prop :=
  ∀ rest s, Feeds env (ts ++ rest) s → s.names = ns → cExpr (hd rest) = false →
    ∃ a' s', s.tok ≠ .semicolon ∧ s.tok ≠ .rc ∧ EvP env (fun self => attributeOperation self) s a' s' ∧ bare a' = a ∧ Feeds env rest s' ∧ s'.names = ns

theorem g_attr {e : Expr} {name op : GoStr} {t u : T} {te : List T} (ht : attributeOf t = some name) (hu : attributeOperator u = some op)
    (he : DoneP env ns (fun self => self .expression) (Is e) te cExpr) : DoneAttr env ns (.attributeOp z op name e) (t :: u :: te) := by
  intro rest s hf hn hr
  nf at hf
  obtain ⟨s1, a1, a2, a3⟩ := Feeds.next hf
  obtain ⟨s2, b1, b2, b3⟩ := Feeds.next a3
  obtain ⟨e', s3, c1, c2, c3, c4⟩ := he rest s2 b3 (by rw [b2, a2, hn]) hr
  obtain ⟨d1, d2, d3, d4⟩ := attributeOf_reads ht hf.reads a1
  obtain ⟨e1, e2⟩ := attributeOperator_reads (env := env) hu a3.reads
  unfold Is at c2
  refine ⟨.attributeOp ⟨s.tsp, (s3.pos : Int) - s.tsp⟩ op name e', s3, d2, d3, ?_, by simp only [bare, c2], c3, c4⟩
  unfold attributeOperation
  ev
  refine EvP.neg d1 (EvP.bind d4 ?_)
  ev
  refine EvP.pos e1 (EvP.prim e2 (EvP.bind b1 (EvP.bind c1 ?_)))
  ev

theorem g_attrSplat {e : Expr} {te : List T} (he : DoneP env ns (fun self => self .expression) (Is e) te cExpr) :
    DoneAttr env ns (.attributesOp z e) (y .multiply :: y .farrow :: te) := by
  intro rest s hf hn hr
  nf at hf
  obtain ⟨s1, a1, a2, a3⟩ := Feeds.next hf
  obtain ⟨s2, b1, b2, b3⟩ := Feeds.next a3
  obtain ⟨e', s3, c1, c2, c3, c4⟩ := he rest s2 b3 (by rw [b2, a2, hn]) hr
  have h0 := (sym_reads hf.reads).1
  unfold Is at c2
  refine ⟨.attributesOp ⟨s.tsp, (s3.pos : Int) - s.tsp⟩ e', s3, by rw [h0]; nofun, by rw [h0]; nofun, ?_, by simp only [bare, c2], c3, c4⟩
  unfold attributeOperation
  ev
  refine EvP.pos h0 (EvP.bind a1 (EvP.prim (assertToken_ok (sym_reads a3.reads).1) (EvP.bind b1 (EvP.bind c1 ?_))))
  ev

theorem notAttrEnd_eq {t : Tok} (h : notAttrEnd t = false) : t = .semicolon ∨ t = .rc := by
  revert h; cases t <;> intro h <;> first | contradiction | exact .inl rfl | exact .inr rfl

theorem g_noAttr : DoneL env ns (fun acc self => self (.attrOps acc)) [] [] notAttrEnd := by
  intro rest s hf hn hr
  nf at hf
  refine ⟨[], s, fun acc => EvN.step ?_, bareL_nil, hf, hn⟩
  show EvP env (fun self => attrOpsBody self acc) _ _ _
  unfold attrOpsBody
  ev
  rw [List.append_nil]
  refine EvP.pos ?_ EvP.ret
  have hr := notAttrEnd_eq hr
  rw [hf.tok_eq (by rcases hr with hr | hr <;> rw [hr] <;> nofun)]
  exact hr

theorem g_lastAttr {a : Expr} {ta : List T} (h : DoneAttr env ns a ta) :
    DoneL env ns (fun acc self => self (.attrOps acc)) [a] ta notAttrEnd := by
  intro rest s hf hn hr
  have hr := notAttrEnd_eq hr
  obtain ⟨a', s1, a1, a2, a3, a4, a5, a6⟩ := h rest s hf hn (by rcases hr with hr | hr <;> rw [hr] <;> rfl)
  refine ⟨[a'], s1, fun acc => EvN.step ?_, by simp only [bareL_cons, bareL_nil, a4], a5, a6⟩
  show EvP env (fun self => attrOpsBody self acc) _ _ _
  unfold attrOpsBody
  ev
  refine EvP.neg (by rintro (h | h); exact a1 h; exact a2 h) (EvP.bind a3 ?_)
  ev
  refine EvP.pos (a5.ne ?_) EvP.ret
  rcases hr with hr | hr <;> rw [hr] <;> nofun

theorem g_attrs {a : Expr} {as : List Expr} {ta tb : List T} (h : DoneAttr env ns a ta)
    (hs : DoneL env ns (fun acc self => self (.attrOps acc)) as tb notAttrEnd) :
    DoneL env ns (fun acc self => self (.attrOps acc)) (a :: as) (ta ++ y .comma :: tb) notAttrEnd := by
  intro rest s hf hn hr
  nf at hf
  obtain ⟨a', s1, a1, a2, a3, a4, a5, a6⟩ := h _ s hf hn rfl
  obtain ⟨s2, b1, b2, b3⟩ := Feeds.next a5
  obtain ⟨as', s3, c1, c2, c3, c4⟩ := hs rest s2 b3 (by rw [b2, a6]) hr
  refine ⟨a' :: as', s3, fun acc => EvN.step ?_, by simp only [bareL_cons, a4, c2], c3, c4⟩
  show EvP env (fun self => attrOpsBody self acc) _ _ _
  unfold attrOpsBody
  ev
  refine EvP.neg (by rintro (h | h); exact a1 h; exact a2 h) (EvP.bind a3 ?_)
  ev
  refine EvP.neg (not_not_intro (sym_reads a5.reads).1) (EvP.bind b1 ?_)
  have := c1 (acc ++ [a'])
  rw [List.append_assoc] at this
  exact this

end
end PP
