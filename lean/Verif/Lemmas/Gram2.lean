import Verif.Lemmas.Gram1

/-! # Unary operators, calls, access -/
namespace PP
open PP.Spec
set_option linter.unusedSimpArgs false
set_option linter.unusedSectionVars false

section
variable [Ending] {env : Env} {ns : List GoStr}

theorem EvP.congr {α : Type} {m m' : Self → P α} {s : St} {R : Res α → Prop} (h : EvR env m' s R)
    (hm : ∀ self, m self env s = m' self env s) : EvR env m s R := by
  obtain ⟨k, h⟩ := h.ex
  exact ⟨k, fun f hf => by rw [hm]; exact h f hf⟩

theorem FirstTok.tok {p : Tok → Bool} {ts rest : List T} {s : St} (h : FirstTok p ts) (hf : Feeds env (ts ++ rest) s) (hb : p .lb = p .listStart) :
    p s.tok = true := by
  obtain ⟨t, r, rfl, h⟩ := h
  have := hf.test (q := fun t => !p t) (by show (!p t.tok) = false; simp [h]) (by simp [hb])
  simpa using this

theorem FirstTok.ne {p : Tok → Bool} {ts rest : List T} {s : St} {k : Tok} (h : FirstTok p ts) (hf : Feeds env (ts ++ rest) s)
    (hk : p k = false) (hb : p .lb = p .listStart := by decide) : s.tok ≠ k := by
  intro he
  have := h.tok hf hb
  rw [he, hk] at this
  cases this

/-! ## Unary -/

theorem g_primary {e : Expr} {ts : List T} (h : DoneP env ns (fun self => self .primary) (Is e) ts cPrim) (ht : FirstTok opensPrimary ts) :
    DoneP env ns (fun self => self .unary) (Is e) ts cPrim := by
  intro rest s hf hn hr
  obtain ⟨a, s', h1, h2⟩ := h rest s hf hn hr
  refine ⟨a, s', EvN.step (EvP.congr h1 fun self => ?_), h2⟩
  have hs := ht.tok hf rfl
  show unaryBody self env s = _
  unfold unaryBody
  ex
  revert hs
  cases s.tok <;> intro hs <;> first | rfl | exact absurd hs (by decide)

theorem g_not {e : Expr} {ts : List T} (h : DoneP env ns (fun self => self .unary) (Is e) ts cPrim) :
    DoneP env ns (fun self => self .unary) (Is (.un z .not e)) (y .not :: ts) cPrim := by
  intro rest s hf hn hr
  obtain ⟨s1, h1, h2, h3⟩ := Feeds.next hf
  obtain ⟨a, s2, h4, h5, h6, h7⟩ := h rest s1 h3 (by rw [h2, hn]) hr
  refine ⟨?w, s2, EvN.step ?e, ?_, h6, h7⟩
  case e =>
    show EvP env (fun self => unaryBody self) _ _ _
    unfold unaryBody
    ev
    rw [(sym_reads hf.reads).1]
    refine EvP.bind h1 (EvP.bind h4 ?_)
    ev
  · unfold Is at *; simp only [bare, h5]

theorem g_splat {e : Expr} {ts : List T} (h : DoneP env ns (fun self => self .unary) (Is e) ts cPrim) :
    DoneP env ns (fun self => self .unary) (Is (.un z .unfold e)) (y .multiply :: ts) cPrim := by
  intro rest s hf hn hr
  obtain ⟨s1, h1, h2, h3⟩ := Feeds.next hf
  obtain ⟨a, s2, h4, h5, h6, h7⟩ := h rest s1 h3 (by rw [h2, hn]) hr
  refine ⟨?w, s2, EvN.step ?e, ?_, h6, h7⟩
  case e =>
    show EvP env (fun self => unaryBody self) _ _ _
    unfold unaryBody
    ev
    rw [(sym_reads hf.reads).1]
    refine EvP.bind h1 (EvP.bind h4 ?_)
    ev
  · unfold Is at *; simp only [bare, h5]

theorem startsNot_append {p : T → Bool} {a b : List T} {q : Tok → Bool} (h : StartsNot p a) (ha : FirstTok q a) : StartsNot p (a ++ b) := by
  obtain ⟨t, r, rfl, -⟩ := ha
  exact h

theorem g_minus {e : Expr} {ts : List T} (h : DoneP env ns (fun self => self .primary) (Is e) ts cPrim) (ht : FirstTok opensPrimary ts)
    (hi : StartsNot isNumber ts) :
    DoneP env ns (fun self => self .unary) (Is (.un z .minus e)) (y .subtract :: ts) cPrim := by
  intro rest s hf hn hr
  obtain ⟨s1, h1, h2, h3⟩ := Feeds.next hf
  obtain ⟨c, w, hp, hc⟩ := hf.2.1.minus (.inl rfl) (startsNot_append hi ht)
  obtain ⟨a, s2, h4, h5, h6, h7⟩ := h rest s1 h3 (by rw [h2, hn]) hr
  refine ⟨?w, s2, EvN.step ?e, ?_, h6, h7⟩
  case e =>
    show EvP env (fun self => unaryBody self) _ _ _
    unfold unaryBody
    ev
    rw [(sym_reads hf.reads).1]
    refine EvP.prim (hp s rfl) ?_
    dsimp only
    refine EvP.neg (by simp [hc]) ?_
    refine EvP.bind h1 (EvP.bind h4 ?_)
    ev
  · unfold Is at *; simp only [bare, h5]

/-- An integer as a primary expression. -/
theorem primary_int {r : Nat} {v : Int} {rest : List T} {s : St} (r1 : s.tok = .integer) (r2 : s.val = .int v) (r3 : s.radix = r)
    (hx : ∃ s1, EvN env .nextToken s () s1 ∧ s1.names = s.names ∧ Feeds env rest s1) (hr : cPrim (hd rest) = false) :
    ∃ p s', EvN env .primary s (.integer p r v) s' ∧ Feeds env rest s' ∧ s'.names = s.names := by
  obtain ⟨s1, h1, h2, h3⟩ := hx
  refine ⟨?w, s1, EvN.step ?e, h3, h2⟩
  case e =>
    show EvP env (fun self => primaryBody self) _ _ _
    unfold primaryBody
    refine EvP.bind (t := s1) (a := .integer ⟨s.tsp, (s.pos : Int) - s.tsp⟩ r v) (EvN.step ?_) (EvN.step ?_)
    · show EvP env (fun self => atomBody self) _ _ _
      unfold atomBody
      ev
      simp only [r1, r2, r3]
      exact EvP.bind h1 EvP.ret
    · show EvP env (fun self => primLoopBody self _) _ _ _
      unfold primLoopBody
      ev
      have : cPrim s1.tok = false := h3.test hr rfl
      revert this
      cases s1.tok <;> intro this <;> first | exact absurd this (by decide) | exact EvP.ret

/-- A float as a primary expression. -/
theorem primary_float {v : FloatVal} {rest : List T} {s : St} (r1 : s.tok = .float) (r2 : s.val = .flt v)
    (hx : ∃ s1, EvN env .nextToken s () s1 ∧ s1.names = s.names ∧ Feeds env rest s1) (hr : cPrim (hd rest) = false) :
    ∃ p s', EvN env .primary s (.float p v) s' ∧ Feeds env rest s' ∧ s'.names = s.names := by
  obtain ⟨s1, h1, h2, h3⟩ := hx
  refine ⟨?w, s1, EvN.step ?e, h3, h2⟩
  case e =>
    show EvP env (fun self => primaryBody self) _ _ _
    unfold primaryBody
    refine EvP.bind (t := s1) (a := .float ⟨s.tsp, (s.pos : Int) - s.tsp⟩ v) (EvN.step ?_) (EvN.step ?_)
    · show EvP env (fun self => atomBody self) _ _ _
      unfold atomBody
      ev
      simp only [r1, r2]
      exact EvP.bind h1 EvP.ret
    · show EvP env (fun self => primLoopBody self _) _ _ _
      unfold primLoopBody
      ev
      have : cPrim s1.tok = false := h3.test hr rfl
      revert this
      cases s1.tok <;> intro this <;> first | exact absurd this (by decide) | exact EvP.ret

theorem g_negativeFloat {v : GoStr} :
    DoneP env ns (fun self => self .unary) (Is (.float z ⟨true, v⟩)) [.sign .subtract, .float v] cPrim := by
  intro rest s hf hn hr
  obtain ⟨c, w, hp, hc⟩ := hf.2.1.sign _ rfl
  obtain ⟨s1, h1, h2, h3⟩ := Feeds.next hf
  obtain ⟨r1, r2⟩ := h3.reads
  obtain ⟨-, -, hx⟩ := h3
  obtain ⟨s', x1, x2, x3, -⟩ := hx (.flt ⟨true, v⟩) s1.names s1.defs
  obtain ⟨p, s2, h5, h6, h7⟩ := primary_float (env := env) (s := { s1 with val := .flt ⟨true, v⟩ }) r1 rfl ⟨_, x1, x2, x3⟩ hr
  refine ⟨?w, s2, EvN.step ?e, ?_, h6, by rw [h7, ← hn, ← h2]⟩
  case e =>
    show EvP env (fun self => unaryBody self) _ _ _
    unfold unaryBody
    ev
    rw [hf.reads.1]
    refine EvP.prim (hp s rfl) ?_
    dsimp only
    refine EvP.pos hc (EvP.bind h1 ?_)
    ev
    rw [r1, r2]
    refine EvP.neg nofun ?_
    dsimp only
    refine EvP.bind (t := { s1 with val := .flt ⟨true, v⟩ }) (a := ()) ?_ ?_
    · refine EvP.of ?_
      simp only [setTokenValue, modS, r1, Bool.not_false]
    refine EvP.bind h5 ?_
    ev
  · unfold Is; simp only [Expr.setPos, bare]

theorem g_positiveFloat {v : GoStr} :
    DoneP env ns (fun self => self .unary) (Is (.float z ⟨false, v⟩)) [.sign .add, .float v] cPrim := by
  intro rest s hf hn hr
  obtain ⟨c, w, hp, hc⟩ := hf.2.1.sign _ rfl
  obtain ⟨s1, h1, h2, h3⟩ := Feeds.next hf
  obtain ⟨p, s2, h5, h6, h7⟩ := primary_float h3.reads.1 h3.reads.2 (Feeds.next h3) hr
  refine ⟨?w, s2, EvN.step ?e, ?_, h6, by rw [h7, ← hn, ← h2]⟩
  case e =>
    show EvP env (fun self => unaryBody self) _ _ _
    unfold unaryBody
    ev
    rw [hf.reads.1]
    refine EvP.prim (hp s rfl) ?_
    dsimp only
    refine EvP.pos hc (EvP.bind h1 (EvP.bind h5 ?_))
    ev
  · unfold Is; simp only [Expr.setPos, bare]

theorem negInt64_of {v : Int} (h : 0 ≤ v) : negInt64 v = -v := by
  unfold negInt64
  rw [if_neg (by omega)]

theorem g_negative {r : Nat} {v : Int} (hv : 0 ≤ v) :
    DoneP env ns (fun self => self .unary) (Is (.integer z r (-v))) [.sign .subtract, .int r v] cPrim := by
  intro rest s hf hn hr
  obtain ⟨c, w, hp, hc⟩ := hf.2.1.sign _ rfl
  obtain ⟨s1, h1, h2, h3⟩ := Feeds.next hf
  obtain ⟨r1, r2, r3⟩ := h3.reads
  obtain ⟨-, -, hx⟩ := h3
  obtain ⟨s', x1, x2, x3, -⟩ := hx (.int (-v)) s1.names s1.defs
  obtain ⟨p, s2, h5, h6, h7⟩ := primary_int (env := env) (s := { s1 with val := .int (-v) }) r1 rfl r3 ⟨_, x1, x2, x3⟩ hr
  refine ⟨?w, s2, EvN.step ?e, ?_, h6, by rw [h7, ← hn, ← h2]⟩
  case e =>
    show EvP env (fun self => unaryBody self) _ _ _
    unfold unaryBody
    ev
    rw [hf.reads.1]
    refine EvP.prim (hp s rfl) ?_
    dsimp only
    refine EvP.pos hc (EvP.bind h1 ?_)
    ev
    rw [r1, r2]
    dsimp only
    rw [negInt64_of hv]
    refine EvP.bind (t := { s1 with val := .int (-v) }) (a := ()) ?_ ?_
    · refine EvP.of ?_
      simp only [setTokenValue, modS, r1, if_pos]
    refine EvP.bind h5 ?_
    ev
  · unfold Is; simp only [Expr.setPos, bare]

theorem g_positive {r : Nat} {v : Int} :
    DoneP env ns (fun self => self .unary) (Is (.integer z r v)) [.sign .add, .int r v] cPrim := by
  intro rest s hf hn hr
  obtain ⟨c, w, hp, hc⟩ := hf.2.1.sign _ rfl
  obtain ⟨s1, h1, h2, h3⟩ := Feeds.next hf
  obtain ⟨p, s2, h5, h6, h7⟩ := primary_int h3.reads.1 h3.reads.2.1 h3.reads.2.2 (Feeds.next h3) hr
  refine ⟨?w, s2, EvN.step ?e, ?_, h6, by rw [h7, ← hn, ← h2]⟩
  case e =>
    show EvP env (fun self => unaryBody self) _ _ _
    unfold unaryBody
    ev
    rw [hf.reads.1]
    refine EvP.prim (hp s rfl) ?_
    dsimp only
    refine EvP.pos hc (EvP.bind h1 (EvP.bind h5 ?_))
    ev
  · unfold Is; simp only [Expr.setPos, bare]

/-! ## Resources -/

/-- The bodies of a resource expression. -/
def DoneBodies (env : Env) (ns : List GoStr) (bs : List Expr) (ts : List T) : Prop :=
  ∀ rest s, Feeds env (ts ++ y .rc :: rest) s → s.names = ns →
    ∃ title s1 bs' s', s.tok ≠ .multiply ∧ s.tok ≠ .rc ∧ EvN env .expression s title s1 ∧ s1.tok = .colon ∧
      (∀ acc, EvN env (.resourceBodies title acc) s1 (acc ++ bs') s') ∧ bareL bs' = bs ∧ Feeds env (y .rc :: rest) s' ∧ s'.names = ns

theorem resourceExpr_of {bs : List Expr} {tb rest : List T} {s : St} (h : DoneBodies env ns bs tb) (start : Nat) (first : Expr) (form : Form)
    (hf : Feeds env (y .lc :: (tb ++ y .rc :: rest)) s) (hn : s.names = ns) :
    ∃ p bs' s', EvN env (.resourceExpr start first form) s (.resource p form first bs') s' ∧ bareL bs' = bs ∧ Feeds env rest s' ∧ s'.names = ns := by
  obtain ⟨s1, h1, h2, h3⟩ := Feeds.next hf
  obtain ⟨title, s2, bs', s3, h4, h5, h6, h7, h8, h9, h10, h11⟩ := h rest s1 h3 (by rw [h2, hn])
  obtain ⟨s4, h12, h13, h14⟩ := Feeds.next h10
  refine ⟨⟨start, (s3.pos : Int) - start⟩, bs', s4, EvN.step ?e, h9, h14, by rw [h13, h11]⟩
  case e =>
    show EvP env (fun self => resourceExprBody self start first form) _ _ _
    unfold resourceExprBody
    ev
    refine EvP.bind h1 ?_
    ev
    dsimp only
    refine EvP.pos h4 (EvP.bind h6 ?_)
    ev
    refine EvP.neg (by simp [h7]) ?_
    dsimp only
    refine EvP.bind (at_nil h8) ?_
    ev
    refine EvP.prim (assertToken_ok (sym_reads h10.reads).1) (EvP.bind h12 EvP.ret)

theorem g_noResource {e : Expr} {ts : List T} (h : DoneP env ns (fun self => self .expression) (Is e) ts cExpr) :
    DoneP env ns (fun self => resource self) (Is e) ts cRes := by
  intro rest s hf hn hr
  simp only [cRes, Bool.or_eq_false_iff] at hr
  obtain ⟨a, s', h1, h2, h3, h4⟩ := h rest s hf hn hr.1
  refine ⟨a, s', ?_, h2, h3, h4⟩
  unfold resource
  refine EvP.bind h1 ?_
  ev
  exact EvP.neg (h3.ne (by simpa using hr.2)) EvP.ret

/-- The type of a resource. -/
def DoneResType (env : Env) (ns : List GoStr) (hidden : Bool) (e : Expr) (ts : List T) : Prop :=
  DoneP env ns (match hidden with | true => fun self => self .primary | false => fun self => self .expression) (Is e) ts (fun t => t != .lc)

theorem g_resource {e : Expr} {bs : List Expr} {te tb : List T} (h : DoneResType env ns false e te)
    (hb : DoneBodies env ns bs tb) :
    DoneP env ns (fun self => resource self) (Is (.resource z .regular e bs)) (te ++ y .lc :: (tb ++ [y .rc])) cRes := by
  intro rest s hf hn hr
  nf at hf
  obtain ⟨a, s1, h1, h2, h3, h4⟩ := h _ s hf hn rfl
  obtain ⟨p, bs', s2, h5, h6, h7, h8⟩ := resourceExpr_of hb a.off a .regular h3 h4
  refine ⟨.resource p .regular a bs', s2, ?e, ?_, h7, h8⟩
  case e =>
    unfold resource
    refine EvP.bind h1 ?_
    ev
    exact EvP.pos (sym_reads h3.reads).1 h5
  · unfold Is at *; simp only [bare, h2, h6]

theorem g_virtual {e : Expr} {bs : List Expr} {te tb : List T} (h : DoneResType env ns true e te)
    (hb : DoneBodies env ns bs tb) :
    DoneP env ns (fun self => self .unary) (Is (.resource z .virtual e bs)) (y .at_ :: (te ++ y .lc :: (tb ++ [y .rc]))) cPrim := by
  intro rest s hf hn hr
  nf at hf
  obtain ⟨s0, h01, h02, h03⟩ := Feeds.next hf
  obtain ⟨a, s1, h1, h2, h3, h4⟩ := h _ s0 h03 (by rw [h02, hn]) rfl
  obtain ⟨p, bs', s2, h5, h6, h7, h8⟩ := resourceExpr_of hb s.tsp a .virtual h3 h4
  refine ⟨.resource p .virtual a bs', s2, EvN.step ?e, ?_, h7, h8⟩
  case e =>
    show EvP env (fun self => unaryBody self) _ _ _
    unfold unaryBody
    ev
    rw [(sym_reads hf.reads).1]
    exact EvP.bind h01 (EvP.bind h1 (EvP.prim (assertToken_ok (sym_reads h3.reads).1) h5))
  · unfold Is at *; simp only [bare, h2, h6]

theorem g_exported {e : Expr} {bs : List Expr} {te tb : List T} (h : DoneResType env ns true e te)
    (hb : DoneBodies env ns bs tb) :
    DoneP env ns (fun self => self .unary) (Is (.resource z .exported e bs)) (y .atat :: (te ++ y .lc :: (tb ++ [y .rc]))) cPrim := by
  intro rest s hf hn hr
  nf at hf
  obtain ⟨s0, h01, h02, h03⟩ := Feeds.next hf
  obtain ⟨a, s1, h1, h2, h3, h4⟩ := h _ s0 h03 (by rw [h02, hn]) rfl
  obtain ⟨p, bs', s2, h5, h6, h7, h8⟩ := resourceExpr_of hb s.tsp a .exported h3 h4
  refine ⟨.resource p .exported a bs', s2, EvN.step ?e, ?_, h7, h8⟩
  case e =>
    show EvP env (fun self => unaryBody self) _ _ _
    unfold unaryBody
    ev
    rw [(sym_reads hf.reads).1]
    exact EvP.bind h01 (EvP.bind h1 (EvP.prim (assertToken_ok (sym_reads h3.reads).1) h5))
  · unfold Is at *; simp only [bare, h2, h6]

end
end PP
