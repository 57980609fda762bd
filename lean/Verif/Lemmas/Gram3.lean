import Verif.Lemmas.Gram2

/-! # Calls, access, collectors -/
namespace PP
open PP.Spec
set_option linter.unusedSimpArgs false
set_option linter.unusedSectionVars false

section
variable [Ending] {env : Env} {ns : List GoStr}

/-- A primary expression up to its loop; after the arguments of a call there is no lambda. -/
def cCalled (called : Bool) (t : Tok) : Bool := cAtom t || (called && t == .pipe)

def DonePrim (env : Env) (ns : List GoStr) (c : Bool) (ok : Expr → Prop) (ts : List T) : Prop :=
  DoneK env ns (fun self => self .primary) (fun e self => self (.primLoop e)) ok ts (cCalled c)

/-- `e` is `l.r` in the loop. -/
def IsDotted (lr : Expr × Expr) (e : Expr) : Prop :=
  ∃ p l r, e = .bin p .namedAccess l r ∧ bare (convertLhs l) = lr.1 ∧ bare r = lr.2

/-- What is called or accessed. -/
def DoneCallee (env : Env) (ns : List GoStr) (c : Bool) (ok : Expr → Prop) (ts : List T) : Prop :=
  DoneK env ns (fun self => self .primary) (fun e self => self (.primLoop e)) ok ts (fun t => cCalled c t || t == .typeName)

theorem DonePrim.callee {c : Bool} {ok : Expr → Prop} {ts : List T} (h : DonePrim env ns c ok ts) : DoneCallee env ns c ok ts := by
  intro rest s hf hn hr
  simp only [Bool.or_eq_false_iff] at hr
  exact h rest s hf hn hr.1

theorem g_typeCallee : DoneCallee env ns false (Is (.qname z b!"type")) [w .kType] := by
  intro rest s hf hn hr
  obtain ⟨s1, h1, h2, h3⟩ := Feeds.next hf
  simp only [Bool.or_eq_false_iff] at hr
  have ht : s1.tok ≠ .typeName := h3.ne (by simpa using hr.2)
  refine ⟨.qname ⟨s.tsp, (s1.pos : Int) - s.tsp⟩ b!"type", s1, rfl, h3, by rw [h2, hn], fun R hu => EvN.step (EvP.bind (t := s1) (EvN.step ?_) hu)⟩
  show EvP env (fun self => atomBody self) _ _ _
  unfold atomBody
  ev
  rw [(hf.reads).1]
  refine EvP.prim (tokenString_str hf.reads.2.1) (EvP.bind h1 ?_)
  ev
  refine EvP.neg ht ?_
  ev1
  exact EvP.of rfl

theorem g_atom {e : Expr} {ts : List T} (h : DoneP env ns (fun self => self .atom) (Is e) ts cAtom) :
    DonePrim env ns false (Is e) ts := by
  intro rest s hf hn hr
  obtain ⟨a, s', h1, h2, h3, h4⟩ := h rest s hf hn (by simpa [cCalled] using hr)
  exact ⟨a, s', h2, h3, h4, fun R hb => EvN.step (EvP.bind h1 hb)⟩

theorem primLoop_stop {e : Expr} {s : St} (hp : plain e = true) (h : cPrim s.tok = false) : EvN env (.primLoop e) s e s := by
  refine EvN.step (EvP.congr (m' := fun _ => pure e) EvP.ret fun self => ?_)
  show primLoopBody self e env s = _
  unfold primLoopBody
  ex
  revert h
  cases s.tok <;> intro h <;> (try exact absurd h (by decide)) <;> (cases e <;> (try rfl)) <;>
    (rename_i b _ _; cases b <;> (try rfl) <;> exact absurd hp (by simp [plain]))

theorem cPrim_called {c : Bool} {t : Tok} (h : cPrim t = false) : cCalled c t = false := by
  revert h
  cases t <;> intro h <;> first | (cases c <;> rfl) | exact absurd h (by decide)

theorem g_prim {c : Bool} {e : Expr} {ts : List T} (h : DonePrim env ns c (Is e) ts) (hp : plain e = true) :
    DoneP env ns (fun self => self .primary) (Is e) ts cPrim := by
  intro rest s hf hn hr
  obtain ⟨a, s', h1, h2, h3, h4⟩ := h rest s hf hn (cPrim_called hr)
  unfold Is at h1
  refine ⟨a, s', h4 _ (primLoop_stop ?_ (h2.test hr rfl)), h1, h2, h3⟩
  rw [← plain_bare, h1, hp]

theorem g_dottedEnd {l r : Expr} {ts : List T} (h : DonePrim env ns false (IsDotted (l, r)) ts) :
    DoneP env ns (fun self => self .primary) (Is (method l r [] none)) ts cPrim := by
  intro rest s hf hn hr
  obtain ⟨a, s', ⟨p, l0, r0, rfl, hl, hr0⟩, h2, h3, h4⟩ := h rest s hf hn (cPrim_called hr)
  have hc : cPrim s'.tok = false := h2.test hr rfl
  refine ⟨convertLhsToCall p l0 r0 [] none p, s', h4 _ (EvN.step (EvP.congr (m' := fun _ => pure _) EvP.ret fun self => ?_)), ?_, h2, h3⟩
  · show primLoopBody self _ env s' = _
    unfold primLoopBody
    ex
    revert hc
    cases s'.tok <;> intro hc <;> first | exact absurd hc (by decide) | rfl
  · unfold Is; simp only [convertLhsToCall, bare, method, bareL_nil, bareO_none, hl, hr0]

/-! ## Calls -/

/-- The node of a call. -/
def mkCall (f : Expr) (args : List Expr) (lam : Option Expr) (q : Pos) : Expr :=
  match f with
  | .bin p .namedAccess l r => convertLhsToCall p l r args lam q
  | _ => .call q .named true f args lam

theorem mkCall_plain {f e : Expr} (h : Is e f) (hp : plain e = true) (args : List Expr) (lam : Option Expr) (q : Pos) :
    bare (mkCall f args lam q) = .call z .named true e (bareL args) (bareO lam) := by
  unfold Is at h
  rw [← h, plain_bare] at hp
  rw [← h]
  unfold mkCall
  split
  · cases hp
  · simp only [bare]

theorem mkCall_dotted {f l r : Expr} (h : IsDotted (l, r) f) (args : List Expr) (lam : Option Expr) (q : Pos) :
    bare (mkCall f args lam q) = .call z .method true (.bin z .namedAccess l r) (bareL args) (bareO lam) := by
  obtain ⟨p, l0, r0, rfl, h1, h2⟩ := h
  simp only [mkCall, convertLhsToCall, bare, h1, h2]

theorem call_args {f : Expr} {as : List Expr} {ta rest : List T} {s : St} (ha : DoneMany env ns .arg as ta)
    (hf : Feeds env (y .lp :: (ta ++ y .rp :: rest)) s) (hn : s.names = ns) (hr : hd rest ≠ .pipe) :
    ∃ args q s', EvP env (fun self => callFunctionExpression self f) s (mkCall f args none q) s' ∧ bareL args = gather as ∧
      Feeds env rest s' ∧ s'.names = ns := by
  obtain ⟨s1, h1, h2, h3⟩ := Feeds.next hf
  obtain ⟨es, s2, h4, h5, h6, h7⟩ := ha .rp rfl _ s1 h3 (by rw [h2, hn]) rfl
  obtain ⟨s3, h8, h9, h10⟩ := Feeds.next h6
  refine ⟨joinHashEntries es, ⟨f.off, (s2.pos : Int) - f.off⟩, s3, ?_, by rw [bareL_join, h5], h10, by rw [h9, h7]⟩
  unfold callFunctionExpression
  ev
  try dsimp only
  refine EvP.pos (by rw [(sym_reads hf.reads).1]; nofun) ?_
  refine EvP.bind h1 (EvP.bind (at_nil h4) ?_)
  ev
  refine EvP.bind h8 ?_
  ev
  try dsimp only
  ev
  try dsimp only
  refine EvP.neg (h10.ne hr) ?_
  ev
  try dsimp only
  refine EvP.congr (m' := fun _ => pure (mkCall f _ _ _)) EvP.ret fun self => ?_
  cases f <;> try rfl
  rename_i k _ _
  cases k <;> rfl

theorem call_argsLambda {f l : Expr} {as : List Expr} {ta tl rest : List T} {s : St} (ha : DoneMany env ns .arg as ta)
    (hl : DoneP env ns (fun self => lambda self) (Is l) tl (fun _ => false)) (hp : FirstTok (isTok .pipe) tl)
    (hf : Feeds env (y .lp :: (ta ++ y .rp :: (tl ++ rest))) s) (hn : s.names = ns) :
    ∃ args lam q s', EvP env (fun self => callFunctionExpression self f) s (mkCall f args (some lam) q) s' ∧ bareL args = gather as ∧
      bare lam = l ∧ Feeds env rest s' ∧ s'.names = ns := by
  obtain ⟨s1, h1, h2, h3⟩ := Feeds.next hf
  obtain ⟨es, s2, h4, h5, h6, h7⟩ := ha .rp rfl _ s1 h3 (by rw [h2, hn]) rfl
  obtain ⟨s3, h8, h9, h10⟩ := Feeds.next h6
  obtain ⟨lam, s4, h11, h12, h13, h14⟩ := hl rest s3 h10 (by rw [h9, h7]) rfl
  refine ⟨joinHashEntries es, lam, ⟨f.off, ((lam.off : Int) + lam.len) - f.off⟩, s4, ?_, by rw [bareL_join, h5], h12, h13, h14⟩
  unfold callFunctionExpression
  ev
  try dsimp only
  refine EvP.pos (by rw [(sym_reads hf.reads).1]; nofun) ?_
  refine EvP.bind h1 (EvP.bind (at_nil h4) ?_)
  ev
  refine EvP.bind h8 ?_
  ev
  try dsimp only
  ev
  try dsimp only
  refine EvP.pos (by simpa [isTok] using hp.tok h10 rfl) ?_
  refine EvP.bind h11 ?_
  ev
  try dsimp only
  refine EvP.congr (m' := fun _ => pure (mkCall f _ _ _)) EvP.ret fun self => ?_
  cases f <;> try rfl
  rename_i k _ _
  cases k <;> rfl

theorem call_lambda {f l : Expr} {tl rest : List T} {s : St}
    (hl : DoneP env ns (fun self => lambda self) (Is l) tl (fun _ => false)) (hp : FirstTok (isTok .pipe) tl)
    (hf : Feeds env (tl ++ rest) s) (hn : s.names = ns) :
    ∃ lam q s', EvP env (fun self => callFunctionExpression self f) s (mkCall f [] (some lam) q) s' ∧
      bare lam = l ∧ Feeds env rest s' ∧ s'.names = ns := by
  obtain ⟨lam, s4, h11, h12, h13, h14⟩ := hl rest s hf hn rfl
  refine ⟨lam, ⟨f.off, ((lam.off : Int) + lam.len) - f.off⟩, s4, ?_, h12, h13, h14⟩
  have ht : s.tok = .pipe := by simpa [isTok] using hp.tok hf rfl
  unfold callFunctionExpression
  ev
  try dsimp only
  refine EvP.neg (by simp [ht]) ?_
  ev
  try dsimp only
  ev
  try dsimp only
  refine EvP.pos ht ?_
  refine EvP.bind h11 ?_
  ev
  try dsimp only
  refine EvP.congr (m' := fun _ => pure (mkCall f _ _ _)) EvP.ret fun self => ?_
  cases f <;> try rfl
  rename_i k _ _
  cases k <;> rfl

/-- One round of the loop for a call. -/
theorem primLoop_call {e f : Expr} {s s1 : St} (ht : s.tok = .lp ∨ s.tok = .pipe)
    (hc : EvP env (fun self => callFunctionExpression self e) s f s1) {R : Res Expr → Prop} (h : EvR env (fun self => self (.primLoop f)) s1 R) :
    EvR env (fun self => self (.primLoop e)) s R := by
  refine EvN.step ?_
  show EvR env (fun self => primLoopBody self e) _ _
  unfold primLoopBody
  ev
  rcases ht with ht | ht <;> rw [ht] <;> exact EvP.bind hc h

theorem cCalled_lp {c : Bool} : (cCalled c .lp || Tok.lp == .typeName) = false := by cases c <;> rfl

theorem cCalled_true {t : Tok} (h : cCalled true t = false) : t ≠ .pipe := by
  intro h'; rw [h'] at h; cases h

/-- Calls of anything with arguments and no lambda. -/
theorem g_callOf {c : Bool} {ok : Expr → Prop} {r : Expr} {as : List Expr} {tf ta : List T} (hf : DoneCallee env ns c ok tf)
    (ha : DoneMany env ns .arg as ta) (hr : ∀ f args q, ok f → bareL args = gather as → bare (mkCall f args none q) = r) :
    DonePrim env ns true (Is r) (tf ++ y .lp :: (ta ++ [y .rp])) := by
  intro rest s hfd hn hc
  nf at hfd
  obtain ⟨f, s1, h1, h2, h3, h4⟩ := hf _ s hfd hn cCalled_lp
  obtain ⟨args, q, s2, h5, h6, h7, h8⟩ := call_args (f := f) ha h2 h3 (cCalled_true hc)
  exact ⟨_, s2, hr f args q h1 h6, h7, h8, fun R hu => h4 _ (primLoop_call (.inl (sym_reads h2.reads).1) h5 hu)⟩

theorem g_callLambdaOf {c : Bool} {ok : Expr → Prop} {r l : Expr} {as : List Expr} {tf ta tl : List T} (hf : DoneCallee env ns c ok tf)
    (ha : DoneMany env ns .arg as ta)
    (hl : DoneP env ns (fun self => lambda self) (Is l) tl (fun _ => false)) (hp : FirstTok (isTok .pipe) tl)
    (hr : ∀ f args lam q, ok f → bareL args = gather as → bare lam = l → bare (mkCall f args (some lam) q) = r) :
    DonePrim env ns false (Is r) (tf ++ y .lp :: (ta ++ y .rp :: tl)) := by
  intro rest s hfd hn hc
  nf at hfd
  obtain ⟨f, s1, h1, h2, h3, h4⟩ := hf _ s hfd hn cCalled_lp
  obtain ⟨args, lam, q, s2, h5, h6, h6', h7, h8⟩ := call_argsLambda (f := f) ha hl hp h2 h3
  exact ⟨_, s2, hr f args lam q h1 h6 h6', h7, h8, fun R hu => h4 _ (primLoop_call (.inl (sym_reads h2.reads).1) h5 hu)⟩

theorem g_lambdaCallOf {ok : Expr → Prop} {r l : Expr} {tf tl : List T} (hf : DoneCallee env ns false ok tf)
    (hl : DoneP env ns (fun self => lambda self) (Is l) tl (fun _ => false)) (hp : FirstTok (isTok .pipe) tl)
    (hr : ∀ f lam q, ok f → bare lam = l → bare (mkCall f [] (some lam) q) = r) :
    DonePrim env ns false (Is r) (tf ++ tl) := by
  intro rest s hfd hn hc
  nf at hfd
  obtain ⟨f, s1, h1, h2, h3, h4⟩ := hf _ s hfd hn (by
    obtain ⟨t, r, rfl, hp⟩ := hp
    have : t.tok = .pipe := by simpa [isTok] using hp
    show (cCalled false t.tok || t.tok == .typeName) = false
    rw [this]; rfl)
  obtain ⟨lam, q, s2, h5, h6', h7, h8⟩ := call_lambda (f := f) hl hp h2 h3
  have ht : s1.tok = .pipe := by simpa [isTok] using hp.tok h2 rfl
  exact ⟨_, s2, hr f lam q h1 h6', h7, h8, fun R hu => h4 _ (primLoop_call (.inr ht) h5 hu)⟩

/-! ## Access and dots -/

theorem g_access {c : Bool} {e : Expr} {ks : List Expr} {te tk : List T} (h : DoneCallee env ns c (Is e) te)
    (he : isStatementName e = false) (hk : DoneMany env ns .arg ks tk) :
    DonePrim env ns false (Is (.access z e (gather ks))) (te ++ y .lb :: (tk ++ [y .rb])) := by
  intro rest s hfd hn hc
  nf at hfd
  obtain ⟨a, s1, h1, h2, h3, h4⟩ := h _ s hfd hn (by cases c <;> rfl)
  obtain ⟨s2, h5, h6, h7⟩ := Feeds.next h2
  obtain ⟨es, s3, h8, h9, h10, h11⟩ := hk .rb rfl _ s2 h7 (by rw [h6, h3]) rfl
  obtain ⟨s4, h12, h13, h14⟩ := Feeds.next h10
  unfold Is at h1
  refine ⟨.access ⟨a.off, (s3.pos : Int) - a.off⟩ a (joinHashEntries es), s4, ?_, h14, by rw [h13, h11], fun R hu => h4 _ (EvN.step ?_)⟩
  · unfold Is; simp only [bare, bareL_join, h1, h9]
  show EvR env (fun self => primLoopBody self a) _ _
  have hs : isStatementCall a = false := by rw [← isStatementCall_bare, h1, he]
  unfold primLoopBody
  ev
  rw [(sym_reads h2.reads).1]
  dsimp only
  refine EvP.bind h5 ?_
  unfold arrayExpression
  refine EvP.bind (t := s3) (a := joinHashEntries es) (EvP.bind (at_nil h8) EvP.ret) ?_
  ev
  refine EvP.bind h12 ?_
  rw [hs]
  exact hu

theorem cCalled_dot {c : Bool} : (cCalled c .dot || Tok.dot == .typeName) = false := by cases c <;> rfl

/-- The member after a dot. -/
theorem member_of {r : Expr} {t : T} {rest : List T} {s : St} (hm : memberOf t = some r) (hf : Feeds env (t :: rest) s) (e : Expr) :
    ∃ p r0 s', bare r0 = r ∧ Feeds env rest s' ∧ s'.names = s.names ∧ ∀ R : Res Expr → Prop, EvR env (fun self => self (.primLoop (.bin p .namedAccess e r0))) s' R →
      EvR env (fun self => do
        let s ← getS
        let rhs ← if s.tok = .kType then do
            let n ← tokenString
            let p ← here s.tsp
            nextTok self
            pure (.qname p n)
          else self .atom
        let p ← here e.off
        self (.primLoop (.bin p .namedAccess e rhs))) s R := by
  obtain ⟨s1, h1, h2, h3⟩ := Feeds.next hf
  have hr := hf.reads
  unfold memberOf at hm
  split at hm
  · rename_i w
    cases hm
    refine ⟨⟨e.off, (s1.pos : Int) - e.off⟩, .qname ⟨s.tsp, (s.pos : Int) - s.tsp⟩ w, s1, by simp only [bare], h3, h2, fun R hu => ?_⟩
    ev
    dsimp only
    refine EvP.neg (by rw [hr.1]; nofun) ?_
    refine EvP.bind (t := s1) (a := Expr.qname ⟨s.tsp, (s.pos : Int) - s.tsp⟩ w) (EvN.step (x := .atom) ?_) ?_
    · show EvP env (fun self => atomBody self) _ _ _
      unfold atomBody
      ev
      rw [hr.1]
      dsimp only
      refine EvP.prim (tokenString_str hr.2) ?_
      exact EvP.bind h1 EvP.ret
    · ev
      exact hu
  · rename_i k
    cases hm
    refine ⟨⟨e.off, (s1.pos : Int) - e.off⟩, .qname ⟨s.tsp, (s.pos : Int) - s.tsp⟩ (styleName k), s1, by simp only [bare], h3, h2, fun R hu => ?_⟩
    ev
    dsimp only
    refine EvP.neg (by rw [hr.1]; nofun) ?_
    refine EvP.bind (t := s1) (a := Expr.qname ⟨s.tsp, (s.pos : Int) - s.tsp⟩ (styleName k)) (EvN.step (x := .atom) ?_) ?_
    · show EvP env (fun self => atomBody self) _ _ _
      unfold atomBody
      ev
      rw [hr.1]
      dsimp only
      refine EvP.prim (tokenString_str hr.2) ?_
      exact EvP.bind h1 EvP.ret
    · ev
      exact hu
  · cases hm
    refine ⟨⟨e.off, (s1.pos : Int) - e.off⟩, .qname ⟨s.tsp, (s.pos : Int) - s.tsp⟩ b!"type", s1, by simp only [bare], h3, h2, fun R hu => ?_⟩
    ev
    dsimp only
    refine EvP.pos hr.1 ?_
    refine EvP.prim (tokenString_str hr.2.1) ?_
    ev
    refine EvP.bind h1 ?_
    ev
    exact hu
  · cases hm

theorem g_dotOf {c : Bool} {ok : Expr → Prop} {r : Expr} {lr : Expr × Expr} {t : T} {tl : List T} (h : DoneCallee env ns c ok tl)
    (hm : memberOf t = some r) (hr : ∀ p e r0, ok e → bare r0 = r → IsDotted lr (.bin p .namedAccess e r0)) :
    DonePrim env ns false (IsDotted lr) (tl ++ [y .dot, t]) := by
  intro rest s hfd hn hc
  nf at hfd
  obtain ⟨a, s1, h1, h2, h3, h4⟩ := h _ s hfd hn cCalled_dot
  obtain ⟨s2, h5, h6, h7⟩ := Feeds.next h2
  obtain ⟨p, r0, s3, h8, h9, h10, h11⟩ := member_of hm h7 a
  refine ⟨_, s3, hr p a r0 h1 h8, h9, by rw [h10, h6, h3], fun R hu => h4 _ (EvN.step ?_)⟩
  show EvR env (fun self => primLoopBody self a) _ _
  unfold primLoopBody
  ev
  rw [(sym_reads h2.reads).1]
  dsimp only
  exact EvP.bind h5 (h11 _ hu)

end
end PP
