import Verif.Lemmas.Gram0

/-! # What the parser does with a phrase -/
namespace PP
open PP.Spec
set_option linter.unusedSimpArgs false
set_option linter.unusedSectionVars false

macro "nf" "at" h:ident : tactic => `(tactic| simp only [List.append_assoc, List.cons_append, List.nil_append] at $h:ident)

/-! ## Tokens that continue a phrase -/

def cAtom : Tok → Bool
  | .kElse | .kElsif => true
  | _ => false
def cPrim (t : Tok) : Bool := contPrimary t || t == .listStart || cAtom t
/-- The levels that bind tighter. -/
def tighterThan : Lvl → List Lvl
  | .rel => []
  | .or => [.and, .compare, .equal, .shift, .additive, .mult, .match_, .in_]
  | .and => [.compare, .equal, .shift, .additive, .mult, .match_, .in_]
  | .compare => [.equal, .shift, .additive, .mult, .match_, .in_]
  | .equal => [.shift, .additive, .mult, .match_, .in_]
  | .shift => [.additive, .mult, .match_, .in_]
  | .additive => [.mult, .match_, .in_]
  | .mult => [.match_, .in_]
  | .match_ => [.in_]
  | .in_ => []
def cOps (l : Lvl) (t : Tok) : Bool := cPrim t || (tighterThan l).any (·.isOp t)
def cExpr (t : Tok) : Bool := cOps .or t || Lvl.isOp .or t || contExpr t
def cRes (t : Tok) : Bool := cExpr t || t == .lc
def isAssign : Tok → Bool
  | .assign | .addAssign | .subtractAssign => true
  | _ => false
def cAssign (t : Tok) : Bool := cRes t || isAssign t
def cOpd (l : Lvl) (t : Tok) : Bool := match l with
  | .rel => cAssign t
  | l => cOps l t
def cBin (l : Lvl) (t : Tok) : Bool := cOpd l t || l.isOp t
def cElem : Elem → Tok → Bool
  | .selEntry, t => cExpr t
  | .value, t => cExpr t
  | _, t => cBin .rel t || t == .farrow
/-- Tokens after a whole statement. -/
def cStmt (t : Tok) : Bool := cBin .rel t || t == .comma

theorem cOpd_tighter {l l' : Lvl} (h : tighter l = some l') (t : Tok) : cOpd l t = cBin l' t := by
  cases l <;> cases h <;> simp [cOpd, cBin, cOps, tighterThan, Bool.or_comm, Bool.or_left_comm, Bool.or_assoc]

theorem closer_cBin {t : Tok} (h : closer t = true) (l : Lvl) : cBin l t = false := by
  revert h
  cases t <;> intro h <;> first | contradiction | (cases l <;> rfl)

theorem closer_cElem {t : Tok} (h : closer t = true) (hf : t ≠ .farrow := by decide) (k : Elem) : cElem k t = false := by
  revert h
  cases t <;> intro h <;> first | contradiction | (cases k <;> rfl)

theorem closer_cExpr {t : Tok} (h : closer t = true) : cExpr t = false := by
  revert h
  cases t <;> intro h <;> first | rfl | contradiction

theorem cExpr_rel {t : Tok} (h : cBin .rel t = false) : cExpr t = false := by
  simp only [cBin, cOpd, cAssign, cRes, Bool.or_eq_false_iff] at h
  exact h.1.1.1

theorem operator_isOp {l : Lvl} {t : T} {k : BinKind} (h : operator l t = some k) :
    l.isOp t.tok = true ∧ cOpd l t.tok = false ∧ t.tok ≠ .listStart := by
  unfold operator at h
  split at h <;> first | exact ⟨rfl, rfl, nofun⟩ | cases h

theorem assignOperator_tok {t : T} {op : GoStr} (h : assignOperator t = some op) :
    isAssign t.tok = true ∧ cRes t.tok = false := by
  unfold assignOperator at h
  split at h <;> first | exact ⟨rfl, rfl⟩ | cases h

section
variable [Ending] {env : Env} {ns : List GoStr}

/-- The operator's text. -/
theorem operator_text {l : Lvl} {t : T} {k : BinKind} {s : St} (h : operator l t = some k) (hr : Reads t s) :
    ∃ op, tokenString env s = .ok op s ∧ l.kind op = k := by
  unfold operator at h
  split at h <;> first
    | (cases h; refine ⟨_, tokenString_nil hr.2, ?_⟩; rw [hr.1]; rfl)
    | (cases h; exact ⟨_, tokenString_str hr.2.1, rfl⟩)
    | cases h

theorem assignOperator_text {t : T} {op : GoStr} {s : St} (h : assignOperator t = some op) (hr : Reads t s) :
    tokenString env s = .ok op s := by
  unfold assignOperator at h
  split at h <;> first
    | (cases h; rw [tokenString_nil hr.2, hr.1]; rfl)
    | cases h

/-- The computation reads the phrase. -/
def DoneP {α : Type} (env : Env) (ns : List GoStr) (m : Self → P α) (ok : α → Prop) (ts : List T) (cont : Tok → Bool) : Prop :=
  ∀ rest s, Feeds env (ts ++ rest) s → s.names = ns → cont (hd rest) = false →
    ∃ a s', EvP env m s a s' ∧ ok a ∧ Feeds env rest s' ∧ s'.names = ns

/-- Reading the phrase gives the argument of a loop. -/
def DoneK {β : Type} (env : Env) (ns : List GoStr) (m : Self → P β) (loop : Expr → Self → P β) (ok : Expr → Prop) (ts : List T)
    (cont : Tok → Bool) : Prop :=
  ∀ rest s, Feeds env (ts ++ rest) s → s.names = ns → cont (hd rest) = false →
    ∃ e s', ok e ∧ Feeds env rest s' ∧ s'.names = ns ∧ ∀ R, EvR env (loop e) s' R → EvR env m s R

/-- The tree without positions is `r`. -/
def Is (r : Expr) (e : Expr) : Prop := bare e = r
def IsL (r : List Expr) (e : List Expr) : Prop := bareL e = r
def IsO (r : Option Expr) (e : Option Expr) : Prop := bareO e = r

/-- The function for the elements of a list. -/
def producer : Elem → Producer
  | .arg => .argument
  | .entry => .keyedEntry
  | .selEntry => .selectorEntry
  | .value => .expression
  | .param => .parameter
  | .prop => .stepProperty
  | .state => .stateAttribute
  | .output => .returnParameter
  | .alias => .attributeAlias

/-- Tokens that end a comma separated list. -/
def isEnd : Tok → Bool
  | .rp | .rb | .rc | .colon | .pipeEnd => true
  | _ => false

/-- Accumulating loops over a whole list. -/
def DoneL (env : Env) (ns : List GoStr) (m : List Expr → Self → P (List Expr)) (r : List Expr) (ts : List T) (cont : Tok → Bool) : Prop :=
  ∀ rest s, Feeds env (ts ++ rest) s → s.names = ns → cont (hd rest) = false →
    ∃ es s', (∀ acc, EvP env (m acc) s (acc ++ es) s') ∧ bareL es = r ∧ Feeds env rest s' ∧ s'.names = ns

theorem at_nil {m : List Expr → Self → P (List Expr)} {s s' : St} {es : List Expr} (h : ∀ acc, EvP env (m acc) s (acc ++ es) s') :
    EvP env (m []) s es s' := h []

/-- Comma separated lists. -/
def DoneMany (env : Env) (ns : List GoStr) (k : Elem) (es : List Expr) (ts : List T) : Prop :=
  ∀ close, isEnd close = true → DoneL env ns (fun acc self => self (.exprs close (producer k) acc)) es ts (fun t => t != close)

theorem DoneP.mono {α : Type} {m : Self → P α} {ok : α → Prop} {ts : List T} {c c' : Tok → Bool} (h : DoneP env ns m ok ts c)
    (hc : ∀ t, c' t = false → c t = false) : DoneP env ns m ok ts c' :=
  fun rest s hf hn hr => h rest s hf hn (hc _ hr)

/-! ## Operators -/

theorem g_operand {l : Lvl} {e : Expr} {ts : List T} (h : DoneP env ns (fun self => operand self l) (Is e) ts (cOpd l)) :
    DoneK env ns (fun self => self (.binary l)) (fun e self => self (.binLoop l e)) (Is e) ts (cOpd l) := by
  intro rest s hf hn hr
  obtain ⟨a, s', h1, h2, h3, h4⟩ := h rest s hf hn hr
  exact ⟨a, s', h2, h3, h4, fun R hb => EvN.step (EvP.bind h1 hb)⟩

theorem g_binary {l : Lvl} {a b : Expr} {t : T} {k : BinKind} {ta tb : List T}
    (ha : DoneK env ns (fun self => self (.binary l)) (fun e self => self (.binLoop l e)) (Is a) ta (cOpd l))
    (hk : operator l t = some k) (hb : DoneP env ns (fun self => operand self l) (Is b) tb (cOpd l)) :
    DoneK env ns (fun self => self (.binary l)) (fun e self => self (.binLoop l e)) (Is (.bin z k a b)) (ta ++ t :: tb) (cOpd l) := by
  intro rest s hf hn hr
  obtain ⟨ho1, ho2, ho3⟩ := operator_isOp hk
  nf at hf
  obtain ⟨e, s1, h1, h2, h3, h4⟩ := ha _ s hf hn ho2
  obtain ⟨s2, h5, h6, h7⟩ := Feeds.next h2
  obtain ⟨r, s3, h8, h9, h10, h11⟩ := hb rest s2 h7 (by rw [h6, h3]) hr
  obtain ⟨op, h12, h13⟩ := operator_text (env := env) hk h2.reads
  have h14 : s1.tok = t.tok := h2.tok_eq ho3
  refine ⟨.bin ⟨e.off, (s3.pos : Int) - e.off⟩ (l.kind op) e r, s3, ?_, h10, h11, fun R hu => ?_⟩
  · unfold Is at *; simp only [bare, h13, h1, h9]
  refine h4 _ (EvN.step ?_)
  show EvR env (fun self => binLoopBody self l e) _ _
  unfold binLoopBody
  ev
  refine EvP.pos (by rw [h14]; exact ho1) ?_
  refine EvP.prim h12 (EvP.bind h5 (EvP.bind h8 ?_))
  ev
  exact hu

theorem g_binDone {l : Lvl} {e : Expr} {ts : List T}
    (h : DoneK env ns (fun self => self (.binary l)) (fun e self => self (.binLoop l e)) (Is e) ts (cOpd l)) :
    DoneP env ns (fun self => self (.binary l)) (Is e) ts (cBin l) := by
  intro rest s hf hn hr
  simp only [cBin, Bool.or_eq_false_iff] at hr
  obtain ⟨e', s1, h1, h2, h3, h4⟩ := h rest s hf hn hr.1
  have ht : l.isOp s1.tok = false := h2.test (q := l.isOp) hr.2 (by cases l <;> rfl)
  refine ⟨e', s1, h4 _ (EvN.step ?_), h1, h2, h3⟩
  show EvP env (fun self => binLoopBody self l e') _ _ _
  unfold binLoopBody
  ev
  exact EvP.neg (by simp [ht]) EvP.ret

theorem g_opdTighter {l l' : Lvl} {e : Expr} {ts : List T} (hl : tighter l = some l')
    (h : DoneK env ns (fun self => self (.binary l')) (fun e self => self (.binLoop l' e)) (Is e) ts (cOpd l')) :
    DoneP env ns (fun self => operand self l) (Is e) ts (cOpd l) := by
  intro rest s hf hn hr
  rw [cOpd_tighter hl] at hr
  obtain ⟨a, s', h1, h2⟩ := g_binDone h rest s hf hn hr
  refine ⟨a, s', ?_, h2⟩
  cases l <;> cases hl <;> exact h1

/-! ## Assignment -/

theorem assignLoop_stop {e : Expr} {s : St} (h : isAssign s.tok = false) : EvN env (.assignLoop e) s e s := by
  refine EvN.step ?_
  show EvP env (fun self => assignLoopBody self e) _ _ _
  unfold assignLoopBody
  ev
  refine EvP.neg ?_ EvP.ret
  rintro (h' | h' | h') <;> (rw [h'] at h; cases h)

theorem lookup_style {w : GoStr} (h : ∀ k, w ≠ styleName k) : lookupStr workflowStyles w = none := by
  have h1 := h .action
  have h2 := h .resource
  have h3 := h .stateHandler
  have h4 := h .workflow
  simp only [styleName] at h1 h2 h3 h4
  simp only [lookupStr, workflowStyles, List.find?, beq_eq_false_iff_ne.2 (Ne.symm h1), beq_eq_false_iff_ne.2 (Ne.symm h2),
    beq_eq_false_iff_ne.2 (Ne.symm h3), beq_eq_false_iff_ne.2 (Ne.symm h4), Option.map]

theorem lookup_styleName (k : StepStyle) : lookupStr workflowStyles (styleName k) = some k := by
  cases k <;> decide

/-- What is not the style of a step is not the beginning of a step. -/
theorem step_of_resource {e : Expr} {s s' : St} (h : EvP env (fun self => resource self) s e s')
    (hs : env.workflow = true → ∀ p k, e ≠ .qname p (styleName k)) : EvP env (fun self => stepOrResource self) s e s' := by
  unfold stepOrResource
  ev
  refine EvP.bind h ?_
  cases hw : env.workflow with
  | false => exact EvP.neg (by simp) EvP.ret
  | true =>
    refine EvP.pos rfl ?_
    cases e with
    | qname p w =>
      dsimp only
      rw [lookup_style fun k hk => hs hw p k (by rw [hk])]
      exact EvP.ret
    | _ => exact EvP.ret

theorem g_plainRes {e : Expr} {ts : List T} (h : DoneP env ns (fun self => resource self) (Is e) ts cRes)
    (hq : ∀ rest s, Feeds env (ts ++ rest) s → env.workflow = true → ∀ k, e ≠ .qname z (styleName k)) :
    DoneP env ns (fun self => stepOrResource self) (Is e) ts cRes := by
  intro rest s hf hn hr
  obtain ⟨a, s', h1, h2, h3, h4⟩ := h rest s hf hn hr
  refine ⟨a, s', step_of_resource h1 fun hw p k he => ?_, h2, h3, h4⟩
  subst he
  exact hq rest s hf hw k h2.symm

theorem g_noAssign {e : Expr} {ts : List T} (h : DoneP env ns (fun self => stepOrResource self) (Is e) ts cRes) :
    DoneP env ns (fun self => self .assignment) (Is e) ts cAssign := by
  intro rest s hf hn hr
  simp only [cAssign, Bool.or_eq_false_iff] at hr
  obtain ⟨a, s', h1, h2, h3, h4⟩ := h rest s hf hn hr.1
  refine ⟨a, s', EvN.step ?_, h2, h3, h4⟩
  show EvP env (fun self => assignmentBody self) _ _ _
  unfold assignmentBody
  exact EvP.bind h1 (assignLoop_stop (h3.test hr.2 rfl))

theorem g_assign {a b : Expr} {t : T} {op : GoStr} {ta tb : List T}
    (ha : DoneP env ns (fun self => stepOrResource self) (Is a) ta cRes) (ho : assignOperator t = some op)
    (hb : DoneP env ns (fun self => self .assignment) (Is b) tb cAssign) :
    DoneP env ns (fun self => self .assignment) (Is (.bin z (.assignment op) a b)) (ta ++ t :: tb) cAssign := by
  intro rest s hf hn hr
  obtain ⟨ho1, ho2⟩ := assignOperator_tok ho
  nf at hf
  obtain ⟨e, s1, h1, h2, h3, h4⟩ := ha _ s hf hn ho2
  obtain ⟨s2, h5, h6, h7⟩ := Feeds.next h3
  obtain ⟨r, s3, h8, h9, h10, h11⟩ := hb rest s2 h7 (by rw [h6, h4]) hr
  have h12 := assignOperator_text (env := env) ho h3.reads
  have h14 : s1.tok = t.tok := h3.tok_eq (by show t.tok ≠ _; intro h; rw [h] at ho1; cases ho1)
  simp only [cAssign, Bool.or_eq_false_iff] at hr
  refine ⟨.bin ⟨e.off, (s3.pos : Int) - e.off⟩ (.assignment op) e r, s3, EvN.step ?_, ?_, h10, h11⟩
  · show EvP env (fun self => assignmentBody self) _ _ _
    unfold assignmentBody
    refine EvP.bind h1 (EvN.step ?_)
    show EvP env (fun self => assignLoopBody self e) _ _ _
    unfold assignLoopBody
    ev
    refine EvP.pos ?_ ?_
    · rw [h14]
      revert ho1
      cases t.tok <;> intro ho1 <;> first | exact Or.inl rfl | exact Or.inr (Or.inl rfl) | exact Or.inr (Or.inr rfl) | cases ho1
    refine EvP.prim h12 (EvP.bind h5 (EvP.bind h8 ?_))
    ev
    exact assignLoop_stop (h10.test hr.2 rfl)
  · unfold Is at *; simp only [bare, h2, h9]

/-! ## Selectors -/

/-- The loop of `selectExpression` after its first operand. -/
def selHead : Self → P Expr := fun self => do
  let e ← self (.binary .or)
  self (.selLoop e)

theorem g_noSelector {e : Expr} {ts : List T}
    (h : DoneK env ns (fun self => self (.binary .or)) (fun e self => self (.binLoop .or e)) (Is e) ts (cOpd .or)) :
    DoneK env ns selHead (fun e self => self (.selLoop e)) (Is e) ts (cBin .or) := by
  intro rest s hf hn hr
  obtain ⟨a, s', h1, h2, h3, h4⟩ := g_binDone h rest s hf hn hr
  exact ⟨a, s', h2, h3, h4, fun R hb => EvP.bind h1 hb⟩

theorem g_selector {e : Expr} {es : List Expr} {ts te : List T}
    (h : DoneK env ns selHead (fun e self => self (.selLoop e)) (Is e) ts (cBin .or))
    (hes : DoneMany env ns .selEntry es te) :
    DoneK env ns selHead (fun e self => self (.selLoop e)) (Is (.selector z e es)) (ts ++ y .qmark :: y .selc :: (te ++ [y .rc]))
      (cBin .or) := by
  intro rest s hf hn hr
  nf at hf
  obtain ⟨a, s1, h1, h2, h3, h4⟩ := h _ s hf hn rfl
  obtain ⟨s2, h5, h6, h7⟩ := Feeds.next h2
  obtain ⟨s3, h8, h9, h10⟩ := Feeds.next h7
  obtain ⟨es', s4, h11, h12, h13, h14⟩ := hes .rc rfl _ s3 h10 (by rw [h9, h6, h3]) rfl
  obtain ⟨s5, h15, h16, h17⟩ := Feeds.next h13
  refine ⟨.selector ⟨a.off, (s4.pos : Int) - a.off⟩ a es', s5, ?_, h17, by rw [h16, h14], fun R hb => h4 _ (EvN.step ?_)⟩
  · unfold Is at *; simp only [bare, h1, h12]
  show EvR env (fun self => selLoopBody self a) _ _
  unfold selLoopBody
  ev
  refine EvP.pos (sym_reads h2.reads).1 ?_
  unfold selectorsExpression
  refine EvP.bind (t := s5) (a := .selector ⟨a.off, (s4.pos : Int) - a.off⟩ a es') ?_ hb
  refine EvP.bind h5 ?_
  ev
  refine EvP.pos (sym_reads h7.reads).1 ?_
  refine EvP.bind h8 (EvP.bind (at_nil h11) ?_)
  ev
  refine EvP.bind h15 ?_
  ev

theorem selLoop_stop {e : Expr} {s : St} (h : s.tok ≠ .qmark) : EvN env (.selLoop e) s e s := by
  refine EvN.step ?_
  show EvP env (fun self => selLoopBody self e) _ _ _
  unfold selLoopBody
  ev
  exact EvP.neg h EvP.ret

theorem EvP.andThen {α β γ : Type} {m : Self → P α} {f : Self → α → P β} {g : Self → β → P γ} {s t : St} {b : β} {R : Res γ → Prop}
    (h : EvP env (fun self => m self >>= f self) s b t) (h2 : EvR env (fun self => g self b) t R) :
    EvR env (fun self => m self >>= fun x => f self x >>= g self) s R := by
  obtain ⟨k, h⟩ := h.ex
  obtain ⟨k', h2⟩ := h2.ex
  refine ⟨k + k', fun n hn => ?_⟩
  have h := h n (by omega)
  have h2 := h2 n (by omega)
  have h1 : (m (run n) >>= fun x => f (run n) x >>= g (run n)) env s = ((m (run n) >>= f (run n)) >>= g (run n)) env s := by
    show (P.bind _ _) env s = (P.bind (P.bind _ _) _) env s
    unfold P.bind
    dsimp only
    cases m (run n) env s <;> rfl
  rw [h1, bind_ok h]
  exact h2

/-- The end of `expression`. -/
def exprTail (self : Self) (e : Expr) : P Expr := do
  let t ← curTok
  if t = .kProduces ∨ t = .kConsumes then do
    let cap ← tokenString
    if isComponent e then capabilityMapping self e cap else pure e
  else pure e

theorem expression_of {e : Expr} {s s' : St} (h : EvP env selHead s e s') (hc : contExpr s'.tok = false) :
    EvN env .expression s e s' := by
  refine EvN.step ?_
  show EvP env (fun self => expressionBody self) _ _ _
  have h2 : ¬ (s'.tok = .kProduces ∨ s'.tok = .kConsumes) := by
    rintro (h | h) <;> (rw [h] at hc; cases hc)
  refine EvP.andThen (m := fun self => self (.binary .or)) (f := fun self e => self (.selLoop e)) (g := exprTail) h ?_
  unfold exprTail
  ev
  exact EvP.neg h2 EvP.ret

theorem g_sel {e : Expr} {ts : List T} (h : DoneK env ns selHead (fun e self => self (.selLoop e)) (Is e) ts (cBin .or)) :
    DoneP env ns (fun self => self .expression) (Is e) ts cExpr := by
  intro rest s hf hn hr
  have hr' : cBin .or (hd rest) = false ∧ contExpr (hd rest) = false := by
    simp only [cExpr, cBin, cOpd, Bool.or_eq_false_iff] at hr ⊢
    exact hr
  obtain ⟨a, s1, h1, h2, h3, h4⟩ := h rest s hf hn hr'.1
  have hc : contExpr s1.tok = false := h2.test hr'.2 rfl
  exact ⟨a, s1, expression_of (h4 _ (selLoop_stop (by intro h; rw [h] at hc; cases hc))) hc, h1, h2, h3⟩

theorem g_selectOne {e f : Expr} {ts te : List T} (h : DoneK env ns selHead (fun e self => self (.selLoop e)) (Is e) ts (cBin .or))
    (hf : DoneP env ns (fun self => selectorEntry self) (Is f) te cExpr) (ht : FirstTok opens te) :
    DoneP env ns (fun self => self .expression) (Is (.selector z e [f])) (ts ++ y .qmark :: te) cExpr := by
  intro rest s hfd hn hr
  have hr' : cBin .or (hd rest) = false ∧ contExpr (hd rest) = false := by
    simp only [cExpr, cBin, cOpd, Bool.or_eq_false_iff] at hr ⊢
    exact hr
  nf at hfd
  obtain ⟨a, s1, h1, h2, h3, h4⟩ := h _ s hfd hn rfl
  obtain ⟨s2, h5, h6, h7⟩ := Feeds.next h2
  have h8 : s2.tok ≠ .selc := by
    obtain ⟨t, r, rfl, ht⟩ := ht
    refine h7.ne ?_
    show t.tok ≠ _
    intro h; rw [h] at ht; cases ht
  obtain ⟨f', s3, h9, h10, h11, h12⟩ := hf rest s2 h7 (by rw [h6, h3]) hr
  have hc : contExpr s3.tok = false := h11.test hr'.2 rfl
  refine ⟨.selector ⟨a.off, (s3.pos : Int) - a.off⟩ a [f'], s3, expression_of (h4 _ (EvN.step ?_)) hc, ?_, h11, h12⟩
  · show EvP env (fun self => selLoopBody self a) _ _ _
    unfold selLoopBody
    ev
    refine EvP.pos (sym_reads h2.reads).1 ?_
    unfold selectorsExpression
    refine EvP.bind (t := s3) (a := .selector ⟨a.off, (s3.pos : Int) - a.off⟩ a [f']) ?_ ?_
    rotate_left
    · exact selLoop_stop (by intro h; rw [h] at hc; cases hc)
    refine EvP.bind h5 ?_
    ev
    refine EvP.neg h8 ?_
    refine EvP.bind h9 ?_
    ev
  · unfold Is at *; simp only [bare, bareL_cons, bareL_nil, h1, h10]

end
end PP
