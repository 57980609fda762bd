import Verif.Lemmas.Err3

/-! # Wrong phrases: definitions -/
namespace PP
open PP.Spec
set_option linter.unusedSimpArgs false
set_option linter.unusedSectionVars false

section
variable [Ending] {env : Env} {ns : List GoStr} {rest : List T} {c : Code} {p : Where}

/-! ## Classes -/

/-- `class` and its name. -/
theorem class_after {n : GoStr} {t : T} {r : List T} {s : St} (ht : definitionName t = some n) (hf : Feeds env (w .kClass :: t :: r) s) (hn : s.names = ns) :
    ∃ s2, Feeds env r s2 ∧ s2.names = ns ++ [local_ n] ∧ ∀ R, EvR env (fun self => do
      let ps ← optParameterList self
      let t ← curTok
      let parent ← if t = .kInherits then do
          nextTok self
          let t ← curTok
          if t = .kDefault then do
            nextTok self
            pure b!"default"
          else className self
        else pure []
      let body ← braces self
      nextTok self
      popName
      let qn ← qualifiedName (local_ n)
      let p ← here s.tsp
      addDefinition (.namedDef p (.hostClass parent) qn ps body)) s2 R → EvR env (fun self => self .atom) s R := by
  obtain ⟨s1, a1, a2, a3⟩ := Feeds.next hf
  obtain ⟨s2, b1, b2, b3⟩ := className_of ht a3
  have b3' : s2.names = ns := by rw [b3, a2, hn]
  have b2 := b2.with (s2.names ++ [local_ n]) s2.defs
  refine ⟨_, b2, by show s2.names ++ _ = _; rw [b3'], fun R h => EvN.step ?_⟩
  show EvR env (fun self => atomBody self) _ _
  unfold atomBody
  ev
  rw [hf.reads.1]
  dsimp only
  refine EvP.prim (tokenString_str hf.reads.2.1) (EvP.bind a1 ?_)
  ev
  refine EvP.neg (a3.ne ?_) ?_
  · show t.tok ≠ _
    rcases definitionName_tok ht with h | h <;> rw [h] <;> nofun
  unfold classExpression pushName
  refine EvP.bind b1 ?_
  rw [← local_eq]
  ev1
  exact h

theorem b_className (h : nameIssue (hd rest) = some c) (h1 : hd rest ≠ .lc) : BadP env ns rest c .start (fun self => self .atom) [w .kClass] := by
  intro s hf hn
  nf at hf
  obtain ⟨s1, a1, a2, a3⟩ := Feeds.next hf
  refine EvN.step ?_
  show EvR env (fun self => atomBody self) _ _
  unfold atomBody
  ev
  rw [hf.reads.1]
  dsimp only
  refine EvP.prim (tokenString_str hf.reads.2.1) (EvP.bind a1 ?_)
  ev
  refine EvP.neg (a3.ne h1) ?_
  unfold classExpression
  exact EvF.bind (className_fails a3 h)

theorem b_classParams {n : GoStr} {t : T} {ts : List T} (ht : definitionName t = some n)
    (h : BadP env (ns ++ [local_ n]) rest c p (fun self => optParameterList self) ts) :
    BadP env ns rest c p (fun self => self .atom) (w .kClass :: t :: ts) := by
  intro s hf hn
  nf at hf
  obtain ⟨s2, a1, a2, a3⟩ := class_after ht hf hn
  exact a3 _ (EvF.bind (h s2 a1 a2))

theorem b_classBlock {n q : GoStr} {ps : List Expr} {t : T} {tp tq tb : List T} (ht : definitionName t = some n)
    (hp : DoneP env (ns ++ [local_ n]) (fun self => optParameterList self) (IsL ps) tp cParams)
    (hq : DoneParent env (ns ++ [local_ n]) q tq) (hq' : cParams (hd (tq ++ (tb ++ rest))) = false) (hi : hd (tb ++ rest) ≠ .kInherits)
    (hb : BadP env (ns ++ [local_ n]) rest c p (fun self => braces self) tb) :
    BadP env ns rest c p (fun self => self .atom) (w .kClass :: t :: (tp ++ (tq ++ tb))) := by
  intro s hf hn
  nf at hf
  obtain ⟨s2, a1, a2, a3⟩ := class_after ht hf hn
  obtain ⟨ps', s3, c1, c2, c3, c4⟩ := hp _ _ a1 a2 hq'
  obtain ⟨s4, d1, d2, d3⟩ := hq _ s3 c3 c4 hi
  refine a3 _ (EvP.bind c1 ?_)
  ev
  dsimp only
  have key := hb s4 d1 d2
  rcases d3 with ⟨g1, s7, g2, g3⟩ | ⟨g1, rfl, rfl⟩
  · refine EvP.pos g1 (EvP.bind g2 ?_)
    ev
    rcases g3 with ⟨g4, rfl, g5⟩ | ⟨g4, g5⟩
    · exact EvP.pos g4 (EvP.bind g5 (EvP.bind EvP.ret (EvF.bind key)))
    · exact EvP.neg g4 (EvP.bind g5 (EvF.bind key))
  · exact EvP.neg g1 (EvP.bind EvP.ret (EvF.bind key))

theorem b_parentName {n : GoStr} {ps : List Expr} {t : T} {tp : List T} (ht : definitionName t = some n)
    (hp : DoneP env (ns ++ [local_ n]) (fun self => optParameterList self) (IsL ps) tp cParams)
    (h : nameIssue (hd rest) = some c) (h1 : hd rest ≠ .kDefault) :
    BadP env ns rest c .start (fun self => self .atom) (w .kClass :: t :: (tp ++ [w .kInherits])) := by
  intro s hf hn
  nf at hf
  obtain ⟨s2, a1, a2, a3⟩ := class_after ht hf hn
  obtain ⟨ps', s3, c1, c2, c3, c4⟩ := hp _ _ a1 a2 rfl
  obtain ⟨s4, d1, d2, d3⟩ := Feeds.next c3
  refine a3 _ (EvP.bind c1 ?_)
  ev
  dsimp only
  refine EvP.pos c3.reads.1 (EvP.bind d1 ?_)
  ev
  exact EvP.neg (d3.ne h1) (EvF.bind (className_fails d3 h))

/-! ## Definitions of types of resources -/

theorem define_atom {k : Tok} {s : St} {R : Res Expr → Prop} (hk : definesName k = true) (ht : s.tok = k)
    (h : ∀ app, EvR env (fun self => resourceDefinition self app) s R) : EvR env (fun self => self .atom) s R := by
  refine EvN.step ?_
  show EvR env (fun self => atomBody self) _ _
  unfold atomBody
  ev
  unfold definesName at hk
  split at hk
  · rw [ht]; exact h false
  · rw [ht]; exact h true
  · cases hk

theorem define_word {k : Tok} {r : List T} {s : St} (hk : definesName k = true) (hf : Feeds env (w k :: r) s) : s.tok = k := by
  unfold definesName at hk
  split at hk
  · exact hf.reads.1
  · exact hf.reads.1
  · cases hk

theorem b_defineName {k : Tok} (hk : definesName k = true) (h : nameIssue (hd rest) = some c) :
    BadP env ns rest c .start (fun self => self .atom) [w k] := by
  intro s hf hn
  nf at hf
  obtain ⟨s1, a1, a2, a3⟩ := Feeds.next hf
  refine define_atom hk (define_word hk hf) fun app => ?_
  unfold resourceDefinition
  ev
  exact EvP.bind a1 (EvF.bind (className_fails a3 h))

theorem b_defineParams {k : Tok} {n : GoStr} {t : T} {ts : List T} (hk : definesName k = true) (ht : definitionName t = some n)
    (h : BadP env ns rest c p (fun self => optParameterList self) ts) :
    BadP env ns rest c p (fun self => self .atom) (w k :: t :: ts) := by
  intro s hf hn
  nf at hf
  obtain ⟨s1, a1, a2, a3⟩ := Feeds.next hf
  obtain ⟨s2, b1, b2, b3⟩ := className_of ht a3
  refine define_atom hk (define_word hk hf) fun app => ?_
  unfold resourceDefinition
  ev
  exact EvP.bind a1 (EvP.bind b1 (EvF.bind (h s2 b2 (by rw [b3, a2, hn]))))

theorem b_defineBlock {k : Tok} {n : GoStr} {ps : List Expr} {t : T} {tp tb : List T} (hk : definesName k = true) (ht : definitionName t = some n)
    (hp : DoneP env ns (fun self => optParameterList self) (IsL ps) tp cParams) (h1 : cParams (hd (tb ++ rest)) = false)
    (h : BadP env ns rest c p (fun self => braces self) tb) :
    BadP env ns rest c p (fun self => self .atom) (w k :: t :: (tp ++ tb)) := by
  intro s hf hn
  nf at hf
  obtain ⟨s1, a1, a2, a3⟩ := Feeds.next hf
  obtain ⟨s2, b1, b2, b3⟩ := className_of ht a3
  obtain ⟨ps', s3, c1, c2, c3, c4⟩ := hp _ s2 b2 (by rw [b3, a2, hn]) h1
  refine define_atom hk (define_word hk hf) fun app => ?_
  unfold resourceDefinition
  ev
  exact EvP.bind a1 (EvP.bind b1 (EvP.bind c1 (EvF.bind (h s3 c3 c4))))

/-! ## Functions and plans -/

/-- The names inside of a function or a plan. -/
def innerNames (ns : List GoStr) (plan : Bool) (n : GoStr) : List GoStr := if plan then ns ++ [n] else ns

/-- The keyword of functions or plans. -/
def functionWord (plan : Bool) : Tok := if plan then .kPlan else .kFunction

theorem function_atom {plan : Bool} {s : St} {R : Res Expr → Prop} (ht : s.tok = functionWord plan)
    (h : EvR env (fun self => functionDefinition self plan) s R) : EvR env (fun self => self .atom) s R := by
  refine EvN.step ?_
  show EvR env (fun self => atomBody self) _ _
  unfold atomBody
  ev
  cases plan <;> (rw [ht]; exact h)

theorem function_word {plan : Bool} {r : List T} {s : St} (hf : Feeds env (w (functionWord plan) :: r) s) : s.tok = functionWord plan := by
  cases plan <;> exact hf.reads.1

theorem function_after {plan : Bool} {n : GoStr} {t : T} {r : List T} {s : St} (ht : definitionName t = some n)
    (hf : Feeds env (w (functionWord plan) :: t :: r) s) (hn : s.names = ns) :
    ∃ s2, Feeds env r s2 ∧ s2.names = innerNames ns plan n ∧ ∀ R, EvR env (fun self => do
      let ps ← optParameterList self
      let rt ← optReturnType self
      let block ← braces self
      nextTok self
      if plan then popName
      let p ← here s.tsp
      addDefinition (.function p plan n ps block rt)) s2 R → EvR env (fun self => self .atom) s R := by
  obtain ⟨s1, a1, a2, a3⟩ := Feeds.next hf
  obtain ⟨s2, b1, b2, b3⟩ := Feeds.next a3
  have b2' : s2.names = ns := by rw [b2, a2, hn]
  have hx := definitionName_reads ht a3.reads
  cases plan
  · refine ⟨s2, b3, b2', fun R h => function_atom (function_word hf) ?_⟩
    unfold functionDefinition
    ev
    refine EvP.bind a1 ?_
    ev
    refine EvP.neg (not_not_intro hx.1) (EvP.prim (tokenString_str hx.2) (EvP.bind b1 ?_))
    dsimp only
    exact EvP.neg nofun h
  · refine ⟨_, b3.with (s2.names ++ [n]) s2.defs, by show s2.names ++ _ = _; rw [b2']; rfl, fun R h => function_atom (function_word hf) ?_⟩
    unfold functionDefinition pushName
    ev
    refine EvP.bind a1 ?_
    ev
    refine EvP.neg (not_not_intro hx.1) (EvP.prim (tokenString_str hx.2) (EvP.bind b1 ?_))
    dsimp only
    refine EvP.pos rfl ?_
    ev1
    exact h

theorem b_functionName {k : Tok} (hk : functionIssue k = some c) (h1 : hd rest ≠ .identifier) (h2 : hd rest ≠ .typeName) :
    BadP env ns rest c .start (fun self => self .atom) [w k] := by
  have key : ∀ plan, BadP env ns rest (if plan then .parseExpectedNameAfterPlan else .parseExpectedNameAfterFunction) .start (fun self => self .atom) [w (functionWord plan)] := by
    intro plan s hf hn
    nf at hf
    obtain ⟨s1, a1, a2, a3⟩ := Feeds.next hf
    refine function_atom (function_word hf) ?_
    unfold functionDefinition
    ev
    refine EvP.bind a1 ?_
    ev
    refine EvP.pos ?_ (EvF.start a3)
    rintro (h | h)
    · exact a3.ne h1 nofun h
    · exact a3.ne h2 nofun h
  unfold functionIssue at hk
  split at hk
  · cases hk; exact key false
  · cases hk; exact key true
  · cases hk

theorem b_functionParams {plan : Bool} {n : GoStr} {t : T} {ts : List T} (ht : definitionName t = some n)
    (h : BadP env (innerNames ns plan n) rest c p (fun self => optParameterList self) ts) :
    BadP env ns rest c p (fun self => self .atom) (w (functionWord plan) :: t :: ts) := by
  intro s hf hn
  nf at hf
  obtain ⟨s2, a1, a2, a3⟩ := function_after ht hf hn
  exact a3 _ (EvF.bind (h s2 a1 a2))

theorem b_functionRet {plan : Bool} {n : GoStr} {ps : List Expr} {t : T} {tp ts : List T} (ht : definitionName t = some n)
    (hp : DoneP env (innerNames ns plan n) (fun self => optParameterList self) (IsL ps) tp cParams) (h1 : cParams (hd (ts ++ rest)) = false)
    (h : BadP env (innerNames ns plan n) rest c p (fun self => optReturnType self) ts) :
    BadP env ns rest c p (fun self => self .atom) (w (functionWord plan) :: t :: (tp ++ ts)) := by
  intro s hf hn
  nf at hf
  obtain ⟨s2, a1, a2, a3⟩ := function_after ht hf hn
  obtain ⟨ps', s3, c1, c2, c3, c4⟩ := hp _ s2 a1 a2 h1
  exact a3 _ (EvP.bind c1 (EvF.bind (h s3 c3 c4)))

theorem b_functionBlock {plan : Bool} {n : GoStr} {ps : List Expr} {r : Option Expr} {t : T} {tp tr tb : List T} (ht : definitionName t = some n)
    (hp : DoneP env (innerNames ns plan n) (fun self => optParameterList self) (IsL ps) tp cParams) (h1 : cParams (hd (tr ++ (tb ++ rest))) = false)
    (hr : DoneP env (innerNames ns plan n) (fun self => optReturnType self) (IsO r) tr cRet) (h2 : cRet (hd (tb ++ rest)) = false)
    (h : BadP env (innerNames ns plan n) rest c p (fun self => braces self) tb) :
    BadP env ns rest c p (fun self => self .atom) (w (functionWord plan) :: t :: (tp ++ (tr ++ tb))) := by
  intro s hf hn
  nf at hf
  obtain ⟨s2, a1, a2, a3⟩ := function_after ht hf hn
  obtain ⟨ps', s3, c1, c2, c3, c4⟩ := hp _ s2 a1 a2 h1
  obtain ⟨r', s4, d1, d2, d3, d4⟩ := hr _ s3 c3 c4 h2
  exact a3 _ (EvP.bind c1 (EvP.bind d1 (EvF.bind (h s4 d3 d4))))

/-! ## Nodes and sites -/

theorem b_site {tb : List T} (h : BadP env ns rest c p (fun self => braces self) tb) : BadP env ns rest c p (fun self => self .atom) (w .kSite :: tb) := by
  intro s hf hn
  nf at hf
  obtain ⟨s1, a1, a2, a3⟩ := Feeds.next hf
  refine EvN.step ?_
  show EvR env (fun self => atomBody self) _ _
  unfold atomBody
  ev
  rw [hf.reads.1]
  dsimp only
  unfold siteDefinition
  ev
  exact EvP.bind a1 (EvF.bind (h s1 a3 (by rw [a2, hn])))

/-- The hosts of a node: they fail, or the next token is neither `inherits` nor a brace. -/
def afterHosts (t : Tok) : Bool := t == .kInherits || t == .lc

def BadHosts (env : Env) (ns : List GoStr) (rest : List T) (c : Code) (p : Where) (ts : List T) : Prop :=
  ∀ s, Feeds env (ts ++ rest) s → s.names = ns → ∀ acc, Ends env rest c p afterHosts (fun self => self (.hostnames acc)) s

theorem node_atom {r : List T} {s : St} {R : Res Expr → Prop} (hf : Feeds env (w .kNode :: r) s)
    (h : EvR env (fun self => nodeDefinition self) s R) : EvR env (fun self => self .atom) s R := by
  refine EvN.step ?_
  show EvR env (fun self => atomBody self) _ _
  unfold atomBody
  ev
  rw [hf.reads.1]
  exact h

theorem b_nodeHosts {ts : List T} (h : BadHosts env ns rest c p ts) : BadP env ns rest c p (fun self => self .atom) (w .kNode :: ts) := by
  intro s hf hn
  nf at hf
  obtain ⟨s1, a1, a2, a3⟩ := Feeds.next hf
  refine node_atom hf ?_
  unfold nodeDefinition
  ev
  refine EvP.bind a1 (Ends.bind (h s1 a3 (by rw [a2, hn]) []) fun hs s2 b1 b2 => ?_)
  simp only [afterHosts, Bool.or_eq_false_iff, beq_eq_false_iff_ne] at b2
  ev
  dsimp only
  refine EvP.neg (b1.ne b2.1) (EvP.bind EvP.ret ?_)
  unfold braces
  exact EvF.bind (EvF.bind (EvF.assert b1 (b1.ne b2.2)))

theorem node_after {hs : List Expr} {th r : List T} {s : St} (hh : DoneL env ns (fun acc self => self (.hostnames acc)) hs th cHosts)
    (hf : Feeds env (w .kNode :: (th ++ r)) s) (hn : s.names = ns) (hr : cHosts (hd r) = false) :
    ∃ s2 hs', Feeds env r s2 ∧ s2.names = ns ∧ ∀ R, EvR env (fun self => do
      let t ← curTok
      let parent ← if t = .kInherits then do
          nextTok self
          let h ← hostname self
          pure (some h)
        else pure none
      let block ← braces self
      nextTok self
      let p ← here s.tsp
      addDefinition (.node p parent hs' block)) s2 R → EvR env (fun self => self .atom) s R := by
  obtain ⟨s1, a1, a2, a3⟩ := Feeds.next hf
  obtain ⟨hs', s2, b1, b2, b3, b4⟩ := hh _ s1 a3 (by rw [a2, hn]) hr
  refine ⟨s2, hs', b3, b4, fun R h => node_atom hf ?_⟩
  unfold nodeDefinition
  ev
  exact EvP.bind a1 (EvP.bind (at_nil b1) h)

theorem b_nodeParent {hs : List Expr} {th ts : List T} (hh : DoneL env ns (fun acc self => self (.hostnames acc)) hs th cHosts)
    (h : BadP env ns rest c p (fun self => hostname self) ts) :
    BadP env ns rest c p (fun self => self .atom) (w .kNode :: (th ++ w .kInherits :: ts)) := by
  intro s hf hn
  nf at hf
  obtain ⟨s2, hs', a1, a2, a3⟩ := node_after hh hf hn rfl
  obtain ⟨s3, b1, b2, b3⟩ := Feeds.next a1
  refine a3 _ ?_
  ev
  dsimp only
  exact EvP.pos a1.reads.1 (EvP.bind b1 (EvF.bind (h s3 b3 (by rw [b2, a2]))))

theorem b_nodeBlock {hs : List Expr} {th tb : List T} (hh : DoneL env ns (fun acc self => self (.hostnames acc)) hs th cHosts)
    (h1 : hd (tb ++ rest) = .lc) (h : BadP env ns rest c p (fun self => braces self) tb) :
    BadP env ns rest c p (fun self => self .atom) (w .kNode :: (th ++ tb)) := by
  intro s hf hn
  nf at hf
  obtain ⟨s2, hs', a1, a2, a3⟩ := node_after hh hf hn (by rw [h1]; rfl)
  refine a3 _ ?_
  ev
  dsimp only
  exact EvP.neg (Feeds.ne (ts := tb ++ rest) a1 (by rw [h1]; nofun)) (EvP.bind EvP.ret (EvF.bind (h s2 a1 a2)))

theorem b_nodeParentBlock {hs : List Expr} {h0 : Expr} {th tp tb : List T} (hh : DoneL env ns (fun acc self => self (.hostnames acc)) hs th cHosts)
    (hp : DoneP env ns (fun self => hostname self) (Is h0) tp cHost)
    (h1 : hd (tb ++ rest) ≠ .dot) (h : BadP env ns rest c p (fun self => braces self) tb) :
    BadP env ns rest c p (fun self => self .atom) (w .kNode :: (th ++ w .kInherits :: (tp ++ tb))) := by
  intro s hf hn
  nf at hf
  obtain ⟨s2, hs', a1, a2, a3⟩ := node_after hh hf hn rfl
  obtain ⟨s3, b1, b2, b3⟩ := Feeds.next a1
  obtain ⟨h', s4, c1, c2, c3, c4⟩ := hp _ s3 b3 (by rw [b2, a2]) (by simpa [cHost] using h1)
  refine a3 _ ?_
  ev
  dsimp only
  exact EvP.pos a1.reads.1 (EvP.bind b1 (EvP.bind c1 (EvP.bind EvP.ret (EvF.bind (h s4 c3 c4)))))

theorem b_hosts {ts : List T} (h : BadP env ns rest c p (fun self => hostname self) ts) : BadHosts env ns rest c p ts := by
  intro s hf hn acc
  refine .inl (EvN.step ?_)
  show EvR env (fun self => hostnamesBody self acc) _ _
  unfold hostnamesBody
  exact EvF.bind (h s hf hn)

theorem b_moreHosts {h0 : Expr} {th ts : List T} (hh : DoneP env ns (fun self => hostname self) (Is h0) th cHost) (h : BadHosts env ns rest c p ts)
    (h1 : hd (ts ++ rest) ≠ .kInherits) (h2 : hd (ts ++ rest) ≠ .lc) : BadHosts env ns rest c p (th ++ y .comma :: ts) := by
  intro s hf hn acc
  nf at hf
  obtain ⟨h', s1, a1, a2, a3, a4⟩ := hh _ s hf hn rfl
  obtain ⟨s2, b1, b2, b3⟩ := Feeds.next a3
  have b3 : Feeds env (ts ++ rest) s2 := b3
  have step : ∀ R, EvR env (fun self => self (.hostnames (acc ++ [h']))) s2 R → EvR env (fun self => self (.hostnames acc)) s R := by
    intro R hx
    refine EvN.step ?_
    show EvR env (fun self => hostnamesBody self acc) _ _
    unfold hostnamesBody
    refine EvP.bind a1 ?_
    ev
    refine EvP.neg (not_not_intro (sym_reads a3.reads).1) (EvP.bind b1 ?_)
    ev
    exact EvP.neg (by rintro (h | h); exact b3.ne h1 nofun h; exact b3.ne h2 nofun h) hx
  rcases h s2 b3 (by rw [b2, a4]) (acc ++ [h']) with h | ⟨a, s', g1, g2, g3⟩
  · exact .inl (step _ h)
  · exact .inr ⟨a, s', step _ g1, g2, g3⟩

theorem b_nodeBrace {h0 : Expr} {th : List T} (hh : DoneP env ns (fun self => hostname self) (Is h0) th cHost)
    (h1 : hd rest ≠ .comma) (h2 : hd rest ≠ .dot) (h3 : hd rest ≠ .kInherits) (h4 : hd rest ≠ .lc) : BadHosts env ns rest .parseExpectedToken .start th := by
  intro s hf hn acc
  obtain ⟨h', s1, a1, a2, a3, a4⟩ := hh _ s hf hn (by simpa [cHost] using h2)
  refine .inr ⟨acc ++ [h'], s1, EvN.step ?_, a3, by simp [afterHosts, h3, h4], rfl, rfl⟩
  show EvP env (fun self => hostnamesBody self acc) _ _ _
  unfold hostnamesBody
  refine EvP.bind a1 ?_
  ev
  exact EvP.pos (a3.ne h1) EvP.ret

theorem b_host (h : startsHost (hd rest) = false) : BadP env ns rest .parseExpectedHostname .after (fun self => hostname self) [] := by
  intro s hf hn
  nf at hf
  have ht : startsHost s.tok = false := hf.test h rfl
  unfold hostname
  ev
  split
  all_goals first | exact EvF.after hf | (rename_i h'; rw [h'] at ht; cases ht)

theorem b_hostName {t : T} {x : GoStr} {ts : List T} (ht : segmentOf t = some x)
    (h : ∀ start acc, BadP env ns rest c p (fun self => self (.dottedName start acc)) ts) (start : Nat) (acc : List GoStr) :
    BadP env ns rest c p (fun self => self (.dottedName start acc)) (t :: y .dot :: ts) := by
  intro s hf hn
  nf at hf
  obtain ⟨s1, a1, a2, a3⟩ := Feeds.next hf
  obtain ⟨b1, b2⟩ := segmentOf_reads (env := env) ht hf.reads
  obtain ⟨s2, c1, c2, c3⟩ := Feeds.next a3
  refine EvN.step ?_
  show EvR env (fun self => dottedNameBody self start acc) _ _
  unfold dottedNameBody
  refine EvP.prim b2 (EvP.bind a1 ?_)
  ev
  exact EvP.neg (not_not_intro (sym_reads a3.reads).1) (EvP.bind c1 (h _ _ s2 c3 (by rw [c2, a2, hn])))

theorem b_hostSegs {t : T} {x : GoStr} {ts : List T} (ht : segmentOf t = some x)
    (h : ∀ start acc, BadP env ns rest c p (fun self => self (.dottedName start acc)) ts) :
    BadP env ns rest c p (fun self => hostname self) (t :: y .dot :: ts) := by
  intro s hf hn
  have hx := b_hostName ht h s.tsp [] s hf hn
  obtain ⟨b1, -⟩ := segmentOf_reads (env := env) ht (Feeds.reads hf)
  unfold hostname
  ev
  rcases b1 with h' | h' | h' <;> (rw [h']; exact hx)

theorem b_segment (h : Spec.startsSegment (hd rest) = false) (start : Nat) (acc : List GoStr) :
    BadP env ns rest .parseExpectedNameOrNumberAfterDot .after (fun self => self (.dottedName start acc)) [] := by
  intro s hf hn
  nf at hf
  have ht : Spec.startsSegment s.tok = false := hf.test h rfl
  refine EvN.step ?_
  show EvR env (fun self => dottedNameBody self start acc) _ _
  unfold dottedNameBody dottedSegment
  refine EvF.bind ?_
  ev
  split
  all_goals first | exact EvF.after hf | (rename_i h'; rw [h'] at ht; cases ht)

end
end PP
