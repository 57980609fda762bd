import Verif.Lemmas.Text5

/-! # Strings in results are UTF-8: definitions that push their name, and whole runs -/
namespace PP.Vt
open PP PP.Props

section
variable {env : Env} {self : Self}
theorem V.tail {b : UInt8} {w : GoStr} (h : V (b :: w)) (hb : b.toNat < 128) : V w := by
  obtain ⟨rs, h1, h2⟩ := h
  cases rs with
  | nil => simp at h2
  | cons r rs =>
    rw [utf8_cons] at h2
    have hm : b ∈ encodeRune r := by
      cases hl : encodeRune r with
      | nil => exact absurd hl (encodeRune_ne_nil r)
      | cons x xs =>
        rw [hl, List.cons_append, List.cons.injEq] at h2
        rw [h2.1]
        exact List.mem_cons_self ..
    have hr := encodeRune_ascii_mem hm hb
    have : encodeRune r = [b] := by
      rw [encodeRune_ascii (by omega)]
      rw [encodeRune_ascii (by omega)] at hm
      simp at hm
      rw [hm]
    rw [this, List.cons_append, List.nil_append, List.cons.injEq] at h2
    exact ⟨rs, fun x hx => h1 x (List.mem_cons_of_mem _ hx), h2.2⟩

theorem V.trim {w : GoStr} (h : V w) : V (trimPrefix b!"::" w) := by
  unfold trimPrefix
  split
  · rename_i hp
    obtain ⟨t, rfl⟩ := List.isPrefixOf_iff_prefix.1 hp
    exact V.tail (V.tail h (by decide)) (by decide)
  · exact h

variable (H : HS env self)
include H

theorem Ok.classExpression {start : Nat} : Ok env (PP.classExpression self start) Txt := by
  unfold PP.classExpression
  refine Ok.bind (Ok.className H) fun cn hc => ?_
  have hn := V.trim hc
  dsimp only
  revert hn
  generalize trimPrefix b!"::" cn = name
  intro hn
  refine Ok.bind (Ok.pushName hn) fun _ _ => Ok.bind (Ok.optParameterList H) fun ps hps => Ok.bind Ok.curTok fun t _ => ?_
  have fin : ∀ parent, V parent → Ok env (do
      let body ← PP.braces self
      PP.nextTok self
      PP.popName
      let qn ← PP.qualifiedName name
      let p ← PP.here start
      PP.addDefinition (.namedDef p (.hostClass parent) qn ps body)) Txt := by
    intro parent hp
    refine Ok.bind (Ok.braces H) fun b hb => Ok.bind H.tok fun _ _ => Ok.bind Ok.popName fun _ _ =>
      Ok.bind (Ok.qualifiedName hn) fun q hq => Ok.bind Ok.here fun p _ => Ok.addDefinition ?_
    exact .plain (.cons hq (.cons hp .nil)) (.snoc hps hb)
  refine Ok.ite (fun _ => Ok.bind H.tok fun _ _ => Ok.bind Ok.curTok fun t _ => Ok.ite (fun _ => ?_) (fun _ => ?_)) (fun _ => ?_)
  · exact Ok.bind H.tok fun _ _ => Ok.bindPure (fin _ (V.lit (by decide)))
  · exact Ok.bind (Ok.className H) fun p hp => fin p hp
  · exact Ok.bindPure (fin _ .nil)

theorem Ok.functionDefinition {plan : Bool} : Ok env (PP.functionDefinition self plan) Txt := by
  cases plan
  · unfold PP.functionDefinition
    simp only [Bool.false_eq_true, if_false]
    ok
  · unfold PP.functionDefinition
    simp only [if_true]
    ok
macro_rules | `(tactic| okl) => `(tactic| first
  | ((with_reducible refine Ok.classExpression ?_); assumption) | ((with_reducible refine Ok.functionDefinition ?_); assumption))

theorem Ok.stepBlock {start : Nat} {style : StepStyle} : Ok env (PP.stepBlock self start style) OptT := by
  unfold PP.stepBlock
  refine Ok.bind Ok.curTok fun t _ => ?_
  split
  · refine Ok.ite (fun _ => ?_) (fun _ => ?_)
    · refine Ok.bind Ok.tokStart fun _ _ => Ok.bind H.tok fun _ _ => Ok.bind (H.activities .nil) fun as ha =>
        Ok.bind H.tok fun _ _ => Ok.bind Ok.here fun p _ => Ok.bindPure (Ok.bind Ok.popName fun _ _ => Ok.pureO ?_)
      split
      · exact .none
      · exact .some (.plain .nil ha)
    · exact Ok.bindPure (Ok.bind Ok.popName fun _ _ => Ok.pureO .none)
  · refine Ok.ite (fun _ => ?_) (fun _ => Ok.pureO .none)
    refine Ok.bind H.tok fun _ _ => Ok.bind (H.exprs .nil) fun es he => Ok.bind Ok.here fun p _ =>
      Ok.bind H.tok fun _ _ => Ok.pureO ?_
    split
    · exact .none
    · exact .some (.plain .nil (txt_toDeferredList he))
  · exact Ok.bind (Ok.braces H) fun b hb => Ok.bind H.tok fun _ _ => Ok.pureO (.some hb)

theorem Ok.stepDeclaration {start : Nat} {style : StepStyle} {n : GoStr} {top : Bool} (hn : V n) :
    Ok env (PP.stepDeclaration self start style n top) Txt := by
  unfold PP.stepDeclaration
  have fin : Ok env (do
      let hstart ← PP.tokStart
      PP.assertToken .lc
      PP.nextTok self
      let props ← PP.expressions self .rc .stepProperty
      let hEnd ← PP.getPos
      PP.nextTok self
      let iter ← PP.stepIteration self n
      let props := props ++ iter
      let properties := if props.isEmpty then none else some (.hash ⟨hstart, (hEnd : Int) - hstart⟩ props)
      let block ← PP.stepBlock self start style
      let qn ← PP.qualifiedName n
      let p ← PP.here start
      let e := Expr.step p qn style properties block
      if top then PP.addDefinition e else Pure.pure e) Txt := by
    refine Ok.bind Ok.tokStart fun hs _ => Ok.bind Ok.assertToken fun _ _ => Ok.bind H.tok fun _ _ =>
      Ok.bind (H.exprs .nil) fun ps hps => Ok.bind Ok.getPos fun he _ => Ok.bind H.tok fun _ _ =>
      Ok.bind (Ok.stepIteration H hn) fun it hit => Ok.bind (Ok.stepBlock H) fun b hb =>
      Ok.bind (Ok.qualifiedName hn) fun q hq => Ok.bind Ok.here fun p _ => ?_
    have ht : ∀ o, OptT o → Txt (Expr.step p q style o b) := fun o ho =>
      .plain (.cons hq .nil) (.append (.opt ho) (.opt hb))
    have ho : OptT (if (ps ++ it).isEmpty then none else some (.hash ⟨hs, (he : Int) - hs⟩ (ps ++ it))) := by
      split
      · exact .none
      · exact .some (.plain .nil (.append hps hit))
    exact Ok.ite (fun _ => Ok.addDefinition (ht _ ho)) (fun _ => Ok.pureN (ht _ ho))
  exact Ok.ite (fun _ => Ok.bind (Ok.pushName hn) fun _ _ => fin) (fun _ => fin)
macro_rules | `(tactic| okl) => `(tactic| ((with_reducible refine Ok.stepDeclaration ?_ ?_); (· assumption); (vl; done)))

theorem Ok.stepOrResource : Ok env (PP.stepOrResource self) Txt := by
  unfold PP.stepOrResource
  ok
macro_rules | `(tactic| okl) => `(tactic| ((with_reducible refine Ok.stepOrResource ?_); assumption))

theorem Ok.assignmentBody : Ok env (PP.assignmentBody self) Txt := by
  unfold PP.assignmentBody
  ok

theorem Ok.atomBody : Ok env (PP.atomBody self) Txt := by
  unfold PP.atomBody
  ok

theorem Ok.stepExpression : Ok env (PP.stepExpression self) Txt := by
  unfold PP.stepExpression
  ok
macro_rules | `(tactic| okl) => `(tactic| ((with_reducible refine Ok.stepExpression ?_); assumption))

theorem Ok.activitiesBody {acc : List Expr} (h : AllT acc) : Ok env (PP.activitiesBody self acc) AllT := by
  unfold PP.activitiesBody
  ok

theorem step_HS : HS env (step self) := by
  refine ⟨H.hex, H.flt, fun n hp => ?_⟩
  cases n with
  | nextToken => exact Ok.nextTokenBody H
  | delim => exact Ok.delimBody H hp.1 hp.2
  | escapes => exact Ok.escapesBody H hp.1 hp.2
  | parse => exact Ok.parseBody H
  | stmts => exact Ok.stmtsBody H hp
  | commaArgs => exact Ok.commaArgsBody H hp
  | exprs => exact Ok.exprsBody H hp
  | assignment => exact Ok.assignmentBody H
  | assignLoop => exact Ok.assignLoopBody H hp
  | expression => exact Ok.expressionBody H
  | selLoop => exact Ok.selLoopBody H hp
  | binary => exact Ok.binaryBody H
  | binLoop => exact Ok.binLoopBody H hp
  | unary => exact Ok.unaryBody H
  | primary => exact Ok.primaryBody H
  | primLoop => exact Ok.primLoopBody H hp
  | atom => exact Ok.atomBody H
  | ifExpr => exact Ok.ifBody H
  | caseOptions => exact Ok.caseOptionsBody H hp
  | resourceExpr => exact Ok.resourceExprBody H hp
  | resourceBodies => exact Ok.resourceBodiesBody H hp.1 hp.2
  | attrOps => exact Ok.attrOpsBody H hp
  | hostnames => exact Ok.hostnamesBody H hp
  | dottedName => exact Ok.dottedNameBody H hp
  | activities => exact Ok.activitiesBody H hp
  | eppLoop => exact Ok.eppLoopBody H hp

omit H in
theorem run_HS (hx : env.hexEsc = false) (hf : ∀ x, V x.text → V (env.fmtFloat x)) (f : Nat) : HS env (run f) := by
  induction f with
  | zero => exact ⟨hx, hf, fun _ _ => Ok.timeout⟩
  | succ f ih => exact step_HS ih

omit H in
theorem Ok.asEppLambda {e : Expr} (h : Txt e) : Ok env (PP.asEppLambda e) Txt := by
  unfold PP.asEppLambda mkEpp
  ok
macro_rules | `(tactic| okl) => `(tactic| ((with_reducible refine Ok.asEppLambda ?_); nm; done))

theorem Ok.parseEpp : Ok env (PP.parseEpp self) Txt := by
  unfold PP.parseEpp mkEpp
  ok
macro_rules | `(tactic| okl) => `(tactic| ((with_reducible refine Ok.parseEpp ?_); assumption))

theorem Ok.parseTop {b : Bool} : Ok env (PP.parseTop self b) Txt := by
  unfold PP.parseTop
  ok

/-- What a run of the parser gives. -/
theorem parseProgram_txt {b : Bool} {s t : St} {e : Expr} (hv : VOK s.val) (hn : ∀ n ∈ s.names, V n)
    (hp : PP.parseProgram self b env s = .ok e t) : I t ∧ Txt e ∧ (b = false → ∀ d ∈ listed e, Txt d) := by
  let u : St := { s with pos := 0, defs := [], nls := none }
  have hi : I u := ⟨hv, (fun _ h => nomatch h), hn⟩
  have hrest : PP.parseProgram self b env s = (do
      let e ← PP.parseTop self b
      if b then Pure.pure e
      else do
        let s ← PP.getS
        Pure.pure (.program ⟨0, s.pos⟩ e s.defs)) env u := rfl
  rw [hrest] at hp
  have hok : Ok env (do
      let e ← PP.parseTop self b
      if b then Pure.pure e
      else do
        let s ← PP.getS
        Pure.pure (.program ⟨0, s.pos⟩ e s.defs)) (fun e => Txt e ∧ (b = false → ∀ d ∈ listed e, Txt d)) := by
    refine Ok.bind (Ok.parseTop H) fun e he => ?_
    refine Ok.ite (fun hb => Ok.pure ⟨he, fun h => by simp_all⟩) (fun _ => Ok.bind Ok.getS fun s hs => Ok.pure ⟨?_, fun _ => hs.defs⟩)
    nm
  obtain ⟨h1, h2, h3⟩ := hok u e t hi hp
  exact ⟨h1, h2, h3⟩
end
end PP.Vt
