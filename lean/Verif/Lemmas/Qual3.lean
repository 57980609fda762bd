import Verif.Lemmas.Qual2
import Verif.Lemmas.NodeOps

/-! # Qualified names: what the functions of the parser guarantee -/
namespace PP.Qu
open PP PP.Props

def AllN (ns : List GoStr) (es : List Expr) : Prop := ∀ x ∈ es, Named ns x
def AllA (es : List Expr) : Prop := ∀ x ∈ es, Any x
def OptN (ns : List GoStr) (o : Option Expr) : Prop := ∀ x ∈ o, Named ns x

theorem AllN.nil {ns} : AllN ns [] := fun _ h => nomatch h
theorem AllN.cons {ns e es} (h : Named ns e) (hs : AllN ns es) : AllN ns (e :: es) := List.forall_mem_cons.2 ⟨h, hs⟩
theorem AllN.one {ns e} (h : Named ns e) : AllN ns [e] := .cons h .nil
theorem AllN.append {ns as bs} (h : AllN ns as) (hs : AllN ns bs) : AllN ns (as ++ bs) := List.forall_mem_append.2 ⟨h, hs⟩
theorem AllN.snoc {ns as b} (h : AllN ns as) (hs : Named ns b) : AllN ns (as ++ [b]) := h.append (.one hs)
theorem AllN.opt {ns o} (h : OptN ns o) : AllN ns o.toList := fun x hx => h x (by simpa using hx)
theorem OptN.none {ns} : OptN ns none := fun _ h => nomatch h
theorem OptN.some {ns e} (h : Named ns e) : OptN ns (some e) := fun x hx => by cases hx; exact h
theorem AllA.nil : AllA [] := fun _ h => nomatch h
theorem AllA.snoc {as b} (h : AllA as) (hs : Any b) : AllA (as ++ [b]) :=
  List.forall_mem_append.2 ⟨h, List.forall_mem_cons.2 ⟨hs, fun _ h => nomatch h⟩⟩
theorem _root_.PP.Props.Named.plain {ns e} (hq : qualifies e = false) (h : AllN ns e.kids) : Named ns e := .other hq h
theorem _root_.PP.Props.Named.leaf {ns e} (hq : qualifies e = false) (h : e.kids = []) : Named ns e := .other hq (by simp [h])
theorem Any.leaf {e} (hq : qualifies e = false) (h : e.kids = []) : Any e := fun _ => .leaf hq h

theorem _root_.PP.Props.Named.kids {ns e} (h : Named ns e) (hq : qualifies e = false) : AllN ns e.kids := by
  cases h with
  | hostClass | workflow | step | mapping | interpolation => cases hq
  | plan => cases hq
  | other _ h => exact h

theorem AllN.of_cons {ns e es} (h : AllN ns (e :: es)) : Named ns e ∧ AllN ns es := List.forall_mem_cons.1 h

theorem Any.text {ms p e} (h : Named ms e) : Any (.un p .text e) := fun _ => .interpolation h

theorem Any.concat {segs : List Expr} {p : Pos} (h : AllA segs) : Any (.concat p segs) :=
  fun _ => .plain rfl fun x hx => h x hx _
theorem Any.heredoc {e : Expr} {s : GoStr} {p : Pos} (h : Any e) : Any (.heredoc p s e) :=
  fun ns => .plain rfl (.one (h ns))

/-- Nodes that qualify nothing. -/
syntax "nm1" : tactic
macro_rules | `(tactic| nm1) => `(tactic| first | split | trivial)
macro_rules | `(tactic| nm1) => `(tactic| first
  | with_reducible exact AllN.nil | with_reducible exact OptN.none | with_reducible exact AllA.nil
  | with_reducible apply AllN.snoc | with_reducible apply AllN.append | with_reducible apply AllN.cons
  | with_reducible apply AllN.opt | with_reducible apply OptN.some | with_reducible apply AllA.snoc
  | exact Named.leaf rfl rfl
  | exact Any.leaf rfl rfl
  | with_reducible apply Any.concat | with_reducible apply Any.heredoc
  | (refine Named.plain rfl ?_; simp only [Expr.kids]))
macro_rules | `(tactic| nm1) => `(tactic| assumption)
macro "nm" : tactic => `(tactic| (repeat' nm1))

section
variable (env : Env) (base : List GoStr)

def Pre (ns : List GoStr) : NT → Prop
  | .delim _ _ _ _ _ _ _ segs | .escapes _ _ _ _ _ segs => AllA segs
  | .stmts _ acc | .commaArgs acc | .exprs _ _ acc | .caseOptions acc | .attrOps acc | .hostnames acc | .activities acc
  | .eppLoop acc => AllN ns acc
  | .assignLoop e | .selLoop e | .binLoop _ e | .primLoop e | .resourceExpr _ e _ => Named ns e
  | .resourceBodies t acc => Named ns t ∧ AllN ns acc
  | _ => True

def Post (ns : List GoStr) : (n : NT) → Out n → Prop
  | .nextToken, _ => True
  | .delim .., segs => AllA segs
  | .escapes .., r => AllA r.2
  | .stmts .., es | .commaArgs .., es | .exprs .., es | .caseOptions .., es | .resourceBodies .., es | .attrOps .., es
  | .hostnames .., es | .activities .., es | .eppLoop .., es => AllN ns es
  | .parse .., e | .assignment, e | .assignLoop .., e | .expression, e | .selLoop .., e | .binary .., e | .binLoop .., e
  | .unary, e | .primary, e | .primLoop .., e | .atom, e | .ifExpr .., e | .resourceExpr .., e | .dottedName .., e => Named ns e

def HS (self : Self) : Prop := ∀ n ns, Pre ns n → Ok env base ns (self n) ns (Post ns n)
end

section
variable {env : Env} {base ns ms ls : List GoStr} {self : Self}

theorem HS.tok (H : HS env base self) : Ok env base ns (self .nextToken) ns (fun _ => True) := H _ _ trivial
theorem HS.delim (H : HS env base self) {d ds i h buf ec start segs} (hs : AllA segs) :
    Ok env base ns (self (.delim d ds i h buf ec start segs)) ns AllA := H _ _ hs
theorem HS.escapes (H : HS env base self) {e i fl ip buf segs} (hs : AllA segs) :
    Ok env base ns (self (.escapes e i fl ip buf segs)) ns (fun r => AllA r.2) := H _ _ hs
theorem HS.parse (H : HS env base self) {t b} : Ok env base ns (self (.parse t b)) ns (Named ns) := H _ _ trivial
theorem HS.assignment (H : HS env base self) : Ok env base ns (self .assignment) ns (Named ns) := H _ _ trivial
theorem HS.expression (H : HS env base self) : Ok env base ns (self .expression) ns (Named ns) := H _ _ trivial
theorem HS.binary (H : HS env base self) {l} : Ok env base ns (self (.binary l)) ns (Named ns) := H _ _ trivial
theorem HS.unary (H : HS env base self) : Ok env base ns (self .unary) ns (Named ns) := H _ _ trivial
theorem HS.primary (H : HS env base self) : Ok env base ns (self .primary) ns (Named ns) := H _ _ trivial
theorem HS.atom (H : HS env base self) : Ok env base ns (self .atom) ns (Named ns) := H _ _ trivial
theorem HS.ifExpr (H : HS env base self) {u} : Ok env base ns (self (.ifExpr u)) ns (Named ns) := H _ _ trivial
theorem HS.dottedName (H : HS env base self) {s l} : Ok env base ns (self (.dottedName s l)) ns (Named ns) := H _ _ trivial
theorem HS.stmts (H : HS env base self) {t acc} (h : AllN ns acc) : Ok env base ns (self (.stmts t acc)) ns (AllN ns) := H _ _ h
theorem HS.commaArgs (H : HS env base self) {acc} (h : AllN ns acc) : Ok env base ns (self (.commaArgs acc)) ns (AllN ns) := H _ _ h
theorem HS.exprs (H : HS env base self) {t p acc} (h : AllN ns acc) : Ok env base ns (self (.exprs t p acc)) ns (AllN ns) := H _ _ h
theorem HS.caseOptions (H : HS env base self) {acc} (h : AllN ns acc) : Ok env base ns (self (.caseOptions acc)) ns (AllN ns) := H _ _ h
theorem HS.attrOps (H : HS env base self) {acc} (h : AllN ns acc) : Ok env base ns (self (.attrOps acc)) ns (AllN ns) := H _ _ h
theorem HS.hostnames (H : HS env base self) {acc} (h : AllN ns acc) : Ok env base ns (self (.hostnames acc)) ns (AllN ns) := H _ _ h
theorem HS.activities (H : HS env base self) {acc} (h : AllN ns acc) : Ok env base ns (self (.activities acc)) ns (AllN ns) := H _ _ h
theorem HS.eppLoop (H : HS env base self) {acc} (h : AllN ns acc) : Ok env base ns (self (.eppLoop acc)) ns (AllN ns) := H _ _ h
theorem HS.assignLoop (H : HS env base self) {e} (h : Named ns e) : Ok env base ns (self (.assignLoop e)) ns (Named ns) := H _ _ h
theorem HS.selLoop (H : HS env base self) {e} (h : Named ns e) : Ok env base ns (self (.selLoop e)) ns (Named ns) := H _ _ h
theorem HS.binLoop (H : HS env base self) {l e} (h : Named ns e) : Ok env base ns (self (.binLoop l e)) ns (Named ns) := H _ _ h
theorem HS.primLoop (H : HS env base self) {e} (h : Named ns e) : Ok env base ns (self (.primLoop e)) ns (Named ns) := H _ _ h
theorem HS.resourceExpr (H : HS env base self) {s e f} (h : Named ns e) : Ok env base ns (self (.resourceExpr s e f)) ns (Named ns) := H _ _ h
theorem HS.resourceBodies (H : HS env base self) {t acc} (h : Named ns t) (ha : AllN ns acc) :
    Ok env base ns (self (.resourceBodies t acc)) ns (AllN ns) := H _ _ ⟨h, ha⟩

macro_rules | `(tactic| okl) => `(tactic| first
  | (with_reducible refine HS.tok ?_; assumption) | (with_reducible refine HS.parse ?_; assumption)
  | (with_reducible refine HS.assignment ?_; assumption) | (with_reducible refine HS.expression ?_; assumption)
  | (with_reducible refine HS.binary ?_; assumption) | (with_reducible refine HS.unary ?_; assumption)
  | (with_reducible refine HS.primary ?_; assumption) | (with_reducible refine HS.atom ?_; assumption)
  | (with_reducible refine HS.ifExpr ?_; assumption) | (with_reducible refine HS.dottedName ?_; assumption)
  | (with_reducible refine HS.delim ?_ ?_; (· assumption); nm; done) | (with_reducible refine HS.escapes ?_ ?_; (· assumption); nm; done)
  | (with_reducible refine HS.stmts ?_ ?_; (· assumption); nm; done) | (with_reducible refine HS.commaArgs ?_ ?_; (· assumption); nm; done)
  | (with_reducible refine HS.exprs ?_ ?_; (· assumption); nm; done) | (with_reducible refine HS.caseOptions ?_ ?_; (· assumption); nm; done)
  | (with_reducible refine HS.attrOps ?_ ?_; (· assumption); nm; done) | (with_reducible refine HS.hostnames ?_ ?_; (· assumption); nm; done)
  | (with_reducible refine HS.activities ?_ ?_; (· assumption); nm; done) | (with_reducible refine HS.eppLoop ?_ ?_; (· assumption); nm; done)
  | (with_reducible refine HS.assignLoop ?_ ?_; (· assumption); nm; done) | (with_reducible refine HS.selLoop ?_ ?_; (· assumption); nm; done)
  | (with_reducible refine HS.binLoop ?_ ?_; (· assumption); nm; done) | (with_reducible refine HS.primLoop ?_ ?_; (· assumption); nm; done)
  | (with_reducible refine HS.resourceExpr ?_ ?_; (· assumption); nm; done)
  | (with_reducible refine HS.resourceBodies ?_ ?_ ?_; (· assumption); (· nm; done); nm; done))
theorem Ok.pureN {e : Expr} (h : Named ls e) : Ok env base ns (Pure.pure e) ns (Named ls) := .pure h
theorem Ok.pureA {e : Expr} (h : Any e) : Ok env base ns (Pure.pure e) ns Any := .pure h
theorem Ok.pureNs {e : List Expr} (h : AllN ls e) : Ok env base ns (Pure.pure e) ns (AllN ls) := .pure h
theorem Ok.pureAs {e : List Expr} (h : AllA e) : Ok env base ns (Pure.pure e) ns AllA := .pure h
theorem Ok.pureO {e : Option Expr} (h : OptN ls e) : Ok env base ns (Pure.pure e) ns (OptN ls) := .pure h
macro_rules | `(tactic| okl) => `(tactic| (with_reducible refine Ok.setTokenValue ?_; intro e h; cases h; nm; done))
macro_rules | `(tactic| okl) => `(tactic| first
  | (with_reducible refine Ok.pureN ?_; nm; done) | (with_reducible refine Ok.pureNs ?_; nm; done) | (with_reducible refine Ok.pureO ?_; nm; done)
  | (with_reducible refine Ok.pureA ?_; nm; done) | (with_reducible refine Ok.pureAs ?_; nm; done))

/-! ## The lexer -/

theorem convertNamedAccessLHS_named {start : Nat} {p : Pos} {l r : Expr} {f : Expr × Bool} (hl : Named ns l) (hr : Named ns r)
    (h : convertNamedAccessLHS start p l r = some f) : Named ns f.1 := by
  have bin : ∀ {p a}, Named ns a → Named ns (.bin p .namedAccess a r) := fun ha => by nm
  fun_induction convertNamedAccessLHS start p l r generalizing f
  case case1 => cases h; exact bin (by nm)
  case case2 q operand keys rhs lhe =>
    cases h
    obtain ⟨ho, hk⟩ := (hl.kids rfl).of_cons
    refine bin ?_
    unfold lhe
    split
    · exact .plain rfl (.cons (by nm) hk)
    · exact .plain rfl (.cons ho hk)
  case case3 heq ih =>
    cases h
    have hk := hl.kids rfl
    have hr' := hk.of_cons.2.of_cons.1
    exact bin (ih hk.of_cons.1 hr' heq (by intros; nm))
  case case4 => cases h
  case case5 heq ih =>
    cases h
    have hk := (hl.kids rfl).of_cons
    have hb := hk.1.kids rfl
    have hr' := hb.of_cons.2.of_cons.1
    exact bin (.plain rfl (.cons (ih hb.of_cons.1 hr' heq (by intros; nm)) hk.2))
  case case6 => cases h
  case case7 => cases h
  case case8 => cases h; exact bin hl

theorem interpolated_named {start : Nat} {len : Int} {e e' : Expr} (he : Named ns e) (h : interpolated start len e = some e') :
    Named ns e' := by
  unfold interpolated at h
  split at h
  · cases h; nm
  · cases h; exact .plain rfl (.cons (by nm) (he.kids rfl).of_cons.2)
  · rename_i lhs rhs args lam
    have hk := (he.kids rfl).of_cons
    have hb := hk.1.kids rfl
    split at h
    · rename_i hc
      cases h
      exact .plain rfl (.cons (convertNamedAccessLHS_named hb.of_cons.1 hb.of_cons.2.of_cons.1 hc) hk.2)
    · cases h; exact he
    · cases h
  · cases h; exact he

variable (H : HS env base self)
include H

theorem Ok.interpolate {n : Nat} : Ok env base ns (PP.interpolate self n) ns Any := by
  unfold PP.interpolate
  ok
  · rename_i he _ _ _ _ hc
    exact Ok.pure (Any.text (interpolated_named he hc))
  all_goals exact Ok.pure (Any.text (ms := []) (by nm))
macro_rules | `(tactic| okl) => `(tactic| (with_reducible refine Ok.interpolate ?_; assumption))

theorem Ok.handleInterpolation {n : Nat} {segs : List Expr} {buf : GoStr} (h : AllA segs) :
    Ok env base ns (PP.handleInterpolation self n segs buf) ns AllA := by
  unfold PP.handleInterpolation
  ok
macro_rules | `(tactic| okl) => `(tactic| (with_reducible refine Ok.handleInterpolation ?_ ?_; (· assumption); nm; done))

theorem Ok.delimBody {d ds i h buf ec start segs} (hs : AllA segs) :
    Ok env base ns (PP.delimBody self d ds i h buf ec start segs) ns AllA := by
  unfold PP.delimBody
  ok

theorem Ok.consumeDelimitedString {d ds i h} : Ok env base ns (PP.consumeDelimitedString self d ds i h) ns AllA := by
  unfold PP.consumeDelimitedString
  ok
macro_rules | `(tactic| okl) => `(tactic| (with_reducible refine Ok.consumeDelimitedString ?_; assumption))

theorem Ok.consumeEPP : Ok env base ns (PP.consumeEPP self) ns (fun _ => True) := by
  unfold PP.consumeEPP
  ok
macro_rules | `(tactic| okl) => `(tactic| (with_reducible refine Ok.consumeEPP ?_; assumption))

theorem Ok.consumeDoubleQuotedString : Ok env base ns (PP.consumeDoubleQuotedString self) ns (fun _ => True) := by
  unfold PP.consumeDoubleQuotedString
  ok
macro_rules | `(tactic| okl) => `(tactic| (with_reducible refine Ok.consumeDoubleQuotedString ?_; assumption))

theorem Ok.consumeSingleQuotedString : Ok env base ns (PP.consumeSingleQuotedString self) ns (fun _ => True) := by
  unfold PP.consumeSingleQuotedString
  ok
macro_rules | `(tactic| okl) => `(tactic| (with_reducible refine Ok.consumeSingleQuotedString ?_; assumption))

theorem Ok.consumeRegexp : Ok env base ns (PP.consumeRegexp self) ns (fun _ => True) := by
  unfold PP.consumeRegexp
  ok
macro_rules | `(tactic| okl) => `(tactic| (with_reducible refine Ok.consumeRegexp ?_; assumption))

theorem Ok.escapesBody {e i fl ip buf segs} (hs : AllA segs) :
    Ok env base ns (PP.escapesBody self e i fl ip buf segs) ns (fun r => AllA r.2) := by
  unfold PP.escapesBody
  ok
  all_goals exact Ok.pure hs

theorem Ok.consumeHeredocString : Ok env base ns (PP.consumeHeredocString self) ns (fun _ => True) := by
  unfold PP.consumeHeredocString
  ok
macro_rules | `(tactic| okl) => `(tactic| (with_reducible refine Ok.consumeHeredocString ?_; assumption))

theorem Ok.lexMinus : Ok env base ns (PP.lexMinus self) ns (fun _ => True) := by
  unfold PP.lexMinus
  ok
theorem Ok.lexPercent : Ok env base ns (PP.lexPercent self) ns (fun _ => True) := by
  unfold PP.lexPercent
  ok
theorem Ok.lexAt : Ok env base ns (PP.lexAt self) ns (fun _ => True) := by
  unfold PP.lexAt
  ok
theorem Ok.lexLess : Ok env base ns (PP.lexLess self) ns (fun _ => True) := by
  unfold PP.lexLess
  ok
theorem Ok.lexSlash : Ok env base ns (PP.lexSlash self) ns (fun _ => True) := by
  unfold PP.lexSlash
  ok
macro_rules | `(tactic| okl) => `(tactic| first
  | (with_reducible refine Ok.lexMinus ?_; assumption) | (with_reducible refine Ok.lexPercent ?_; assumption)
  | (with_reducible refine Ok.lexAt ?_; assumption) | (with_reducible refine Ok.lexLess ?_; assumption)
  | (with_reducible refine Ok.lexSlash ?_; assumption))

theorem Ok.lexChar {a b c : Nat} : Ok env base ns (PP.lexChar self a b c) ns (fun _ => True) := by
  unfold PP.lexChar
  ok
macro_rules | `(tactic| okl) => `(tactic| (with_reducible refine Ok.lexChar ?_; assumption))

theorem Ok.nextTokenBody : Ok env base ns (PP.nextTokenBody self) ns (fun _ => True) := by
  unfold PP.nextTokenBody
  ok

end
end PP.Qu
