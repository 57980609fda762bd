import Verif.Lemmas.Text2
import Verif.Lemmas.NodeOps

/-! # Strings in results are UTF-8: what the functions of the parser guarantee -/
namespace PP.Vt
open PP PP.Props

def AllV (ws : List GoStr) : Prop := ∀ w ∈ ws, V w
def AllT (es : List Expr) : Prop := ∀ x ∈ es, Txt x
def OptT (o : Option Expr) : Prop := ∀ x ∈ o, Txt x

theorem AllV.nil : AllV [] := fun _ h => nomatch h
theorem AllV.cons {w ws} (h : V w) (hs : AllV ws) : AllV (w :: ws) := List.forall_mem_cons.2 ⟨h, hs⟩
theorem AllV.snoc {w ws} (h : V w) (hs : AllV ws) : AllV (ws ++ [w]) := List.forall_mem_append.2 ⟨hs, AllV.cons h AllV.nil⟩
theorem AllT.nil : AllT [] := fun _ h => nomatch h
theorem AllT.cons {e es} (h : Txt e) (hs : AllT es) : AllT (e :: es) := List.forall_mem_cons.2 ⟨h, hs⟩
theorem AllT.one {e} (h : Txt e) : AllT [e] := .cons h .nil
theorem AllT.append {as bs} (h : AllT as) (hs : AllT bs) : AllT (as ++ bs) := List.forall_mem_append.2 ⟨h, hs⟩
theorem AllT.snoc {as b} (h : AllT as) (hs : Txt b) : AllT (as ++ [b]) := h.append (.one hs)
theorem AllT.opt {o} (h : OptT o) : AllT o.toList := fun x hx => h x (by simpa using hx)
theorem OptT.none : OptT none := fun _ h => nomatch h
theorem OptT.some {e} (h : Txt e) : OptT (some e) := fun x hx => by cases hx; exact h
theorem Txt.plain {e} (hq : AllV (strings e)) (h : AllT e.kids) : Txt e := .mk hq h
theorem Txt.kids {e} (h : Txt e) : AllT e.kids := by cases h with | mk _ h => exact h
theorem Txt.strs {e} (h : Txt e) : AllV (strings e) := by cases h with | mk h _ => exact h
theorem AllT.of_cons {e es} (h : AllT (e :: es)) : Txt e ∧ AllT es := List.forall_mem_cons.1 h
theorem AllV.of_cons {w ws} (h : AllV (w :: ws)) : V w ∧ AllV ws := List.forall_mem_cons.1 h
theorem I.str {s : St} {w : GoStr} (hv : s.val = .str w) (h : I s) : V w := by have := h.val; rw [hv] at this; exact this
theorem I.flt {s : St} {v : FloatVal} (hv : s.val = .flt v) (h : I s) : V v.text := by have := h.val; rw [hv] at this; exact this
theorem I.expr {s : St} {e : Expr} (hv : s.val = .expr e) (h : I s) : Txt e := by have := h.val; rw [hv] at this; exact this

macro_rules | `(tactic| vl) => `(tactic| first
  | with_reducible exact V.tok _
  | ((with_reducible apply I.flt); (· assumption); assumption)
  | ((with_reducible apply I.str); (· assumption); assumption))

/-- Nodes. -/
syntax "nm1" : tactic
macro_rules | `(tactic| nm1) => `(tactic| first | split | with_reducible exact True.intro | vl)
macro_rules | `(tactic| nm1) => `(tactic| first
  | with_reducible exact AllT.nil | with_reducible exact OptT.none | with_reducible exact AllV.nil
  | with_reducible apply AllV.cons | with_reducible apply AllV.snoc
  | with_reducible apply AllT.snoc | with_reducible apply AllT.append | with_reducible apply AllT.cons
  | with_reducible apply AllT.opt | with_reducible apply OptT.some
  | ((with_reducible apply I.expr); (· assumption); assumption)
  | ((with_reducible refine Txt.plain ?_ ?_) <;> simp only [strings, opString, parentString, Expr.kids])
  | simp only [strings, opString, parentString])
macro_rules | `(tactic| nm1) => `(tactic| assumption)
macro "nm" : tactic => `(tactic| (repeat' nm1))

section
variable (env : Env)

def Pre : NT → Prop
  | .delim _ _ _ _ buf _ _ segs => V buf ∧ AllT segs
  | .escapes _ _ _ _ buf segs => V buf ∧ AllT segs
  | .stmts _ acc | .commaArgs acc | .exprs _ _ acc | .caseOptions acc | .attrOps acc | .hostnames acc | .activities acc
  | .eppLoop acc => AllT acc
  | .assignLoop e | .selLoop e | .binLoop _ e | .primLoop e | .resourceExpr _ e _ => Txt e
  | .resourceBodies t acc => Txt t ∧ AllT acc
  | .dottedName _ acc => AllV acc
  | _ => True

def Post : (n : NT) → Out n → Prop
  | .nextToken, _ => True
  | .delim .., segs => AllT segs
  | .escapes .., r => V r.1 ∧ AllT r.2
  | .stmts .., es | .commaArgs .., es | .exprs .., es | .caseOptions .., es | .resourceBodies .., es | .attrOps .., es
  | .hostnames .., es | .activities .., es | .eppLoop .., es => AllT es
  | .parse .., e | .assignment, e | .assignLoop .., e | .expression, e | .selLoop .., e | .binary .., e | .binLoop .., e
  | .unary, e | .primary, e | .primLoop .., e | .atom, e | .ifExpr .., e | .resourceExpr .., e | .dottedName .., e => Txt e

structure HS (sf : Self) : Prop where
  hex : env.hexEsc = false
  flt : ∀ x, V x.text → V (env.fmtFloat x)
  calls : ∀ n, Pre n → Ok env (sf n) (Post n)
end

section
variable {env : Env} {self : Self}

theorem HS.tok (H : HS env self) : Ok env (self .nextToken) (fun _ => True) := H.calls _ trivial
theorem HS.delim (H : HS env self) {d ds i h buf ec start segs} (hb : V buf) (hs : AllT segs) :
    Ok env (self (.delim d ds i h buf ec start segs)) AllT := H.calls _ ⟨hb, hs⟩
theorem HS.escapes (H : HS env self) {e i fl ip buf segs} (hb : V buf) (hs : AllT segs) :
    Ok env (self (.escapes e i fl ip buf segs)) (fun r => V r.1 ∧ AllT r.2) := H.calls _ ⟨hb, hs⟩
theorem HS.parse (H : HS env self) {t b} : Ok env (self (.parse t b)) Txt := H.calls _ trivial
theorem HS.assignment (H : HS env self) : Ok env (self .assignment) Txt := H.calls _ trivial
theorem HS.expression (H : HS env self) : Ok env (self .expression) Txt := H.calls _ trivial
theorem HS.binary (H : HS env self) {l} : Ok env (self (.binary l)) Txt := H.calls _ trivial
theorem HS.unary (H : HS env self) : Ok env (self .unary) Txt := H.calls _ trivial
theorem HS.primary (H : HS env self) : Ok env (self .primary) Txt := H.calls _ trivial
theorem HS.atom (H : HS env self) : Ok env (self .atom) Txt := H.calls _ trivial
theorem HS.ifExpr (H : HS env self) {u} : Ok env (self (.ifExpr u)) Txt := H.calls _ trivial
theorem HS.dottedName (H : HS env self) {s l} (h : AllV l) : Ok env (self (.dottedName s l)) Txt := H.calls _ h
theorem HS.stmts (H : HS env self) {t acc} (h : AllT acc) : Ok env (self (.stmts t acc)) AllT := H.calls _ h
theorem HS.commaArgs (H : HS env self) {acc} (h : AllT acc) : Ok env (self (.commaArgs acc)) AllT := H.calls _ h
theorem HS.exprs (H : HS env self) {t p acc} (h : AllT acc) : Ok env (self (.exprs t p acc)) AllT := H.calls _ h
theorem HS.caseOptions (H : HS env self) {acc} (h : AllT acc) : Ok env (self (.caseOptions acc)) AllT := H.calls _ h
theorem HS.attrOps (H : HS env self) {acc} (h : AllT acc) : Ok env (self (.attrOps acc)) AllT := H.calls _ h
theorem HS.hostnames (H : HS env self) {acc} (h : AllT acc) : Ok env (self (.hostnames acc)) AllT := H.calls _ h
theorem HS.activities (H : HS env self) {acc} (h : AllT acc) : Ok env (self (.activities acc)) AllT := H.calls _ h
theorem HS.eppLoop (H : HS env self) {acc} (h : AllT acc) : Ok env (self (.eppLoop acc)) AllT := H.calls _ h
theorem HS.assignLoop (H : HS env self) {e} (h : Txt e) : Ok env (self (.assignLoop e)) Txt := H.calls _ h
theorem HS.selLoop (H : HS env self) {e} (h : Txt e) : Ok env (self (.selLoop e)) Txt := H.calls _ h
theorem HS.binLoop (H : HS env self) {l e} (h : Txt e) : Ok env (self (.binLoop l e)) Txt := H.calls _ h
theorem HS.primLoop (H : HS env self) {e} (h : Txt e) : Ok env (self (.primLoop e)) Txt := H.calls _ h
theorem HS.resourceExpr (H : HS env self) {s e f} (h : Txt e) : Ok env (self (.resourceExpr s e f)) Txt := H.calls _ h
theorem HS.resourceBodies (H : HS env self) {t acc} (h : Txt t) (ha : AllT acc) :
    Ok env (self (.resourceBodies t acc)) AllT := H.calls _ ⟨h, ha⟩

macro_rules | `(tactic| okl) => `(tactic| first
  | ((with_reducible refine HS.tok ?_); assumption) | ((with_reducible refine HS.parse ?_); assumption)
  | ((with_reducible refine HS.assignment ?_); assumption) | ((with_reducible refine HS.expression ?_); assumption)
  | ((with_reducible refine HS.binary ?_); assumption) | ((with_reducible refine HS.unary ?_); assumption)
  | ((with_reducible refine HS.primary ?_); assumption) | ((with_reducible refine HS.atom ?_); assumption)
  | ((with_reducible refine HS.ifExpr ?_); assumption) | ((with_reducible refine HS.dottedName ?_ ?_); (· assumption); nm; done)
  | ((with_reducible refine HS.delim ?_ ?_ ?_); (· assumption); (· vl); nm; done) | ((with_reducible refine HS.escapes ?_ ?_ ?_); (· assumption); (· vl); nm; done)
  | ((with_reducible refine HS.stmts ?_ ?_); (· assumption); nm; done) | ((with_reducible refine HS.commaArgs ?_ ?_); (· assumption); nm; done)
  | ((with_reducible refine HS.exprs ?_ ?_); (· assumption); nm; done) | ((with_reducible refine HS.caseOptions ?_ ?_); (· assumption); nm; done)
  | ((with_reducible refine HS.attrOps ?_ ?_); (· assumption); nm; done) | ((with_reducible refine HS.hostnames ?_ ?_); (· assumption); nm; done)
  | ((with_reducible refine HS.activities ?_ ?_); (· assumption); nm; done) | ((with_reducible refine HS.eppLoop ?_ ?_); (· assumption); nm; done)
  | ((with_reducible refine HS.assignLoop ?_ ?_); (· assumption); nm; done) | ((with_reducible refine HS.selLoop ?_ ?_); (· assumption); nm; done)
  | ((with_reducible refine HS.binLoop ?_ ?_); (· assumption); nm; done) | ((with_reducible refine HS.primLoop ?_ ?_); (· assumption); nm; done)
  | ((with_reducible refine HS.resourceExpr ?_ ?_); (· assumption); nm; done)
  | ((with_reducible refine HS.resourceBodies ?_ ?_ ?_); (· assumption); (· nm; done); nm; done))
theorem Ok.pureN {e : Expr} (h : Txt e) : Ok env (Pure.pure e) Txt := .pure h
theorem Ok.pureNs {e : List Expr} (h : AllT e) : Ok env (Pure.pure e) AllT := .pure h
theorem Ok.pureO {e : Option Expr} (h : OptT e) : Ok env (Pure.pure e) OptT := .pure h
theorem Ok.setTokenExpr {t : Tok} {e : Expr} (h : Txt e) : Ok env (PP.setTokenValue t (.expr e)) (fun _ => True) := .setTokenValue h
macro_rules | `(tactic| okl) => `(tactic| ((with_reducible refine Ok.setTokenExpr ?_); nm; done))
macro_rules | `(tactic| okl) => `(tactic| first
  | ((with_reducible refine Ok.pureN ?_); nm; done) | ((with_reducible refine Ok.pureNs ?_); nm; done) | ((with_reducible refine Ok.pureO ?_); nm; done))

/-! ## The lexer -/

theorem convertNamedAccessLHS_named {start : Nat} {p : Pos} {l r : Expr} {f : Expr × Bool} (hl : Txt l) (hr : Txt r)
    (h : convertNamedAccessLHS start p l r = some f) : Txt f.1 := by
  have bin : ∀ {p a}, Txt a → Txt (.bin p .namedAccess a r) := fun ha => by nm
  fun_induction convertNamedAccessLHS start p l r generalizing f
  case case1 => cases h; have := hl.strs.of_cons.1; exact bin (by nm)
  case case2 q operand keys rhs lhe =>
    cases h
    obtain ⟨ho, hk⟩ := (hl.kids).of_cons
    refine bin ?_
    unfold lhe
    split
    · have := ho.strs.of_cons.1
      exact .plain (by nm) (.cons (by nm) hk)
    · exact .plain (by nm) (.cons ho hk)
  case case3 heq ih =>
    cases h
    have hk := hl.kids
    have hr' := hk.of_cons.2.of_cons.1
    exact bin (ih hk.of_cons.1 hr' heq (by intros; nm))
  case case4 => cases h
  case case5 heq ih =>
    cases h
    have hk := (hl.kids).of_cons
    have hb := hk.1.kids
    have hr' := hb.of_cons.2.of_cons.1
    exact bin (.plain (by nm) (.cons (ih hb.of_cons.1 hr' heq (by intros; nm)) hk.2))
  case case6 => cases h
  case case7 => cases h
  case case8 => cases h; exact bin hl

theorem interpolated_named {start : Nat} {len : Int} {e e' : Expr} (he : Txt e) (h : interpolated start len e = some e') :
    Txt e' := by
  unfold interpolated at h
  split at h
  · cases h
    have := he.strs.of_cons.1
    nm
  · cases h
    have := he.kids.of_cons.1.strs.of_cons.1
    exact .plain (by nm) (.cons (by nm) (he.kids).of_cons.2)
  · rename_i lhs rhs args lam
    have hk := (he.kids).of_cons
    have hb := hk.1.kids
    split at h
    · rename_i hc
      cases h
      exact .plain (by nm) (.cons (convertNamedAccessLHS_named hb.of_cons.1 hb.of_cons.2.of_cons.1 hc) hk.2)
    · cases h; exact he
    · cases h
  · cases h; exact he

variable (H : HS env self)
include H

theorem Ok.interpolate {n : Nat} : Ok env (PP.interpolate self n) Txt := by
  unfold PP.interpolate
  refine Ok.bind Ok.peek fun r _ => ?_
  dsimp only
  refine Ok.ite (fun _ => ?_) (fun _ => ?_)
  · refine Ok.bind Ok.advance fun _ _ => Ok.bind H.tok fun _ _ => Ok.bind H.parse fun e he => Ok.bind Ok.getPos fun p _ => ?_
    split
    · rename_i hc
      have := interpolated_named he hc
      exact Ok.pureN (by nm)
    · exact Ok.crash
  · refine Ok.bind Ok.setToken fun _ _ => Ok.ite (fun _ => Ok.bind H.tok fun _ _ => ?_) (fun _ => ?_)
    all_goals
      refine Ok.bind Ok.getS fun s hs => Ok.ite (fun _ => Ok.bind Ok.setPos fun _ _ => Ok.issue) (fun _ => ?_)
      split
      · rename_i hv
        have := I.str hv hs
        exact Ok.pureN (by nm)
      · exact Ok.crash
macro_rules | `(tactic| okl) => `(tactic| ((with_reducible refine Ok.interpolate ?_); assumption))

theorem Ok.handleInterpolation {n : Nat} {segs : List Expr} {buf : GoStr} (hb : V buf) (h : AllT segs) :
    Ok env (PP.handleInterpolation self n segs buf) AllT := by
  unfold PP.handleInterpolation
  ok
macro_rules | `(tactic| okl) => `(tactic| ((with_reducible refine Ok.handleInterpolation ?_ ?_ ?_); (· assumption); (· vl); nm; done))

theorem Ok.delimBody {d ds i h buf ec start segs} (hb : V buf) (hs : AllT segs) :
    Ok env (PP.delimBody self d ds i h buf ec start segs) AllT := by
  have hx := H.hex
  unfold PP.delimBody
  ok

theorem Ok.consumeDelimitedString {d ds i h} : Ok env (PP.consumeDelimitedString self d ds i h) AllT := by
  unfold PP.consumeDelimitedString
  ok
macro_rules | `(tactic| okl) => `(tactic| ((with_reducible refine Ok.consumeDelimitedString ?_); assumption))

theorem Ok.consumeEPP : Ok env (PP.consumeEPP self) (fun _ => True) := by
  unfold PP.consumeEPP
  refine Ok.bind Ok.getEnv fun e _ => Ok.bind (Ok.eppText V.nil V.nil (Nat.le_refl _)) fun r hr => ?_
  obtain ⟨b, tag⟩ := r
  replace hr : V b := hr
  ok
macro_rules | `(tactic| okl) => `(tactic| ((with_reducible refine Ok.consumeEPP ?_); assumption))

theorem Ok.consumeDoubleQuotedString : Ok env (PP.consumeDoubleQuotedString self) (fun _ => True) := by
  unfold PP.consumeDoubleQuotedString
  ok
macro_rules | `(tactic| okl) => `(tactic| ((with_reducible refine Ok.consumeDoubleQuotedString ?_); assumption))

theorem Ok.consumeSingleQuotedString : Ok env (PP.consumeSingleQuotedString self) (fun _ => True) := by
  unfold PP.consumeSingleQuotedString
  ok
macro_rules | `(tactic| okl) => `(tactic| ((with_reducible refine Ok.consumeSingleQuotedString ?_); assumption))

theorem Ok.consumeRegexp : Ok env (PP.consumeRegexp self) (fun _ => True) := by
  unfold PP.consumeRegexp
  ok
macro_rules | `(tactic| okl) => `(tactic| ((with_reducible refine Ok.consumeRegexp ?_); assumption))

theorem Ok.escapesBody {e i fl ip buf segs} (hb : V buf) (hs : AllT segs) :
    Ok env (PP.escapesBody self e i fl ip buf segs) (fun r => V r.1 ∧ AllT r.2) := by
  have hp : ∀ {w}, V w → Ok env (Pure.pure (w, segs)) (fun r => V r.1 ∧ AllT r.2) := fun hw => .pure ⟨hw, hs⟩
  unfold PP.escapesBody
  repeat' first | exact hp hb | exact hp (hb.append (V.lit (by decide))) | ok1

theorem Ok.consumeHeredocString : Ok env (PP.consumeHeredocString self) (fun _ => True) := by
  refine Tr.ok (Q := fun _ _ _ => True) (fun s => ?_) fun _ _ _ _ => trivial
  unfold PP.consumeHeredocString
  refine Tr.bind Tr.getEnv fun e u ⟨he, hu⟩ => ?_
  subst he hu
  refine Tr.bind Tr.getPos fun p v ⟨hp, hv⟩ => ?_
  subst hp hv
  refine Tr.bind (Tr.findTagEnd .refl V.nil V.nil fun _ h => nomatch h) fun h w ⟨h1, h2⟩ => ?_
  refine Tr.bind Tr.getPos fun p w' _ => ?_
  refine Tr.ite (fun _ => Tr.issueAt) (fun _ => ?_)
  refine Tr.bind Tr.peek fun cw w'' _ => Tr.bind Ok.findStartOfText.tr fun _ x _ => ?_
  refine Tr.bind Tr.getPos fun cs y ⟨hcs, hy⟩ => ?_
  subst hcs hy
  refine Tr.bind (Tr.findEndOfText h1 .refl fun _ => .inl rfl) fun e z hz => ?_
  have fin : ∀ {text : GoStr} {segs : List Expr} {p cs : Nat} {a b : Int}, V text → AllT segs → Ok env (do
      PP.heredocDone p e.heredocEnd
      if segs.isEmpty = false then
        PP.setTokenValue .heredoc (.expr (.heredoc ⟨v.pos - 2, a⟩ h.syntx (.concat ⟨cs, b⟩ segs)))
      else if env.hasFactory then
        PP.setTokenValue .heredoc (.expr (.heredoc ⟨v.pos - 2, a⟩ h.syntx (.string ⟨cs, b⟩ text)))
      else PP.setTokenValue .string (.str text)) (fun _ => True) := by
    intro text segs p cs a b ht hs
    ok
  dsimp only
  refine Tr.ite (fun _ => Ok.tr ?_) (fun _ => ?_)
  · refine Ok.bind Ok.setPos fun _ _ => Ok.bind Ok.stripIndent fun _ _ => Ok.bind (HS.escapes H V.nil AllT.nil) fun r hr => ?_
    obtain ⟨text, segs⟩ := r
    obtain ⟨hr1, hr2⟩ := hr
    replace hr1 : V text := hr1
    replace hr2 : AllT segs := hr2
    refine Ok.bind Ok.getS fun s _ => ?_
    dsimp only
    split
    · exact fin hr1 hr2
    · split
      · exact fin hr1 hr2
      · exact fin hr1 (by nm)
  · split
    · rename_i text htx
      refine Ok.tr (fin ?_ AllT.nil)
      unfold verbatimText at htx
      split at htx
      · cases htx
        rename_i hle
        exact (hz hle.1).v
      · cases htx
    · exact fun _ _ _ hx => nomatch hx
macro_rules | `(tactic| okl) => `(tactic| ((with_reducible refine Ok.consumeHeredocString ?_); assumption))

theorem Ok.lexMinus : Ok env (PP.lexMinus self) (fun _ => True) := by
  unfold PP.lexMinus
  ok
theorem Ok.lexPercent : Ok env (PP.lexPercent self) (fun _ => True) := by
  unfold PP.lexPercent
  ok
theorem Ok.lexAt : Ok env (PP.lexAt self) (fun _ => True) := by
  unfold PP.lexAt
  ok
theorem Ok.lexLess : Ok env (PP.lexLess self) (fun _ => True) := by
  unfold PP.lexLess
  ok
theorem Ok.lexSlash : Ok env (PP.lexSlash self) (fun _ => True) := by
  unfold PP.lexSlash
  ok
macro_rules | `(tactic| okl) => `(tactic| first
  | ((with_reducible refine Ok.lexMinus ?_); assumption) | ((with_reducible refine Ok.lexPercent ?_); assumption)
  | ((with_reducible refine Ok.lexAt ?_); assumption) | ((with_reducible refine Ok.lexLess ?_); assumption)
  | ((with_reducible refine Ok.lexSlash ?_); assumption))

theorem Tr.lexChar {s : St} {a b c : Nat} (h : At env (b, c) s) : Tr env s (PP.lexChar self a b c) (fun _ _ => True) := by
  unfold PP.lexChar
  refine Tr.bind Tr.getEnv fun e u ⟨he, hu⟩ => ?_
  subst he hu
  repeat' first
    | exact Tr.consumeQualifiedName h.seg
    | exact Tr.lexColon h.seg
    | exact Tr.lexNumber h.seg
    | exact Tr.lexZero h.seg
    | ((with_reducible refine Tr.ite ?_ ?_) <;> intro _)
    | (refine Ok.tr (R := fun _ => True) ?_; okl; done)
  rename_i hb
  exact Tr.lexDollar ((h.one (by simp [hb]) (by simp [hb])).1 ▸ .refl)

theorem Ok.nextTokenBody : Ok env (PP.nextTokenBody self) (fun _ => True) := by
  refine Tr.ok (Q := fun _ _ _ => True) (fun s => ?_) fun _ _ _ _ => trivial
  unfold PP.nextTokenBody
  refine Tr.bind Tr.getPos fun p v _ => Tr.bind Tr.skipWhite fun cp t ht => ?_
  refine Tr.bind (Q := fun _ u => u.pos = t.pos) (fun _ t hi hx => by cases hx; exact ⟨⟨hi.val, hi.defs, hi.names⟩, rfl⟩) fun _ u hu => ?_
  refine Tr.lexChar H ?_
  obtain ⟨n, h1, h2⟩ := ht
  exact ⟨n, h1, hu ▸ h2⟩

end
end PP.Vt
