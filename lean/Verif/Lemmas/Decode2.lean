import Verif.Lemmas.Decode
import Verif.Props.NoPanic

/-! # The decoder inverts `ToPN`. -/
namespace PP.Decode
open PP.Spec PP.Props

/-- With enough fuel the result is `x`. -/
def Ev {α : Type} (f : Nat → Option α) (x : α) : Prop := ∃ N, ∀ n, N ≤ n → f n = some x

theorem Ev.pure {α : Type} (x : α) : Ev (fun _ => some x) x := ⟨0, fun _ _ => rfl⟩

theorem Ev.bind {α β : Type} {f : Nat → Option α} {g : Nat → α → Option β} {x : α} {y : β} (h1 : Ev f x)
    (h2 : Ev (fun n => g n x) y) : Ev (fun n => f n >>= g n) y := by
  obtain ⟨N, h1⟩ := h1
  obtain ⟨M, h2⟩ := h2
  refine ⟨N + M, fun n hn => ?_⟩
  show f n >>= g n = _
  rw [h1 n (by omega)]
  exact h2 n (by omega)

theorem Ev.unique {α : Type} {f : Nat → Option α} {x y : α} (h1 : Ev f x) (h2 : Ev f y) : x = y := by
  obtain ⟨N, h1⟩ := h1
  obtain ⟨M, h2⟩ := h2
  have := h1 (N + M) (by omega)
  rw [h2 (N + M) (by omega)] at this
  injection this with this
  exact this.symm

theorem Ev.succ {α : Type} {f : Nat → Option α} {x : α} (h : Ev (fun n => f (n + 1)) x) : Ev f x := by
  obtain ⟨N, h⟩ := h
  refine ⟨N + 1, fun n hn => ?_⟩
  cases n with
  | zero => omega
  | succ n => exact h n (by omega)

theorem Ev.pred {α : Type} {f : Nat → Option α} {x : α} (h : Ev f x) : Ev (fun n => f (n + 1)) x := by
  obtain ⟨N, h⟩ := h
  exact ⟨N, fun n hn => h (n + 1) (by omega)⟩

theorem Ev.call {c : Ctx} {name : GoStr} {args : List PN} {hd : Head} {x : Expr} (hh : head name = some hd)
    (h : Ev (fun n => decH (dec n) c name hd args) x) : Ev (fun n => dec n c (.call name args)) x := by
  refine Ev.succ ?_
  simp only [dec, hh, Option.bind_eq_bind, Option.bind_some]
  exact h

theorem bindOk {α β : Type} {m : Expr.PNM α} {f : α → Expr.PNM β} {y : β} (h : (m >>= f) = .ok y) : ∃ a, m = .ok a ∧ f a = .ok y := by
  cases m with
  | error e => cases h
  | ok a => exact ⟨a, rfl, h⟩

theorem mapOk {α β : Type} {m : Expr.PNM α} {f : α → β} {y : β} (h : m.map f = .ok y) : ∃ a, m = .ok a ∧ f a = y := by
  cases m with
  | error e => cases h
  | ok a =>
    injection h with h
    exact ⟨a, rfl, h⟩

theorem mkMapOk {es : List (GoStr × PN)} {p : PN} (h : Expr.mkMap es = .ok p) : p = .map es := by
  unfold Expr.mkMap at h
  split at h
  · cases h
  · injection h with h
    exact h.symm

/-- Every node is built as the parser builds them. -/
def AllWell (e : Expr) : Prop := ∀ x ∈ subexpressions e, WellFormed x ∧ KnownWords x

theorem AllWell.kid {e k : Expr} (h : AllWell e) (hk : k ∈ e.kids) : AllWell k :=
  fun x hx => h x (mem_subexpressions_kid hk hx)

theorem AllWell.wf {e : Expr} (h : AllWell e) : WellFormed e := (h e (List.mem_cons_self ..)).1
theorem AllWell.kw {e : Expr} (h : AllWell e) : KnownWords e := (h e (List.mem_cons_self ..)).2

/-- Where a node may stand. -/
def ctxOf : Expr → Ctx
  | .keyedEntry .. => .entry
  | .selectorEntry .. => .sel
  | .attributeOp .. | .attributesOp .. => .attr
  | _ => .value

theorem ctx_value {e : Expr} (h : isValue e = true) : ctxOf e = .value := by
  cases e <;> first | rfl | cases h
theorem ctx_operand {e : Expr} (h : (isValue e || isNamedAccess e) = true) : ctxOf e = .value := by
  cases e <;> first | rfl | cases h
theorem ctx_entry {e : Expr} (h : isKeyedEntry e = true) : ctxOf e = .entry := by
  cases e <;> first | rfl | cases h
theorem ctx_sel {e : Expr} (h : isSelectorEntry e = true) : ctxOf e = .sel := by
  cases e <;> first | rfl | cases h
theorem ctx_attr {e : Expr} (h : isAttribute e = true) : ctxOf e = .attr := by
  cases e <;> first | rfl | cases h
theorem ctx_option {e : Expr} (h : isCaseOption e = true) : ctxOf e = .value := by
  cases e <;> first | rfl | cases h
theorem ctx_block {e : Expr} (h : isBlock e = true) : ctxOf e = .value := by
  cases e <;> first | rfl | cases h
theorem ctx_param {e : Expr} (h : isParameter e = true) : ctxOf e = .value := by
  cases e <;> first | rfl | cases h
theorem ctx_segment {e : Expr} (h : isSegment e = true) : ctxOf e = .value := by
  cases e <;> first | rfl | cases h
theorem ctx_lambda {e : Expr} (h : isLambda e = true) : ctxOf e = .value := by
  cases e <;> first | rfl | cases h
theorem ctx_query {e : Expr} (h : isQuery e = true) : ctxOf e = .value := by
  cases e <;> first | rfl | cases h
theorem ctx_named {e : Expr} (h : isNamedAccess e = true) : ctxOf e = .value := by
  cases e <;> first | rfl | cases h
theorem ctx_hash {e : Expr} (h : isHash e = true) : ctxOf e = .value := by
  cases e <;> first | rfl | cases h
theorem ctx_bodyExpr {e : Expr} (h : isBody e = true) : ctxOf e = .value := by
  cases e <;> first | rfl | cases h

/-- The PN of an expression gives it back. -/
def Back (e : Expr) (p : PN) : Prop := Ev (fun n => dec n (ctxOf e) p) (canon e)

theorem Back.as {e : Expr} {p : PN} {c : Ctx} (h : Back e p) (hc : ctxOf e = c) : Ev (fun n => dec n c p) (canon e) := hc ▸ h

/-- The same for a list. -/
inductive Backs : List Expr → List PN → Prop
  | nil : Backs [] []
  | cons {e p es ps} : Back e p → Backs es ps → Backs (e :: es) (p :: ps)

theorem Backs.as {es : List Expr} {ps : List PN} {c : Ctx} (h : Backs es ps) (hc : ∀ e ∈ es, ctxOf e = c) :
    Ev (fun n => decL (dec n c) ps) (canonL es) := by
  induction h with
  | nil => exact Ev.pure _
  | cons h _ ih =>
    rw [canonL]
    simp only [decL]
    exact (h.as (hc _ (List.mem_cons_self ..))).bind ((ih fun e he => hc e (List.mem_cons_of_mem _ he)).bind (Ev.pure _))

/-- The same for an optional entry. -/
inductive BackO (k : GoStr) : Option Expr → List (GoStr × PN) → Prop
  | none : BackO k none []
  | some {e p} : Back e p → BackO k (some e) [(k, p)]

/-- Parameters. -/
inductive BackPs : List Expr → List (GoStr × PN) → Prop
  | nil : BackPs [] []
  | cons {q n v t c mt mv es ms} : BackO b!"type" t mt → BackO b!"value" v mv →
      (∀ e, t = some e → ctxOf e = .value) → (∀ e, v = some e → ctxOf e = .value) → BackPs es ms →
      BackPs (.parameter q n v t c :: es)
        ((n, .map (mt ++ (if c then [(b!"splat", PN.lit (.bool true))] else []) ++ mv)) :: ms)

theorem BackPs.read {es : List Expr} {ms : List (GoStr × PN)} (h : BackPs es ms) :
    Ev (fun n => decP (dec n .value) ms) (canonL es) := by
  induction h with
  | nil => exact Ev.pure _
  | @cons q n v t c mt mv es ms ht hv ct cv _ ih =>
    rw [canonL, canon]
    simp only [decP]
    have e1 : Ev (fun n => decO (dec n .value) ((mt ++ (if c then [(b!"splat", PN.lit (.bool true))] else []) ++ mv).lookup b!"type"))
        (canonO t) := by
      cases ht with
      | none => cases hv <;> cases c <;> exact Ev.pure _
      | some h =>
        have := h.as (ct _ rfl)
        cases hv <;> cases c <;> exact this.bind (Ev.pure _)
    have e2 : Ev (fun n => decO (dec n .value) ((mt ++ (if c then [(b!"splat", PN.lit (.bool true))] else []) ++ mv).lookup b!"value"))
        (canonO v) := by
      cases hv with
      | none => cases ht <;> cases c <;> exact Ev.pure _
      | some h =>
        have := h.as (cv _ rfl)
        cases ht <;> cases c <;> exact this.bind (Ev.pure _)
    have e3 : (((mt ++ (if c then [(b!"splat", PN.lit (.bool true))] else []) ++ mv).lookup b!"splat").isSome) = c := by
      cases ht <;> cases hv <;> cases c <;> rfl
    rw [e3]
    exact e1.bind (e2.bind (ih.bind (Ev.pure _)))

/-- The entry of a list of parameters. -/
inductive BackParams : List Expr → List (GoStr × PN) → Prop
  | nil : BackParams [] []
  | cons {e es ms} : BackPs (e :: es) ms → BackParams (e :: es) [(b!"params", .map ms)]

theorem BackParams.read {es : List Expr} {m : List (GoStr × PN)} (h : BackParams es m) :
    Ev (fun n => decPs (dec n .value) (m.lookup b!"params")) (canonL es) := by
  cases h with
  | nil => exact Ev.pure _
  | cons h => exact h.read

end PP.Decode
