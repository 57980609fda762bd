import Verif.Lemmas.Convert
import Verif.Lemmas.Qual3

/-! # Qualified names: functions of the parser that do not recurse -/
namespace PP.Qu
open PP PP.Props

section
variable {env : Env} {base ns ms ls : List GoStr} {self : Self}

theorem _root_.PP.Props.Named.setPos {e : Expr} {p : Pos} (h : Named ns e) : Named ns (e.setPos p) := by
  cases h with
  | hostClass h1 h2 => exact .hostClass h1 h2
  | plan h1 h2 h3 => exact .plan h1 h2 h3
  | workflow h1 h2 => exact .workflow h1 h2
  | step h0 h1 h2 => exact .step h0 h1 h2
  | mapping h1 h2 => exact .mapping h1 h2
  | interpolation h => exact .interpolation h
  | other hq hk =>
    refine .other ?_ ?_
    · revert hq; cases e <;> first | exact id | (rename_i k _; cases k <;> exact id) | (rename_i k _ _ _; cases k <;> exact id)
    · cases e <;> exact hk

theorem named_setRval {b : Bool} {e : Expr} (h : Named ns e) : Named ns (setRval b e) := by
  unfold setRval
  split
  · exact .plain rfl (h.kids rfl)
  · exact h

theorem named_statementArgs {e : Expr} (h : Named ns e) : AllN ns (statementArgs e) := by
  unfold statementArgs
  split
  · exact h.kids rfl
  · exact .one (named_setRval h)

theorem named_transformLoop {m : Expr} {es : List Expr} (h : Named ns m) (hs : AllN ns es) : AllN ns (transformLoop m es).1 := by
  fun_induction transformLoop m es with
  | case1 => exact .one (named_setRval h)
  | case2 m e hc => exact .one (.plain rfl (.cons h (by simpa using named_statementArgs hs.of_cons.1)))
  | case3 m e hc => exact .cons (named_setRval h) (.one (named_setRval hs.of_cons.1))
  | case4 m e m' rest hc r ih =>
    exact .cons (.plain rfl (.cons h (by simpa using named_statementArgs hs.of_cons.1))) (ih hs.of_cons.2.of_cons.1 hs.of_cons.2.of_cons.2)
  | case5 m e m' rest hc r ih => exact .cons (named_setRval h) (ih hs.of_cons.1 hs.of_cons.2)

theorem Ok.extraneousComma {α : Type} {R : α → Prop} {es : List Expr} : Ok env base ns (PP.extraneousComma es : P α) ms R := by
  unfold PP.extraneousComma
  refine Ok.bind Ok.getEnv fun _ _ => ?_
  repeat' (first | exact Ok.crash | exact Ok.throwE | split | dsimp only)

theorem Ok.transformCalls {es : List Expr} (h : AllN ns es) : Ok env base ns (PP.transformCalls es) ns (AllN ns) := by
  unfold PP.transformCalls
  split
  · exact .pureNs .nil
  · have := named_transformLoop h.of_cons.1 h.of_cons.2
    dsimp only
    split
    · split
      · exact Ok.extraneousComma
      · exact .pureNs this
    · exact .pureNs this

theorem named_convertLhs {l : Expr} (h : Named ns l) : Named ns (convertLhs l) := by
  fun_induction convertLhs l with
  | case1 q l r ih =>
    have hk := h.kids rfl
    exact .plain rfl (.cons (.plain rfl (.cons (ih hk.of_cons.1) hk.of_cons.2)) .nil)
  | case2 => exact h

theorem named_convertLhsToCall {p q : Pos} {l r : Expr} {args : List Expr} {lam : Option Expr} (hl : Named ns l) (hr : Named ns r)
    (ha : AllN ns args) (hm : OptN ns lam) : Named ns (convertLhsToCall p l r args lam q) :=
  .plain rfl (.cons (.plain rfl (.cons (named_convertLhs hl) (.one hr))) (.append ha (.opt hm)))

theorem named_newHash {es : List Expr} (h : AllN ns es) : Named ns (newHash es) := .plain rfl h

theorem named_processHashEntries {es c : List Expr} (h : AllN ns es) (hc : AllN ns c) : AllN ns (processHashEntries es c) := by
  fun_induction processHashEntries es c with
  | case1 => exact .nil
  | case2 => exact .one (named_newHash hc)
  | case3 _ _ _ ih => exact ih h.of_cons.2 (.one h.of_cons.1)
  | case4 _ _ _ ih => exact .cons h.of_cons.1 (ih h.of_cons.2 .nil)
  | case5 _ _ _ _ _ ih => exact ih h.of_cons.2 (hc.snoc h.of_cons.1)
  | case6 _ _ _ _ _ ih => exact .cons (named_newHash hc) (.cons h.of_cons.1 (ih h.of_cons.2 .nil))

theorem named_joinHashEntries {es : List Expr} (h : AllN ns es) : AllN ns (joinHashEntries es) := by
  unfold joinHashEntries
  split
  · exact named_processHashEntries h .nil
  · exact h

theorem named_deferredCall {p : Pos} {args : List Expr} (h : AllN ns args) : Named ns (deferredCall p args) := by
  unfold deferredCall
  refine .plain rfl (.cons ?_ (.append h .nil))
  nm

theorem named_toDeferred_both :
    (∀ e, Named ns e → Named ns (toDeferred e)) ∧ (∀ es, AllN ns es → AllN ns (toDeferredList es)) := by
  refine toDeferred.mutual_induct (motive_1 := fun e => Named ns e → Named ns (toDeferred e))
    (motive_2 := fun es => AllN ns es → AllN ns (toDeferredList es)) ?_ ?_ ?_ ?_ ?_ ?_ ?_ ?_ ?_ ?_
  · intro p es ih h; rw [toDeferred]; exact .plain rfl (ih (h.kids rfl))
  · intro p es ih h; rw [toDeferred]; exact .plain rfl (ih (h.kids rfl))
  · intro p k v ih1 ih2 h
    have hk := h.kids rfl
    rw [toDeferred]; exact .plain rfl (.cons (ih1 hk.of_cons.1) (.one (ih2 hk.of_cons.2.of_cons.1)))
  · intro p rv q n args lam ih h
    have hk := (h.kids rfl).of_cons
    have hd := ih fun x hx => hk.2 x (List.mem_append_left _ hx)
    rw [toDeferred]
    exact named_deferredCall (.cons (by nm) (.one (.plain rfl hd)))
  · intro p rv q n d args lam ih h
    have hk := (h.kids rfl).of_cons
    have hd := ih fun x hx => hk.2 x (List.mem_append_left _ hx)
    rw [toDeferred]
    exact named_deferredCall (.cons (by nm) (.one (.plain rfl (.cons hk.1 hd))))
  · intro p q n h; rw [toDeferred]; exact named_deferredCall (by nm)
  · intro p e he h
    rw [toDeferred]
    · exact named_deferredCall (by nm)
    · exact he
  · intro e h1 h2 h3 h4 h5 h6 h7 h
    rw [toDeferred]
    · exact h
    all_goals assumption
  · intro _; rw [toDeferredList]; exact .nil
  · intro e es ih1 ih2 h
    rw [toDeferredList]; exact .cons (ih1 h.of_cons.1) (ih2 h.of_cons.2)

theorem named_toDeferredList {es : List Expr} (h : AllN ns es) : AllN ns (toDeferredList es) := named_toDeferred_both.2 es h

/-! ## The stack of names -/

theorem joinStr_qualified (l : List GoStr) : joinStr b!"::" l = qualified l := by
  fun_induction qualified l with
  | case1 => rfl
  | case2 => rfl
  | case3 n ns h ih =>
    cases ns with
    | nil => exact absurd rfl h
    | cons a b => rw [joinStr, ih]

theorem Ok.withBase {α : Type} {R : α → Prop} {x : P α} (h : base <+: ns → Ok env base ns x ms R) : Ok env base ns x ms R := by
  intro s a t hi hn hx
  exact h (hn ▸ hi.base) s a t hi hn hx
theorem Ok.pushName {n : GoStr} : Ok env base ns (PP.pushName n) (ns ++ [n]) (fun _ => True) := by
  intro s a t hi hn hx
  cases hx
  exact ⟨⟨hi.val, hi.defs, hi.base.trans (List.prefix_append _ _)⟩, by simp [hn], trivial⟩
theorem Ok.popName {n : GoStr} (hb : base <+: ns) : Ok env base (ns ++ [n]) PP.popName ns (fun _ => True) := by
  intro s a t hi hn hx
  cases hx
  exact ⟨⟨hi.val, hi.defs, by simpa [hn] using hb⟩, by simp [hn], trivial⟩
theorem Ok.qualifiedName {n : GoStr} : Ok env base ns (PP.qualifiedName n) ns (fun r => r = qualified (ns ++ [n])) := by
  intro s a t hi hn hx
  cases hx
  exact ⟨hi, hn, by rw [hn]; exact joinStr_qualified _⟩
theorem Ok.addDefinition {e : Expr} (h : Named ns e) : Ok env base ns (PP.addDefinition e) ns (Named ns) := by
  intro s a t hi hn hx
  cases hx
  refine ⟨⟨hi.val, ?_, hi.base⟩, hn, h⟩
  intro d hd
  rcases List.mem_append.1 hd with hd | hd
  · exact hi.defs d hd
  · cases List.mem_singleton.1 hd
    exact ⟨ns, hn ▸ hi.base, h⟩

theorem Ok.assertToken {t : Tok} : Ok env base ns (PP.assertToken t) ns (fun _ => True) := by
  unfold PP.assertToken; ok
theorem Ok.parameterName : Ok env base ns PP.parameterName ns (fun _ => True) := by
  unfold PP.parameterName; ok
theorem Ok.dottedSegment : Ok env base ns PP.dottedSegment ns (fun _ => True) := by
  unfold PP.dottedSegment; ok

macro_rules | `(tactic| okl) => `(tactic| first
  | with_reducible exact Ok.assertToken | with_reducible exact Ok.parameterName | with_reducible exact Ok.dottedSegment
  | with_reducible exact Ok.qualifiedName | with_reducible exact Ok.pushName
  | (with_reducible refine Ok.popName ?_; assumption)
  | (with_reducible refine Ok.addDefinition ?_; nm; done)
  | (with_reducible refine Ok.transformCalls ?_; nm; done))
macro_rules | `(tactic| okl) => `(tactic| first
  | (with_reducible refine Ok.pureNs (named_joinHashEntries ?_); nm; done))

end
end PP.Qu
