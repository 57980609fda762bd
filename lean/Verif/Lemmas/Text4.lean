import Verif.Lemmas.Convert
import Verif.Lemmas.Text3

/-! # Strings in results are UTF-8: functions of the parser that do not recurse -/
namespace PP.Vt
open PP PP.Props

section
variable {env : Env} {self : Self}

theorem strings_setPos {e : Expr} {p : Pos} : strings (e.setPos p) = strings e := by
  cases e <;> rfl
theorem kids_setPos {e : Expr} {p : Pos} : (e.setPos p).kids = e.kids := by
  cases e <;> rfl
theorem Txt.setPos {e : Expr} {p : Pos} (h : Txt e) : Txt (e.setPos p) :=
  .mk (by rw [strings_setPos]; exact h.strs) (by rw [kids_setPos]; exact h.kids)

theorem V.lower {w : GoStr} (h : V w) : V (toLowerAscii w) := by
  obtain ⟨rs, h1, rfl⟩ := h
  induction rs with
  | nil => exact .nil
  | cons r rs ih =>
    rw [utf8_cons]
    unfold toLowerAscii
    rw [List.map_append]
    refine V.append ?_ (ih fun x hx => h1 x (List.mem_cons_of_mem _ hx))
    by_cases hr : r < 128
    · rw [encodeRune_ascii hr]
      apply V.ascii
      intro b hb
      simp only [List.map_cons, List.map_nil, List.mem_singleton] at hb
      subst hb
      have h3 : (UInt8.ofNat r).toNat = r := by simp; omega
      rw [h3]
      split
      · rename_i hc
        simp at hc
        have h4 : (UInt8.ofNat (r + 32)).toNat = r + 32 := by simp; omega
        omega
      · omega
    · have : List.map (fun b => if 65 ≤ b.toNat && b.toNat ≤ 90 then UInt8.ofNat (b.toNat + 32) else b) (encodeRune r) = encodeRune r := by
        conv => rhs; rw [← List.map_id (encodeRune r)]
        refine List.map_congr_left fun b hb => ?_
        have : ¬ b.toNat < 128 := fun h => hr (by have := encodeRune_ascii_mem hb h; omega)
        simp
        omega
      rw [this]
      exact .encode r

theorem V.join {sep : GoStr} {l : List GoStr} (hs : V sep) (h : AllV l) : V (joinStr sep l) := by
  fun_induction joinStr sep l with
  | case1 => exact .nil
  | case2 => exact h.of_cons.1
  | case3 a b rest ih => first | exact (h.of_cons.1.append hs).append (ih h.of_cons.2) | exact h.of_cons.1.append (hs.append (ih h.of_cons.2))
theorem V.dec {i : Int} : V (intToDec i) := by
  apply V.ascii
  intro b hb
  have := intToDec_char i b hb
  omega

macro_rules | `(tactic| vl) => `(tactic| first
  | with_reducible exact V.dec | ((with_reducible apply V.join); (· vl); (with_reducible apply AllV.snoc); (· vl); assumption) | (((with_reducible apply V.lower)); vl))

theorem txt_setRval {b : Bool} {e : Expr} (h : Txt e) : Txt (setRval b e) := by
  unfold setRval
  split
  · exact .plain (by nm) (h.kids)
  · exact h

theorem txt_statementArgs {e : Expr} (h : Txt e) : AllT (statementArgs e) := by
  unfold statementArgs
  split
  · exact h.kids
  · exact .one (txt_setRval h)

theorem txt_transformLoop {m : Expr} {es : List Expr} (h : Txt m) (hs : AllT es) : AllT (transformLoop m es).1 := by
  fun_induction transformLoop m es with
  | case1 => exact .one (txt_setRval h)
  | case2 m e hc => exact .one (.plain (by nm) (.cons h (by simpa using txt_statementArgs hs.of_cons.1)))
  | case3 m e hc => exact .cons (txt_setRval h) (.one (txt_setRval hs.of_cons.1))
  | case4 m e m' rest hc r ih =>
    exact .cons (.plain (by nm) (.cons h (by simpa using txt_statementArgs hs.of_cons.1))) (ih hs.of_cons.2.of_cons.1 hs.of_cons.2.of_cons.2)
  | case5 m e m' rest hc r ih => exact .cons (txt_setRval h) (ih hs.of_cons.1 hs.of_cons.2)

theorem Ok.extraneousComma {α : Type} {R : α → Prop} {es : List Expr} : Ok env (PP.extraneousComma es : P α)  R := by
  unfold PP.extraneousComma
  refine Ok.bind Ok.getEnv fun _ _ => ?_
  repeat' (first | exact Ok.crash | exact Ok.throwE | split | dsimp only)

theorem Ok.transformCalls {es : List Expr} (h : AllT es) : Ok env (PP.transformCalls es) AllT := by
  unfold PP.transformCalls
  split
  · exact .pureNs .nil
  · have := txt_transformLoop h.of_cons.1 h.of_cons.2
    dsimp only
    split
    · split
      · exact Ok.extraneousComma
      · exact .pureNs this
    · exact .pureNs this

theorem txt_convertLhs {l : Expr} (h : Txt l) : Txt (convertLhs l) := by
  fun_induction convertLhs l with
  | case1 q l r ih =>
    have hk := h.kids
    exact .plain (by nm) (.cons (.plain (by nm) (.cons (ih hk.of_cons.1) hk.of_cons.2)) .nil)
  | case2 => exact h

theorem txt_convertLhsToCall {p q : Pos} {l r : Expr} {args : List Expr} {lam : Option Expr} (hl : Txt l) (hr : Txt r)
    (ha : AllT args) (hm : OptT lam) : Txt (convertLhsToCall p l r args lam q) := by
  unfold convertLhsToCall
  exact .plain (by nm) (.cons (.plain (by nm) (.cons (txt_convertLhs hl) (.one hr))) (.append ha (.opt hm)))

theorem txt_newHash {es : List Expr} (h : AllT es) : Txt (newHash es) := by
  unfold newHash
  exact .plain (by nm) h

theorem txt_processHashEntries {es c : List Expr} (h : AllT es) (hc : AllT c) : AllT (processHashEntries es c) := by
  fun_induction processHashEntries es c with
  | case1 => exact .nil
  | case2 => exact .one (txt_newHash hc)
  | case3 _ _ _ ih => exact ih h.of_cons.2 (.one h.of_cons.1)
  | case4 _ _ _ ih => exact .cons h.of_cons.1 (ih h.of_cons.2 .nil)
  | case5 _ _ _ _ _ ih => exact ih h.of_cons.2 (hc.snoc h.of_cons.1)
  | case6 _ _ _ _ _ ih => exact .cons (txt_newHash hc) (.cons h.of_cons.1 (ih h.of_cons.2 .nil))

theorem txt_joinHashEntries {es : List Expr} (h : AllT es) : AllT (joinHashEntries es) := by
  unfold joinHashEntries
  split
  · exact txt_processHashEntries h .nil
  · exact h

theorem txt_deferredCall {p : Pos} {args : List Expr} (h : AllT args) : Txt (deferredCall p args) := by
  unfold deferredCall
  refine .plain (by nm) (.cons ?_ (.append h .nil))
  nm

theorem txt_toDeferred_both :
    (∀ e, Txt e → Txt (toDeferred e)) ∧ (∀ es, AllT es → AllT (toDeferredList es)) := by
  refine toDeferred.mutual_induct (motive_1 := fun e => Txt e → Txt (toDeferred e))
    (motive_2 := fun es => AllT es → AllT (toDeferredList es)) ?_ ?_ ?_ ?_ ?_ ?_ ?_ ?_ ?_ ?_
  · intro p es ih h; rw [toDeferred]; exact .plain (by nm) (ih (h.kids))
  · intro p es ih h; rw [toDeferred]; exact .plain (by nm) (ih (h.kids))
  · intro p k v ih1 ih2 h
    have hk := h.kids
    rw [toDeferred]; exact .plain (by nm) (.cons (ih1 hk.of_cons.1) (.one (ih2 hk.of_cons.2.of_cons.1)))
  · intro p rv q n args lam ih h
    have hk := (h.kids).of_cons
    have hd := ih fun x hx => hk.2 x (List.mem_append_left _ hx)
    have := hk.1.strs.of_cons.1
    rw [toDeferred]
    exact txt_deferredCall (.cons (by nm) (.one (.plain (by nm) hd)))
  · intro p rv q n d args lam ih h
    have hk := (h.kids).of_cons
    have hd := ih fun x hx => hk.2 x (List.mem_append_left _ hx)
    rw [toDeferred]
    exact txt_deferredCall (.cons (by nm) (.one (.plain (by nm) (.cons hk.1 hd))))
  · intro p q n h; have := h.kids.of_cons.1.strs.of_cons.1; rw [toDeferred]; exact txt_deferredCall (by nm)
  · intro p e he h
    rw [toDeferred]
    · exact txt_deferredCall (by nm)
    · exact he
  · intro e h1 h2 h3 h4 h5 h6 h7 h
    rw [toDeferred]
    · exact h
    all_goals assumption
  · intro _; rw [toDeferredList]; exact .nil
  · intro e es ih1 ih2 h
    rw [toDeferredList]; exact .cons (ih1 h.of_cons.1) (ih2 h.of_cons.2)

theorem txt_toDeferredList {es : List Expr} (h : AllT es) : AllT (toDeferredList es) := txt_toDeferred_both.2 es h

/-! ## The stack of names -/

theorem Ok.pushName {n : GoStr} (h : V n) : Ok env (PP.pushName n) (fun _ => True) := by
  intro s a t hi hx
  cases hx
  exact ⟨⟨hi.val, hi.defs, AllV.snoc h hi.names⟩, trivial⟩
theorem Ok.popName : Ok env PP.popName (fun _ => True) := by
  intro s a t hi hx
  cases hx
  exact ⟨⟨hi.val, hi.defs, fun n hn => hi.names n (List.dropLast_subset _ hn)⟩, trivial⟩
theorem Ok.qualifiedName {n : GoStr} (h : V n) : Ok env (PP.qualifiedName n) V := by
  intro s a t hi hx
  cases hx
  exact ⟨hi, V.join (V.lit (by decide)) (AllV.snoc h hi.names)⟩
theorem Ok.addDefinition {e : Expr} (h : Txt e) : Ok env (PP.addDefinition e) Txt := by
  intro s a t hi hx
  cases hx
  refine ⟨⟨hi.val, ?_, hi.names⟩, h⟩
  intro d hd
  rcases List.mem_append.1 hd with hd | hd
  · exact hi.defs d hd
  · cases List.mem_singleton.1 hd
    exact h

theorem Ok.assertToken {t : Tok} : Ok env (PP.assertToken t) (fun _ => True) := by
  unfold PP.assertToken; ok
macro_rules | `(tactic| okl) => `(tactic| ((with_reducible refine Ok.pureV ?_); vl; done))
theorem Ok.parameterName : Ok env PP.parameterName V := by
  unfold PP.parameterName; ok
theorem Ok.dottedSegment (H : HS env self) : Ok env PP.dottedSegment V := by
  unfold PP.dottedSegment
  refine Ok.bind (R := fun a => a = env) (fun s a t hi hx => by cases hx; exact ⟨hi, rfl⟩) fun e he => ?_
  subst he
  have := H.flt
  ok
  exact Ok.pureV (this _ (by vl))

macro_rules | `(tactic| okl) => `(tactic| first
  | with_reducible exact Ok.assertToken | with_reducible exact Ok.parameterName | ((with_reducible apply Ok.dottedSegment); assumption)
  | ((with_reducible refine Ok.qualifiedName ?_); vl; done) | ((with_reducible refine Ok.pushName ?_); vl; done)
  | with_reducible exact Ok.popName
  | ((with_reducible refine Ok.addDefinition ?_); nm; done)
  | ((with_reducible refine Ok.transformCalls ?_); nm; done))
macro_rules | `(tactic| okl) => `(tactic| first
  | ((with_reducible refine Ok.pureNs (txt_joinHashEntries ?_)); nm; done))

end
end PP.Vt
