import Verif.Ast

/-! # Lemmas about the expression tree: induction over contained expressions, uniform traversal. -/

namespace PP.Expr

theorem optSize {e : Expr} {o : Option Expr} (h : e ∈ o) : sizeOf e < sizeOf o := by
  cases o with
  | none => simp at h
  | some x => simp at h; subst h; simp

theorem sizeOf_kid {k e : Expr} (h : k ∈ e.kids) : sizeOf k < sizeOf e := by
  cases e <;> simp [kids] at h <;> simp <;> (repeat' refine Or.elim h (fun h => ?_) (fun h => ?_)) <;>
    first
      | (subst h; omega)
      | (have := List.sizeOf_lt_of_mem h; omega)
      | (have := optSize h; omega)

/-- Induction over the containment relation. -/
theorem kidsInduction {P : Expr → Prop} (step : ∀ e, (∀ k ∈ e.kids, P k) → P e) (e : Expr) : P e :=
  step e fun k _h => kidsInduction step k
termination_by sizeOf e
decreasing_by exact sizeOf_kid _h

theorem deepVisitList_eq (cp : List Expr) : (es : List Expr) →
    deepVisitList cp es = es.flatMap fun k => (cp, k) :: allContents cp k
  | [] => by simp [deepVisitList]
  | e :: es => by simp [deepVisitList, deepVisitList_eq cp es]

theorem deepVisitOpt_eq (cp : List Expr) (o : Option Expr) :
    deepVisitOpt cp o = o.toList.flatMap fun k => (cp, k) :: allContents cp k := by
  cases o <;> simp [deepVisitOpt]

/-- The uniform equation behind all the `AllContents` methods. -/
theorem allContents_eq (path : List Expr) (e : Expr) :
    allContents path e = e.kids.flatMap fun k =>
      (path ++ [e.receiver], k) :: allContents (path ++ [e.receiver]) k := by
  cases e <;> simp [allContents, kids, receiver, deepVisitList_eq, deepVisitOpt_eq]

/-- What is visited does not depend on the path. -/
theorem allContents_snd (path : List Expr) (e : Expr) :
    (allContents path e).map Prod.snd = (allContents [] e).map Prod.snd := by
  induction e using kidsInduction generalizing path with
  | step e ih =>
    rw [allContents_eq path, allContents_eq [], List.map_flatMap, List.map_flatMap]
    have : ∀ ks : List Expr, (∀ k ∈ ks, k ∈ e.kids) →
        (ks.flatMap fun k => ((path ++ [e.receiver], k) :: allContents (path ++ [e.receiver]) k).map Prod.snd) =
        ks.flatMap fun k => (([] ++ [e.receiver], k) :: allContents ([] ++ [e.receiver]) k).map Prod.snd := by
      intro ks hks
      induction ks with
      | nil => rfl
      | cons k ks ih' =>
        rw [List.flatMap_cons, List.flatMap_cons, ih' fun x hx => hks x (by simp [hx])]
        rw [List.map_cons, List.map_cons, ih k (hks k (by simp)) (path ++ _), ih k (hks k (by simp)) ([] ++ _)]
    exact this _ fun _ h => h

/-- Everything contained in an expression: its children and what they contain. -/
theorem allContents_kids (e : Expr) : (allContents [] e).map Prod.snd =
    e.kids.flatMap fun k => k :: (allContents [] k).map Prod.snd := by
  rw [allContents_eq [], List.map_flatMap]
  congr 1
  funext k
  rw [List.map_cons, allContents_snd]

end PP.Expr
