import Verif.Props.Validator

/-!
# C07, C08: when `ToPN` succeeds
-/

namespace PP.Props
open PP.Expr

/-- The parameters that an expression declares. -/
def declares : Expr → List Expr
  | .lambda _ ps _ _ => ps
  | .namedDef _ _ _ ps _ => ps
  | .function _ _ _ ps _ _ => ps
  | _ => []

/-- A parameter whose name can be a key of a PN map. -/
def RepresentableParameter (p : Expr) : Prop :=
  ∃ q n v t c, p = .parameter q n v t c ∧ isKey n = true

/-- A variable is named or numbered. -/
def RepresentableVariable (x : Expr) : Prop :=
  ∀ p e, x = .un p .variable e → (∃ q n, e = .qname q n) ∨ ∃ q r v, e = .integer q r v

/-- Everything in the tree can be represented. -/
def Representable (e : Expr) : Prop :=
  ∀ x ∈ subexpressions e, (∀ p ∈ declares x, RepresentableParameter p) ∧ RepresentableVariable x

/-- The computation does not panic. -/
private def Ok {α} (m : PNM α) : Prop := ∃ a, m = .ok a

private theorem ok_ok {α} (a : α) : Ok (.ok a) := ⟨a, rfl⟩
private theorem ok_pure {α} (a : α) : Ok (pure a) := ⟨a, rfl⟩
private theorem ok_error {α} (x) : ¬ Ok (α := α) (.error x) := by rintro ⟨a, h⟩; cases h

private theorem ok_bind {α β} (m : PNM α) (f : α → PNM β) : Ok (m >>= f) ↔ ∃ a, m = .ok a ∧ Ok (f a) := by
  cases m with
  | error x => simp [bind, Except.bind, ok_error]
  | ok a => simp [bind, Except.bind]

private theorem ok_map {α β} (m : PNM α) (f : α → β) : Ok (m.map f) ↔ Ok m := by
  cases m <;> simp [Except.map, ok_error, ok_ok]

private theorem ok_fmap {α β} (m : PNM α) (f : α → β) : Ok (f <$> m) ↔ Ok m := by
  cases m <;> simp [Functor.map, Except.map, ok_error, ok_ok]

private theorem map_ok {α β} (m : PNM α) (f : α → β) (b : β) : m.map f = .ok b ↔ ∃ a, m = .ok a ∧ f a = b := by
  cases m <;> simp [Except.map]

private theorem ok_fold {α} (m : PNM α) : (∃ a, m = .ok a) ↔ Ok m := Iff.rfl

private theorem ok_mkMap (es) : Ok (mkMap es) ↔ ∀ e ∈ es, isKey e.1 = true := by
  unfold mkMap
  split
  · rename_i e h
    have h1 := List.mem_of_find?_eq_some h
    have h2 := List.find?_some h
    simp only [ok_error, false_iff]
    intro h'
    simp [h' e h1] at h2
  · rename_i h
    simp only [ok_ok, true_iff]
    intro e he
    simpa using List.find?_eq_none.1 h e he

private theorem ok_pnMap (es : List Expr) : Ok (pnMap es) ↔ ∀ e ∈ es, Ok (toPN e) := by
  induction es with
  | nil => simp [pnMap, ok_ok]
  | cons e es ih =>
    simp only [pnMap, ok_bind, ok_pure, and_true, ok_fold, ih, List.forall_mem_cons, exists_and_right]

private theorem ok_optEntry (n : GoStr) (o : Option Expr) : Ok (optEntry n o) ↔ ∀ e ∈ o.toList, Ok (toPN e) := by
  cases o <;> simp [optEntry, ok_ok, ok_fmap]

private theorem optEntry_keys {n : GoStr} {o : Option Expr} {l} (h : optEntry n o = .ok l) (e) (he : e ∈ l) : e.1 = n := by
  cases o with
  | none => simp [optEntry] at h; subst h; cases he
  | some x =>
    simp only [optEntry] at h
    cases hx : toPN x with
    | error y => simp [hx, bind, Except.bind] at h
    | ok y =>
      simp [hx, bind, Except.bind, pure, Except.pure] at h
      subst h
      rw [List.mem_singleton.1 he]

private theorem optEntry_then {α} (n : GoStr) (o : Option Expr) (f : List (GoStr × PN) → PNM α) :
    Ok (optEntry n o >>= f) ↔ (∀ e ∈ o.toList, Ok (toPN e)) ∧
      ∃ l, optEntry n o = .ok l ∧ Ok (f l) := by
  rw [ok_bind]
  constructor
  · rintro ⟨l, h1, h2⟩; exact ⟨(ok_optEntry n o).1 ⟨l, h1⟩, l, h1, h2⟩
  · rintro ⟨_, l, h1, h2⟩; exact ⟨l, h1, h2⟩

private theorem ok_paramEntry (e : Expr) : Ok (paramEntry e) ↔ (∃ q n v t c, e = .parameter q n v t c) ∧ Ok (toPN e) := by
  cases e with
  | parameter p n v t c =>
    have hk : ∀ x y : List (GoStr × PN), optEntry b!"type" t = .ok x → optEntry b!"value" v = .ok y →
        ∀ e ∈ x ++ (if c then [(b!"splat", PN.lit (.bool true))] else []) ++ y, isKey e.1 = true := by
      intro x y hx hy e he
      simp only [List.mem_append] at he
      rcases he with (he | he) | he
      · rw [optEntry_keys hx e he]; rfl
      · split at he
        · rw [List.mem_singleton.1 he]; rfl
        · cases he
      · rw [optEntry_keys hy e he]; rfl
    have h1 : Ok (paramEntry (.parameter p n v t c)) ↔
        (∀ e ∈ t.toList, Ok (toPN e)) ∧ ∀ e ∈ v.toList, Ok (toPN e) := by
      simp only [paramEntry]
      rw [← ok_optEntry b!"type", ← ok_optEntry b!"value"]
      simp only [ok_bind, ok_pure, and_true, ok_fold, ok_mkMap]
      constructor
      · rintro ⟨x, hx, y, hy, -⟩; exact ⟨⟨x, hx⟩, y, hy⟩
      · rintro ⟨⟨x, hx⟩, y, hy⟩; exact ⟨x, hx, y, hy, hk x y hx hy⟩
    have h2 : Ok (toPN (.parameter p n v t c)) ↔
        (∀ e ∈ t.toList, Ok (toPN e)) ∧ ∀ e ∈ v.toList, Ok (toPN e) := by
      simp only [toPN]
      rw [← ok_optEntry b!"type", ← ok_optEntry b!"value"]
      simp only [ok_bind, ok_pure, and_true, ok_fold, ok_mkMap]
      constructor
      · rintro ⟨x, hx, y, hy, -⟩; exact ⟨⟨x, hx⟩, y, hy⟩
      · rintro ⟨⟨x, hx⟩, y, hy⟩
        refine ⟨x, hx, y, hy, ?_⟩
        intro e he
        simp only [List.mem_append, List.mem_singleton] at he
        rcases he with ((rfl | he) | he) | he
        · rfl
        all_goals exact hk x y hx hy e (by simp [he])
    rw [h1, h2]
    simp
  | _ => simp [paramEntry, ok_error]

/-- Parameters: the map of all entries can be built. -/
private theorem ok_params (ps : List Expr) :
    Ok (paramEntries ps >>= mkMap) ↔ ∀ p ∈ ps, RepresentableParameter p ∧ Ok (toPN p) := by
  have key : ∀ {p e}, paramEntry p = .ok e → ∀ q n v t c, p = .parameter q n v t c → e.1 = n := by
    rintro p e h q n v t c rfl
    simp only [paramEntry] at h
    cases h1 : optEntry b!"type" t <;> simp [h1, bind, Except.bind] at h
    cases h2 : optEntry b!"value" v <;> simp [h2] at h
    split at h
    · cases h
    · cases h; rfl
  simp only [ok_bind, ok_mkMap]
  induction ps with
  | nil => simp [paramEntries]
  | cons p ps ih =>
    rw [List.forall_mem_cons, ← propext ih]
    simp only [paramEntries]
    constructor
    · rintro ⟨l, h, hl⟩
      cases hp : paramEntry p with
      | error x => simp [hp, bind, Except.bind] at h
      | ok x =>
        cases hps : paramEntries ps with
        | error y => simp [hp, hps, bind, Except.bind] at h
        | ok y =>
          simp [hp, hps, bind, Except.bind, pure, Except.pure] at h
          subst h
          obtain ⟨⟨q, n, v, t, c, rfl⟩, ho⟩ := (ok_paramEntry p).1 ⟨x, hp⟩
          refine ⟨⟨⟨q, n, v, t, c, rfl, ?_⟩, ho⟩, y, rfl, fun e he => hl e (by simp [he])⟩
          rw [← key hp q n v t c rfl]
          exact hl x (by simp)
    · rintro ⟨⟨⟨q, n, v, t, c, rfl, hn⟩, ho⟩, l, h, hl⟩
      obtain ⟨x, hx⟩ := (ok_paramEntry (.parameter q n v t c)).2 ⟨⟨_, _, _, _, _, rfl⟩, ho⟩
      refine ⟨x :: l, by simp [hx, h, bind, Except.bind, pure, Except.pure], ?_⟩
      rw [List.forall_mem_cons]
      exact ⟨by rw [key hx q n v t c rfl]; exact hn, hl⟩

/-- The `params` entry. -/
private theorem ok_paramsEntry (ps : List Expr) :
    Ok (paramsEntry ps) ↔ ∀ p ∈ ps, RepresentableParameter p ∧ Ok (toPN p) := by
  rw [← ok_params]
  cases ps with
  | nil => simp [paramsEntry, ok_ok, paramEntries, ok_bind, ok_mkMap]
  | cons p ps =>
    simp only [paramsEntry, paramEntries]
    cases paramEntry p <;> cases paramEntries ps <;> simp [ok_error, bind, Except.bind, pure, Except.pure]
    rename_i x xs
    cases mkMap (x :: xs) <;> simp [ok_error, ok_ok]

private theorem paramsEntry_keys {ps : List Expr} {l : List (GoStr × PN)}
    (h : (paramsEntry ps) = .ok l) (e) (he : e ∈ l) : e.1 = b!"params" := by
  cases ps with
  | nil => rw [paramsEntry] at h; cases h; cases he
  | cons p ps =>
    rw [paramsEntry] at h
    cases h0 : paramEntry p <;> simp [h0, bind, Except.bind] at h
    cases h1 : paramEntries ps <;> simp [h1] at h
    rename_i x xs
    cases h2 : mkMap (x :: xs) <;> simp [h2, pure, Except.pure] at h
    subst h
    rw [List.mem_singleton.1 he]

/-- The condition at one node. -/
private def Local (e : Expr) : Prop := (∀ p ∈ declares e, RepresentableParameter p) ∧ RepresentableVariable e

private def Keys (l : List (GoStr × PN)) : Prop := ∀ e ∈ l, isKey e.1 = true

private theorem Keys.nil : Keys [] := by intro e he; cases he
private theorem Keys.cons {k p l} (h : isKey k = true) (hl : Keys l) : Keys ((k, p) :: l) := by
  intro e he
  rcases List.mem_cons.1 he with rfl | he
  · exact h
  · exact hl e he
private theorem Keys.append {l r} (hl : Keys l) (hr : Keys r) : Keys (l ++ r) := by
  intro e he
  rcases List.mem_append.1 he with he | he
  · exact hl e he
  · exact hr e he
private theorem Keys.ite {c : Prop} [Decidable c] {l r} (hl : Keys l) (hr : Keys r) : Keys (if c then l else r) := by
  split <;> assumption
private theorem Keys.opt {n : GoStr} {o : Option Expr} {l} (hn : isKey n = true) (h : optEntry n o = .ok l) : Keys l := by
  intro e he; rw [optEntry_keys h e he]; exact hn
private theorem Keys.params {ps : List Expr} {l : List (GoStr × PN)}
    (h : (paramsEntry ps) = .ok l) : Keys l := by
  intro e he; rw [paramsEntry_keys h e he]; rfl
private theorem Keys.form (f) : Keys (formEntry f) := .ite .nil (.cons rfl .nil)

private theorem ok_then {α β} {m : PNM α} {f : α → PNM β} {C : Prop} (h : ∀ a, m = .ok a → (Ok (f a) ↔ C)) :
    Ok (m >>= f) ↔ Ok m ∧ C := by
  rw [ok_bind]
  constructor
  · rintro ⟨a, h1, h2⟩; exact ⟨⟨a, h1⟩, (h a h1).1 h2⟩
  · rintro ⟨⟨a, h1⟩, h2⟩; exact ⟨a, h1, (h a h1).2 h2⟩

private theorem ok_makes {β} {es} {f : PN → PNM β} (h : Keys es) (hf : ∀ a, Ok (f a)) : Ok (mkMap es >>= f) ↔ True := by
  obtain ⟨a, ha⟩ := (ok_mkMap es).2 h
  rw [ha]
  exact iff_true_intro (hf a)

macro "keys" : tactic => `(tactic|
  repeat' (first
    | exact Keys.nil
    | exact Keys.form _
    | (refine Keys.opt ?_ (by assumption); rfl)
    | (apply Keys.params; assumption)
    | apply Keys.append
    | apply Keys.cons rfl
    | apply Keys.ite))

private theorem ok_node (e : Expr) : Ok (toPN e) ↔ Local e ∧ ∀ k ∈ e.kids, Ok (toPN k) := by
  cases e with
  | un p k x =>
    cases k <;>
      try (simp [toPN, Local, declares, RepresentableVariable, kids, ok_fmap]; done)
    simp only [toPN, Local, declares, RepresentableVariable, kids]
    cases x <;> simp [ok_ok, ok_error, toPN]
    rename_i q r v
    split
    · exact ok_ok _
    · exact (ok_makes (by keys) (fun _ => ok_pure _)).2 trivial
  | lambda p ps b r =>
    simp only [toPN]
    refine Iff.trans (ok_then fun _ _ => ok_then fun _ _ => ok_then fun _ _ => ok_makes (by keys) fun _ => ok_pure _) ?_
    rw [ok_paramsEntry, ok_optEntry, ok_map]
    simp [Local, declares, RepresentableVariable, kids, or_imp, forall_and]
    grind
  | namedDef p k n ps b =>
    simp only [toPN]
    refine Iff.trans (ok_then fun _ _ => ok_then fun _ _ => ok_makes (by keys) fun _ => ok_pure _) ?_
    rw [ok_paramsEntry, ok_map]
    simp [Local, declares, RepresentableVariable, kids, or_imp, forall_and]
    grind
  | function p pl n ps b r =>
    simp only [toPN]
    refine Iff.trans (ok_then fun _ _ => ok_then fun _ _ => ok_then fun _ _ => ok_makes (by keys) fun _ => ok_pure _) ?_
    rw [ok_paramsEntry, ok_optEntry, ok_map]
    simp [Local, declares, RepresentableVariable, kids, or_imp, forall_and]
    grind
  | query p x e =>
    simp only [toPN]
    split
    · rename_i h
      cases e <;> simp_all [isNop, ok_pure, ok_ok, Local, declares, RepresentableVariable, kids, toPN]
    · simp [Local, declares, RepresentableVariable, kids, ok_fmap]
  | integer p r v =>
    simp only [toPN]
    split
    · simp [Local, declares, RepresentableVariable, kids, ok_ok]
    · rw [ok_makes (by keys) (fun _ => ok_pure _)]
      simp [Local, declares, RepresentableVariable, kids]
  | bin | access | block | concat | epp | attributeOp | attributesOp | capabilityMapping | caseE | hash | list
  | keyedEntry | selector | selectorEntry | site | typeAlias | typeDefinition | typeMapping | commaSep
  | boolean | dflt | float | string | undef | nop | qname | qref | regexp | renderString | reserved | program =>
    simp [toPN, Local, declares, RepresentableVariable, kids, ok_fmap, ok_bind, ok_ok, ok_fold, ok_pnMap]
  | call p k rv f as l =>
    simp only [toPN]
    refine Iff.trans (ok_then fun _ _ => ok_then fun _ _ => ok_then fun _ _ => ok_makes (by keys) fun _ => ok_pure _) ?_
    rw [ok_optEntry, ok_pnMap]
    simp [Local, declares, RepresentableVariable, kids, or_imp, forall_and]
  | caseOption p vs t =>
    simp only [toPN]
    refine Iff.trans (ok_then fun _ _ => ok_then fun _ _ => iff_true_intro ((ok_mkMap _).2 (by keys))) ?_
    rw [ok_map, ok_pnMap]
    simp [Local, declares, RepresentableVariable, kids, or_imp, forall_and]
  | collect p t q ops =>
    simp only [toPN]
    refine Iff.trans (ok_then fun _ _ => ok_then fun _ _ => ok_then fun _ _ => ok_makes (by keys) fun _ => ok_pure _) ?_
    rw [ok_pnMap]
    simp [Local, declares, RepresentableVariable, kids, or_imp, forall_and]
  | heredoc p s t =>
    simp only [toPN]
    refine Iff.trans (ok_then fun _ _ => ok_makes (by keys) fun _ => ok_pure _) ?_
    simp [Local, declares, RepresentableVariable, kids]
  | ifE p u c t e =>
    simp only [toPN]
    refine Iff.trans (ok_then fun _ _ => ok_then fun _ _ => ok_then fun _ _ => ok_makes (by keys) fun _ => ok_pure _) ?_
    rw [ok_map, ok_map]
    simp [Local, declares, RepresentableVariable, kids]
  | node p pa hs b =>
    simp only [toPN]
    refine Iff.trans (ok_then fun _ _ => ok_then fun _ _ => ok_then fun _ _ => ok_makes (by keys) fun _ => ok_pure _) ?_
    rw [ok_map, ok_optEntry, ok_pnMap]
    simp [Local, declares, RepresentableVariable, kids, or_imp, forall_and]
    grind
  | parameter p n v t c =>
    simp only [toPN]
    refine Iff.trans (ok_then fun _ _ => ok_then fun _ _ => ok_makes (by keys) fun _ => ok_pure _) ?_
    rw [ok_optEntry, ok_optEntry]
    simp [Local, declares, RepresentableVariable, kids, or_imp, forall_and]
  | step p n s ps d =>
    simp only [toPN]
    refine Iff.trans (ok_then fun _ _ => ok_then fun _ _ => ok_makes (by keys) fun _ => ok_pure _) ?_
    rw [ok_optEntry, ok_optEntry]
    simp [Local, declares, RepresentableVariable, kids, or_imp, forall_and]
  | resource p f t bs =>
    simp only [toPN]
    refine Iff.trans (ok_then fun _ _ => ok_then fun _ _ => ok_makes (by keys) fun _ => ok_pure _) ?_
    rw [ok_pnMap]
    simp [Local, declares, RepresentableVariable, kids]
  | resourceBody p t bs =>
    simp only [toPN]
    refine Iff.trans (ok_then fun _ _ => ok_then fun _ _ => ok_makes (by keys) fun _ => ok_pure _) ?_
    rw [ok_pnMap]
    simp [Local, declares, RepresentableVariable, kids]
  | resourceDefaults p f t bs =>
    simp only [toPN]
    refine Iff.trans (ok_then fun _ _ => ok_then fun _ _ => ok_makes (by keys) fun _ => ok_pure _) ?_
    rw [ok_pnMap]
    simp [Local, declares, RepresentableVariable, kids]
  | resourceOverride p f t bs =>
    simp only [toPN]
    refine Iff.trans (ok_then fun _ _ => ok_then fun _ _ => ok_makes (by keys) fun _ => ok_pure _) ?_
    rw [ok_pnMap]
    simp [Local, declares, RepresentableVariable, kids]

/-- C07, for every expression: `ToPN` does not panic exactly when all declared parameters are parameters
whose names are PN keys (and all variables are named or numbered, which holds for parsed programs). -/
theorem C07_toPN_ok_iff (e : Expr) : (∃ pn, e.toPN = .ok pn) ↔ Representable e := by
  have gen : ∀ e : Expr, Ok (toPN e) ↔ ∀ x ∈ subexpressions e, Local x := by
    intro e
    induction e using kidsInduction with
    | step e ih =>
      rw [ok_node, subexpressions, List.forall_mem_cons, allContents_kids]
      refine and_congr_right fun _ => ?_
      constructor
      · intro h x hx
        obtain ⟨k, hk, hx⟩ := List.mem_flatMap.1 hx
        exact (ih k hk).1 (h k hk) x hx
      · intro h k hk
        exact (ih k hk).2 fun x hx => h x (List.mem_flatMap.2 ⟨k, hk, hx⟩)
  exact gen e

/-- The two issue codes about parameter names. -/
def ParameterNamesAccepted (is : List Issue) : Prop :=
  ∀ i ∈ is, i.code ≠ .illegalParameterName ∧ i.code ≠ .illegalNumericParameter

theorem parameter_issue (c : Checker) (path q n v t k) (is : List Issue)
    (h : c.check path (.parameter q n v t k) = .ok is) (hn : ParameterNamesAccepted is) : isKey n = true := by
  simp only [Checker.check] at h
  obtain ⟨x, y, h1, h2, rfl⟩ := seq_ok h
  split at h1
  · simp [Checker.accept, Checker.severityOf] at h1
    subst h1
    exact absurd rfl (hn _ (List.mem_append_left _ (List.mem_singleton.2 rfl))).2
  · split at h1
    · rename_i hp
      cases n with
      | nil => simp [paramName] at hp
      | cons b s =>
        simp only [paramName, Bool.and_eq_true, Bool.or_eq_true, List.all_eq_true] at hp
        simp only [isKey, Bool.and_eq_true, List.all_eq_true]
        refine ⟨?_, fun x hx => ?_⟩
        · unfold isKeyStart
          rcases hp.1 with h | h
          · simp only [isLowerByte] at h; simp [h]
          · simp at h; subst h; rfl
        · have := hp.2 x hx
          simp only [isWordByte, isLetterOrDigit, isLetter, isKeyChar, isKeyStart] at *
          grind
    · simp [Checker.accept, Checker.severityOf] at h1
      subst h1
      exact absurd rfl (hn _ (List.mem_append_left _ (List.mem_singleton.2 rfl))).1

/-- The issues of each check are among the reported ones. -/
theorem check_mem {c : Checker} {e : Expr} {is : List Issue} (h : validateWith c e = .ok is)
    {x : List Expr × Expr} (hx : x ∈ visited e) : ∃ js, c.check x.1 x.2 = .ok js ∧ ∀ j ∈ js, j ∈ is := by
  rw [validateWith_eq] at h
  generalize visited e = xs at h hx
  induction xs generalizing is with
  | nil => cases hx
  | cons y ys ih =>
    obtain ⟨a, b, h1, h2, rfl⟩ := seq_ok h
    rcases List.mem_cons.1 hx with rfl | hx
    · exact ⟨a, h1, fun j hj => List.mem_append_left _ hj⟩
    · obtain ⟨js, h3, h4⟩ := ih h2 hx
      exact ⟨js, h3, fun j hj => List.mem_append_right _ (h4 j hj)⟩

theorem mem_subexpressions_kid {e k x : Expr} (hk : k ∈ e.kids) (hx : x ∈ subexpressions k) : x ∈ subexpressions e := by
  rw [subexpressions, allContents_kids]
  exact List.mem_cons_of_mem _ (List.mem_flatMap.2 ⟨k, hk, hx⟩)

theorem subexpressions_trans {e x y : Expr} (hx : x ∈ subexpressions e) (hy : y ∈ subexpressions x) :
    y ∈ subexpressions e := by
  induction e using kidsInduction with
  | step e ih =>
    rw [subexpressions, allContents_kids] at hx
    rcases List.mem_cons.1 hx with rfl | hx
    · exact hy
    · obtain ⟨k, hk, hx⟩ := List.mem_flatMap.1 hx
      exact mem_subexpressions_kid hk (ih k hk hx)

theorem declares_kids {x p : Expr} (h : p ∈ declares x) : p ∈ x.kids := by
  cases x <;> simp [declares] at h <;> simp [kids, h]

/-- C08, for every tree whose declared parameters are parameters and whose variables are named or
numbered (C43: every parsed program): when validation reports no illegal parameter name, `ToPN` does
not panic. -/
theorem C08_accepted_names_render (c : Checker) (e : Expr) (is : List Issue)
    (hp : ∀ x ∈ subexpressions e, ∀ p ∈ declares x, ∃ q n v t r, p = .parameter q n v t r)
    (hv : ∀ x ∈ subexpressions e, RepresentableVariable x)
    (h : validateWith c e = .ok is) (hn : ParameterNamesAccepted is) : ∃ pn, e.toPN = .ok pn := by
  rw [C07_toPN_ok_iff]
  intro x hx
  refine ⟨fun p hpx => ?_, hv x hx⟩
  obtain ⟨q, n, v, t, r, rfl⟩ := hp x hx p hpx
  refine ⟨q, n, v, t, r, rfl, ?_⟩
  have hm : Expr.parameter q n v t r ∈ subexpressions e :=
    subexpressions_trans hx (mem_subexpressions_kid (declares_kids hpx) (List.mem_cons_self ..))
  rw [← visited_snd] at hm
  obtain ⟨y, hy, hyx⟩ := List.mem_map.1 hm
  obtain ⟨js, h1, h2⟩ := check_mem h hy
  rw [hyx] at h1
  exact parameter_issue c _ _ _ _ _ _ js h1 fun i hi => hn i (h2 i hi)

/-- The hypotheses can be met: `|$a| { $1 }` renders, `|$a::b| {}` panics. -/
example : (∃ pn, (Expr.lambda ⟨0, 0⟩ [.parameter ⟨0, 0⟩ b!"a" none none false]
      (.block ⟨0, 0⟩ [.un ⟨0, 0⟩ .variable (.integer ⟨0, 0⟩ 10 1)]) none).toPN = .ok pn) ∧
    ¬ ∃ pn, (Expr.lambda ⟨0, 0⟩ [.parameter ⟨0, 0⟩ b!"a::b" none none false] (.block ⟨0, 0⟩ []) none).toPN = .ok pn := by
  constructor
  · exact ⟨_, rfl⟩
  · rintro ⟨pn, h⟩; cases h

end PP.Props
