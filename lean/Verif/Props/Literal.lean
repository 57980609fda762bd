import Verif.Literal
import Verif.Lemmas.Ast

/-!
# C11: `ToLiteral`

Specification: the relation `Denotes e v` ("the expression `e` is the literal `v`"), and `LiteralShape`
("`e` is written with literals only").
-/

namespace PP.Props
open PP.Expr

/-- The values of the expressions that are literal values by themselves. -/
def leafValue : Expr → Option Value
  | boolean _ b => some (.bool b)
  | dflt _ => some .dflt
  | float _ v => some (.float v)
  | integer _ _ v => some (.int v)
  | string _ s => some (.str s)
  | undef _ => some .undef
  | qname _ n => some (.str n)
  | qref _ n _ => some (.str n)
  | regexp _ v => some (.str v)
  | renderString _ s => some (.str s)
  | reserved _ w _ => some (.str w)
  | _ => none

/-- The Go map that results from assigning the pairs one after the other. -/
def goMap (feq : FloatVal → FloatVal → Bool) (kvs : List (Value × Value)) : List (Value × Value) :=
  kvs.foldl (fun m kv => mapAssign feq kv.1 kv.2 m) []

mutual
/-- `Denotes feq e v`: the expression is the literal `v`. -/
inductive Denotes (feq : FloatVal → FloatVal → Bool) : Expr → Value → Prop
  | leaf (e v) : leafValue e = some v → Denotes feq e v
  | program (p b ds v) : Denotes feq b v → Denotes feq (.program p b ds) v
  | heredoc (p s t v) : Denotes feq t v → Denotes feq (.heredoc p s t) v
  | concat (p q s) : Denotes feq (.concat p [.string q s]) (.str s)
  | list (p es vs) : DenotesAll feq es vs → Denotes feq (.list p es) (.list vs)
  | hash (p es kvs) : DenotesEntries feq es kvs → (∀ kv ∈ kvs, kv.1.hashable = true) →
      Denotes feq (.hash p es) (.map (goMap feq kvs))
inductive DenotesAll (feq : FloatVal → FloatVal → Bool) : List Expr → List Value → Prop
  | nil : DenotesAll feq [] []
  | cons (e v es vs) : Denotes feq e v → DenotesAll feq es vs → DenotesAll feq (e :: es) (v :: vs)
inductive DenotesEntries (feq : FloatVal → FloatVal → Bool) : List Expr → List (Value × Value) → Prop
  | nil : DenotesEntries feq [] []
  | cons (p k v kv vv es kvs) : Denotes feq k kv → Denotes feq v vv → DenotesEntries feq es kvs →
      DenotesEntries feq (.keyedEntry p k v :: es) ((kv, vv) :: kvs)
end

mutual
theorem toLit_sound (feq : FloatVal → FloatVal → Bool) : (e : Expr) → (v : Value) → toLit feq e = .ok v → Denotes feq e v
  | .program p b ds, v, h => by
    simp only [toLit] at h; exact .program _ _ _ _ (toLit_sound feq b v h)
  | .heredoc p s t, v, h => by
    simp only [toLit] at h; exact .heredoc _ _ _ _ (toLit_sound feq t v h)
  | .list p es, v, h => by
    simp only [toLit] at h
    cases h' : toLitList feq es with
    | error x => rw [h'] at h; cases h
    | ok vs => rw [h'] at h; cases h; exact .list _ _ _ (toLitList_sound feq es vs h')
  | .hash p es, v, h => by
    simp only [toLit] at h
    cases h' : toLitEntries feq [] es with
    | error x => rw [h'] at h; cases h
    | ok m =>
      rw [h'] at h; cases h
      obtain ⟨kvs, h1, h2, h3⟩ := toLitEntries_sound feq es [] m h'
      subst h3
      exact .hash _ _ _ h1 h2
  | .concat p segs, v, h => by
    simp only [toLit] at h
    split at h <;> cases h
    exact .concat _ _ _
  | .boolean .., v, h | .dflt _, v, h | .float .., v, h | .integer .., v, h | .string .., v, h | .undef _, v, h
  | .qname .., v, h | .qref .., v, h | .regexp .., v, h | .renderString .., v, h | .reserved .., v, h => by
    simp only [toLit] at h; cases h; exact .leaf _ _ rfl
  | .access .., v, h | .bin .., v, h | .un .., v, h | .query .., v, h | .attributeOp .., v, h
  | .attributesOp .., v, h | .block .., v, h | .call .., v, h | .capabilityMapping .., v, h
  | .caseE .., v, h | .caseOption .., v, h | .collect .., v, h | .epp .., v, h | .ifE .., v, h
  | .keyedEntry .., v, h | .lambda .., v, h | .nop .., v, h | .namedDef .., v, h | .function .., v, h
  | .node .., v, h | .parameter .., v, h | .resource .., v, h | .resourceBody .., v, h
  | .resourceDefaults .., v, h | .resourceOverride .., v, h | .selector .., v, h | .selectorEntry .., v, h
  | .site .., v, h | .typeAlias .., v, h | .typeDefinition .., v, h | .typeMapping .., v, h | .step .., v, h
  | .commaSep .., v, h => by simp [toLit] at h
theorem toLitList_sound (feq : FloatVal → FloatVal → Bool) : (es : List Expr) → (vs : List Value) →
    toLitList feq es = .ok vs → DenotesAll feq es vs
  | [], vs, h => by simp only [toLitList] at h; cases h; exact .nil
  | e :: es, vs, h => by
    simp only [toLitList] at h
    cases h1 : toLit feq e with
    | error x => rw [h1] at h; cases h
    | ok v =>
      cases h2 : toLitList feq es with
      | error x => rw [h1, h2] at h; cases h
      | ok ws =>
        rw [h1, h2] at h; cases h
        exact .cons _ _ _ _ (toLit_sound feq e v h1) (toLitList_sound feq es ws h2)
theorem toLitEntries_sound (feq : FloatVal → FloatVal → Bool) : (es : List Expr) → (m r : List (Value × Value)) →
    toLitEntries feq m es = .ok r → ∃ kvs, DenotesEntries feq es kvs ∧ (∀ kv ∈ kvs, kv.1.hashable = true) ∧
      r = kvs.foldl (fun m kv => mapAssign feq kv.1 kv.2 m) m
  | [], m, r, h => by simp only [toLitEntries] at h; cases h; exact ⟨[], .nil, by simp, rfl⟩
  | .keyedEntry p k v :: es, m, r, h => by
    simp only [toLitEntries] at h
    cases h1 : toLit feq k with
    | error x => rw [h1] at h; cases h
    | ok kv =>
      cases h2 : toLit feq v with
      | error x => rw [h1, h2] at h; cases h
      | ok vv =>
        rw [h1, h2] at h
        change (if kv.hashable = true then _ else _) = _ at h
        split at h
        · rename_i hk
          obtain ⟨kvs, a1, a2, a3⟩ := toLitEntries_sound feq es _ r h
          refine ⟨(kv, vv) :: kvs, .cons _ _ _ _ _ _ _ (toLit_sound feq k kv h1) (toLit_sound feq v vv h2) a1, ?_, a3⟩
          intro x hx
          rcases List.mem_cons.1 hx with rfl | hx
          · exact hk
          · exact a2 x hx
        · cases h
  | .access .. :: _, _, _, h | .bin .. :: _, _, _, h | .un .. :: _, _, _, h | .query .. :: _, _, _, h
  | .attributeOp .. :: _, _, _, h | .attributesOp .. :: _, _, _, h | .block .. :: _, _, _, h
  | .call .. :: _, _, _, h | .capabilityMapping .. :: _, _, _, h | .caseE .. :: _, _, _, h
  | .caseOption .. :: _, _, _, h | .collect .. :: _, _, _, h | .concat .. :: _, _, _, h | .epp .. :: _, _, _, h
  | .heredoc .. :: _, _, _, h | .ifE .. :: _, _, _, h | .lambda .. :: _, _, _, h | .boolean .. :: _, _, _, h
  | .dflt .. :: _, _, _, h | .float .. :: _, _, _, h | .hash .. :: _, _, _, h | .integer .. :: _, _, _, h
  | .list .. :: _, _, _, h | .string .. :: _, _, _, h | .undef .. :: _, _, _, h | .nop .. :: _, _, _, h
  | .namedDef .. :: _, _, _, h | .function .. :: _, _, _, h | .node .. :: _, _, _, h | .parameter .. :: _, _, _, h
  | .program .. :: _, _, _, h | .qname .. :: _, _, _, h | .qref .. :: _, _, _, h | .regexp .. :: _, _, _, h
  | .renderString .. :: _, _, _, h | .reserved .. :: _, _, _, h | .resource .. :: _, _, _, h
  | .resourceBody .. :: _, _, _, h | .resourceDefaults .. :: _, _, _, h | .resourceOverride .. :: _, _, _, h
  | .selector .. :: _, _, _, h | .selectorEntry .. :: _, _, _, h | .site .. :: _, _, _, h
  | .typeAlias .. :: _, _, _, h | .typeDefinition .. :: _, _, _, h | .typeMapping .. :: _, _, _, h
  | .step .. :: _, _, _, h | .commaSep .. :: _, _, _, h => by simp [toLitEntries] at h
end

mutual
theorem toLit_complete (feq : FloatVal → FloatVal → Bool) {e : Expr} {v : Value} : Denotes feq e v → toLit feq e = .ok v
  | .leaf e v h => by
    cases e <;> simp only [leafValue, reduceCtorEq] at h <;> cases h <;> simp [toLit]
  | .program p b ds v h => by simp only [toLit]; exact toLit_complete feq h
  | .heredoc p s t v h => by simp only [toLit]; exact toLit_complete feq h
  | .concat p q s => by simp [toLit]
  | .list p es vs h => by
    simp only [toLit]; rw [toLitList_complete feq h]; rfl
  | .hash p es kvs h hk => by
    simp only [toLit]; rw [toLitEntries_complete feq h hk []]; rfl
theorem toLitList_complete (feq : FloatVal → FloatVal → Bool) {es : List Expr} {vs : List Value} :
    DenotesAll feq es vs → toLitList feq es = .ok vs
  | .nil => by simp [toLitList]
  | .cons e v es vs h1 h2 => by
    simp only [toLitList]; rw [toLit_complete feq h1, toLitList_complete feq h2]; rfl
theorem toLitEntries_complete (feq : FloatVal → FloatVal → Bool) {es : List Expr} {kvs : List (Value × Value)} :
    DenotesEntries feq es kvs → (∀ kv ∈ kvs, kv.1.hashable = true) → (m : List (Value × Value)) →
    toLitEntries feq m es = .ok (kvs.foldl (fun m kv => mapAssign feq kv.1 kv.2 m) m)
  | .nil, _, m => by simp [toLitEntries]
  | .cons p k v kv vv es kvs h1 h2 h3, hk, m => by
    simp only [toLitEntries]
    rw [toLit_complete feq h1, toLit_complete feq h2]
    change (if kv.hashable = true then _ else _) = _
    rw [if_pos (hk _ (List.mem_cons_self ..)),
      toLitEntries_complete feq h3 (fun x hx => hk x (List.mem_cons_of_mem _ hx))]
    rfl
end

/-- C11: `ToLiteral` reports a value exactly when the expression is a literal, and then the value it denotes. -/
theorem C11_ok_iff (feq : FloatVal → FloatVal → Bool) (e : Expr) (v : Value) :
    toLiteral feq e = .literal v ↔ Denotes feq e v := by
  unfold toLiteral
  constructor
  · intro h
    split at h <;> cases h
    exact toLit_sound feq e v (by assumption)
  · intro h
    rw [toLit_complete feq h]

/-! ## The Go map -/

/-- The value stored under a key. -/
def lookupKey (feq : FloatVal → FloatVal → Bool) (k : Value) (m : List (Value × Value)) : Option Value :=
  (m.find? fun kv => k.keyEq feq kv.1).map Prod.snd

/-- `==` on float64 is symmetric and transitive. -/
structure FloatEq (feq : FloatVal → FloatVal → Bool) : Prop where
  symm : ∀ a b, feq a b = true → feq b a = true
  trans : ∀ a b c, feq a b = true → feq b c = true → feq a c = true

theorem keyEq_symm {feq} (hf : FloatEq feq) {a b : Value} (h : a.keyEq feq b = true) : b.keyEq feq a = true := by
  cases a <;> cases b <;> simp [Value.keyEq] at h ⊢ <;> first | exact hf.symm _ _ h | exact h.symm

theorem keyEq_trans {feq} (hf : FloatEq feq) {a b c : Value} (h : a.keyEq feq b = true)
    (h' : b.keyEq feq c = true) : a.keyEq feq c = true := by
  cases a <;> cases b <;> simp [Value.keyEq] at h <;> cases c <;> simp [Value.keyEq] at h' ⊢ <;>
    first | exact hf.trans _ _ _ h h' | exact h.trans h'

theorem lookup_assign {feq} (hf : FloatEq feq) (k k' v : Value) (m : List (Value × Value)) :
    lookupKey feq k (mapAssign feq k' v m) = if k.keyEq feq k' then some v else lookupKey feq k m := by
  induction m with
  | nil =>
    simp only [lookupKey, mapAssign, List.find?]
    split <;> simp_all
  | cons x m ih =>
    obtain ⟨a, b⟩ := x
    simp only [mapAssign]
    by_cases h : k'.keyEq feq a = true
    · simp only [h, if_true, lookupKey, List.find?]
      by_cases h2 : k.keyEq feq a = true
      · have h3 : k.keyEq feq k' = true := keyEq_trans hf h2 (keyEq_symm hf h)
        simp [h2, h3]
      · have h3 : ¬ k.keyEq feq k' = true := fun h3 => h2 (keyEq_trans hf h3 h)
        simp [h2, h3]
    · simp only [h, Bool.false_eq_true, if_false, lookupKey, List.find?]
      by_cases h2 : k.keyEq feq a = true
      · have h3 : ¬ k.keyEq feq k' = true := fun h3 => h (keyEq_symm hf (keyEq_trans hf (keyEq_symm hf h2) h3))
        simp [h2, h3]
      · simp only [h2]
        exact ih

/-- C11: the map of a literal hash has under each key the value of the last entry with that key. -/
theorem C11_hash_last_entry_wins {feq} (hf : FloatEq feq) (kvs : List (Value × Value)) (k : Value) :
    lookupKey feq k (goMap feq kvs) = lookupKey feq k kvs.reverse := by
  have gen : ∀ (kvs : List (Value × Value)) (m),
      lookupKey feq k (kvs.foldl (fun m kv => mapAssign feq kv.1 kv.2 m) m) =
        (lookupKey feq k kvs.reverse).or (lookupKey feq k m) := by
    intro kvs
    induction kvs with
    | nil => intro m; simp [lookupKey]
    | cons x kvs ih =>
      intro m
      rw [List.foldl_cons, ih, lookup_assign hf]
      simp only [lookupKey, List.reverse_cons, List.find?_append]
      cases h : List.find? (fun kv => k.keyEq feq kv.1) kvs.reverse with
      | some y => simp
      | none =>
        simp only [Option.map_none, Option.none_or, List.find?]
        by_cases h2 : k.keyEq feq x.1 = true <;> simp [h2]
  rw [goMap, gen kvs []]
  simp [lookupKey]

/-! ## Panics -/

mutual
/-- The expression is written with literal values, single-segment strings, heredocs, lists and hashes
only (whatever the keys of the hashes are). -/
inductive LiteralShape : Expr → Prop
  | leaf (e) : (leafValue e).isSome → LiteralShape e
  | program (p b ds) : LiteralShape b → LiteralShape (.program p b ds)
  | heredoc (p s t) : LiteralShape t → LiteralShape (.heredoc p s t)
  | concat (p q s) : LiteralShape (.concat p [.string q s])
  | list (p es) : LiteralShapes es → LiteralShape (.list p es)
  | hash (p es) : LiteralEntries es → LiteralShape (.hash p es)
inductive LiteralShapes : List Expr → Prop
  | nil : LiteralShapes []
  | cons (e es) : LiteralShape e → LiteralShapes es → LiteralShapes (e :: es)
inductive LiteralEntries : List Expr → Prop
  | nil : LiteralEntries []
  | cons (p k v es) : LiteralShape k → LiteralShape v → LiteralEntries es → LiteralEntries (.keyedEntry p k v :: es)
end

/-- The key is a list or a hash, perhaps wrapped in a heredoc or program node. -/
inductive Composite : Expr → Prop
  | list (p es) : Composite (.list p es)
  | hash (p es) : Composite (.hash p es)
  | program (p b ds) : Composite b → Composite (.program p b ds)
  | heredoc (p s t) : Composite t → Composite (.heredoc p s t)

/-- Some hash in the literal has a list or hash as key. -/
inductive CompositeKey : Expr → Prop
  | program (p b ds) : CompositeKey b → CompositeKey (.program p b ds)
  | heredoc (p s t) : CompositeKey t → CompositeKey (.heredoc p s t)
  | list (p es e) : e ∈ es → CompositeKey e → CompositeKey (.list p es)
  | key (p es q k v) : Expr.keyedEntry q k v ∈ es → CompositeKey k → CompositeKey (.hash p es)
  | value (p es q k v) : Expr.keyedEntry q k v ∈ es → CompositeKey v → CompositeKey (.hash p es)
  | here (p es q k v) : Expr.keyedEntry q k v ∈ es → Composite k → CompositeKey (.hash p es)

/-- The value of a literal that is not composite is hashable, that of a composite one is not. -/
theorem hashable_iff {feq e v} (h : Denotes feq e v) : v.hashable = false ↔ Composite e := by
  cases e with
  | program p b ds =>
    cases h with
    | leaf _ _ h => simp [leafValue] at h
    | program _ _ _ _ h =>
      rw [hashable_iff h]
      exact ⟨.program _ _ _, fun h => by cases h; assumption⟩
  | heredoc p s t =>
    cases h with
    | leaf _ _ h => simp [leafValue] at h
    | heredoc _ _ _ _ h =>
      rw [hashable_iff h]
      exact ⟨.heredoc _ _ _, fun h => by cases h; assumption⟩
  | list p es =>
    cases h with
    | leaf _ _ h => simp [leafValue] at h
    | list _ _ _ h => exact ⟨fun _ => .list _ _, fun _ => rfl⟩
  | hash p es =>
    cases h with
    | leaf _ _ h => simp [leafValue] at h
    | hash _ _ _ h => exact ⟨fun _ => .hash _ _, fun _ => rfl⟩
  | concat p segs =>
    cases h with
    | leaf _ _ h => simp [leafValue] at h
    | concat => exact ⟨fun h => by simp [Value.hashable] at h, fun h => by cases h⟩
  | _ =>
    cases h with
    | leaf _ _ h =>
      simp only [leafValue, reduceCtorEq, Option.some.injEq] at h
      try (subst h; exact ⟨fun h => by simp [Value.hashable] at h, fun h => by cases h⟩)

mutual
theorem shape_ok_or_panic (feq : FloatVal → FloatVal → Bool) {e : Expr} : LiteralShape e →
    (∃ v, toLit feq e = .ok v ∧ ¬ CompositeKey e) ∨ (toLit feq e = .error .unhashable ∧ CompositeKey e)
  | .leaf e h => by
    left
    cases e <;> simp only [leafValue, Option.isSome_none, Bool.false_eq_true] at h <;>
      refine ⟨_, by rw [toLit], fun h => by cases h⟩
  | .program p b ds h => by
    rcases shape_ok_or_panic feq h with ⟨v, h1, h2⟩ | ⟨h1, h2⟩
    · exact .inl ⟨v, by simpa [toLit] using h1, fun h => by cases h; contradiction⟩
    · exact .inr ⟨by simpa [toLit] using h1, .program _ _ _ h2⟩
  | .heredoc p s t h => by
    rcases shape_ok_or_panic feq h with ⟨v, h1, h2⟩ | ⟨h1, h2⟩
    · exact .inl ⟨v, by simpa [toLit] using h1, fun h => by cases h; contradiction⟩
    · exact .inr ⟨by simpa [toLit] using h1, .heredoc _ _ _ h2⟩
  | .concat p q s => .inl ⟨.str s, by simp [toLit], fun h => by cases h⟩
  | .list p es h => by
    rcases shapes_ok_or_panic feq h with ⟨v, h1, h2⟩ | ⟨h1, e, h2, h3⟩
    · exact .inl ⟨.list v, by simp [toLit, h1]; rfl, fun h => by cases h with | list _ _ e a b => exact h2 e a b⟩
    · exact .inr ⟨by simp [toLit, h1]; rfl, .list _ _ e h2 h3⟩
  | .hash p es h => by
    rcases entries_ok_or_panic feq h [] with ⟨v, h1, h2⟩ | ⟨h1, q, k, v, h2, h3⟩
    · refine .inl ⟨.map v, by simp [toLit, h1]; rfl, fun h => ?_⟩
      cases h with
      | key _ _ q k v a b => exact (h2 q k v a).1 b
      | value _ _ q k v a b => exact (h2 q k v a).2.1 b
      | here _ _ q k v a b => exact (h2 q k v a).2.2 b
    · refine .inr ⟨by simp [toLit, h1]; rfl, ?_⟩
      rcases h3 with h3 | h3 | h3
      · exact .key _ _ q k v h2 h3
      · exact .value _ _ q k v h2 h3
      · exact .here _ _ q k v h2 h3
theorem shapes_ok_or_panic (feq : FloatVal → FloatVal → Bool) {es : List Expr} : LiteralShapes es →
    (∃ vs, toLitList feq es = .ok vs ∧ ∀ e ∈ es, ¬ CompositeKey e) ∨
    (toLitList feq es = .error .unhashable ∧ ∃ e ∈ es, CompositeKey e)
  | .nil => .inl ⟨[], by simp [toLitList], by simp⟩
  | .cons e es h hs => by
    rcases shape_ok_or_panic feq h with ⟨v, h1, h2⟩ | ⟨h1, h2⟩
    · rcases shapes_ok_or_panic feq hs with ⟨vs, h3, h4⟩ | ⟨h3, x, h4, h5⟩
      · exact .inl ⟨v :: vs, by simp [toLitList, h1, h3]; rfl, fun x hx => by
          rcases List.mem_cons.1 hx with rfl | hx
          · exact h2
          · exact h4 x hx⟩
      · exact .inr ⟨by simp [toLitList, h1, h3]; rfl, x, List.mem_cons_of_mem _ h4, h5⟩
    · exact .inr ⟨by simp [toLitList, h1]; rfl, e, List.mem_cons_self .., h2⟩
theorem entries_ok_or_panic (feq : FloatVal → FloatVal → Bool) {es : List Expr} : LiteralEntries es →
    (m : List (Value × Value)) →
    (∃ r, toLitEntries feq m es = .ok r ∧
      ∀ q k v, Expr.keyedEntry q k v ∈ es → ¬ CompositeKey k ∧ ¬ CompositeKey v ∧ ¬ Composite k) ∨
    (toLitEntries feq m es = .error .unhashable ∧
      ∃ q k v, Expr.keyedEntry q k v ∈ es ∧ (CompositeKey k ∨ CompositeKey v ∨ Composite k))
  | .nil, m => .inl ⟨m, by simp [toLitEntries], by simp⟩
  | .cons p k v es hk hv hs, m => by
    rcases shape_ok_or_panic feq hk with ⟨kv, h1, h2⟩ | ⟨h1, h2⟩
    · rcases shape_ok_or_panic feq hv with ⟨vv, h3, h4⟩ | ⟨h3, h4⟩
      · cases hh : kv.hashable with
        | false =>
          refine .inr ⟨by simp [toLitEntries, h1, h3, hh, bind, Except.bind], p, k, v, List.mem_cons_self .., .inr (.inr ?_)⟩
          exact (hashable_iff (toLit_sound feq k kv h1)).1 hh
        | true =>
          have hc : ¬ Composite k := fun hc => by
            have := (hashable_iff (toLit_sound feq k kv h1)).2 hc
            rw [hh] at this; cases this
          rcases entries_ok_or_panic feq hs (mapAssign feq kv vv m) with ⟨r, h5, h6⟩ | ⟨h5, q, k', v', h6, h7⟩
          · refine .inl ⟨r, by simpa [toLitEntries, h1, h3, hh, bind, Except.bind] using h5, ?_⟩
            intro q k' v' hx
            rcases List.mem_cons.1 hx with hx | hx
            · cases hx; exact ⟨h2, h4, hc⟩
            · exact h6 q k' v' hx
          · exact .inr ⟨by simpa [toLitEntries, h1, h3, hh, bind, Except.bind] using h5, q, k', v',
              List.mem_cons_of_mem _ h6, h7⟩
      · exact .inr ⟨by simp [toLitEntries, h1, h3, bind, Except.bind], p, k, v, List.mem_cons_self .., .inr (.inl h4)⟩
    · exact .inr ⟨by simp [toLitEntries, h1, bind, Except.bind], p, k, v, List.mem_cons_self .., .inl h2⟩
end

/-- C11: on an expression written with literals only, `ToLiteral` never answers "not a literal": it
panics when some hash has a list or hash as key and gives the value otherwise. -/
theorem C11_panics_iff_composite_key (feq : FloatVal → FloatVal → Bool) (e : Expr) (h : LiteralShape e) :
    (toLiteral feq e = .panic .unhashable ↔ CompositeKey e) ∧
    ((∃ v, toLiteral feq e = .literal v) ↔ ¬ CompositeKey e) := by
  rcases shape_ok_or_panic feq h with ⟨v, h1, h2⟩ | ⟨h1, h2⟩
  · simp [toLiteral, h1, h2]
  · simp [toLiteral, h1, h2]

mutual
theorem denotes_shape {feq e v} : Denotes feq e v → LiteralShape e
  | .leaf e v h => .leaf e (by simp [h])
  | .program _ _ _ _ h => .program _ _ _ (denotes_shape h)
  | .heredoc _ _ _ _ h => .heredoc _ _ _ (denotes_shape h)
  | .concat _ _ _ => .concat _ _ _
  | .list _ _ _ h => .list _ _ (denotesAll_shape h)
  | .hash _ _ _ h _ => .hash _ _ (denotesEntries_shape h)
theorem denotesAll_shape {feq es vs} : DenotesAll feq es vs → LiteralShapes es
  | .nil => .nil
  | .cons _ _ _ _ h hs => .cons _ _ (denotes_shape h) (denotesAll_shape hs)
theorem denotesEntries_shape {feq es vs} : DenotesEntries feq es vs → LiteralEntries es
  | .nil => .nil
  | .cons _ _ _ _ _ _ _ h1 h2 hs => .cons _ _ _ _ (denotes_shape h1) (denotes_shape h2) (denotesEntries_shape hs)
end

/-- C11: `ToLiteral` gives a value exactly on the literal expressions without composite keys. -/
theorem C11_ok_iff_shape (feq : FloatVal → FloatVal → Bool) (e : Expr) :
    (∃ v, toLiteral feq e = .literal v) ↔ LiteralShape e ∧ ¬ CompositeKey e := by
  constructor
  · rintro ⟨v, h⟩
    have hs := denotes_shape ((C11_ok_iff feq e v).1 h)
    exact ⟨hs, ((C11_panics_iff_composite_key feq e hs).2).1 ⟨v, h⟩⟩
  · rintro ⟨h1, h2⟩
    exact ((C11_panics_iff_composite_key feq e h1).2).2 h2

theorem toLitList_error {feq es x} (h : toLitList feq es = .error x) : ∃ e ∈ es, toLit feq e = .error x := by
  induction es with
  | nil => simp [toLitList] at h
  | cons e es ih =>
    simp only [toLitList] at h
    cases h1 : toLit feq e with
    | error y => rw [h1] at h; cases h; exact ⟨e, List.mem_cons_self .., h1⟩
    | ok v =>
      cases h2 : toLitList feq es with
      | error y =>
        rw [h1, h2] at h; cases h
        obtain ⟨z, hz, hz'⟩ := ih h2
        exact ⟨z, List.mem_cons_of_mem _ hz, hz'⟩
      | ok ws => rw [h1, h2] at h; cases h

theorem toLitEntries_error {feq es m x} (h : toLitEntries feq m es = .error x) :
    (x = .notKeyed ∧ ∃ e ∈ es, ∀ p k v, e ≠ .keyedEntry p k v) ∨
    ∃ p k v, Expr.keyedEntry p k v ∈ es ∧ (toLit feq k = .error x ∨ toLit feq v = .error x ∨
      (x = .unhashable ∧ ∃ kv, toLit feq k = .ok kv ∧ kv.hashable = false)) := by
  induction es generalizing m with
  | nil => simp [toLitEntries] at h
  | cons e es ih =>
    by_cases hk : ∃ p k v, e = Expr.keyedEntry p k v
    · obtain ⟨p, k, v, rfl⟩ := hk
      simp only [toLitEntries] at h
      cases h1 : toLit feq k with
      | error y => rw [h1] at h; cases h; exact .inr ⟨p, k, v, List.mem_cons_self .., .inl h1⟩
      | ok kv =>
        cases h2 : toLit feq v with
        | error y => rw [h1, h2] at h; cases h; exact .inr ⟨p, k, v, List.mem_cons_self .., .inr (.inl h2)⟩
        | ok vv =>
          rw [h1, h2] at h
          change (if kv.hashable = true then _ else _) = _ at h
          split at h
          · rcases ih h with ⟨a, e, b, c⟩ | ⟨p', k', v', a, b⟩
            · exact .inl ⟨a, e, List.mem_cons_of_mem _ b, c⟩
            · exact .inr ⟨p', k', v', List.mem_cons_of_mem _ a, b⟩
          · cases h
            exact .inr ⟨p, k, v, List.mem_cons_self .., .inr (.inr ⟨rfl, kv, h1, by simp_all⟩)⟩
    · have hk' : ∀ p k v, e ≠ Expr.keyedEntry p k v := fun p k v h => hk ⟨p, k, v, h⟩
      refine .inl ⟨?_, e, List.mem_cons_self .., hk'⟩
      cases e <;> simp_all [toLitEntries]

theorem unhashable_composite (feq : FloatVal → FloatVal → Bool) (e : Expr)
    (h : toLit feq e = .error .unhashable) : CompositeKey e := by
    cases e with
    | program p b ds => exact .program _ _ _ (unhashable_composite feq b (by simpa [toLit] using h))
    | heredoc p s t => exact .heredoc _ _ _ (unhashable_composite feq t (by simpa [toLit] using h))
    | list p es =>
      have h' : toLitList feq es = .error .unhashable := by
        simp only [toLit] at h
        cases h1 : toLitList feq es with
        | ok v => rw [h1] at h; cases h
        | error x => rw [h1] at h; cases h; rfl
      obtain ⟨x, hx, hx'⟩ := toLitList_error h'
      exact .list _ _ x hx (unhashable_composite feq x hx')
    | hash p es =>
      have h' : toLitEntries feq [] es = .error .unhashable := by
        simp only [toLit] at h
        cases h1 : toLitEntries feq [] es with
        | ok v => rw [h1] at h; cases h
        | error x => rw [h1] at h; cases h; rfl
      rcases toLitEntries_error h' with ⟨a, -⟩ | ⟨q, k, v, hm, a⟩
      · cases a
      · rcases a with a | a | ⟨-, kv, a, b⟩
        · exact .key _ _ q k v hm (unhashable_composite feq k a)
        · exact .value _ _ q k v hm (unhashable_composite feq v a)
        · exact .here _ _ q k v hm ((hashable_iff (toLit_sound feq k kv a)).1 b)
    | concat p segs =>
      simp only [toLit] at h
      split at h <;> cases h
    | _ => simp [toLit] at h
termination_by sizeOf e
decreasing_by
  all_goals subst_vars
  all_goals simp_wf
  all_goals first
    | omega
    | (rename_i hx _; have := List.sizeOf_lt_of_mem hx; omega)
    | (rename_i hx _ _; have := List.sizeOf_lt_of_mem hx; simp at this; omega)
    | (rename_i hx _ _ _; have := List.sizeOf_lt_of_mem hx; simp at this; omega)
    | (have := List.sizeOf_lt_of_mem hx; simp at this; omega)
    | (have := List.sizeOf_lt_of_mem hm; simp at this; omega)

/-- C11: whatever the expression, `ToLiteral` panics on a key only when some hash in it has a list or
hash as key. -/
theorem C11_panic_only_with_composite_key (feq : FloatVal → FloatVal → Bool) (e : Expr)
    (h : toLiteral feq e = .panic .unhashable) : CompositeKey e := by
  unfold toLiteral at h
  split at h <;> cases h
  exact unhashable_composite feq e (by assumption)

/-- C11, the violation: `{[1] => 2}` makes `ToLiteral` panic instead of answering. -/
theorem C11_list_key_panics (feq : FloatVal → FloatVal → Bool) :
    toLiteral feq (.hash ⟨0, 10⟩ [.keyedEntry ⟨1, 8⟩ (.list ⟨1, 3⟩ [.integer ⟨2, 1⟩ 10 1]) (.integer ⟨8, 1⟩ 10 2)])
      = .panic .unhashable := by
  simp [toLiteral, toLit, toLitEntries, toLitList, bind, Except.bind, pure, Except.pure, Value.hashable]

/-- C11 on a concrete literal: `{a => [1, default]}`. -/
example (feq : FloatVal → FloatVal → Bool) : toLiteral feq (.hash ⟨0, 19⟩ [.keyedEntry ⟨1, 17⟩ (.qname ⟨1, 1⟩ b!"a")
    (.list ⟨6, 12⟩ [.integer ⟨7, 1⟩ 10 1, .dflt ⟨10, 7⟩])]) = .literal (.map [(.str b!"a", .list [.int 1, .dflt])]) :=
  (C11_ok_iff feq _ _).2 (.hash _ _ [(.str b!"a", .list [.int 1, .dflt])]
    (.cons _ _ _ _ _ _ _ (.leaf _ _ rfl) (.list _ _ _ (.cons _ _ _ _ (.leaf _ _ rfl) (.cons _ _ _ _ (.leaf _ _ rfl) .nil))) .nil)
    (by simp [Value.hashable]))

end PP.Props
