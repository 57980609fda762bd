import Verif.Props.Printed
import Verif.Props.Text
import Verif.Props.Json

/-!
# C61 for the printed text, for every parse result without floats

The AST of a parse result is a PN whose text is unambiguous (`Clean`) as soon as the source contains no float:
its strings are UTF-8 (C62), its operators and keywords are words without blanks (C61), its keys are parameter
names or fixed words (C07).
-/

namespace PP.Props
open PP.Expr PP.Decode PP.Spec

/-- A name of a call that can be told from what follows. -/
def CallName (n : GoStr) : Prop := ∀ b ∈ n, b ≠ 0x20 ∧ b ≠ 0x29 ∧ b.toNat < 128

mutual
/-- PNs made of words, valid strings, and no floats. -/
def Neat : PN → Prop
  | .lit (.str s) => ValidUtf8 s
  | .lit (.float _) => False
  | .lit _ => True
  | .list es => NeatAll es
  | .map es => NeatEntries es
  | .call n es => CallName n ∧ NeatAll es
def NeatAll : List PN → Prop
  | [] => True
  | p :: ps => Neat p ∧ NeatAll ps
def NeatEntries : List (GoStr × PN) → Prop
  | [] => True
  | (k, p) :: es => isKey k = true ∧ Neat p ∧ NeatEntries es
end

mutual
theorem Neat.clean : ∀ p, Neat p → Clean p
  | .lit v, h => by cases v <;> exact h
  | .list es, h => NeatAll.clean es h
  | .map es, h => NeatEntries.clean es h
  | .call n es, h => ⟨fun b hb => ⟨(h.1 b hb).1, (h.1 b hb).2.1⟩, NeatAll.clean es h.2⟩
theorem NeatAll.clean : ∀ ps, NeatAll ps → CleanAll ps
  | [], _ => trivial
  | p :: ps, h => ⟨Neat.clean p h.1, NeatAll.clean ps h.2⟩
theorem NeatEntries.clean : ∀ es, NeatEntries es → CleanEntries es
  | [], _ => trivial
  | (_, p) :: es, h => ⟨h.1, Neat.clean p h.2.1, NeatEntries.clean es h.2.2⟩
end

/-! ## Neat, as properties of members -/

theorem neatAll_iff {ps : List PN} : NeatAll ps ↔ ∀ p ∈ ps, Neat p := by
  induction ps with
  | nil => simp [NeatAll]
  | cons p ps ih => simp [NeatAll, ih]

theorem neatEntries_iff {es : List (GoStr × PN)} : NeatEntries es ↔ ∀ e ∈ es, isKey e.1 = true ∧ Neat e.2 := by
  induction es with
  | nil => simp [NeatEntries]
  | cons e es ih => obtain ⟨k, p⟩ := e; simp [NeatEntries, ih, and_assoc]

theorem Neat.asCall {n : GoStr} {p : PN} (hn : CallName n) (h : Neat p) : Neat (p.asCall n) := by
  cases p with
  | lit v => exact ⟨hn, h, trivial⟩
  | list es => exact ⟨hn, h⟩
  | map es => exact ⟨hn, h, trivial⟩
  | call m es => exact ⟨hn, h.2⟩

theorem Neat.params {p : PN} (h : Neat p) : NeatAll p.asParameters := by
  cases p with
  | lit v => exact ⟨h, trivial⟩
  | list es => exact h
  | map es => exact ⟨h, trivial⟩
  | call m es => exact h.2

theorem Neat.block {e : Expr} {p : PN} (h : Neat p) : Neat (blockEntry e p) := by
  cases e <;> first | exact ⟨h, trivial⟩ | exact h.params

theorem NeatAll.flat {ps : List PN} (h : NeatAll ps) : NeatAll (ps.flatMap PN.asParameters) := by
  rw [neatAll_iff] at h ⊢
  intro p hp
  obtain ⟨q, hq, hp⟩ := List.mem_flatMap.1 hp
  exact neatAll_iff.1 (h q hq).params p hp

/-! ## What a computation makes -/

/-- If `m` does not panic its result satisfies `Q`. -/
def Makes {α : Type} (Q : α → Prop) (m : PNM α) : Prop := ∀ a, m = .ok a → Q a

/-- Entries whose values are clean; the keys are checked by `pn.Map`. -/
def NeatValues (es : List (GoStr × PN)) : Prop := ∀ e ∈ es, Neat e.2

theorem Makes.ok {α} {Q : α → Prop} {a : α} (h : Q a) : Makes Q (.ok a) := by
  intro b hb; injection hb with hb; exact hb ▸ h
theorem Makes.pure {α} {Q : α → Prop} {a : α} (h : Q a) : Makes Q (pure a : PNM α) := Makes.ok h
theorem Makes.error {α} {Q : α → Prop} {x : PNPanic} : Makes Q (.error x : PNM α) := by
  intro b hb; cases hb
theorem Makes.bind {α β : Type} {Q : α → Prop} {R : β → Prop} {m : PNM α} {f : α → PNM β} (h : Makes Q m)
    (hf : ∀ a, Q a → Makes R (f a)) : Makes R (m >>= f) := by
  intro b hb
  obtain ⟨a, h1, h2⟩ := bindOk hb
  exact hf a (h a h1) b h2
theorem Makes.map {α β : Type} {Q : α → Prop} {R : β → Prop} {m : PNM α} {f : α → β} (h : Makes Q m)
    (hf : ∀ a, Q a → R (f a)) : Makes R (m.map f) := by
  intro b hb
  cases m with
  | error x => cases hb
  | ok a => injection hb with hb; exact hb ▸ hf a (h a rfl)

theorem Makes.mkMap {es : List (GoStr × PN)} (h : NeatValues es) : Makes Neat (Expr.mkMap es) := by
  intro p hp
  unfold Expr.mkMap at hp
  split at hp
  · cases hp
  · rename_i hf
    injection hp with hp
    subst hp
    refine neatEntries_iff.2 fun e he => ⟨?_, h e he⟩
    have := List.find?_eq_none.1 hf e he
    simpa using this

theorem Makes.pnMap {es : List Expr} (h : ∀ e ∈ es, Makes Neat e.toPN) : Makes NeatAll (Expr.pnMap es) := by
  induction es with
  | nil => exact Makes.ok trivial
  | cons e es ih =>
    rw [Expr.pnMap]
    refine (h e (List.mem_cons_self ..)).bind fun a ha => ?_
    exact (ih fun x hx => h x (List.mem_cons_of_mem _ hx)).bind fun b hb => Makes.pure ⟨ha, hb⟩

theorem Makes.opt {n : GoStr} {o : Option Expr} (h : ∀ e ∈ o.toList, Makes Neat e.toPN) : Makes NeatValues (optEntry n o) := by
  cases o with
  | none => exact Makes.ok (by intro e he; cases he)
  | some e =>
    rw [optEntry]
    refine (h e (by simp)).bind fun a ha => Makes.pure ?_
    intro x hx
    rw [List.mem_singleton] at hx
    exact hx ▸ ha

theorem NeatValues.nil : NeatValues [] := by intro e he; cases he
theorem NeatValues.cons {k : GoStr} {p : PN} {l : List (GoStr × PN)} (h : Neat p) (hl : NeatValues l) :
    NeatValues ((k, p) :: l) := by
  intro e he
  rcases List.mem_cons.1 he with rfl | he
  · exact h
  · exact hl e he
theorem NeatValues.append {l r : List (GoStr × PN)} (hl : NeatValues l) (hr : NeatValues r) : NeatValues (l ++ r) := by
  intro e he
  rcases List.mem_append.1 he with he | he
  · exact hl e he
  · exact hr e he
theorem NeatValues.ite {c : Prop} [Decidable c] {l r : List (GoStr × PN)} (hl : NeatValues l) (hr : NeatValues r) :
    NeatValues (if c then l else r) := by
  split <;> assumption

/-- The fixed words are UTF-8. -/
theorem utf8_ascii {s : GoStr} (h : s.all (fun b => decide (b.toNat < 128)) = true) : ValidUtf8 s := by
  refine ⟨s.map (·.toNat), ?_, ?_⟩
  · intro r hr
    obtain ⟨b, hb, rfl⟩ := List.mem_map.1 hr
    have := List.all_eq_true.1 h b hb
    simp only [decide_eq_true_eq] at this
    simp only [isScalar]
    simp
    omega
  · induction s with
    | nil => rfl
    | cons b s ih =>
      simp only [List.all_cons, Bool.and_eq_true, decide_eq_true_eq] at h
      rw [List.map_cons, utf8_cons, ← ih h.2]
      have : encodeRune b.toNat = [b] := by
        unfold encodeRune
        rw [if_pos (by omega)]
        simp
      rw [this]
      rfl

theorem NeatValues.form (f : Form) : NeatValues (formEntry f) := by
  unfold formEntry
  refine .ite .nil (.cons ?_ .nil)
  cases f <;> exact utf8_ascii (by decide)

theorem neatStyle (s : StepStyle) : Neat (.lit (.str (styleStr s))) := by
  cases s <;> exact utf8_ascii (by decide)

theorem neatBool {b : Bool} : Neat (.lit (.bool b)) := by simp [Neat]
theorem neatInt {v : Int} : Neat (.lit (.int v)) := by simp [Neat]

theorem Makes.param {k : Expr} (h : ∀ j ∈ k.kids, Makes Neat j.toPN) : Makes (fun e => Neat e.2) (paramEntry k) := by
  cases k with
  | parameter p n v t c =>
    rw [paramEntry]
    refine (Makes.opt fun e he => h e (by cases t <;> simp_all [kids])).bind fun t' ht => ?_
    refine (Makes.opt fun e he => h e (by cases v <;> simp_all [kids])).bind fun v' hv => ?_
    refine (Makes.mkMap (.append (.append ht (.ite (.cons neatBool .nil) .nil)) hv)).bind fun m hm => ?_
    exact Makes.pure hm
  | _ => exact Makes.error

theorem Makes.paramsTail {es : List Expr} (h : ∀ k ∈ es, ∀ j ∈ k.kids, Makes Neat j.toPN) :
    Makes NeatValues (paramEntries es) := by
  induction es with
  | nil => exact Makes.ok .nil
  | cons e es ih =>
    rw [paramEntries]
    refine (Makes.param (h e (List.mem_cons_self ..))).bind fun a ha => ?_
    exact (ih fun x hx => h x (List.mem_cons_of_mem _ hx)).bind fun b hb => Makes.pure (.cons ha hb)

theorem Makes.params {es : List Expr} (h : ∀ k ∈ es, ∀ j ∈ k.kids, Makes Neat j.toPN) :
    Makes NeatValues (paramsEntry es) := by
  cases es with
  | nil => exact Makes.ok .nil
  | cons e es =>
    rw [paramsEntry]
    refine (Makes.param (h e (List.mem_cons_self ..))).bind fun a ha => ?_
    refine (Makes.paramsTail fun x hx => h x (List.mem_cons_of_mem _ hx)).bind fun b hb => ?_
    exact (Makes.mkMap (.cons ha hb)).bind fun m hm => Makes.pure (.cons hm .nil)

/-! ## A node -/

/-- A float literal. -/
def isFloat : Expr → Bool
  | .float .. => true
  | _ => false

theorem callName_of {n : GoStr} (h : n.all (fun b => b != 0x20 && b != 0x29 && decide (b.toNat < 128)) = true) : CallName n := by
  intro b hb
  simpa [and_assoc] using List.all_eq_true.1 h b hb

theorem callName_binOp {o : GoStr} {k : BinKind} (h : (o, k) ∈ operators) : CallName (binOp k) := by
  have : (operators.all fun x => (binOp x.2).all (fun b => b != 0x20 && b != 0x29 && decide (b.toNat < 128))) = true := by decide
  exact callName_of (List.all_eq_true.1 this _ h)

theorem Neat.call {n : GoStr} {es : List PN} (hn : CallName n) (h : NeatAll es) : Neat (.call n es) := ⟨hn, h⟩
theorem Neat.list {es : List PN} (h : NeatAll es) : Neat (.list es) := h
theorem Neat.str {w : GoStr} (h : ValidUtf8 w) : Neat (.lit (.str w)) := h
theorem NeatAll.nil : NeatAll [] := trivial
theorem NeatAll.cons {p : PN} {ps : List PN} (h : Neat p) (hs : NeatAll ps) : NeatAll (p :: ps) := ⟨h, hs⟩

theorem CallName.ite {c : Prop} [Decidable c] {m n : GoStr} (hm : CallName m) (hn : CallName n) : CallName (if c then m else n) := by
  split <;> assumption
theorem Makes.ite {α : Type} {Q : α → Prop} {c : Prop} [Decidable c] {m n : PNM α} (hm : Makes Q m) (hn : Makes Q n) :
    Makes Q (if c then m else n) := by
  split <;> assumption

theorem Makes.get {α : Type} {Q : α → Prop} {m : PNM α} {a : α} (h : Makes Q m) (ha : m = .ok a) : Q a := h a ha

attribute [local irreducible] Makes

macro "cl" : tactic => `(tactic|
  repeat' with_reducible (first
    | assumption
    | exact neatBool
    | exact neatInt
    | exact NeatValues.nil
    | exact NeatAll.nil
    | exact NeatValues.form _
    | exact neatStyle _
    | (refine Makes.bind (Q := Neat) ?_ (fun _ _ => ?_))
    | (refine Makes.bind (Q := NeatAll) (Makes.pnMap ?_) (fun _ _ => ?_))
    | (refine Makes.bind (Q := NeatValues) (Makes.opt ?_) (fun _ _ => ?_))
    | (refine Makes.bind (Q := NeatValues) (Makes.params ?_) (fun _ _ => ?_))
    | (refine Makes.map (Q := Neat) ?_ (fun _ h => Neat.block h))
    | apply Makes.mkMap
    | apply Makes.pure
    | apply Makes.ok
    | apply Makes.ite
    | apply CallName.ite
    | apply NeatValues.append
    | apply NeatValues.ite
    | apply NeatValues.cons
    | apply Neat.asCall
    | apply Neat.call
    | apply Neat.list
    | apply Neat.str
    | apply NeatAll.cons
    | apply NeatAll.flat))

macro "rest" hs:ident ih:ident ih2:ident : tactic => `(tactic| (
  cl
  all_goals first
    | exact callName_of rfl
    | exact utf8_ascii rfl
    | (apply $hs; simp [strings, opString, parentString]; done)
    | (apply $ih; simp [kids]; done)
    | (intro e he; apply $ih; simp_all [kids]; done)
    | (intro k hk; apply $ih2; simp [kids, hk]; done)))

set_option maxHeartbeats 2000000 in
theorem neat_node (e : Expr) (hs : ∀ w ∈ strings e, ValidUtf8 w) (hw : KnownWords e) (hf : isFloat e = false)
    (ih : ∀ k ∈ e.kids, Makes Neat k.toPN) (ih2 : ∀ k ∈ e.kids, ∀ j ∈ k.kids, Makes Neat j.toPN) : Makes Neat e.toPN := by
  cases e with
  | bin p k l r =>
    obtain ⟨o, ho⟩ := hw
    have hn := callName_binOp ho
    rw [toPN]
    rest hs ih ih2
  | un p k x =>
    cases k <;> simp only [toPN] <;> try (rest hs ih ih2; done)
    split
    · rename_i q n
      have := (ih (.qname q n) (by simp [kids])).get (a := .call b!"qn" [.lit (.str n)]) (by rw [toPN])
      exact Makes.ok (Neat.call (callName_of rfl) this.2)
    · exact Makes.ok (Neat.call (callName_of rfl) (.cons neatInt .nil))
    · exact Makes.error
  | attributeOp p op n v =>
    have hn : CallName op := by rcases hw with rfl | rfl <;> exact callName_of rfl
    rw [toPN]
    rest hs ih ih2
  | capabilityMapping p kind cap comp ms =>
    have hn : CallName kind := by rcases hw with rfl | rfl <;> exact callName_of rfl
    rw [toPN]
    rest hs ih ih2
  | call p k rv f args lam =>
    cases k <;> simp only [toPN] <;> rest hs ih ih2
  | float => cases hf
  | undef => rw [toPN]; exact Makes.ok (by simp [Neat])
  | namedDef p k n ps b => cases k <;> simp only [toPN] <;> rest hs ih ih2
  | _ => simp only [toPN]; rest hs ih ih2

theorem sizeOf_kids {e k : Expr} (h : k ∈ e.kids) : sizeOf k < sizeOf e := sizeOf_kid h

theorem makes_neat : (e : Expr) → (∀ x ∈ subexpressions e, (∀ w ∈ strings x, ValidUtf8 w) ∧ KnownWords x ∧ isFloat x = false) →
    Makes Neat e.toPN := fun e h =>
  have he := h e (List.mem_cons_self ..)
  neat_node e he.1 he.2.1 he.2.2
    (fun k hk =>
      have := sizeOf_kid hk
      makes_neat k fun x hx => h x (mem_subexpressions_kid hk hx))
    (fun k hk j hj =>
      have := sizeOf_kid hk
      have := sizeOf_kid hj
      makes_neat j fun x hx => h x (mem_subexpressions_kid hk (mem_subexpressions_kid hj hx)))
termination_by e => sizeOf e

/-! ## The theorems -/

/-- There is no float literal in `e`. -/
def NoFloats (e : Expr) : Prop := ∀ x ∈ subexpressions e, isFloat x = false

theorem shown_utf8 {s : GoStr} (h : ValidUtf8 s) : shown s = s := by
  obtain ⟨rs, h1, rfl⟩ := h
  rw [shown, runes_utf8 rs h1]

theorem shown_key {k : GoStr} (h : isKey k = true) : shown k = k := by
  refine shown_utf8 (utf8_ascii (List.all_eq_true.2 fun b hb => ?_))
  have start : ∀ b, isKeyStart b = true → b.toNat < 128 := by
    intro b h
    simp only [isKeyStart, isUppercaseLetter, isLowercaseLetter, Bool.or_eq_true, Bool.and_eq_true, decide_eq_true_eq,
      beq_iff_eq] at h
    omega
  have char : ∀ b, isKeyChar b = true → b.toNat < 128 := by
    intro b h
    rw [isKeyChar, Bool.or_eq_true] at h
    rcases h with h | h
    · exact start b h
    · simp only [isDecimalDigit, Bool.and_eq_true, decide_eq_true_eq] at h
      omega
  cases k with
  | nil => cases hb
  | cons a k =>
    rw [isKey, Bool.and_eq_true] at h
    rcases List.mem_cons.1 hb with rfl | hb
    · exact decide_eq_true (start _ h.1)
    · exact decide_eq_true (char _ (List.all_eq_true.1 h.2 b hb))

mutual
theorem Neat.simple : ∀ p, Neat p → p.simple
  | .lit v, h => by
    cases v with
    | str s => exact shown_utf8 h
    | float f => exact h
    | _ => trivial
  | .list es, h => NeatAll.simple es h
  | .map es, h => NeatEntries.simple es h
  | .call n es, h =>
    ⟨shown_utf8 (utf8_ascii (List.all_eq_true.2 fun b hb => decide_eq_true (h.1 b hb).2.2)), NeatAll.simple es h.2⟩
theorem NeatAll.simple : ∀ ps, NeatAll ps → PN.simpleList ps
  | [], _ => trivial
  | p :: ps, h => ⟨Neat.simple p h.1, NeatAll.simple ps h.2⟩
theorem NeatEntries.simple : ∀ es, NeatEntries es → PN.simpleEntries es
  | [], _ => trivial
  | (_, p) :: es, h => ⟨shown_key h.1, Neat.simple p h.2.1, NeatEntries.simple es h.2.2⟩
end

mutual
theorem no_floats : ∀ p : PN, p.simple → p.floats = []
  | .lit v, h => by
    cases v with
    | float f => exact h.elim
    | _ => rfl
  | .list es, h => by rw [PN.floats]; exact no_floatsList es h
  | .map es, h => by rw [PN.floats]; exact no_floatsEntries es h
  | .call n es, h => by rw [PN.floats]; exact no_floatsList es h.2
theorem no_floatsList : ∀ ps : List PN, PN.simpleList ps → PN.floatsList ps = []
  | [], _ => rfl
  | p :: ps, h => by rw [PN.floatsList, no_floats p h.1, no_floatsList ps h.2]; rfl
theorem no_floatsEntries : ∀ es : List (GoStr × PN), PN.simpleEntries es → PN.floatsEntries es = []
  | [], _ => rfl
  | (_, p) :: es, h => by rw [PN.floatsEntries, no_floats p h.2.1, no_floatsEntries es h.2.2]; rfl
end

section
variable {env env' : Env} {s s' t t' : St} {single single' : Bool} {e e' : Expr}

/-- The AST of a parse result without floats is made of words and valid strings. -/
theorem parsed_neat (hx : PlainText env) (hs : Utf8State s) (h : parseFrom env s single = (.value e, t)) (hf : NoFloats e)
    {p : PN} (hp : e.toPN = .ok p) : Neat p :=
  (makes_neat e fun x hm => ⟨(C62_utf8 hx hs h).1 x hm, (parsed_allWell h x hm).2, hf x hm⟩).get hp

/-- C61: the AST of a parse result without floats has a text that is unambiguous: the conditions of C04 hold. -/
theorem C61_text_conditions (hx : PlainText env) (hs : Utf8State s) (h : parseFrom env s single = (.value e, t))
    (hf : NoFloats e) {p : PN} (hp : e.toPN = .ok p) : Clean p :=
  Neat.clean p (parsed_neat hx hs h hf hp)

/-- C61 for the text of the AST: two parse results without floats - of any texts, with any options but hexadecimal
escapes - are printed with the same text exactly if they are the same program up to `canon`. -/
theorem C61_text (hx : PlainText env) (hx' : PlainText env') (hs : Utf8State s) (hs' : Utf8State s')
    (h : parseFrom env s single = (.value e, t)) (h' : parseFrom env' s' single' = (.value e', t'))
    (hf : NoFloats e) (hf' : NoFloats e') {p p' : PN} (hp : e.toPN = .ok p) (hp' : e'.toPN = .ok p') (ff : FloatVal → GoStr) :
    p.format ff = p'.format ff ↔ canon e' = canon e :=
  C61_printed_text h h' hp hp' (C61_text_conditions hx hs h hf hp) (C61_text_conditions hx' hs' h' hf' hp') ff

/-- C60: the same for the JSON form of the AST: there is one, and it tells the program. -/
theorem C60_ast_lossless (hx : PlainText env) (hx' : PlainText env') (hs : Utf8State s) (hs' : Utf8State s')
    (h : parseFrom env s single = (.value e, t)) (h' : parseFrom env' s' single' = (.value e', t'))
    (hf : NoFloats e) (hf' : NoFloats e') {p p' : PN} (hp : e.toPN = .ok p) (hp' : e'.toPN = .ok p')
    (jf : FloatVal → Option GoStr) (hj : ∀ f t, jf f = some t → jsonNumber t = true) :
    ∃ w w', p.toData.json jf = some w ∧ p'.toData.json jf = some w' ∧ (w = w' ↔ canon e' = canon e) := by
  have n := Neat.simple p (parsed_neat hx hs h hf hp)
  have n' := Neat.simple p' (parsed_neat hx' hs' h' hf' hp')
  have some_text : ∀ q : PN, q.simple → ∃ w, q.toData.json jf = some w := by
    intro q hq
    cases hw : q.toData.json jf with
    | some w => exact ⟨w, rfl⟩
    | none =>
      obtain ⟨f, hf, -⟩ := (C60_pn_fails_iff jf q).1 hw
      rw [no_floats q hq] at hf
      cases hf
  obtain ⟨w, hw⟩ := some_text p n
  obtain ⟨w', hw'⟩ := some_text p' n'
  refine ⟨w, w', hw, hw', ?_⟩
  rw [← C61_printed_ast h h' hp, hp']
  constructor
  · rintro rfl
    rw [C60_pn_lossless jf hj p p' w n n' hw hw']
  · intro he
    injection he with he
    subst he
    rw [hw] at hw'
    injection hw'
end

instance (e : Expr) : Decidable (NoFloats e) := inferInstanceAs (Decidable (∀ x ∈ subexpressions e, isFloat x = false))

/-- The conditions are met, and the theorem tells texts apart. -/
def printable (text : GoStr) : Bool :=
  match parse { text } false with
  | .value e => decide (NoFloats e) && match e.toPN with | .ok _ => true | .error _ => false
  | _ => false

example : printable b!"class a($x = 'ä b', *$y) inherits b { file { \"${x}\": mode => 0x1ff } -> Foo <| a == 'b' |> }" = true := by
  decide +kernel
example : printable b!"$x = 1.5" = false := by decide +kernel

end PP.Props
