import Verif.Lemmas.Messages
import Verif.Props.Seen

/-!
# C59: what the messages of the validators say
-/
namespace PP.Props

/-- The arguments of every issue are about the expression at which it is reported: see `Spec/Messages.lean`. -/
theorem C59_values (c : Checker) (e : Expr) (is : List Issue) (h : validateWith c e = .ok is) (i : Issue) (hi : i ∈ is) :
    Describes c.feq e i.code i.at_ i.args := tells_validate c e is h i hi

/-- The keys of the arguments are the keys that the message asks for, for all issues but one kind. -/
theorem C59_keys (c : Checker) (e : Expr) (is : List Issue) (h : validateWith c e = .ok is) (i : Issue) (hi : i ∈ is)
    (hc : i.code ≠ .capturesRestNotSupported) (k : GoStr) : k ∈ i.code.keys ↔ k ∈ i.args.map Prod.fst := by
  have ht := C59_values c e is h i hi
  obtain ⟨code, s, x, args⟩ := i
  simp only at ht hc ⊢
  cases ht
  case capturesRestNotSupported => exact absurd rfl hc
  all_goals exact iff_of_eq (congrArg (k ∈ ·) (by simp only [List.map]; decide +kernel))

/-- The message of every issue can be written, whatever the way in which arguments are printed, but for one kind. -/
theorem C59_complete (c : Checker) (e : Expr) (is : List Issue) (h : validateWith c e = .ok is) (i : Issue) (hi : i ∈ is)
    (hc : i.code ≠ .capturesRestNotSupported) (render : Option Format → Arg → GoStr) :
    ∃ m, i.message render = some m := by
  have hk := C59_keys c e is h i hi hc
  have all : ∀ (ps : List Piece), (∀ k, .key k ∈ ps → k ∈ i.args.map Prod.fst) →
      ∃ m, ps.foldr (fun p r => match p with
        | .byte b => r.map (b :: ·)
        | .key k => match i.args.lookup k, r with
          | some a, some r => some (render (i.code.formats.lookup k) a ++ r)
          | _, _ => none) (some []) = some m := by
    intro ps
    induction ps with
    | nil => exact fun _ => ⟨[], rfl⟩
    | cons p ps ih =>
      intro hp
      obtain ⟨m, hm⟩ := ih fun k hk => hp k (List.mem_cons_of_mem _ hk)
      cases p with
      | byte b => exact ⟨b :: m, by rw [List.foldr_cons, hm]; rfl⟩
      | key k =>
        have hk := hp k (List.mem_cons_self ..)
        rw [List.foldr_cons, hm]
        cases hl : i.args.lookup k with
        | some a => exact ⟨_, by simp only [hl]; rfl⟩
        | none =>
          obtain ⟨⟨k', a⟩, ha, rfl⟩ := List.mem_map.1 hk
          exact absurd (List.lookup_eq_none_iff.1 hl _ ha) (by simp)
  refine all _ fun k hkp => (hk k).1 (List.mem_filterMap.2 ⟨_, hkp, rfl⟩)

/-- The one kind: the message asks for `param`, and the argument is called `name`.  The message of a parameter that
captures the rest where that is not supported never names the parameter. -/
theorem C59_captures_rest_lacks_its_name (c : Checker) (e : Expr) (is : List Issue) (h : validateWith c e = .ok is)
    (i : Issue) (hi : i ∈ is) (hc : i.code = .capturesRestNotSupported) (render : Option Format → Arg → GoStr) :
    i.message render = none ∧ b!"param" ∈ i.code.keys ∧ b!"param" ∉ i.args.map Prod.fst := by
  have ht := C59_values c e is h i hi
  obtain ⟨code, s, x, args⟩ := i
  simp only at ht hc ⊢
  subst hc
  cases ht with
  | capturesRestNotSupported p n v t c _ _ =>
    refine ⟨?_, by decide +kernel, by simp only [List.map]; decide⟩
    have hp : pieces none VCode.capturesRestNotSupported.template = (b!"Parameter $").map Piece.byte ++
        .key b!"param" :: (b!" has 'captures rest' - not supported in ").map Piece.byte ++ [.key b!"container"] := by
      decide +kernel
    have drop : ∀ (bs : GoStr) (f : Piece → Option GoStr → Option GoStr), (∀ b, f (.byte b) none = none) →
        (bs.map Piece.byte).foldr f none = none := by
      intro bs f hf
      induction bs with
      | nil => rfl
      | cons b bs ih => rw [List.map_cons, List.foldr_cons, ih, hf]
    unfold Issue.message
    rw [hp, List.append_assoc, List.foldr_append, List.cons_append, List.foldr_cons]
    exact drop _ _ fun _ => rfl

/-- Messages name every kind of expression, but for lambdas, expressions in parentheses and calls of a value: these are
all called "Positioned". -/
theorem C59_labels (e : Expr) : e.label = b!"Positioned" ↔
    (∃ p ps b r, e = .lambda p ps b r) ∨ (∃ p x, e = .un p .paren x) ∨ ∃ p rv f as l, e = .call p .function rv f as l := by
  have hop : ∀ op, opLabel op ≠ b!"Positioned" := by
    intro op h
    have := congrArg List.head? h
    simp [opLabel] at this
  have hres : ∀ w : GoStr, b!"Reserved Word '" ++ w ++ b!"'" ≠ b!"Positioned" := by
    intro op h
    have := congrArg List.head? h
    simp at this
  constructor
  · intro h
    cases e with
    | lambda => exact .inl ⟨_, _, _, _, rfl⟩
    | un p k x => cases k <;> first | exact .inr (.inl ⟨_, _, rfl⟩) | exact absurd h (by simp only [Expr.label]; decide)
    | call p k rv f as l =>
      cases k <;> first | exact .inr (.inr ⟨_, _, _, _, _, rfl⟩) | exact absurd h (by simp only [Expr.label]; decide)
    | bin p k l r => cases k <;> first | exact absurd h (hop _) | exact absurd h (by simp only [Expr.label]; decide)
    | namedDef p k n ps b => cases k <;> exact absurd h (by simp only [Expr.label]; decide)
    | query p x q => cases x <;> exact absurd h (by simp only [Expr.label]; decide)
    | ifE p x q => cases x <;> exact absurd h (by simp only [Expr.label]; decide)
    | attributeOp => exact absurd h (hop _)
    | reserved => exact absurd h (hres _)
    | _ => exact absurd h (by simp only [Expr.label]; decide)
  · rintro (⟨p, ps, b, r, rfl⟩ | ⟨p, x, rfl⟩ | ⟨p, rv, f, as, l, rfl⟩) <;> rfl

theorem partOf_arg {e x a} (h : PartOf e x a) : (∃ y, a = .node y) ∨ a = .absent := by
  cases h <;> first | exact .inl ⟨_, rfl⟩ | exact .inr rfl

/-- Formatters are given for arguments that the message has, and these arguments are expressions (or missing, for an
expression that is validated on its own). -/
theorem C59_formats (c : Checker) (e : Expr) (is : List Issue) (h : validateWith c e = .ok is) (i : Issue) (hi : i ∈ is)
    (k : GoStr) (f : Format) (hf : (k, f) ∈ i.code.formats) :
    k ∈ i.code.keys ∧ ∀ a, (k, a) ∈ i.args → (∃ x, a = .node x) ∨ a = .absent := by
  have hk : ∀ code : VCode, ∀ p ∈ code.formats, p.1 ∈ code.keys := by
    intro code; cases code <;> decide +kernel
  refine ⟨hk _ _ hf, ?_⟩
  have ht := C59_values c e is h i hi
  obtain ⟨code, s, x, args⟩ := i
  simp only at ht hf ⊢
  cases ht <;> simp [VCode.formats] at hf ⊢
  all_goals (rcases hf with ⟨rfl, _⟩ | ⟨rfl, _⟩ <;> (intro a ha; simp at ha; subst ha; first
    | exact .inl ⟨_, rfl⟩
    | exact partOf_arg (by assumption)))

/-- The symbol or word of the language that an expression is written with, for those that are called after it. -/
def wordOf : Expr → Option GoStr
  | .access .. => some b!"[]"
  | .bin _ .and _ _ => some b!"and"
  | .bin _ .or _ _ => some b!"or"
  | .bin _ .in _ _ => some b!"in"
  | .bin _ .namedAccess _ _ => some b!"."
  | .bin _ (.arithmetic op) _ _ => some op
  | .bin _ (.assignment op) _ _ => some op
  | .bin _ (.comparison op) _ _ => some op
  | .bin _ (.match op) _ _ => some op
  | .bin _ (.relationship op) _ _ => some op
  | .un _ .not _ => some b!"!"
  | .attributeOp _ op _ _ => some op
  | .ifE _ isUnless _ _ _ => some (if isUnless then b!"unless" else b!"if")
  | .caseE .. => some b!"case"
  | .dflt _ => some b!"default"
  | .undef _ => some b!"undef"
  | .namedDef _ .define .. => some b!"define"
  | _ => none

/-- An expression that is called after a word or symbol of the language is called after its own, in quotes; the only
other name with something of the program in it is that of a reserved word. -/
theorem C59_label_words (e : Expr) : match wordOf e with
    | some w => e.label = b!"'" ++ w ++ b!"' expression" ∨ e.label = b!"'" ++ w ++ b!"' statement"
    | none => e.label.head? ≠ some 39 ∧ ∀ p w f, e = .reserved p w f → e.label = b!"Reserved Word '" ++ w ++ b!"'" := by
  cases e with
  | bin p k l r => cases k <;> exact .inl rfl
  | un p k x => cases k <;> first | exact .inl rfl | exact ⟨by simp only [Expr.label]; decide, by intro _ _ _ h; cases h⟩
  | call p k rv f as l => cases k <;> exact ⟨by simp only [Expr.label]; decide, by intro _ _ _ h; cases h⟩
  | namedDef p k n ps b => cases k <;> first | exact .inl rfl | exact ⟨by simp only [Expr.label]; decide, by intro _ _ _ h; cases h⟩
  | query p x q => cases x <;> exact ⟨by simp only [Expr.label]; decide, by intro _ _ _ h; cases h⟩
  | ifE p x => cases x <;> exact .inr rfl
  | caseE => exact .inr rfl
  | reserved p w f =>
    refine ⟨by simp [Expr.label], ?_⟩
    intro _ _ _ h; cases h; rfl
  | access | attributeOp | dflt | undef => exact .inl rfl
  | _ => exact ⟨by simp only [Expr.label]; decide, by intro _ _ _ h; cases h⟩

/-! ## What a user reads -/

/-- One way to print arguments: kinds for expressions with a formatter, the source for the others. -/
def printed (text : GoStr) : Option Format → Arg → GoStr
  | some .label, .node e => e.label
  | some .anOrA, .node e => b!"a(n) " ++ e.label
  | some .ucAnOrA, .node e => b!"A(n) " ++ e.label
  | none, .node e | _, .source e => (text.drop e.off).take e.len.toNat
  | _, .text s => s
  | _, .int n => (toString n).toUTF8.data.toList
  | _, .absent => b!"nil"

/-- The messages of the issues of a program. -/
def messages (kind : CheckerKind) (text : GoStr) : Option (List (Option GoStr)) :=
  match parse { text } false with
  | .value e => match validateWith { kind, textLen := text.length } e with
    | .ok is => some (is.map (·.message (printed text)))
    | .error _ => none
  | _ => none

example : messages .puppet b!"(1)\n$b = 2" = some [some
    b!"This Positioned has no effect. A value was produced and then forgotten (one or more preceding expressions may have the wrong form)"] := by
  decide +kernel
example : messages .puppet b!"class c(*$r) { }" = some [none] := by decide +kernel
example : messages .puppet b!"class c { 1 }" = some [some
    b!"This Literal Integer has no effect. A(n) Host Class Definition can not end with a value-producing expression without other effect"] := by
  decide +kernel
example : messages .puppet b!"$x = { a => 1, b => 2, a => 3 }" = some [some b!"The key 'a' is declared more than once"] := by
  decide +kernel
example : messages .puppet b!"case 1 { default: { f() } default: { g() } }" = some [some
    b!"This 'case' statement already has a 'default' entry - this is a duplicate"] := by
  decide +kernel
example : messages .puppet b!"file { 'a': mode +> 1 }" = some [some
    b!"Illegal +> operation on attribute mode. This operator can not be used in a(n) Resource Instance Definition"] := by
  decide +kernel
example : messages .tasks b!"file { 'a': mode => 1 }" = some [some
    b!"The catalog operation 'file { 'a': mode => 1 }' is only available when compiling a catalog"] := by
  decide +kernel
example : messages .puppet b!"define d($name, $a, $a) { notice($name) }" = some [some
    b!"The parameter 'a' is declared more than once in the parameter list", some
    b!"The parameter $name redefines a built in parameter in a(n) 'define' expression"] := by
  decide +kernel
example : messages .puppet b!"$a::b = 1\n$1 = 2\nf([] + 1)" = some [some
    b!"Illegal attempt to assign to 'a::b'. Cannot assign to variables in other namespaces", some
    b!"Illegal attempt to assign to the numeric match result variable '$1'. Numeric variables are not assignable"] := by
  decide +kernel
example : messages .puppet b!"type A = 3" = some [some
    b!"Illegal expression. A(n) Literal Integer is unacceptable as a type reference in a(n) Type Alias"] := by
  decide +kernel
example : messages .puppet b!"type Runtime[ruby, 'A'] = 3" = some [some
    b!"Illegal type mapping. Expected a Type on the left side, got a(n) Type Mapping"] := by
  decide +kernel

end PP.Props
