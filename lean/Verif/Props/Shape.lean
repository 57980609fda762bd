import Verif.Spec.Shape
import Verif.Lemmas.Gram8
import Verif.Lemmas.Tree
import Verif.Props.Grammar

/-!
# C44, C45, C50: lists of arguments, statements, locations of operators
-/
namespace PP.Props
open PP.Spec

/-! ## C44: `key => value` among arguments -/

theorem pair_iff {e : Expr} : Pair e ↔ PP.isKeyedEntry e = true := by
  constructor
  · rintro ⟨⟩; rfl
  · intro h; cases e <;> first | exact .mk _ _ _ | exact absurd h Bool.false_ne_true

theorem not_pair {e : Expr} (h : ¬ PP.isKeyedEntry e = true) : ¬ Pair e := fun h' => h (pair_iff.1 h')

theorem newHash_run {c : Expr} {cs es r : List Expr} (hc : ∀ e ∈ c :: cs, Pair e) (hes : ∀ e, es.head? = some e → ¬ Pair e)
    (h : Gathered es r) : Gathered ((c :: cs) ++ es) (newHash (c :: cs) :: r) := by
  unfold newHash
  refine .run (first := c) (last := (c :: cs).getLastD (.nop ⟨0, 0⟩)) hc rfl ?_ rfl ?_ hes h
  · rw [List.getLastD_eq_getLast?, List.getLast?_cons]; rfl
  · unfold endOf Expr.off Expr.len
    simp only [Expr.pos, List.headD_cons]
    omega

theorem process_gathered (es cs : List Expr) (hc : ∀ e ∈ cs, Pair e) : Gathered (cs ++ es) (processHashEntries es cs) := by
  fun_induction processHashEntries es cs with
  | case1 => exact .nil
  | case2 c cs => exact newHash_run hc (by simp) .nil
  | case3 e es hk ih => exact ih (by simpa using pair_iff.2 hk)
  | case4 e es hk ih => exact .other (not_pair hk) (ih (by simp))
  | case5 e es c cs hk ih =>
    have := ih (by
      intro x hx
      rcases List.mem_append.1 hx with hx | hx
      · exact hc x hx
      · rw [List.mem_singleton] at hx; subst hx; exact pair_iff.2 hk)
    simpa using this
  | case6 e es c cs hk ih =>
    refine newHash_run hc ?_ (.other (not_pair hk) (ih (by simp)))
    intro x hx
    rw [List.head?_cons, Option.some.injEq] at hx
    subst hx
    exact not_pair hk

/-- C44: in a list of arguments the longest runs of `key => value` become hashes; nothing is lost and the order stays. -/
theorem C44_gathered (es : List Expr) : Gathered es (joinHashEntries es) := by
  unfold joinHashEntries
  split
  · exact process_gathered es [] (by simp)
  · next h =>
    induction es with
    | nil => exact .nil
    | cons e es ih =>
      simp only [List.any_cons, Bool.or_eq_true, not_or] at h
      exact .other (not_pair h.1) (ih h.2)

theorem gathered_det {es r r' : List Expr} (h : Gathered es r) (h' : Gathered es r') : r = r' := by
  induction h generalizing r' with
  | nil =>
    generalize hx : ([] : List Expr) = x at h'
    cases h' with
    | nil => rfl
    | other => cases hx
    | @run f l ps p es r h1 h2 =>
      cases ps with
      | nil => cases h2
      | cons q ps => cases hx
  | @other e es r hn _ ih =>
    generalize hx : e :: es = x at h'
    cases h' with
    | nil => cases hx
    | other _ h2 => cases hx; rw [ih h2]
    | @run f l ps p es' r h1 h2 =>
      cases ps with
      | nil => cases h2
      | cons q ps => rw [List.cons_append] at hx; cases hx; exact absurd (h1 _ (by simp)) hn
  | @run f l ps p es r h1 h2 h3 h4 h5 h6 _ ih =>
    generalize hx : ps ++ es = x at h'
    cases h' with
    | nil =>
      cases ps with
      | nil => cases h2
      | cons q ps => cases hx
    | other hn =>
      cases ps with
      | nil => cases h2
      | cons q ps => rw [List.cons_append] at hx; cases hx; exact absurd (h1 _ (by simp)) hn
    | @run f' l' ps' p' es' r' g1 g2 g3 g4 g5 g6 g7 =>
      have key : ∀ (a b c d : List Expr), (∀ e ∈ a, Pair e) → (∀ e ∈ c, Pair e) → (∀ e, b.head? = some e → ¬ Pair e) →
          (∀ e, d.head? = some e → ¬ Pair e) → a ++ b = c ++ d → a = c ∧ b = d := by
        intro a
        induction a with
        | nil =>
          intro b c d _ hc hb _ h
          cases c with
          | nil => exact ⟨rfl, h⟩
          | cons x c =>
            rw [List.nil_append] at h
            exact absurd (hc x (by simp)) (hb x (by rw [h]; rfl))
        | cons x a iha =>
          intro b c d ha hc hb hd h
          cases c with
          | nil =>
            rw [List.nil_append] at h
            exact absurd (ha x (by simp)) (hd x (by rw [← h]; rfl))
          | cons y c =>
            rw [List.cons_append, List.cons_append] at h
            injection h with h7 h8
            obtain ⟨rfl, rfl⟩ := iha b c d (fun e he => ha e (by simp [he])) (fun e he => hc e (by simp [he])) hb hd h8
            exact ⟨by rw [h7], rfl⟩
      obtain ⟨rfl, rfl⟩ := key _ _ _ _ h1 g1 h6 g6 hx
      rw [h2] at g2
      rw [h3] at g3
      cases g2
      cases g3
      rw [ih g7]
      congr 1
      obtain ⟨o, n⟩ := p
      obtain ⟨o', n'⟩ := p'
      simp only [endOf, Expr.off, Expr.len, Expr.pos] at h4 h5 g4 g5
      subst h4
      subst g4
      congr 1
      congr 1
      omega

/-- C44: so the specification leaves no choice. -/
theorem C44_only (es r : List Expr) : Gathered es r ↔ r = joinHashEntries es :=
  ⟨fun h => gathered_det h (C44_gathered es), fun h => h ▸ C44_gathered es⟩

/-- C44: in a tree that the parser gives no `key => value` is left among the elements of a list, the arguments of a call or
the keys of an access. -/
theorem C44_no_pair {env : Env} {s t : St} {single : Bool} {e : Expr} (h : parseFrom env s single = (.value e, t)) :
    (∀ p es, .list p es ∈ subexpressions e → ∀ x ∈ es, ¬ Pair x) ∧
    (∀ p k rv f args lam, .call p k rv f args lam ∈ subexpressions e → ∀ x ∈ args, ¬ Pair x) ∧
    (∀ p o ks, .access p o ks ∈ subexpressions e → ∀ x ∈ ks, ¬ Pair x) := by
  have ht := (parsed_tree h).1.sub
  have val : ∀ {x}, Node env t.defs .value x → ¬ Pair x := fun h1 h2 => by
    have := h1.not_keyed
    rw [pair_iff.1 h2] at this
    cases this
  refine ⟨fun p es hm x hx => ?_, fun p k rv f args lam hm x hx => ?_, fun p o ks hm x hx => ?_⟩
  · cases ht _ hm with
    | node hn =>
      cases hn with
      | list _ h1 => exact val (h1 x hx)
      | elseBlock hn => cases hn
      | operand hn => cases hn with | list _ h1 => exact val (h1 x hx)
      | stmt hn => cases hn with | list _ h1 => exact val (h1 x hx)
    | paramList _ h1 => intro hp; cases h1 x hx; cases hp
  · cases ht _ hm with
    | node hn =>
      cases hn with
      | call _ _ _ h1 => exact val (h1 x hx)
      | method _ _ _ h1 => exact val (h1 x hx)
      | elseBlock hn => cases hn
      | operand hn => cases hn with
        | call _ _ _ h1 => exact val (h1 x hx)
        | method _ _ _ h1 => exact val (h1 x hx)
      | stmt hn => cases hn with
        | call _ _ _ h1 => exact val (h1 x hx)
        | method _ _ _ h1 => exact val (h1 x hx)
  · cases ht _ hm with
    | node hn =>
      cases hn with
      | access _ _ _ h1 => exact val (h1 x hx)
      | elseBlock hn => cases hn
      | operand hn => cases hn with | access _ _ _ h1 => exact val (h1 x hx)
      | stmt hn => cases hn with | access _ _ _ h1 => exact val (h1 x hx)

/-- A concrete case. -/
example : see b!"[1, a => 2, b => 3, {c => 4}, 5, d => 6]" = .ast
    b!"(block (array 1 (hash (=> (qn \"a\") 2) (=> (qn \"b\") 3)) (hash (=> (qn \"c\") 4)) 5 (hash (=> (qn \"d\") 6))))" := by
  decide +kernel

/-! ## C45: calls without parentheses -/

theorem statementName_iff {e : Expr} : StatementName e ↔ isStatementCall e = true := by
  constructor
  · rintro ⟨p, n, h⟩
    exact List.contains_iff_mem.2 h
  · intro h
    cases e <;> first | exact absurd h Bool.false_ne_true | exact .mk _ _ (List.contains_iff_mem.1 (h : statementCalls.contains _ = true))

theorem marked_setRval (v : Bool) (e : Expr) : Marked v e (setRval v e) := by
  unfold setRval
  split
  · exact .call _ _ _ _ _
  · next h => exact .other fun p w f args lam he => h p w f args lam he

theorem arguments_statementArgs (e : Expr) : Arguments e (statementArgs e) := by
  unfold statementArgs
  split
  · exact .list _ _
  · next h => exact .single (fun p es he => h p es he) (marked_setRval true _)

theorem loop_statements (memo : Expr) (rest : List Expr) : Statements (memo :: rest) (transformLoop memo rest).1 := by
  have nm : ∀ {e}, ¬ isStatementCall e = true → ¬ StatementName e := fun h h' => h (statementName_iff.1 h')
  have last : ∀ e, Statements [e] [setRval false e] := fun e => by
    by_cases h : isStatementCall e = true
    · have h := statementName_iff.2 h
      cases h with
      | mk p n h' => exact .name (.mk p n h')
    · exact .other (nm h) (marked_setRval _ _) .nil
  have call : ∀ {m e es r}, isStatementCall m = true → Statements es r →
      Statements (m :: e :: es) (.call ⟨m.off, ((e.off : Int) + e.len) - m.off⟩ .named false m (statementArgs e) none :: r) := by
    intro m e es r h1 h2
    refine .call (statementName_iff.2 h1) (arguments_statementArgs e) rfl ?_ h2
    unfold endOf
    dsimp only
    omega
  fun_induction transformLoop memo rest with
  | case1 memo => exact last memo
  | case2 memo e hs => exact call hs .nil
  | case3 memo e hs => exact .other (nm hs) (marked_setRval _ _) (last e)
  | case4 memo e m rest hs r ih => exact call hs ih
  | case5 memo e m rest hs r ih => exact .other (nm hs) (marked_setRval _ _) ih

/-- C45: the expressions of a block become its statements; a call of a statement function takes the next expression, or the
list `a, b` that follows it, as its arguments; everything else stays where it is. -/
theorem C45_statements {es r : List Expr} {env : Env} {s s' : St} (h : transformCalls es env s = .ok r s') : Statements es r ∧ s' = s := by
  unfold transformCalls at h
  split at h
  · cases h; exact ⟨.nil, rfl⟩
  · next memo rest =>
    have h1 := loop_statements memo rest
    dsimp only at h
    split at h
    · cases hn : firstComma (transformLoop memo rest).1 with
      | some xs => rw [hn] at h; exact absurd h (extraneousComma_fails _)
      | none => rw [hn] at h; cases h; exact ⟨h1, rfl⟩
    · cases h; exact ⟨h1, rfl⟩

theorem marked_det {v : Bool} {e a b : Expr} (h : Marked v e a) (h' : Marked v e b) : a = b := by
  cases h with
  | call => cases h' with
    | call => rfl
    | other h => exact absurd rfl (h _ _ _ _ _)
  | other h => cases h' with
    | call => exact absurd rfl (h _ _ _ _ _)
    | other => rfl

theorem arguments_det {e : Expr} {a b : List Expr} (h : Arguments e a) (h' : Arguments e b) : a = b := by
  cases h with
  | list => cases h' with
    | list => rfl
    | single h => exact absurd rfl (h _ _)
  | single h g => cases h' with
    | list => exact absurd rfl (h _ _)
    | single _ g' => rw [marked_det g g']

theorem statements_det {es r r' : List Expr} (h : Statements es r) (h' : Statements es r') : r = r' := by
  induction h generalizing r' with
  | nil => cases h'; rfl
  | name h1 => cases h' with
    | name => rfl
    | other h2 => exact absurd h1 h2
  | @call m e args es r p h1 h2 h3 h4 _ ih => cases h' with
    | @call _ _ _ _ _ p' g1 g2 g3 g4 g5 =>
      rw [ih g5, arguments_det h2 g2]
      obtain ⟨o, n⟩ := p
      obtain ⟨o', n'⟩ := p'
      dsimp only at h3 h4 g3 g4
      subst h3
      subst g3
      have : n = n' := by omega
      rw [this]
    | other h2 => exact absurd h1 h2
  | other h1 h2 _ ih => cases h' with
    | name g1 => exact absurd g1 h1
    | call g1 => exact absurd g1 h1
    | other _ g2 g3 => rw [ih g3, marked_det h2 g2]

/-- C45: they become these statements if no list `a, b` is left. -/
theorem C45_accepts {es r : List Expr} (h : Statements es r) (hc : ∀ p xs, .commaSep p xs ∉ r) (env : Env) (s : St) :
    transformCalls es env s = .ok r s := by
  have h1 : Statements es (tl es) := by
    cases es with
    | nil => exact .nil
    | cons m es => exact loop_statements m es
  cases statements_det h h1
  refine transformCalls_of ?_
  cases hf : firstComma (tl es) with
  | none => rfl
  | some xs => obtain ⟨p, hp⟩ := firstComma_mem hf; exact absurd hp (hc p xs)

/-- C45: a list that is left is rejected, unless the block ends in a call without parentheses. -/
theorem C45_rejects {es r : List Expr} {env : Env} {s s' : St} (h : transformCalls es env s = .ok r s') {p : Pos} {xs : List Expr}
    (hc : .commaSep p xs ∈ r) : ∃ q m args, r.getLast? = some (.call q .named false m args none) ∧ StatementName m := by
  obtain ⟨q, m, args, h1, h2⟩ := (transformCalls_block es h).commas p xs hc
  exact ⟨q, m, args, h1, statementName_iff.2 h2⟩

/-- C45: in every block of a tree that the parser gives, calls of functions are marked as statements, the name of a
statement function is only at the end, and a list `a, b` is left only if the block ends in a call without parentheses. -/
theorem C45_blocks {env : Env} {s t : St} {single : Bool} {e : Expr} (h : parseFrom env s single = (.value e, t))
    {p : Pos} {ss : List Expr} (hb : .block p ss ∈ subexpressions e) :
    (∀ q w f args lam, Expr.call q .named w f args lam ∈ ss → w = false) ∧ (∀ x ∈ ss.dropLast, ¬ StatementName x) ∧
    (∀ q es, .commaSep q es ∈ ss → ∃ r m args, ss.getLast? = some (.call r .named false m args none) ∧ StatementName m) := by
  have ht := (parsed_tree h).1.sub _ hb
  have key (h : BlockOk ss) : (∀ q w f args lam, Expr.call q .named w f args lam ∈ ss → w = false) ∧
      (∀ x ∈ ss.dropLast, ¬ StatementName x) ∧ (∀ q es, .commaSep q es ∈ ss →
        ∃ r m args, ss.getLast? = some (.call r .named false m args none) ∧ StatementName m) := by
    refine ⟨h.rval, fun x hx h' => ?_, fun q es hm => ?_⟩
    · have := h.names x hx
      rw [statementName_iff.1 h'] at this
      cases this
    · obtain ⟨r, m, args, h1, h2⟩ := h.commas q es hm
      exact ⟨r, m, args, h1, statementName_iff.2 h2⟩
  cases ht with
  | node hn =>
    cases hn with
    | block _ h1 => exact key h1
    | elseBlock hn => cases hn with | block _ h1 => exact key h1
    | operand hn => cases hn
    | stmt hn => cases hn
  | acts _ _ h1 =>
    refine key ⟨?_, ?_, ?_⟩
    · intro q w f args lam hm; cases h1 _ hm
    · intro x hx
      have := List.dropLast_subset _ hx
      cases h1 _ this <;> rfl
    · intro q es hm; cases h1 _ hm

/-- Concrete cases. -/
example : see b!"notice 1, 2\ninclude a\nf(3)\nnotice" = .ast
    b!"(block (invoke {:functor (qn \"notice\") :args [1 2]}) (invoke {:functor (qn \"include\") :args [(qn \"a\")]}) (invoke {:functor (qn \"f\") :args [3]}) (qn \"notice\"))" := by
  decide +kernel

/-- A list is left in a block that ends in a call without parentheses. -/
example : (match parse { text := b!"a, b\nnotice 1" } false with
    | .value (.program _ (.block _ (.commaSep _ es :: _)) _) => es.length
    | _ => 0) = 2 := by decide +kernel

example : see b!"1, 2\n3" = .issue .parseExtraneousComma 1 := by decide +kernel

/-! ## C50: locations of operators -/

/-- C50: in a tree that the parser gives, an expression with a binary operator starts where its left operand starts. -/
theorem C50_left_operand {env : Env} {s t : St} {single : Bool} {e : Expr} (h : parseFrom env s single = (.value e, t))
    {p : Pos} {k : BinKind} {l r : Expr} (hk : k ≠ .namedAccess) (hm : .bin p k l r ∈ subexpressions e) : p.off = l.off := by
  cases (parsed_tree h).1.sub _ hm with
  | node hn =>
    cases hn with
    | bin _ _ h1 => exact h1 hk
    | namedAccess => exact absurd rfl hk
    | rawAccess => exact absurd rfl hk
    | elseBlock hn => cases hn
    | operand hn => cases hn with | bin _ _ h1 => exact h1 hk
    | stmt hn => cases hn with | bin _ _ h1 => exact h1 hk

end PP.Props
