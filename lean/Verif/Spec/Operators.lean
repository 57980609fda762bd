import Verif.Spec.Grammar

/-! # Operators: precedence and associativity -/
namespace PP.Spec

/-- How tight the binary operators of a level bind.  1 are the assignments. -/
def rank : Lvl → Nat
  | .rel => 0
  | .or => 2
  | .and => 3
  | .compare => 4
  | .equal => 5
  | .shift => 6
  | .additive => 7
  | .mult => 8
  | .match_ => 9
  | .in_ => 10

/-- `Written n e ts`: the expression `e` is written as `ts` where an operator must bind at least as tight as `n`.  Parentheses are
needed around an operator that does not, and allowed around everything.  Binary operators are left associative: the right
operand must bind tighter.  Assignments are right associative.  Prefix operators bind tighter than binary ones. -/
inductive Written : Nat → Expr → List T → Prop
  | leaf {n t e} : leafOf t = some e → (∀ k, t ≠ .style k) → Written n e [t]
  | binary {n l t k a b ta tb} : operator l t = some k → n ≤ rank l → Written (rank l) a ta → Written (rank l + 1) b tb →
      Written n (.bin z k a b) (ta ++ t :: tb)
  | assign {n t op a b ta tb} : assignOperator t = some op → n ≤ 1 → Written 2 a ta → Written 1 b tb →
      Written n (.bin z (.assignment op) a b) (ta ++ t :: tb)
  | not {n a ta} : n ≤ 11 → Written 11 a ta → Written n (.un z .not a) (y .not :: ta)
  | minus {n a ta} : n ≤ 11 → Written 12 a ta → StartsNot isNumber ta → Written n (.un z .minus a) (y .subtract :: ta)
  | parens {n p a ta} : isParen p = true → Written 0 a ta → Written n a (p :: (ta ++ [y .rp]))

/-- The expression without its parentheses. -/
def dropParens : Expr → Expr
  | .un p k e => if k = .paren then dropParens e else .un p k (dropParens e)
  | .bin p k a b => .bin p k (dropParens a) (dropParens b)
  | e => e

end PP.Spec
