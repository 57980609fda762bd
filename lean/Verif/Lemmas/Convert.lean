import Verif.Parser
import Verif.Spec.Start

/-! # Conversion of the left hand side of a method call -/
namespace PP

theorem innermost_convertLhs (l : Expr) : innermost (convertLhs l) = innermost l := by
  fun_induction convertLhs l with
  | case1 q l' r' ih => simpa only [innermost] using ih
  | case2 => rfl

end PP
