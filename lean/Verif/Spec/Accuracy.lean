import Verif.Spec.Num
import Mathlib.Algebra.BigOperators.Group.Finset.Basic
import Mathlib.Algebra.Order.Group.Abs

/-! # What it means for a computed number to be close to the exact one

The exact value is a rational number, computed without rounding. -/

namespace Leaves.Spec

/-- `q` differs from `exact` by at most `rel` units of `2^-52` of `size` and `abs` times the smallest positive float64
(`unit` is `2^1074`). -/
def Near (rel abs : Nat) (size exact q : ℚ) : Prop := |q - exact| ≤ rel / 2 ^ 52 * size + abs / unit

end Leaves.Spec
