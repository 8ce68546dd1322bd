import Verif.Model.Platform
import Verif.Spec.Num
import Mathlib.Analysis.SpecialFunctions.Exp

/-!
# Accurate exponentials

What is assumed of `math.Exp`, compared with the exponential function on the real numbers.
-/

namespace Leaves.Spec

/-- `math.Exp` has relative error at most `ε`, except that results below the smallest positive float64 may be lost and that it may
overflow from `2^1023` on. (The Go library promises an error below one unit in the last place, i.e. `ε = 2^-52`.) -/
def ExpAccurate (P : Platform) (ε : ℝ) : Prop := ∀ x q, IsVal x q →
  (∃ e : ℚ, IsVal (P.exp x) e ∧ 0 ≤ e ∧ |(e : ℝ) - Real.exp q| ≤ ε * Real.exp q + 1 / 2 ^ 1074) ∨
  (P.exp x = F64.inf false ∧ 2 ^ 1023 ≤ Real.exp q)

/-- the logistic function -/
noncomputable def logisticFn (x : ℝ) : ℝ := 1 / (1 + Real.exp (-x))

/-- the probability of a class with score `x` among classes with scores `qs` -/
noncomputable def softmaxFn (qs : List ℝ) (x : ℝ) : ℝ := Real.exp x / (qs.map Real.exp).sum

end Leaves.Spec
