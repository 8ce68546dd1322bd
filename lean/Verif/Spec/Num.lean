import Verif.Model.F64
import Mathlib.Data.Rat.Defs
import Mathlib.Algebra.Order.Ring.Rat
import Mathlib.Order.WithBot

/-!
# What a float64 denotes

The real-number reading of binary64 data, written without the model's arithmetic: a non-NaN datum denotes a
point of the extended rational line.
-/

namespace Leaves.Spec

/-- the extended rational line -/
abbrev Line := WithBot (WithTop ℚ)

/-- the rational `q` as a point of the extended line -/
def pt (q : ℚ) : Line := ((q : WithTop ℚ) : Line)

/-- the point denoted by a datum (`unit` is the constant `2^1074`); NaN denotes none -/
def value : F64 → Option Line
  | .nan => none
  | .inf true => some ⊥
  | .inf false => some ((⊤ : WithTop ℚ) : Line)
  | .fin false m _ => some (pt (m / unit))
  | .fin true m _ => some (pt (-(m / unit)))

/-- IEEE `x <= y`: both denote points and those are ordered -/
def Le (x y : F64) : Prop := ∃ a b, value x = some a ∧ value y = some b ∧ a ≤ b

/-- IEEE `x < y` -/
def Lt (x y : F64) : Prop := ∃ a b, value x = some a ∧ value y = some b ∧ a < b

/-- IEEE `x == y` -/
def Eq (x y : F64) : Prop := ∃ a, value x = some a ∧ value y = some a

/-- `x` is a number in the open-closed interval `(lo, hi]` -/
def Within (lo hi : ℚ) (x : F64) : Prop := ∃ a, value x = some a ∧ pt lo < a ∧ a ≤ pt hi

/-- `x` denotes exactly the rational `q` -/
def IsVal (x : F64) (q : ℚ) : Prop := value x = some (pt q)

end Leaves.Spec
