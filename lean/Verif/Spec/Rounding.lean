import Verif.Spec.Num
import Mathlib.Algebra.Order.Group.Abs

/-!
# Correct rounding, as IEEE-754 defines it

Round to nearest, ties to even, to 53 binary digits with gradual underflow and overflow to infinity. Magnitudes are counted in units of
`2^-1074`. Nothing here refers to the model's arithmetic.
-/

namespace Leaves.Spec

/-- a magnitude of at most 53 binary digits -/
def Digits53 (m : Nat) : Prop := ∃ s e, m = s * 2 ^ e ∧ s < 2 ^ 53

/-- the last of the 53 digits is 0 (or the number is so small that it has fewer than 53 digits and is even) -/
def EvenDigits (m : Nat) : Prop := ∃ s e, m = s * 2 ^ e ∧ s < 2 ^ 53 ∧ s % 2 = 0 ∧ (2 ^ 52 ≤ s ∨ e = 0)

/-- `m` is the magnitude nearest to `a`; of two such magnitudes it is the even one -/
def Nearest (a : ℚ) (m : Nat) : Prop :=
  Digits53 m ∧ ∀ m', Digits53 m' → |(m : ℚ) - a| ≤ |(m' : ℚ) - a| ∧ (m' ≠ m → |(m' : ℚ) - a| = |(m : ℚ) - a| → EvenDigits m)

/-- the sign bit of `x` is `neg` -/
def HasSign (x : F64) (neg : Bool) : Prop := (∃ m h, x = .fin neg m h) ∨ x = .inf neg

/-- `x` is `q`, correctly rounded: it has the sign of `q` and the nearest magnitude, or is infinite if that is `2^1024` or more. (The sign
of an exact zero is not determined by `q`.) -/
def Rounded (q : ℚ) (x : F64) : Prop :=
  (0 < q → HasSign x false) ∧ (q < 0 → HasSign x true) ∧
  ∃ m, Nearest (|q| * unit) m ∧ ((m < magLimit ∧ ∃ s h, x = .fin s m h) ∨ (magLimit ≤ m ∧ ∃ s, x = .inf s))

end Leaves.Spec
