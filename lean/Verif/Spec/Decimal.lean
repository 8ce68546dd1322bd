import Verif.Spec.Rounding
import Verif.Spec.Text
import Mathlib.Algebra.Order.Field.Rat

/-! # Numbers written in decimal -/

namespace Leaves.Spec

/-- digits read as one number -/
def digitsNumber (ds : Str) : Nat := ds.foldl (fun n c => 10 * n + (c.toNat - 48)) 0

/-- the parts of a decimal numeral such as `-12.50e+3`: sign, digits, digits after a point, exponent (its letter, sign and digits) -/
structure DecNum where
  sign : Str
  whole : Str
  point : Option Str
  exp : Option (Char × Str × Str)

namespace DecNum

/-- the digits after the point -/
def frac (w : DecNum) : Str := w.point.getD []

/-- the numeral as text -/
def text (w : DecNum) : Str :=
  w.sign ++ w.whole ++ (match w.point with | none => [] | some ds => '.' :: ds) ++
    (match w.exp with | none => [] | some (c, s, ds) => c :: (s ++ ds))

/-- a sign -/
def IsSign (s : Str) : Prop := s = [] ∨ s = ['+'] ∨ s = ['-']

/-- Every part is what it should be; there is a digit before or after the point, and one in the exponent; the exponent is below 10000. -/
structure OK (w : DecNum) : Prop where
  sign : IsSign w.sign
  whole : ∀ c ∈ w.whole, c.isDigit = true
  frac : ∀ c ∈ w.frac, c.isDigit = true
  digit : w.whole ++ w.frac ≠ []
  exp : ∀ c s ds, w.exp = some (c, s, ds) → (c = 'e' ∨ c = 'E') ∧ IsSign s ∧ ds ≠ [] ∧ (∀ d ∈ ds, d.isDigit = true) ∧ digitsNumber ds < 10000

/-- the exponent -/
def exponent (w : DecNum) : Int :=
  match w.exp with
  | none => 0
  | some (_, s, ds) => if s = ['-'] then -(digitsNumber ds : Int) else digitsNumber ds

/-- what the digits denote, without sign -/
def magnitude (w : DecNum) : ℚ := digitsNumber (w.whole ++ w.frac) * 10 ^ (w.exponent - w.frac.length)

/-- the number a numeral denotes -/
def value (w : DecNum) : ℚ := if w.sign = ['-'] then -w.magnitude else w.magnitude

end DecNum

/-- `print` writes every float64 with 17 or more significant digits: a finite number as a numeral that differs from it by at most
`5 * 10^-17` times the number (half a unit in the 17th significant digit), with a minus sign exactly if its sign bit is set; the other
values by their names. -/
structure Prints17 (print : F64 → Str) : Prop where
  finite : ∀ s m h, ∃ w : DecNum, w.OK ∧ print (.fin s m h) = w.text ∧ (w.sign = ['-'] ↔ s = true) ∧
    |w.magnitude - m / unit| ≤ m / unit / (2 * 10 ^ 16)
  nan : print .nan = "NaN".toList ∨ print .nan = "nan".toList
  inf : ∀ s, print (.inf s) = (if s then "-Inf".toList else "+Inf".toList) ∨ print (.inf s) = (if s then "-inf".toList else "inf".toList)

/-- the characters numbers are written with -/
def numberChars : Str := "0123456789+-.eENaIinf".toList

/-- what the numeral `w` should be read as: the nearest float64, which is finite, with the sign that is written -/
def ReadsAs (w : DecNum) (x : F64) : Prop := Rounded w.value x ∧ ∃ m h, x = .fin (decide (w.sign = ['-'])) m h

/-- the number is too large for a float64 -/
def Overflows (w : DecNum) : Prop := ∃ s, Rounded w.value (.inf s)

end Leaves.Spec
