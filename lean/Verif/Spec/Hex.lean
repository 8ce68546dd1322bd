import Verif.Spec.Decimal
import Verif.Spec.MatText

/-! # The other ways to write a number in a text file: hexadecimal numerals and names -/

namespace Leaves.Spec

/-- the digits of hexadecimal numerals -/
def hexChars : Str := "0123456789abcdefABCDEF".toList

/-- what a hexadecimal digit counts -/
def hexValue (c : Char) : Nat :=
  if c ∈ "0123456789abcdef".toList then "0123456789abcdef".toList.idxOf c else "0123456789ABCDEF".toList.idxOf c

/-- hexadecimal digits read as one number -/
def hexNumber (ds : Str) : Nat := ds.foldl (fun n c => 16 * n + hexValue c) 0

/-- the parts of a hexadecimal numeral such as `-0x1.8p+3`, as the verb `%a` of C writes it: sign, the letter `x`, digits, digits after a
point, and the exponent (its letter, sign and digits), which is a decimal number and belongs to the base 2 -/
structure HexNum where
  sign : Str
  x : Char
  whole : Str
  point : Option Str
  p : Char
  expSign : Str
  expDigits : Str

namespace HexNum

/-- the digits after the point -/
def frac (w : HexNum) : Str := w.point.getD []

/-- the numeral as text -/
def text (w : HexNum) : Str :=
  w.sign ++ ('0' :: w.x :: (w.whole ++ ((match w.point with | none => [] | some ds => '.' :: ds) ++ w.p :: (w.expSign ++ w.expDigits))))

/-- Every part is what it should be; there is a digit before or after the point, and one in the exponent; the exponent is below 10000. -/
structure OK (w : HexNum) : Prop where
  sign : DecNum.IsSign w.sign
  x : w.x = 'x' ∨ w.x = 'X'
  whole : ∀ c ∈ w.whole, c ∈ hexChars
  frac : ∀ c ∈ w.frac, c ∈ hexChars
  digit : w.whole ++ w.frac ≠ []
  p : w.p = 'p' ∨ w.p = 'P'
  expSign : DecNum.IsSign w.expSign
  expDigit : w.expDigits ≠ []
  expDigits : ∀ c ∈ w.expDigits, c.isDigit = true
  expSmall : digitsNumber w.expDigits < 10000

/-- the exponent -/
def exponent (w : HexNum) : Int := if w.expSign = ['-'] then -(digitsNumber w.expDigits : Int) else digitsNumber w.expDigits

/-- what the digits denote, without sign -/
def magnitude (w : HexNum) : ℚ := hexNumber (w.whole ++ w.frac) * 2 ^ (w.exponent - 4 * w.frac.length)

/-- the number a numeral denotes -/
def value (w : HexNum) : ℚ := if w.sign = ['-'] then -w.magnitude else w.magnitude

/-- what the numeral should be read as: the nearest float64, which is finite, with the sign that is written -/
def Reads (w : HexNum) (x : F64) : Prop := Rounded w.value x ∧ ∃ m h, x = .fin (decide (w.sign = ['-'])) m h

end HexNum

/-- `s` is the word `name` (in small letters), each letter small or capital -/
def InAnyCase (name s : Str) : Prop := List.Forall₂ (fun d c => c = d ∨ c = d.toUpper) name s

/-- Every underscore of `s` stands between two characters of the kind `dig`; `start` says whether one may stand at the beginning. -/
def Between (dig : Char → Prop) (start : Prop) (s : Str) : Prop :=
  ∀ a b, s = a ++ '_' :: b → ((a = [] ∧ start) ∨ ∃ a' c, a = a' ++ [c] ∧ dig c) ∧ ∃ c b', b = c :: b' ∧ dig c

/-- The underscores are where they may be: one at a time between two digits, in hexadecimal numerals also after the prefix. -/
inductive UnderscoresOK : Str → Prop
  | decimal (s : Str) : Between (fun c => c.isDigit = true) False s → UnderscoresOK s
  | hexadecimal (sg : Str) (x : Char) (body : Str) : DecNum.IsSign sg → x = 'x' ∨ x = 'X' → Between (· ∈ hexChars) True body →
      UnderscoresOK (sg ++ '0' :: x :: body)

/-- the text without its underscores -/
def bare (s : Str) : Str := s.filter fun c => c ≠ '_'

/-- The cell `s` of a table means the float64 `x`, where an empty cell means `d`. -/
inductive CellReads (d : F64) : Str → F64 → Prop
  | empty : CellReads d [] d
  | decimal (w : DecNum) (x : F64) : w.OK → ReadsAs w x → CellReads d w.text x
  | hexadecimal (w : HexNum) (x : F64) : w.OK → w.Reads x → CellReads d w.text x
  | nan (s : Str) : InAnyCase "nan".toList s → CellReads d s .nan
  | inf (sg s : Str) : DecNum.IsSign sg → InAnyCase "inf".toList s ∨ InAnyCase "infinity".toList s →
      CellReads d (sg ++ s) (.inf (decide (sg = ['-'])))
  | underscored (s : Str) (x : F64) : '_' ∈ s → UnderscoresOK s → CellReads d (bare s) x → CellReads d s x

/-- the text ends with an exponent of 10000 or more -/
def HugeExponent (s : Str) : Prop :=
  ∃ a c sg ds, bare s = a ++ c :: (sg ++ ds) ∧ c ∈ "eEpP".toList ∧ DecNum.IsSign sg ∧ (∀ d ∈ ds, d.isDigit = true) ∧ 10000 ≤ digitsNumber ds

/-- a number of a model file: `s` denotes `x` (exponents of 10000 and more apart) -/
def Written (s : Str) (x : F64) : Prop := HugeExponent s ∨ CellReads F64.nan s x

/-- the characters such cells are written with -/
def cellChars : Str := "0123456789abcdefABCDEFxXpP+-.iInNtTyY_".toList

/-- a row in libsvm format: label, then the entries, each with its index and the text of its value -/
def svmSpelled (label : Str) (row : List (Nat × Str)) : Str := join " ".toList (label :: row.map fun e => decimal e.1 ++ ':' :: e.2)

/-- the entries have these indexes and values -/
def EntriesRead (row : List (Nat × Str)) (vals : List (Nat × F64)) : Prop :=
  List.Forall₂ (fun e v => e.1 = v.1 ∧ e.1 < 2 ^ 32 ∧ e.2 ≠ [] ∧ CellReads .nan e.2 v.2) row vals

end Leaves.Spec
