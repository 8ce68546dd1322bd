import Verif.Model.Platform

/-! # Writing numbers and lists as text -/

namespace Leaves.Spec

/-- a natural number in decimal -/
def decimal (n : Nat) : Str := Nat.toDigits 10 n

/-- an integer in decimal -/
def decimalI (i : Int) : Str := if i < 0 then '-' :: decimal i.natAbs else decimal i.natAbs

/-- `toks` joined with `sep` between them -/
def join (sep : Str) (toks : List Str) : Str := List.intercalate sep toks

end Leaves.Spec
