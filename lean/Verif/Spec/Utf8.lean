import Verif.Model.Platform

/-! # What characters a sequence of bytes holds -/

namespace Leaves.Spec

/-- no character's UTF-8 encoding is at the start of these bytes -/
def Garbled (s : List UInt8) : Prop := ∀ c rest, s ≠ String.utf8EncodeChar c ++ rest

/-- The characters in a sequence of bytes: wherever the UTF-8 encoding of a character stands, that character; every byte that is not part
of one is read as U+FFFD. -/
inductive Chars : List UInt8 → List Char → Prop
  | nil : Chars [] []
  | char (c : Char) {s t} : Chars s t → Chars (String.utf8EncodeChar c ++ s) (c :: t)
  | garbled (b : UInt8) {s t} : Garbled (b :: s) → Chars s t → Chars (b :: s) (Char.ofNat 0xFFFD :: t)

end Leaves.Spec
