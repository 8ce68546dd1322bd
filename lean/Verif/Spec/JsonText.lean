import Verif.Model.JsonDoc
import Verif.Spec.Decimal

/-!
# The text of JSON documents

Which texts are JSON, and which value each of them stands for (RFC 8259). Nothing here calls the functions that read text.
-/

namespace Leaves.Spec

/-- white space -/
def WhiteText (t : Str) : Prop := ∀ c ∈ t, c = ' ' ∨ c = '\t' ∨ c = '\r' ∨ c = '\n'

/-- a hexadecimal digit and its value -/
def HexChar (c : Char) (x : Nat) : Prop := "0123456789abcdef".toList[x]? = some c ∨ "0123456789ABCDEF".toList[x]? = some c

/-- `\uXXXX` with the number that the four digits denote -/
def CodeText (n : Nat) (t : Str) : Prop :=
  ∃ a b c d x y z w, t = ['\\', 'u', a, b, c, d] ∧ HexChar a x ∧ HexChar b y ∧ HexChar c z ∧ HexChar d w ∧
    n = x * 16 ^ 3 + y * 16 ^ 2 + z * 16 + w

/-- what may follow a backslash, and the character it stands for -/
def escapes : List (Char × Char) :=
  [('"', '"'), ('\\', '\\'), ('/', '/'), ('b', Char.ofNat 8), ('f', Char.ofNat 12), ('n', Char.ofNat 10), ('r', Char.ofNat 13), ('t', Char.ofNat 9)]

/-- numbers that UTF-16 uses for the first half of a character outside the basic plane -/
def HighHalf (n : Nat) : Prop := 0xd800 ≤ n ∧ n ≤ 0xdbff
/-- … for the second half -/
def LowHalf (n : Nat) : Prop := 0xdc00 ≤ n ∧ n ≤ 0xdfff

/-- The string `s` may be written as `t` between quotation marks. A half of a character without the other half stands for U+FFFD. -/
inductive StringText : Str → Str → Prop
  | nil : StringText [] []
  | plain (c : Char) (s t : Str) (hc : 0x20 ≤ c.toNat ∧ c ≠ '"' ∧ c ≠ '\\') (h : StringText s t) : StringText (c :: s) (c :: t)
  | escape (c x : Char) (s t : Str) (hc : (c, x) ∈ escapes) (h : StringText s t) : StringText (x :: s) ('\\' :: c :: t)
  | code (n : Nat) (u s t : Str) (hu : CodeText n u) (hn : ¬ HighHalf n ∧ ¬ LowHalf n) (h : StringText s t) :
      StringText (Char.ofNat n :: s) (u ++ t)
  | pair (m n : Nat) (u v s t : Str) (hu : CodeText m u) (hv : CodeText n v) (hm : HighHalf m) (hn : LowHalf n) (h : StringText s t) :
      StringText (Char.ofNat (0x10000 + (m - 0xd800) * 0x400 + (n - 0xdc00)) :: s) (u ++ v ++ t)
  | half (n : Nat) (u s t : Str) (hu : CodeText n u) (hn : HighHalf n ∨ LowHalf n)
      (alone : HighHalf n → ∀ m v t', t = v ++ t' → CodeText m v → ¬ LowHalf m) (h : StringText s t) :
      StringText (Char.ofNat 0xfffd :: s) (u ++ t)

/-- numerals of JSON: no plus sign, no zero in front of other digits, at least one digit before and after the point -/
structure JsonNumeral (w : DecNum) : Prop where
  sign : w.sign = [] ∨ w.sign = ['-']
  whole : w.whole ≠ [] ∧ (∀ c ∈ w.whole, c.isDigit = true) ∧ (w.whole.head? = some '0' → w.whole = ['0'])
  point : ∀ ds, w.point = some ds → ds ≠ [] ∧ ∀ c ∈ ds, c.isDigit = true
  exp : ∀ c s ds, w.exp = some (c, s, ds) → (c = 'e' ∨ c = 'E') ∧ DecNum.IsSign s ∧ ds ≠ [] ∧ ∀ d ∈ ds, d.isDigit = true

mutual
/-- the value may be written as this text -/
def _root_.Leaves.Json.Written : Json → Str → Prop
  | .null, t => t = "null".toList
  | .bool b, t => t = (if b then "true".toList else "false".toList)
  | .num s, t => t = s ∧ ∃ w, JsonNumeral w ∧ s = w.text
  | .str s, t => ∃ u, t = '"' :: (u ++ ['"']) ∧ StringText s u
  | .arr items, t => ∃ u, t = '[' :: (u ++ [']']) ∧ items.Written u
  | .obj members, t => ∃ u, t = '{' :: (u ++ ['}']) ∧ members.Written u
/-- the elements, separated by commas, with white space around -/
def _root_.Leaves.JsonArr.Written : JsonArr → Str → Prop
  | .nil, t => WhiteText t
  | .cons x rest, t => ∃ a u b, WhiteText a ∧ x.Written u ∧ WhiteText b ∧
      ((rest = .nil ∧ t = a ++ u ++ b) ∨ (rest ≠ .nil ∧ ∃ r, t = a ++ u ++ b ++ ',' :: r ∧ rest.Written r))
/-- the members: key, colon, value -/
def _root_.Leaves.JsonObj.Written : JsonObj → Str → Prop
  | .nil, t => WhiteText t
  | .cons k v rest, t => ∃ a ku b c u d, WhiteText a ∧ StringText k ku ∧ WhiteText b ∧ WhiteText c ∧ v.Written u ∧ WhiteText d ∧
      ((rest = .nil ∧ t = a ++ '"' :: (ku ++ '"' :: (b ++ ':' :: (c ++ u ++ d)))) ∨
        (rest ≠ .nil ∧ ∃ r, t = a ++ '"' :: (ku ++ '"' :: (b ++ ':' :: (c ++ u ++ d ++ ',' :: r))) ∧ rest.Written r))
end

/-- the text begins with the JSON text of this value, up to white space in front -/
def BeginsWith (text : Str) (v : Json) (rest : Str) : Prop := ∃ a t, text = a ++ t ++ rest ∧ WhiteText a ∧ v.Written t

end Leaves.Spec
