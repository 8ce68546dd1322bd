import Verif.Model.Text

/-!
# Bytes of a text: `unicode/utf8` and `strings` on strings that need not be valid UTF-8

A Go string is a sequence of bytes. These are the functions of the Go standard library that the text readers of /repo call
(util/util.go 29-160, mat/mat_io.go 140-243, lgensemble_io.go 61-80), on bytes and for every sequence of bytes. `Model/Text` has them on
characters.
-/

namespace Leaves.Oct

/-- a Go string -/
abbrev ByteStr := List UInt8

/-- `utf8.RuneError`, the character U+FFFD that stands for a byte that is not part of valid UTF-8 -/
def runeError : Char := Char.ofNat 0xFFFD

/-- the negation of `utf8.RuneStart`: a byte that can only continue a character -/
def isCont (b : UInt8) : Bool := 0x80 ≤ b.toNat && b.toNat < 0xC0

/-- the low six bits of a continuation byte -/
def low6 (b : UInt8) : Nat := b.toNat - 0x80

/-- `utf8.DecodeRuneInString`: the first character and its width. Overlong forms, surrogates and values above U+10FFFF are not valid: the
second byte of a character of three or four bytes has a restricted range. -/
def decodeRune : ByteStr → Char × Nat
  | [] => (runeError, 0)
  | b0 :: s =>
    let n := b0.toNat
    if n < 0x80 then (Char.ofNat n, 1)
    else if n < 0xC2 then (runeError, 1)
    else if n < 0xE0 then
      match s with
      | b1 :: _ => if isCont b1 then (Char.ofNat ((n - 0xC0) * 64 + low6 b1), 2) else (runeError, 1)
      | _ => (runeError, 1)
    else if n < 0xF0 then
      match s with
      | b1 :: b2 :: _ =>
        if isCont b1 && isCont b2 && (n ≠ 0xE0 || 0xA0 ≤ b1.toNat) && (n ≠ 0xED || b1.toNat < 0xA0) then
          (Char.ofNat ((n - 0xE0) * 4096 + low6 b1 * 64 + low6 b2), 3)
        else (runeError, 1)
      | _ => (runeError, 1)
    else if n < 0xF5 then
      match s with
      | b1 :: b2 :: b3 :: _ =>
        if isCont b1 && isCont b2 && isCont b3 && (n ≠ 0xF0 || 0x90 ≤ b1.toNat) && (n ≠ 0xF4 || b1.toNat < 0x90) then
          (Char.ofNat ((n - 0xF0) * 262144 + low6 b1 * 4096 + low6 b2 * 64 + low6 b3), 4)
        else (runeError, 1)
      | _ => (runeError, 1)
    else (runeError, 1)

/-- `utf8.DecodeLastRuneInString`, the loop: of the bytes before the last one, given from right to left and at most `fuel` of them, those
up to the first that can start a character, from left to right in front of `tail`; `none` if there is no such byte -/
def findStart : (fuel : Nat) → (before : ByteStr) → (tail : ByteStr) → Option ByteStr
  | 0, _, _ => none
  | _, [], _ => none
  | fuel + 1, b :: before, tail => if isCont b then findStart fuel before (b :: tail) else some (b :: tail)

/-- `utf8.DecodeLastRuneInString`: the last character and its width. It looks for a byte that can start a character among the three bytes
before the last one. Where there is none the library decodes from where its loop stopped, which never ends at the end of the string
unless the string is a single byte, so the result is one invalid byte. -/
def decodeLastRune (s : ByteStr) : Char × Nat :=
  match s.reverse with
  | [] => (runeError, 0)
  | b :: before =>
    if b.toNat < 0x80 then (Char.ofNat b.toNat, 1)
    else
      match findStart 3 before [b] with
      | none => (runeError, 1)
      | some tail =>
        let (r, size) := decodeRune tail
        if size = tail.length then (r, size) else (runeError, 1)

/-- `strings.TrimLeftFunc(s, unicode.IsSpace)`; `fuel` is at least the length -/
def trimLeft : (fuel : Nat) → ByteStr → ByteStr
  | 0, s => s
  | fuel + 1, s =>
    let (r, n) := decodeRune s
    if s ≠ [] ∧ isSpace r then trimLeft fuel (s.drop n) else s

/-- `strings.TrimRightFunc(s, unicode.IsSpace)`; `fuel` is at least the length -/
def trimRight : (fuel : Nat) → ByteStr → ByteStr
  | 0, s => s
  | fuel + 1, s =>
    let (r, n) := decodeLastRune s
    if s ≠ [] ∧ isSpace r then trimRight fuel (s.take (s.length - n)) else s

/-- `strings.TrimSpace`. The library has a faster loop for ASCII at both ends, with the same result. -/
def trimSpace (s : ByteStr) : ByteStr :=
  let s := trimLeft s.length s
  trimRight s.length s

/-- `strings.Split` with a non-empty separator, as `Leaves.splitGo` -/
def splitGo (sep : ByteStr) : (skip : Nat) → (cur : ByteStr) → ByteStr → List ByteStr
  | _, cur, [] => [cur.reverse]
  | 0, cur, c :: cs =>
    if sep.isPrefixOf (c :: cs) then cur.reverse :: splitGo sep (sep.length - 1) [] cs
    else splitGo sep 0 (c :: cur) cs
  | k + 1, cur, _ :: cs => splitGo sep k cur cs

/-- `strings.explode`, the case of an empty separator: one piece for each character or invalid byte; `skip` more bytes belong to the
character whose bytes so far are `cur` (reversed) -/
def explode : (skip : Nat) → (cur : ByteStr) → ByteStr → List ByteStr
  | _, _, [] => []
  | 0, cur, b :: s =>
    let n := (decodeRune (b :: s)).2
    if n ≤ 1 then [b] :: explode 0 [] s else explode (n - 1) (b :: cur) s
  | k + 1, cur, b :: s => if k = 0 then (b :: cur).reverse :: explode 0 [] s else explode k (b :: cur) s

/-- `strings.Split(s, sep)` -/
def split (s sep : ByteStr) : List ByteStr := if sep = [] then explode 0 [] s else splitGo sep 0 [] s

/-- a string of ASCII characters written in the source of /repo -/
def lit (s : String) : ByteStr := s.toList.map fun c => UInt8.ofNat c.toNat

/-- The bytes as characters, for the functions of package strconv: they compare single bytes with ASCII characters, and no byte from
0x80 on is part of a numeral. -/
def latin (s : ByteStr) : Str := s.map fun b => Char.ofNat b.toNat

/-- `strconv.Atoi` -/
def atoi (s : ByteStr) : Option Int := Leaves.atoi (latin s)

/-- `strconv.ParseInt(s, 10, bits)` -/
def parseInt (bits : Nat) (s : ByteStr) : Option Int := Leaves.parseInt bits (latin s)

/-- `strconv.ParseUint(s, 10, bits)` -/
def parseUint (bits : Nat) (s : ByteStr) : Option Nat := Leaves.parseUint bits (latin s)

/-- `strconv.ParseFloat(s, 64)` -/
def parseFloat (P : Platform) (s : ByteStr) : Option F64 := P.parseFloat (latin s)

end Leaves.Oct
