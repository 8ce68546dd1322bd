import Verif.Model.JsonDoc
import Verif.Model.Text

/-!
# lgensemble_io.go 622-627: the text of a JSON document

`json.NewDecoder(reader).Decode` reads the first JSON value of the input and nothing after it. The functions below follow the scanner
and `unquote` of `encoding/json`. The text is a list of characters: input that is not UTF-8 is not modelled. The bound on the depth of
nesting, which the scanner checks as well, is part of `decodeEnsemble`.
-/

namespace Leaves

namespace JsonText

/-- white space -/
def isWhite (c : Char) : Bool := c == ' ' || c == '\t' || c == '\r' || c == '\n'

/-- the text after white space -/
def skip (s : Str) : Str := s.dropWhile isWhite

/-- the value of a hexadecimal digit -/
def hexDigit (c : Char) : Option Nat :=
  if '0' ≤ c ∧ c ≤ '9' then some (c.toNat - 48)
  else if 'a' ≤ c ∧ c ≤ 'f' then some (c.toNat - 87)
  else if 'A' ≤ c ∧ c ≤ 'F' then some (c.toNat - 55)
  else none

/-- the number after `\u` -/
def hex4 (a b c d : Char) : Option Nat := do
  let a ← hexDigit a
  let b ← hexDigit b
  let c ← hexDigit c
  let d ← hexDigit d
  return ((a * 16 + b) * 16 + c) * 16 + d

/-- the character after a backslash -/
def escaped : Char → Option Char
  | '"' => some '"'
  | '\\' => some '\\'
  | '/' => some '/'
  | 'b' => some '\x08'
  | 'f' => some '\x0c'
  | 'n' => some '\n'
  | 'r' => some '\r'
  | 't' => some '\t'
  | _ => none

/-- The text of a string after the opening quotation mark: its characters, those written as `\uXXXX` by their numbers, and the text after
the closing quotation mark. -/
def units : Str → Option (List (Char ⊕ Nat) × Str)
  | [] => none
  | '"' :: s => some ([], s)
  | '\\' :: 'u' :: a :: b :: c :: d :: s => do
    let n ← hex4 a b c d
    let (us, s) ← units s
    return (.inr n :: us, s)
  | '\\' :: c :: s => do
    let x ← escaped c
    let (us, s) ← units s
    return (.inl x :: us, s)
  | c :: s =>
    if c.toNat < 0x20 || c == '\\' then none
    else do
      let (us, s) ← units s
      return (.inl c :: us, s)

/-- a number after `\u` that stands on its own; surrogates are replaced -/
def single (n : Nat) : Char := if 0xd800 ≤ n ∧ n < 0xe000 then Char.ofNat 0xfffd else Char.ofNat n

/-- two surrogates that make up one character -/
def isPair (h l : Nat) : Bool := 0xd800 ≤ h && h < 0xdc00 && 0xdc00 ≤ l && l < 0xe000

/-- the characters of a string -/
def chars : List (Char ⊕ Nat) → Str
  | [] => []
  | .inl c :: us => c :: chars us
  | .inr h :: .inr l :: us =>
    if isPair h l then Char.ofNat ((h - 0xd800) * 0x400 + (l - 0xdc00) + 0x10000) :: chars us
    else single h :: chars (.inr l :: us)
  | .inr h :: us => single h :: chars us

/-- a string, after the opening quotation mark -/
def jsonString (s : Str) : Option (Str × Str) := do
  let (us, s) ← units s
  return (chars us, s)

/-- one digit or more -/
def digits1 (s : Str) : Option (Str × Str) :=
  if (s.takeWhile Char.isDigit).isEmpty then none else some (s.takeWhile Char.isDigit, s.dropWhile Char.isDigit)

/-- the digits before the point: no zero in front of other digits -/
def wholePart : Str → Option (Str × Str)
  | '0' :: s => some (['0'], s)
  | s => digits1 s

/-- the point and the digits after it -/
def fracPart : Str → Option (Str × Str)
  | '.' :: s => do
    let (ds, s) ← digits1 s
    return ('.' :: ds, s)
  | s => some ([], s)

/-- the sign of the exponent -/
def expSign : Str → Str × Str
  | '+' :: s => (['+'], s)
  | '-' :: s => (['-'], s)
  | s => ([], s)

/-- the exponent -/
def expPart : Str → Option (Str × Str)
  | c :: s =>
    if c == 'e' || c == 'E' then do
      let (ds, r) ← digits1 (expSign s).2
      return (c :: ((expSign s).1 ++ ds), r)
    else some ([], c :: s)
  | [] => some ([], [])

/-- the sign of a number -/
def minus : Str → Str × Str
  | '-' :: s => (['-'], s)
  | s => ([], s)

/-- the text of a number -/
def jsonNumber (s : Str) : Option (Str × Str) := do
  let (w, r) ← wholePart (minus s).2
  let (f, r) ← fracPart r
  let (e, r) ← expPart r
  return ((minus s).1 ++ w ++ f ++ e, r)

mutual
/-- A value after white space, and the text after it. The first argument bounds the number of nested calls; the length of the text
suffices. -/
def value : Nat → Str → Option (Json × Str)
  | 0, _ => none
  | n + 1, s =>
    match skip s with
    | '{' :: s =>
      match skip s with
      | '}' :: s => some (.obj .nil, s)
      | s => (members n s).map fun r => (.obj r.1, r.2)
    | '[' :: s =>
      match skip s with
      | ']' :: s => some (.arr .nil, s)
      | s => (elements n s).map fun r => (.arr r.1, r.2)
    | '"' :: s => (jsonString s).map fun r => (.str r.1, r.2)
    | 't' :: 'r' :: 'u' :: 'e' :: s => some (.bool true, s)
    | 'f' :: 'a' :: 'l' :: 's' :: 'e' :: s => some (.bool false, s)
    | 'n' :: 'u' :: 'l' :: 'l' :: s => some (.null, s)
    | s => (jsonNumber s).map fun r => (.num r.1, r.2)
/-- elements up to the closing bracket, at least one -/
def elements : Nat → Str → Option (JsonArr × Str)
  | 0, _ => none
  | n + 1, s =>
    match value n s with
    | none => none
    | some (v, s) =>
      match skip s with
      | ',' :: s => (elements n s).map fun r => (.cons v r.1, r.2)
      | ']' :: s => some (.cons v .nil, s)
      | _ => none
/-- members up to the closing brace, at least one -/
def members : Nat → Str → Option (JsonObj × Str)
  | 0, _ => none
  | n + 1, s =>
    match skip s with
    | '"' :: s =>
      match jsonString s with
      | none => none
      | some (k, s) =>
        match skip s with
        | ':' :: s =>
          match value n s with
          | none => none
          | some (v, s) =>
            match skip s with
            | ',' :: s => (members n s).map fun r => (.cons k v r.1, r.2)
            | '}' :: s => some (.cons k v .nil, s)
            | _ => none
        | _ => none
    | _ => none
end

/-- objects and arrays end with a character of their own -/
def hasEnd : Json → Bool
  | .obj _ | .arr _ => true
  | _ => false

/-- The first value of the input. Only objects and arrays are complete as soon as their last character has been read; for other values
the decoder asks for one more character, so it reports a read error at this point. -/
def decode (r : Reader) : Option Json :=
  match value (2 * r.rest.length + 1) r.rest with
  | none => none
  | some (v, rest) => if r.ioErr && rest.isEmpty && !hasEnd v then none else some v

end JsonText

/-- lgensemble_io.go 614-669 `LGEnsembleFromJSON` -/
def lgEnsembleFromJSONText (P : Platform) (r : Reader) (loadTransformation : Bool) : Res Ensemble :=
  lgEnsembleFromDocument P (JsonText.decode r) loadTransformation

end Leaves
