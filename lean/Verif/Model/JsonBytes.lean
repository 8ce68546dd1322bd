import Verif.Model.JsonText
import Verif.Model.Bufio
import Verif.Model.Utf8

/-!
# lgensemble_io.go 614-669: a JSON document that arrives in pieces of bytes

`LGEnsembleFromJSON` hands its `io.Reader` to `json.NewDecoder` and calls `Decode` once. `Model/JsonText` has the grammar of documents
on the whole text. Here is how `encoding/json` finds the first value: the state machine of `scanner.go`, byte by byte, and the
loop of `stream.go` (`readValue`, `refill`) around `Read`.
-/

namespace Leaves.JsonBytes

open Oct (ByteStr)

/-- `scanner.step`: which of the functions `state…` is next -/
inductive State where
  | beginValue | beginValueOrEmpty | beginStringOrEmpty | beginString | endValue | endTop
  | inString | inStringEsc | inStringEscU | inStringEscU1 | inStringEscU12 | inStringEscU123
  | neg | one | zero | dot | dot0 | e | eSign | e0
  | t | tr | tru | f | fa | fal | fals | n | nu | nul
deriving DecidableEq, Repr

/-- `scanner.parseState`: what the bytes after a value belong to -/
inductive Inside where
  | objectKey | objectValue | arrayValue
deriving DecidableEq, Repr

/-- The result of a step, as far as `readValue` looks at it: go on (scanContinue, scanBeginLiteral, scanSkipSpace, …), the end of an
object or array (scanEndObject, scanEndArray), scanEnd, scanError. -/
inductive Op where
  | go | close | finish | bad
deriving DecidableEq, Repr

/-- the result of a step, the next state, and the stack -/
abbrev Step := Op × State × List Inside

/-- an error: the state does not matter any more -/
def bad : Step := (.bad, .endTop, [])

/-- `isSpace` -/
def space (c : Nat) : Bool := c == ' '.toNat || c == '\t'.toNat || c == '\r'.toNat || c == '\n'.toNat

/-- '0' to '9' -/
def digit (c : Nat) : Bool := '0'.toNat ≤ c && c ≤ '9'.toNat

/-- hexadecimal digits -/
def hexadecimal (c : Nat) : Bool :=
  digit c || ('a'.toNat ≤ c && c ≤ 'f'.toNat) || ('A'.toNat ≤ c && c ≤ 'F'.toNat)

/-- `popParseState` -/
def pop (stk : List Inside) : State := if stk.isEmpty then .endTop else .endValue

/-- `pushParseState`: nested at most `depth` deep -/
def push (depth : Nat) (x : Inside) (stk : List Inside) (next : State) : Step :=
  if stk.length + 1 ≤ depth then (.go, next, x :: stk) else bad

/-- `stateEndValue` (with `stateEndTop`) -/
def endValue (stk : List Inside) (c : Nat) : Step :=
  match stk with
  | [] => (.finish, .endTop, [])
  | x :: rest =>
    if space c then (.go, .endValue, stk)
    else match x with
      | .objectKey => if c = ':'.toNat then (.go, .beginValue, .objectValue :: rest) else bad
      | .objectValue =>
        if c = ','.toNat then (.go, .beginString, .objectKey :: rest)
        else if c = '}'.toNat then (.close, pop rest, rest)
        else bad
      | .arrayValue =>
        if c = ','.toNat then (.go, .beginValue, stk)
        else if c = ']'.toNat then (.close, pop rest, rest)
        else bad

/-- `stateBeginValue` -/
def beginValue (depth : Nat) (stk : List Inside) (c : Nat) : Step :=
  if space c then (.go, .beginValue, stk)
  else if c = '{'.toNat then push depth .objectKey stk .beginStringOrEmpty
  else if c = '['.toNat then push depth .arrayValue stk .beginValueOrEmpty
  else if c = '"'.toNat then (.go, .inString, stk)
  else if c = '-'.toNat then (.go, .neg, stk)
  else if c = '0'.toNat then (.go, .zero, stk)
  else if c = 't'.toNat then (.go, .t, stk)
  else if c = 'f'.toNat then (.go, .f, stk)
  else if c = 'n'.toNat then (.go, .n, stk)
  else if digit c then (.go, .one, stk)
  else bad

/-- `stateBeginString` -/
def beginString (stk : List Inside) (c : Nat) : Step :=
  if space c then (.go, .beginString, stk)
  else if c = '"'.toNat then (.go, .inString, stk)
  else bad

/-- `state0` -/
def afterWhole (stk : List Inside) (c : Nat) : Step :=
  if c = '.'.toNat then (.go, .dot, stk)
  else if c = 'e'.toNat ∨ c = 'E'.toNat then (.go, .e, stk)
  else endValue stk c

/-- `stateESign` -/
def afterSign (stk : List Inside) (c : Nat) : Step := if digit c then (.go, .e0, stk) else bad

/-- one expected character, then `next` -/
def expect (stk : List Inside) (c : Nat) (x : Char) (next : State) : Step := if c = x.toNat then (.go, next, stk) else bad

/-- one hexadecimal digit, then `next` -/
def expectHex (stk : List Inside) (c : Nat) (next : State) : Step := if hexadecimal c then (.go, next, stk) else bad

/-- the characters after a backslash, without `u` -/
def escapable : List Char := ['b', 'f', 'n', 'r', 't', '\\', '/', '"']

/-- `scanner.step`: all the `state…` functions, for the byte `c` -/
def step (depth : Nat) (s : State) (stk : List Inside) (c : Nat) : Step :=
  match s with
  | .beginValue => beginValue depth stk c
  | .beginValueOrEmpty =>
    if space c then (.go, .beginValueOrEmpty, stk)
    else if c = ']'.toNat then endValue stk c
    else beginValue depth stk c
  | .beginStringOrEmpty =>
    if space c then (.go, .beginStringOrEmpty, stk)
    else if c = '}'.toNat then endValue (.objectValue :: stk.tail) c
    else beginString stk c
  | .beginString => beginString stk c
  | .endValue => endValue stk c
  | .endTop => (.finish, .endTop, stk)
  | .inString =>
    if c = '"'.toNat then (.go, .endValue, stk)
    else if c = '\\'.toNat then (.go, .inStringEsc, stk)
    else if c < 0x20 then bad
    else (.go, .inString, stk)
  | .inStringEsc =>
    if c ∈ escapable.map Char.toNat then (.go, .inString, stk)
    else expect stk c 'u' .inStringEscU
  | .inStringEscU => expectHex stk c .inStringEscU1
  | .inStringEscU1 => expectHex stk c .inStringEscU12
  | .inStringEscU12 => expectHex stk c .inStringEscU123
  | .inStringEscU123 => expectHex stk c .inString
  | .neg => if c = '0'.toNat then (.go, .zero, stk) else if digit c then (.go, .one, stk) else bad
  | .one => if digit c then (.go, .one, stk) else afterWhole stk c
  | .zero => afterWhole stk c
  | .dot => if digit c then (.go, .dot0, stk) else bad
  | .dot0 =>
    if digit c then (.go, .dot0, stk)
    else if c = 'e'.toNat ∨ c = 'E'.toNat then (.go, .e, stk)
    else endValue stk c
  | .e => if c = '+'.toNat ∨ c = '-'.toNat then (.go, .eSign, stk) else afterSign stk c
  | .eSign => afterSign stk c
  | .e0 => if digit c then (.go, .e0, stk) else endValue stk c
  | .t => expect stk c 'r' .tr
  | .tr => expect stk c 'u' .tru
  | .tru => expect stk c 'e' .endValue
  | .f => expect stk c 'a' .fa
  | .fa => expect stk c 'l' .fal
  | .fal => expect stk c 's' .fals
  | .fals => expect stk c 'e' .endValue
  | .n => expect stk c 'u' .nu
  | .nu => expect stk c 'l' .nul
  | .nul => expect stk c 'l' .endValue

/-- how the scan of a part of the buffer ends: the value ends at this position, an error, or more input is needed -/
inductive Scan where
  | found (pos : Nat)
  | bad
  | more (s : State) (stk : List Inside)
deriving DecidableEq, Repr

/-- stream.go `readValue`, the inner loop. `scanEnd` comes one byte late; after the end of an object or array `readValue` asks
`stateEndValue` about an invented space, which says scanEnd exactly when the stack is empty. -/
def scan (depth : Nat) (s : State) (stk : List Inside) (pos : Nat) : ByteStr → Scan
  | [] => .more s stk
  | c :: cs =>
    match step depth s stk c.toNat with
    | (.finish, _, _) => .found pos
    | (.bad, _, _) => .bad
    | (.go, s, stk) => scan depth s stk (pos + 1) cs
    | (.close, s, stk) => if stk.isEmpty then .found (pos + 1) else scan depth s stk (pos + 1) cs

/-- stream.go `readValue` and `refill`: the bytes of the first value. `buf` is the buffer, all of it scanned, `cap` its capacity. `fuel`
bounds the calls of `Read`: the loop has no bound of its own. -/
def readValue (depth : Nat) : (fuel : Nat) → (s : State) → (stk : List Inside) → (buf : ByteStr) → (cap : Nat) → Feed UInt8 → Res ByteStr
  | 0, _, _, _, _, _ => .hang
  | fuel + 1, s, stk, buf, cap, feed =>
    let cap := if cap - buf.length < 512 then 2 * cap + 512 else cap
    let (bs, e, feed) := feed.read (cap - buf.length)
    match scan depth s stk buf.length bs with
    | .found pos => .ok ((buf ++ bs).take pos)
    | .bad => .err "syntax error"
    | .more s stk =>
      match e with
      | none => readValue depth fuel s stk (buf ++ bs) cap feed
      | some .fail => .err "read error"
      | some .eof => if (step depth s stk ' '.toNat).1 = .finish then .ok (buf ++ bs) else .err "unexpected EOF"

/-- the characters of a Go string, as `range` gives them -/
def decodeAll : (fuel : Nat) → ByteStr → Str
  | 0, _ => []
  | fuel + 1, s => if s.isEmpty then [] else (Oct.decodeRune s).1 :: decodeAll fuel (s.drop (Oct.decodeRune s).2)

/-- decode.go `unmarshal` on the bytes that `readValue` found. Only inside of strings can there be bytes beyond ASCII, and `unquote`
decodes them with `utf8.DecodeRune`; so decoding all bytes first makes no difference. -/
def document (bs : ByteStr) : Option Json :=
  let t := decodeAll bs.length bs
  (JsonText.value (2 * t.length + 1) t).map (·.1)

/-- lgensemble_io.go 614-669 `LGEnsembleFromJSON` with an `io.Reader`, of which `Read` is called at most `fuel` times -/
def lgEnsembleFromJSON (P : Platform) (fuel : Nat) (feed : Feed UInt8) (loadTransformation : Bool) : Res Ensemble :=
  if loadTransformation then .err "transformation functions are not supported"
  else match readValue P.jsonDepth fuel .beginValue [] [] 0 feed with
  | .ok bs => lgEnsembleFromDocument P (document bs) loadTransformation
  | .hang => .hang
  | _ => lgEnsembleFromDocument P none loadTransformation

end Leaves.JsonBytes
