import Verif.Model.Platform

/-!
# Text input: bufio.Reader, strings, strconv

Go library functions used by the text loaders. Simplification: text is a list of characters, i.e. inputs
are valid UTF-8 (the code never looks inside multi-byte characters).
-/

namespace Leaves

/-- A `*bufio.Reader` over a finite input: the characters not read yet, and whether the underlying reader
fails with an I/O error (instead of io.EOF) when they are exhausted. -/
structure Reader where
  rest : Str
  ioErr : Bool := false
deriving DecidableEq, Repr

/-- the error returned by a read -/
inductive RdErr where
  | none
  | eof
  | fail
deriving DecidableEq, Repr

/-- split after the first newline: the line (with its newline), the rest, and whether one was found -/
def splitLine : Str → Str × Str × Bool
  | [] => ([], [], false)
  | c :: cs =>
    if c = '\n' then ([c], cs, true)
    else
      let (l, r, b) := splitLine cs
      (c :: l, r, b)

/-- `bufio.Reader.ReadString('\n')` -/
def Reader.readString (r : Reader) : Str × RdErr × Reader :=
  let (l, rest, found) := splitLine r.rest
  (l, if found then .none else if r.ioErr then .fail else .eof, { r with rest := rest })

/-- `unicode.IsSpace` -/
def isSpace (c : Char) : Bool :=
  let n := c.toNat
  (0x09 ≤ n && n ≤ 0x0d) || n = 0x20 || n = 0x85 || n = 0xa0 || n = 0x1680 || (0x2000 ≤ n && n ≤ 0x200a) ||
  n = 0x2028 || n = 0x2029 || n = 0x202f || n = 0x205f || n = 0x3000

/-- `strings.TrimSpace` -/
def trimSpace (s : Str) : Str :=
  ((s.dropWhile isSpace).reverse.dropWhile isSpace).reverse

/-- does `s` start with `p`: `strings.HasPrefix` -/
def hasPrefix (s p : Str) : Bool := p.isPrefixOf s

/-- `strings.Split` with a non-empty separator: scan left to right; `skip` characters of a matched
separator remain to be dropped; `cur` is the current piece, reversed. -/
def splitGo (sep : Str) : (skip : Nat) → (cur : Str) → Str → List Str
  | _, cur, [] => [cur.reverse]
  | 0, cur, c :: cs =>
    if sep.isPrefixOf (c :: cs) then cur.reverse :: splitGo sep (sep.length - 1) [] cs
    else splitGo sep 0 (c :: cur) cs
  | k + 1, cur, _ :: cs => splitGo sep k cur cs

/-- `strings.Split(s, sep)`: an empty separator explodes the string into characters -/
def split (s sep : Str) : List Str :=
  if sep = [] then s.map (fun c => [c]) else splitGo sep 0 [] s

/-- the value of a digit -/
def digitVal (c : Char) : Nat := c.toNat - '0'.toNat

/-- a non-empty sequence of decimal digits as a number -/
def parseDigits (s : Str) : Option Nat :=
  if s = [] ∨ !s.all Char.isDigit then none
  else some (s.foldl (fun n c => 10 * n + digitVal c) 0)

/-- `strconv.ParseUint(s, 10, bits)`: `none` when an error is returned -/
def parseUint (bits : Nat) (s : Str) : Option Nat :=
  match parseDigits s with
  | some n => if n < 2 ^ bits then some n else none
  | none => none

/-- `strconv.ParseInt(s, 10, bits)`: `none` when an error is returned -/
def parseInt (bits : Nat) (s : Str) : Option Int :=
  match s with
  | '-' :: ds =>
    match parseDigits ds with
    | some n => if n ≤ 2 ^ (bits - 1) then some (-(n : Int)) else none
    | none => none
  | '+' :: ds =>
    match parseDigits ds with
    | some n => if n < 2 ^ (bits - 1) then some (n : Int) else none
    | none => none
  | ds =>
    match parseDigits ds with
    | some n => if n < 2 ^ (bits - 1) then some (n : Int) else none
    | none => none

/-- `strconv.Atoi` (64-bit int) -/
def atoi (s : Str) : Option Int := parseInt 64 s

/-- util/util.go 27 `stringParams` (a map) -/
def Params := Str → Option Str

namespace Params

/-- the empty map -/
def empty : Params := fun _ => none

/-- `params[k] = v` -/
def set (p : Params) (k v : Str) : Params := fun k' => if k' = k then some v else p k'

/-- util/util.go 45-52: add the binding of one line -/
def addLine (params : Params) (line : Str) : Res Params :=
  match split line "=".toList with
  | [k, v] => .ok (params.set k v)
  | [k] => .ok (params.set k [])
  | [] => .ok params
  | _ => .err "meet wrong format while reading params"

end Params

/-- util/util.go 34-43: the "skip empty" loop. `line` is trimmed before it is compared with "\n", so the
comparison never holds and the loop body runs once; it is modelled as written. `fuel` bounds the number
of iterations (theorem `readParams_ne_hang`: it is never exhausted). -/
def skipEmpty : (fuel : Nat) → Reader → Res (Str × Reader)
  | 0, _ => .hang
  | fuel + 1, r =>
    let (line, e, r) := r.readString
    if e ≠ .none then .err "read error"
    else
      let line := trimSpace line
      if line ≠ "\n".toList then .ok (line, r)
      else skipEmpty fuel r

/-- util/util.go 44-61: the main loop with the current trimmed line; `fuel` as in `skipEmpty` -/
def paramsLoop : (fuel : Nat) → Reader → (line : Str) → Params → Res (Params × Reader)
  | 0, _, _, _ => .hang
  | fuel + 1, r, line, params => do
    let params ← params.addLine line
    let (line, e, r) := r.readString
    if e = .fail then .err "read error"
    else
      let line := trimSpace line
      if line = [] then .ok (params, r)
      else paramsLoop fuel r line params

/-- util/util.go 29-63 `ReadParamsUntilBlank` -/
def readParamsUntilBlank (r : Reader) : Res (Params × Reader) := do
  let (line, r) ← skipEmpty (r.rest.length + 1) r
  paramsLoop (r.rest.length + 1) r line Params.empty

namespace Params

/-- util/util.go 65-76 `ToInt` -/
def toInt (p : Params) (key : Str) : Res Int :=
  match p key with
  | none => .err "no field"
  | some s => Res.ofOption "can't convert" (atoi s)

/-- util/util.go 78-84 `ToString` -/
def toString (p : Params) (key : Str) : Res Str :=
  match p key with
  | none => .err "no field"
  | some s => .ok s

/-- util/util.go 86-96 `Compare` -/
def compare (p : Params) (key rhs : Str) : Res Unit :=
  match p key with
  | none => .err "no field"
  | some s => if s ≠ rhs then .err "only one value is supported" else .ok ⟨⟩

/-- util/util.go 98-104 `ToStrSlice` -/
def toStrSlice (p : Params) (key : Str) : Res (List Str) :=
  match p key with
  | none => .err "no field"
  | some s => .ok (split s " ".toList)

/-- the conversion loops of util/util.go 113-119, 130-136, 147-153 -/
def convertAll {α : Type} (f : Str → Option α) : List Str → Res (List α)
  | [] => .ok []
  | s :: ss => do
    let v ← Res.ofOption "can't convert" (f s)
    let vs ← convertAll f ss
    return v :: vs

/-- util/util.go 106-121 `ToFloat64Slice` -/
def toFloat64Slice (P : Platform) (p : Params) (key : Str) : Res (List F64) :=
  match p key with
  | none => .err "no field"
  | some s => convertAll P.parseFloat (split s " ".toList)

/-- util/util.go 123-138 `ToUint32Slice` -/
def toUint32Slice (p : Params) (key : Str) : Res (List Nat) :=
  match p key with
  | none => .err "no field"
  | some s => convertAll (parseUint 32) (split s " ".toList)

/-- util/util.go 140-155 `ToInt32Slice` -/
def toInt32Slice (p : Params) (key : Str) : Res (List Int) :=
  match p key with
  | none => .err "no field"
  | some s => convertAll (parseInt 32) (split s " ".toList)

/-- util/util.go 157-160 `Contains` -/
def contains (p : Params) (key : Str) : Bool := (p key).isSome

end Params
end Leaves
