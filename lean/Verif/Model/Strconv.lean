import Verif.Model.Text

/-!
# `strconv.ParseFloat(s, 64)` and the verb `%.19g`

The two library functions that turn text into a float64 and back (called from util/util.go 114, mat/mat_io.go 175, 225, 257 and
internal/pickle/decoder.go 96). They belong to the Go standard library, not to /repo, so everywhere else they are fields of `Platform`;
here they are written out as the library documents them, and a platform may be assumed to have them (`Strconv.Standard`). The library
finds the nearest float64 with shortcuts for short numerals; only its result is modelled: exact arithmetic followed by one rounding.
-/

namespace Leaves.Strconv

/-- the digit `c` of a mantissa, decimal or hexadecimal -/
def digitOf (hex : Bool) (c : Char) : Option Nat :=
  if c.isDigit then some (c.toNat - 48)
  else if hex && decide ('a' ≤ c ∧ c ≤ 'f') then some (c.toNat - 87)
  else if hex && decide ('A' ≤ c ∧ c ≤ 'F') then some (c.toNat - 55)
  else none

/-- what has been read of a mantissa: its digits as one number, how many of them came after the point, whether there was a point, and
whether there was a digit -/
structure Mantissa where
  n : Nat
  frac : Nat
  dot : Bool
  saw : Bool

/-- The loop over the digits of strconv's `readFloat`. Underscores are passed over (and checked later). -/
def mantissa (hex : Bool) : Str → Mantissa → Mantissa × Str
  | [], m => (m, [])
  | c :: s, m =>
    if c = '_' then mantissa hex s m
    else if c = '.' then (if m.dot then (m, c :: s) else mantissa hex s { m with dot := true })
    else
      match digitOf hex c with
      | some d => mantissa hex s { n := (if hex then 16 else 10) * m.n + d, frac := if m.dot then m.frac + 1 else m.frac, dot := m.dot, saw := true }
      | none => (m, c :: s)

/-- the loop over the digits of an exponent: values of 10000 and more no longer grow -/
def expDigits : Str → Nat → Nat × Str
  | [], e => (e, [])
  | c :: s, e =>
    if c = '_' then expDigits s e
    else if c.isDigit then expDigits s (if e < 10000 then 10 * e + (c.toNat - 48) else e)
    else (e, c :: s)

/-- an optional sign -/
def sign : Str → Bool × Str
  | '-' :: s => (true, s)
  | '+' :: s => (false, s)
  | s => (false, s)

/-- The exponent, which a hexadecimal numeral must have. A letter that starts an exponent must be followed by a digit, after an optional
sign. -/
def exponent (hex : Bool) : Str → Option (Int × Str)
  | [] => if hex then none else some (0, [])
  | c :: s =>
    if c ∈ (if hex then ['p', 'P'] else ['e', 'E']) then
      let (neg, s) := sign s
      if (s.head?.map Char.isDigit).getD false then
        let (e, rest) := expDigits s 0
        some (if neg then -(e : Int) else e, rest)
      else none
    else if hex then none else some (0, c :: s)

/-- `underscoreOK`: underscores stand between digits (the prefix of a hexadecimal numeral counts as a digit). `digit` and `under` say what
the last character was. -/
def underscores (hex : Bool) : Str → (digit under : Bool) → Bool
  | [], _, under => !under
  | c :: s, digit, under =>
    if (digitOf hex c).isSome then underscores hex s true false
    else if c = '_' then digit && underscores hex s false true
    else !under && underscores hex s false false

/-- the prefix of a hexadecimal numeral: it counts only if something follows -/
def hexPrefix : Str → Bool × Str
  | '0' :: x :: c :: s => if x = 'x' ∨ x = 'X' then (true, c :: s) else (false, '0' :: x :: c :: s)
  | s => (false, s)

/-- `readFloat`: sign, base, digits as a number, exponent of the last digit. `none` unless all of the text is a numeral. -/
def readFloat (s : Str) : Option (Bool × Bool × Nat × Int) :=
  let (neg, s1) := sign s
  let (hex, s2) := hexPrefix s1
  let (m, s3) := mantissa hex s2 ⟨0, 0, false, false⟩
  if !m.saw then none
  else
    match exponent hex s3 with
    | none => none
    | some (e, rest) =>
      if rest ≠ [] ∨ (s.contains '_' && !underscores hex s2 hex false) then none
      else some (neg, hex, m.n, if hex then e - 4 * m.frac else e - m.frac)

/-- ASCII lower case -/
def lowerAll (s : Str) : Str := s.map fun c => if 'A' ≤ c ∧ c ≤ 'Z' then Char.ofNat (c.toNat + 32) else c

/-- `special`: the names of the infinities and of NaN, in any case; NaN takes no sign -/
def special (s : Str) : Option F64 :=
  let (neg, t) := sign s
  if lowerAll t = "inf".toList ∨ lowerAll t = "infinity".toList then some (.inf neg)
  else if lowerAll s = "nan".toList then some .nan
  else none

/-- an infinite result is an error (`ErrRange`) -/
def inRange : F64 → Option F64
  | .inf _ => none
  | x => some x

/-- the float64 nearest to `±n * b^e` -/
def scaled (neg : Bool) (b n : Nat) (e : Int) : F64 := F64.ofRatio neg (n * b ^ e.toNat * unit) (b ^ (-e).toNat)

/-- `strconv.ParseFloat(s, 64)`: `none` when an error is returned; numerals beyond the range of float64 are errors. -/
def parseFloat (s : Str) : Option F64 :=
  match special s with
  | some x => some x
  | none =>
    match readFloat s with
    | none => none
    | some (neg, hex, n, e) => inRange (scaled neg (if hex then 2 else 10) n e)

/-- digits without the zeros at their end -/
def trimZeros (ds : Str) : Str := (ds.reverse.dropWhile fun c => c = '0').reverse

/-- the 19 leading digits of the magnitude `m * 2^-1074`, rounded (ties to even) and without zeros at their end, and the number of digits
before the decimal point (negative: number of zeros after it) -/
def digits19 (m : Nat) : Str × Int :=
  if m = 0 then ([], 0)
  else
    let p := (Nat.toDigits 10 (m * 10 ^ 400 / unit)).length
    let ds := Nat.toDigits 10 (rne (m * 10 ^ 419) (unit * 10 ^ p))
    (trimZeros ds, (p : Int) - 400 + (ds.length - 19))

/-- an exponent, with sign and at least two digits -/
def expText (e : Int) : Str :=
  'e' :: (if e < 0 then '-' else '+') :: ((if e.natAbs < 10 then ['0'] else []) ++ Nat.toDigits 10 e.natAbs)

/-- `%e` -/
def fmtE (ds : Str) (dp : Int) : Str :=
  ds.take 1 ++ (if ds.length ≤ 1 then [] else '.' :: ds.drop 1) ++ expText (dp - 1)

/-- `%f` -/
def fmtF (ds : Str) (dp : Int) : Str :=
  (if 0 < dp then ds.take dp.toNat ++ List.replicate (dp.toNat - ds.length) '0' else ['0']) ++
    (if dp < ds.length then '.' :: (List.replicate (-dp).toNat '0' ++ ds.drop dp.toNat) else [])

/-- `%g`: `%e` if the exponent is below -4 or not below the precision, which is the number of digits if there are fewer than 19 and the
number is not a multiple of ten -/
def fmtG (ds : Str) (dp : Int) : Str :=
  let prec : Int := if ds.length < 19 ∧ dp ≤ ds.length then ds.length else 19
  if dp - 1 < -4 ∨ prec ≤ dp - 1 then fmtE ds dp else fmtF ds dp

/-- `fmt.Sprintf("%.19g", x)` -/
def formatG19 : F64 → Str
  | .nan => "NaN".toList
  | .inf false => "+Inf".toList
  | .inf true => "-Inf".toList
  | .fin neg m _ => (if neg then ['-'] else []) ++ fmtG (digits19 m).1 (digits19 m).2

/-- a platform with the documented library functions -/
structure Standard (P : Platform) : Prop where
  parse : P.parseFloat = parseFloat
  format : P.formatG19 = formatG19

end Leaves.Strconv
