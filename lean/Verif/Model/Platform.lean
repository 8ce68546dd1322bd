import Verif.Model.F64
import Verif.Model.Res

/-!
# What the Go specification leaves to the platform, and trusted library functions

All theorems quantify over an arbitrary `Platform`; a theorem that needs more (for instance a monotone
`math.Exp`) says so in its hypotheses.
-/

namespace Leaves

/-- Text is modelled as a list of characters (valid UTF-8, decoded). -/
abbrev Str := List Char

structure Platform where
  /-- `math.Exp` -/
  exp : F64 → F64
  /-- `x*y + z`: Go permits an implementation to fuse it, so it is a platform operation.
  See `Platform.MulAddOK` for the two behaviours Go allows. -/
  mulAdd : F64 → F64 → F64 → F64
  /-- result of `int32(x)` when `x` is NaN or its integer part does not fit (implementation-defined) -/
  i32Out : F64 → BitVec 32
  /-- result of `uint32(x)` when `x` is NaN or its integer part does not fit (implementation-defined) -/
  u32Out : F64 → BitVec 32
  /-- result of `int(x)` when `x` is NaN or its integer part does not fit (implementation-defined) -/
  i64Out : F64 → Int
  /-- `runtime.GOMAXPROCS(0)`, minus one (GOMAXPROCS is at least 1) -/
  gomaxprocsPred : Nat
  /-- `strconv.ParseFloat(s, 64)`: `none` when it returns an error -/
  parseFloat : Str → Option F64
  /-- `fmt.Sprintf("%.19g", x)` -/
  formatG19 : F64 → Str
  /-- largest allocation in bytes that succeeds; `make` beyond it crashes the process -/
  maxAlloc : Nat
  /-- spare capacity that `append` leaves after growing a slice of the given length by one -/
  growExtra : Nat → Nat
  /-- how deeply `encoding/json` accepts arrays and objects to be nested (10000 since Go 1.15) -/
  jsonDepth : Nat

namespace Platform

/-- `runtime.GOMAXPROCS(0)` -/
def gomaxprocs (P : Platform) : Nat := P.gomaxprocsPred + 1

/-- Go allows `x*y + z` to be computed with two roundings or fused. -/
def MulAddOK (P : Platform) : Prop :=
  ∀ x y z, P.mulAdd x y z = F64.add (F64.mul x y) z ∨ P.mulAdd x y z = F64.fma x y z

/-- Go `int32(x)` for `x float64` (lgtree.go 50, 60): truncation toward zero when the result fits. -/
def toInt32 (P : Platform) (x : F64) : Int :=
  match x.trunc with
  | some i => if -2 ^ 31 ≤ i ∧ i < 2 ^ 31 then i else (P.i32Out x).toInt
  | none => (P.i32Out x).toInt

/-- Go `uint32(x)` for `x float64` (lgtree.go 62, 64; lgensemble_io.go 200): truncation toward zero when
the result fits. -/
def toUint32 (P : Platform) (x : F64) : Nat :=
  match x.trunc with
  | some i => if 0 ≤ i ∧ i < 2 ^ 32 then i.toNat else (P.u32Out x).toNat
  | none => (P.u32Out x).toNat

end Platform

/-- Go `uint32(n)` for a non-negative integer: wraps modulo 2^32. -/
def u32 (n : Nat) : Nat := n % 2 ^ 32

/-- Go `uint32(i)` for a signed integer: two's complement, wraps modulo 2^32. -/
def u32I (i : Int) : Nat := (i % 2 ^ 32).toNat

/-- Go wrap-around of 64-bit `int` arithmetic. -/
def wrap64 (i : Int) : Int := Int.bmod i (2 ^ 64)

/-- Go `make([]T, n)` / `make([]T, 0, n)` with `size` bytes per element: panics when `n` is negative or the
allocation is too large. -/
def allocCheck (P : Platform) (n : Int) (size : Nat) : Res Unit :=
  if n < 0 ∨ n * size > P.maxAlloc then .panic else .ok ⟨⟩

/-- A concrete platform used in examples: no fusion, out-of-range conversions as on amd64
(`int32` yields the minimum value), a trivial stand-in for `exp`, digits-only float parsing. -/
def Platform.demo : Platform where
  exp := fun x => if x.isNaN then .nan else if F64.le x (F64.neg (F64.ofNat 1000)) then F64.zero
    else if F64.le x (F64.ofNat 700) then F64.one else .inf false
  mulAdd := fun x y z => F64.add (F64.mul x y) z
  i32Out := fun _ => BitVec.intMin 32
  u32Out := fun _ => 0
  i64Out := fun _ => -2 ^ 63
  gomaxprocsPred := 3
  parseFloat := fun s =>
    if s.isEmpty || !s.all Char.isDigit then none
    else some (F64.ofNat (s.foldl (fun n c => 10 * n + (c.toNat - 48)) 0))
  formatG19 := fun x => Nat.toDigits 10 (x.toInt.natAbs / unit)
  maxAlloc := 2 ^ 32
  growExtra := fun n => n
  jsonDepth := 10000

end Leaves
