import Verif.Model.Res
import Verif.Model.Platform

/-! # util/util.go: bitsets, comparisons and transformations -/

namespace Leaves.Util

/-- util/util.go 13-18 `FindInBitsetUint32` -/
def findInBitsetUint32 (bits : BitVec 32) (pos : Nat) : Bool :=
  if pos ≥ 32 then false
  else decide (((bits >>> pos) &&& 1#32).toNat > 0)

/-- util/util.go 20-25 `MinInt` -/
def minInt (a b : Int) : Int := if a < b then a else b

/-- util/util.go 162-165 `multiplyDeBruijnBitPosition` -/
def multiplyDeBruijnBitPosition : List Nat :=
  [0, 1, 28, 2, 29, 14, 24, 3, 30, 22, 20, 15, 25, 17, 4, 8,
   31, 27, 13, 23, 21, 19, 16, 7, 26, 12, 18, 6, 11, 5, 10, 9]

/-- util/util.go 168-177 `FirstNonZeroBit`, the loop at position counter `pos` (uint32, wraps) -/
def firstNonZeroBitFrom (pos : Nat) : List (BitVec 32) → Res Nat
  | [] => .err "no bits set"
  | e :: rest =>
    if e.toNat > 0 then do
      let p ← Res.idx multiplyDeBruijnBitPosition (((e &&& -e) * 0x077CB531#32) >>> 27).toNat
      return u32 (pos + p)
    else firstNonZeroBitFrom (u32 (pos + 32)) rest

/-- util/util.go 168-177 `FirstNonZeroBit` -/
def firstNonZeroBit (bitset : List (BitVec 32)) : Res Nat := firstNonZeroBitFrom 0 bitset

/-- util/util.go 181-185: bit count of one word -/
def numberOfSetBitsInBitsetElement (e : BitVec 32) : BitVec 32 :=
  let e := e - ((e >>> 1) &&& 0x55555555#32)
  let e := (e &&& 0x33333333#32) + ((e >>> 2) &&& 0x33333333#32)
  (((e + (e >>> 4)) &&& 0x0F0F0F0F#32) * 0x01010101#32) >>> 24

/-- util/util.go 180-191 `NumberOfSetBits` (the uint32 counter wraps) -/
def numberOfSetBits (bitset : List (BitVec 32)) : BitVec 32 :=
  bitset.foldl (fun count e => count + numberOfSetBitsInBitsetElement e) 0#32

/-- Go `1 << uint32(i)` as a uint32: zero when the shift count is 32 or more (util/util.go 215) -/
def shl1 (count : Nat) : BitVec 32 := 1#32 <<< count

/-- util/util.go 212-216: setting one value in the bitset. Go's `/` and `%` truncate toward zero; a
negative index panics. -/
def setBit (bitset : List (BitVec 32)) (v : Int) : Res (List (BitVec 32)) := do
  let i1 := v.tdiv 32
  let i2 := v.tmod 32
  let w ← Res.idxI bitset i1
  return bitset.set i1.toNat (w ||| shl1 (u32I i2))

/-- util/util.go 212-216: the loop over values -/
def setBits (bitset : List (BitVec 32)) : List Int → Res (List (BitVec 32))
  | [] => .ok bitset
  | v :: vs => do setBits (← setBit bitset v) vs

/-- util/util.go 194-218 `ConstructBitset` (nil is the empty list) -/
def constructBitset (P : Platform) (values : List Int) : Res (List (BitVec 32)) :=
  match values with
  | [] => .ok []
  | v0 :: _ => do
    let max := values.foldl (fun max v => if v > max then v else max) v0
    let max := wrap64 (max + 1)
    let nBitsetValues := max.tdiv 32
    let nBitsetValues := if max.tmod 32 ≠ 0 then nBitsetValues + 1 else nBitsetValues
    allocCheck P nBitsetValues 4
    setBits (List.replicate nBitsetValues.toNat 0#32) values

/-- util/util.go 250-252 `Sigmoid` -/
def sigmoid (P : Platform) (x : F64) : F64 :=
  F64.div F64.one (F64.add F64.one (P.exp x.neg))

/-- math.Abs -/
def abs : F64 → F64
  | .nan => .nan
  | .inf _ => .inf false
  | .fin _ m h => .fin false m h

/-- float64 subtraction `a - b` -/
def sub (a b : F64) : F64 := F64.add a b.neg

/-- util/util.go 220-222 `AlmostEqualFloat64` -/
def almostEqualFloat64 (a b threshold : F64) : Bool := F64.le (abs (sub a b)) threshold

/-- util/util.go 228-232: the comparison loop -/
def almostEqualLoop (threshold : F64) : List F64 → List F64 → Res Unit
  | a :: as, b :: bs =>
    if F64.lt threshold (abs (sub a b)) then .err "element mismatch" else almostEqualLoop threshold as bs
  | _, _ => .ok ()

/-- util/util.go 224-234 `AlmostEqualFloat64Slices` -/
def almostEqualFloat64Slices (a b : List F64) (threshold : F64) : Res Unit :=
  if a.length ≠ b.length then .err "different sizes" else almostEqualLoop threshold a b

/-- util/util.go 236-247 `NumMismatchedFloat64Slices` -/
def numMismatchedFloat64Slices (a b : List F64) (threshold : F64) : Res Nat :=
  if a.length ≠ b.length then .err "different sizes"
  else .ok ((a.zip b).foldl (fun n ab => if F64.lt threshold (abs (sub ab.1 ab.2)) then n + 1 else n) 0)

/-- util/util.go 255-259 `SigmoidFloat64SliceInplace` (returns the new contents) -/
def sigmoidFloat64SliceInplace (P : Platform) (vec : List F64) : List F64 := vec.map (sigmoid P)

/-- `encoding/binary` little-endian decoding of a byte list to an unsigned number -/
def leNat : List (BitVec 8) → Nat
  | [] => 0
  | b :: bs => b.toNat + 256 * leNat bs

/-- util/util.go 277-285 `Float64FromBytes`; `binary.*Endian.Uint64` panics on fewer than 8 bytes and
ignores bytes beyond the eighth. -/
def float64FromBytes (bytes : List (BitVec 8)) (littleEndian : Bool) : Res F64 :=
  if bytes.length < 8 then .panic
  else
    let bs := bytes.take 8
    let n := if littleEndian then leNat bs else leNat bs.reverse
    .ok (F64.ofBits (BitVec.ofNat 64 n))

end Leaves.Util
