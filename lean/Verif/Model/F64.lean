import Mathlib.Tactic.Ring
import Mathlib.Tactic.Linarith

/-!
# IEEE-754 binary64 (`float64`), concretely

Every finite binary64 number is an integer multiple of `2^-1074`. `F64.fin s m _` is the number
`(-1)^s * m * 2^-1074`; `Rep m` says that the magnitude has at most 53 significant bits and does not
overflow. `fin true 0` is the negative zero. All NaNs are identified (simplification: NaN payload and
sign are not modelled; Go code in this repository never inspects them).

This file models the Go/hardware float64 operations used by /repo: comparison, `+`, `*`, `/`, unary `-`,
fused multiply-add, conversions to and from integers, `math.Ceil`, `math.Float64frombits`,
`float64(float32)`. All of them round to nearest, ties to even.
-/

namespace Leaves

/-- `1.0` is `unit` times `2^-1074`. (A named constant only because the elaborator must not unfold it.) -/
@[irreducible] def unit : Nat := 2 ^ 1074

/-- Magnitudes at or above `2^1024` overflow. -/
@[irreducible] def magLimit : Nat := 2 ^ 2098

theorem unit_eq : unit = 2 ^ 1074 := by unfold unit; rfl
theorem magLimit_eq : magLimit = 2 ^ 2098 := by unfold magLimit; rfl
theorem unit_pos : 0 < unit := by rw [unit_eq]; exact Nat.two_pow_pos _
theorem magLimit_pos : 0 < magLimit := by rw [magLimit_eq]; exact Nat.two_pow_pos _

/-- `m * 2^-1074` is a finite binary64 magnitude. -/
def Rep (m : Nat) : Prop := m < magLimit ∧ 2 ^ (m.log2 - 52) ∣ m

instance (m : Nat) : Decidable (Rep m) := by unfold Rep; infer_instance

/-- `n / d` rounded to the nearest integer, ties to even. -/
def rne (n d : Nat) : Nat :=
  let q := n / d
  let r := n % d
  if 2 * r < d then q
  else if d < 2 * r then q + 1
  else if q % 2 = 0 then q else q + 1

/-- The exponent (in units of `2^-1074`) of the last place of a 53-bit approximation of `n / d`. -/
def ulpExp (n d : Nat) : Nat := (n / d).log2 - 52

/-- `n / d` (in units of `2^-1074`) rounded to 53 significant bits, ties to even; unbounded exponent. -/
def roundMag (n d : Nat) : Nat :=
  rne n (d * 2 ^ ulpExp n d) * 2 ^ ulpExp n d

theorem rne_cases (n d : Nat) : rne n d = n / d ∨ rne n d = n / d + 1 := by
  unfold rne; dsimp only; split <;> [left; (split <;> [right; (split <;> [left; right])])] <;> rfl

/-- any integer with at most 53 bits, shifted left, is representable if it does not overflow -/
theorem rep_of_mul_pow {q e : Nat} (hq : q ≤ 2 ^ 53) (h : q * 2 ^ e < magLimit) : Rep (q * 2 ^ e) := by
  refine ⟨h, ?_⟩
  rcases Nat.eq_zero_or_pos q with rfl | hpos
  · simp
  rcases Nat.lt_or_ge q (2 ^ 53) with hlt | hge
  · have hne : q * 2 ^ e ≠ 0 := by positivity
    have : (q * 2 ^ e).log2 < 53 + e := by
      rw [Nat.log2_lt hne, Nat.pow_add]
      exact Nat.mul_lt_mul_of_pos_right hlt (by positivity)
    exact Dvd.dvd.mul_left (Nat.pow_dvd_pow 2 (by omega)) q
  · have : q = 2 ^ 53 := by omega
    subst this
    have hne : 2 ^ 53 * 2 ^ e ≠ 0 := by positivity
    have : (2 ^ 53 * 2 ^ e).log2 < 54 + e := by
      rw [Nat.log2_lt hne, Nat.pow_add]
      exact Nat.mul_lt_mul_of_pos_right (by norm_num) (by positivity)
    rw [← Nat.pow_add]
    exact Nat.pow_dvd_pow 2 (by rw [Nat.pow_add]; omega)

theorem div_ulp_lt (n d : Nat) : n / (d * 2 ^ ulpExp n d) < 2 ^ 53 := by
  rw [← Nat.div_div_eq_div_mul]
  rcases Nat.eq_zero_or_pos (n / d) with h0 | hpos
  · simp [h0]
  · rw [Nat.div_lt_iff_lt_mul (by positivity), ← Nat.pow_add]
    have := Nat.lt_log2_self (n := n / d)
    refine lt_of_lt_of_le this (Nat.pow_le_pow_right (by norm_num) ?_)
    unfold ulpExp; omega

theorem rep_roundMag {n d : Nat} (h : roundMag n d < magLimit) : Rep (roundMag n d) := by
  refine rep_of_mul_pow ?_ h
  have := div_ulp_lt n d
  rcases rne_cases n (d * 2 ^ ulpExp n d) with h | h <;> omega

/-- An IEEE-754 binary64 datum. -/
inductive F64 where
  | nan
  | inf (neg : Bool)
  | fin (neg : Bool) (mag : Nat) (h : Rep mag)
deriving DecidableEq

namespace F64

/-- `n / d` units of `2^-1074`, with a sign, rounded to binary64; overflows to infinity. -/
def ofRatio (neg : Bool) (n d : Nat) : F64 :=
  if h : roundMag n d < magLimit then fin neg (roundMag n d) (rep_roundMag h) else inf neg

/-- positive zero -/
def zero : F64 := fin false 0 (by decide +kernel)

instance : Inhabited F64 := ⟨zero⟩
instance : Zero F64 := ⟨zero⟩

/-- `1.0` -/
def one : F64 := fin false (unit) (by decide +kernel)

/-- the scaled integer value of a finite number (0 for NaN and infinities) -/
def toInt : F64 → Int
  | fin false m _ => m
  | fin true m _ => -(m : Int)
  | _ => 0

/-- Go `math.IsNaN` -/
def isNaN : F64 → Bool
  | nan => true
  | _ => false

/-- Go `x <= y` on float64: false if either is NaN -/
def le : F64 → F64 → Bool
  | nan, _ => false
  | _, nan => false
  | inf true, _ => true
  | _, inf false => true
  | inf false, _ => false
  | _, inf true => false
  | x, y => decide (x.toInt ≤ y.toInt)

/-- Go `x < y` on float64: false if either is NaN -/
def lt (x y : F64) : Bool := !x.isNaN && !y.isNaN && !le y x

/-- Go `x == y` on float64: false if either is NaN; the two zeros are equal -/
def feq (x y : F64) : Bool := le x y && le y x

/-- unary minus -/
def neg : F64 → F64
  | nan => nan
  | inf s => inf (!s)
  | fin s m h => fin (!s) m h

/-- a signed integer number of units `2^-1074` divided by `d`, rounded; `sz` is the sign of an exact zero -/
def ofScaled (sz : Bool) (v : Int) (d : Nat) : F64 :=
  if v = 0 then fin sz 0 (by decide +kernel) else ofRatio (decide (v < 0)) v.natAbs d

/-- IEEE addition -/
def add : F64 → F64 → F64
  | nan, _ => nan
  | _, nan => nan
  | inf s, inf t => if s = t then inf s else nan
  | inf s, fin _ _ _ => inf s
  | fin _ _ _, inf t => inf t
  | fin s m hm, fin t n hn => ofScaled (s && t) ((fin s m hm).toInt + (fin t n hn).toInt) 1

/-- IEEE multiplication -/
def mul : F64 → F64 → F64
  | nan, _ => nan
  | _, nan => nan
  | inf s, inf t => inf (xor s t)
  | inf s, fin t n _ => if n = 0 then nan else inf (xor s t)
  | fin s m _, inf t => if m = 0 then nan else inf (xor s t)
  | fin s m _, fin t n _ => ofRatio (xor s t) (m * n) (unit)

/-- IEEE division -/
def div : F64 → F64 → F64
  | nan, _ => nan
  | _, nan => nan
  | inf _, inf _ => nan
  | inf s, fin t _ _ => inf (xor s t)
  | fin s _ _, inf t => fin (xor s t) 0 (by decide +kernel)
  | fin s m _, fin t n _ =>
    if n = 0 then (if m = 0 then nan else inf (xor s t))
    else ofRatio (xor s t) (m * unit) n

/-- IEEE fused multiply-add `x * y + z` with a single rounding -/
def fma (x y z : F64) : F64 :=
  match x, y, z with
  | fin s m hm, fin t n hn, fin u k hk =>
    ofScaled (xor s t && u)
      ((fin s m hm).toInt * (fin t n hn).toInt + (fin u k hk).toInt * unit) (unit)
  | fin _ _ _, fin _ _ _, z => z
  | x, y, z => add (mul x y) z

/-- Go `float64(i)` for an integer `i` (rounds beyond 2^53) -/
def ofInt (i : Int) : F64 := ofScaled false (i * unit) 1

/-- Go `float64(n)` for an unsigned integer -/
def ofNat (n : Nat) : F64 := ofInt n

/-- the integer part (truncation toward zero) of a finite number; `none` for NaN and infinities -/
def trunc : F64 → Option Int
  | fin false m _ => some ((m / unit : Nat) : Int)
  | fin true m _ => some (-((m / unit : Nat) : Int))
  | _ => none

/-- smallest multiple of `2^1074` not below `m`, in units of one -/
def ceilNat (m : Nat) : Nat := (m + (unit - 1)) / unit

/-- `math.Ceil` followed by conversion to `int`, on values whose ceiling fits (else `none`).
Go code modelled: `int(math.Ceil(x))` (leaves.go 125, 219). -/
def ceilToInt : F64 → Option Int
  | fin false m _ => if ceilNat m < 2 ^ 63 then some (ceilNat m : Int) else none
  | fin true m _ => if m / unit ≤ 2 ^ 63 then some (-((m / unit : Nat) : Int)) else none
  | _ => none

/-- `math.Float64frombits` -/
def ofBits (b : BitVec 64) : F64 :=
  let s := b.getLsbD 63
  let e := (b.toNat / 2 ^ 52) % 2 ^ 11
  let f := b.toNat % 2 ^ 52
  if e = 2047 then (if f = 0 then inf s else nan)
  else if e = 0 then ofRatio s f 1
  else ofRatio s ((2 ^ 52 + f) * 2 ^ (e - 1)) 1

/-- `float64(math.Float32frombits(b))` -/
def ofBits32 (b : BitVec 32) : F64 :=
  let s := b.getLsbD 31
  let e := (b.toNat / 2 ^ 23) % 2 ^ 8
  let f := b.toNat % 2 ^ 23
  if e = 255 then (if f = 0 then inf s else nan)
  else if e = 0 then ofRatio s (f * 2 ^ 925) 1
  else ofRatio s ((2 ^ 23 + f) * 2 ^ (e - 1 + 925)) 1

/-- a rational constant `n / d` as float64 (Go constant conversion, correctly rounded) -/
def const (n d : Nat) : F64 := ofRatio false (n * unit) d

end F64
end Leaves
