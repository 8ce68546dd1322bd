import Verif.Proofs.F64Lemmas
import Verif.Proofs.F64Round

/-! Exactness and monotonicity of float64 arithmetic. -/

namespace Leaves
namespace F64

open Spec

theorem roundMag_scale (n : Nat) {d k : Nat} (hd : 0 < d) (hk : 0 < k) : roundMag (n * k) (d * k) = roundMag n d := by
  apply Nat.le_antisymm
  · exact roundMag_mono (Nat.mul_pos hd hk) hd (by rw [Nat.mul_assoc, Nat.mul_comm k d])
  · exact roundMag_mono hd (Nat.mul_pos hd hk) (by rw [Nat.mul_assoc, Nat.mul_comm k d])

theorem ofRatio_scale (s : Bool) (n : Nat) {d k : Nat} (hd : 0 < d) (hk : 0 < k) : ofRatio s (n * k) (d * k) = ofRatio s n d := by
  unfold ofRatio
  simp only [roundMag_scale n hd hk]

theorem ofRatio_unit (s : Bool) (n : Nat) : ofRatio s (n * unit) unit = ofRatio s n 1 := by
  have := ofRatio_scale s n (d := 1) (k := unit) (by omega) unit_pos
  rwa [Nat.one_mul] at this

/-- multiplying by 1 is exact -/
theorem mul_one (x : F64) : mul x one = x := by
  cases x with
  | nan => rfl
  | inf s =>
    unfold one mul
    dsimp only
    rw [if_neg (by have := unit_pos; omega)]
    simp
  | fin s m h =>
    unfold one mul
    dsimp only
    rw [ofRatio_unit, ofRatio_rep h]
    simp

theorem add_comm (x y : F64) : add x y = add y x := by
  cases x with
  | nan => cases y <;> rfl
  | inf s => cases y with
    | nan => rfl
    | inf t =>
      simp only [add]
      by_cases h : s = t
      · subst h; rfl
      · rw [if_neg h, if_neg (Ne.symm h)]
    | fin t n hn => rfl
  | fin s m hm => cases y with
    | nan => rfl
    | inf t => rfl
    | fin t n hn => simp only [add]; rw [Bool.and_comm, Int.add_comm]

/-- a fused multiply-add by 1 is an addition -/
theorem fma_one (x z : F64) : fma x one z = add x z := by
  cases x with
  | nan => rfl
  | inf s =>
    show add (mul (inf s) one) z = _
    rw [mul_one]
  | fin s m hm =>
    cases z with
    | nan => rfl
    | inf t => rfl
    | fin t n hn =>
      unfold one fma add
      dsimp only
      have h1 : (fin false unit (by decide +kernel)).toInt = (unit : Int) := rfl
      rw [h1, ← Int.add_mul]
      generalize hv : (fin s m hm).toInt + (fin t n hn).toInt = v
      unfold ofScaled
      by_cases h0 : v = 0
      · subst h0; simp
      · have hu := unit_pos
        rw [if_neg h0, if_neg (by intro h; rcases Int.mul_eq_zero.1 h with h | h <;> omega), Int.natAbs_mul, Int.natAbs_natCast,
          ofRatio_unit]
        congr 1
        rw [decide_eq_decide]
        constructor
        · intro h
          by_contra hc
          have := Int.mul_nonneg (a := v) (b := unit) (by omega) (by omega)
          omega
        · intro h; exact Int.mul_neg_of_neg_of_pos h (by omega)

end F64

/-- adding a tree value with weight 1 is a plain float64 addition, fused or not -/
theorem Platform.MulAddOK.one {P : Platform} (h : P.MulAddOK) (x z : F64) : P.mulAdd x F64.one z = F64.add z x := by
  rcases h x F64.one z with h | h
  · rw [h, F64.mul_one, F64.add_comm]
  · rw [h, F64.fma_one, F64.add_comm]

end Leaves
