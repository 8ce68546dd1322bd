import Verif.Proofs.F64Round
import Verif.Model.Platform
import Verif.Spec.Num
import Mathlib.Tactic.Positivity
import Mathlib.Tactic.FieldSimp
import Mathlib.Tactic.NormNum

/-! Lemmas about the float64 model. -/

namespace Leaves
namespace F64

open Spec

theorem pt_le {a b : ℚ} : pt a ≤ pt b ↔ a ≤ b := by
  unfold pt; rw [WithBot.coe_le_coe, WithTop.coe_le_coe]

theorem pt_lt {a b : ℚ} : pt a < pt b ↔ a < b := by
  unfold pt; rw [WithBot.coe_lt_coe, WithTop.coe_lt_coe]

theorem pt_inj {a b : ℚ} : pt a = pt b ↔ a = b := by
  unfold pt; rw [WithBot.coe_inj, WithTop.coe_inj]

theorem value_fin (s : Bool) (m : Nat) (h : Rep m) :
    value (fin s m h) = some (pt ((fin s m h).toInt / unit)) := by
  cases s
  · simp [value, toInt]
  · simp [value, toInt, neg_div]

theorem scaled_le {a b : Int} : ((a : ℚ) / unit ≤ (b : ℚ) / unit) ↔ a ≤ b := by
  have : (0 : ℚ) < unit := by exact_mod_cast unit_pos
  rw [div_le_div_iff_of_pos_right this]
  exact_mod_cast Iff.rfl

theorem le_iff (x y : F64) : le x y = true ↔ Le x y := by
  unfold Le
  rcases x with _ | s | ⟨s, m, hm⟩ <;> rcases y with _ | t | ⟨t, n, hn⟩
  · simp [le, value]
  · simp [le, value]
  · simp [le, value]
  · cases s <;> simp [le, value]
  · cases s <;> cases t <;> simp [le, value]
  · rw [value_fin]
    cases s <;> simp [le, value, pt]
  · simp [le, value]
  · rw [value_fin]
    cases t <;> simp [le, value, pt]
  · rw [value_fin, value_fin]
    simp only [le, decide_eq_true_eq, Option.some.injEq]
    constructor
    · intro h; exact ⟨_, _, rfl, rfl, pt_le.2 (scaled_le.2 h)⟩
    · rintro ⟨a, b, rfl, rfl, h⟩; exact scaled_le.1 (pt_le.1 h)

theorem value_eq_none {x : F64} : value x = none ↔ x = nan := by
  rcases x with _ | s | ⟨s, m, hm⟩
  · simp [value]
  · cases s <;> simp [value]
  · rw [value_fin]; simp

theorem isNaN_iff {x : F64} : x.isNaN = true ↔ x = nan := by
  cases x <;> simp [isNaN]

theorem isNaN_false_iff {x : F64} : x.isNaN = false ↔ ∃ a, value x = some a := by
  rcases x with _ | s | ⟨s, m, hm⟩
  · simp [value, isNaN]
  · cases s <;> simp [value, isNaN]
  · rw [value_fin]; simp [isNaN]

theorem lt_iff (x y : F64) : lt x y = true ↔ Lt x y := by
  unfold lt Lt
  simp only [Bool.and_eq_true, Bool.not_eq_true', isNaN_false_iff]
  constructor
  · rintro ⟨⟨⟨a, ha⟩, b, hb⟩, h⟩
    refine ⟨a, b, ha, hb, ?_⟩
    by_contra hn
    have : le y x = true := (le_iff y x).2 ⟨b, a, hb, ha, not_lt.1 hn⟩
    simp [this] at h
  · rintro ⟨a, b, ha, hb, h⟩
    refine ⟨⟨⟨a, ha⟩, b, hb⟩, ?_⟩
    rw [← Bool.not_eq_true, le_iff]
    rintro ⟨b', a', hb', ha', h'⟩
    rw [ha] at ha'; rw [hb] at hb'
    cases ha'; cases hb'
    exact absurd h (not_lt.2 h')

theorem feq_iff (x y : F64) : feq x y = true ↔ Spec.Eq x y := by
  unfold feq Spec.Eq
  simp only [Bool.and_eq_true, le_iff, Le]
  constructor
  · rintro ⟨⟨a, b, ha, hb, h⟩, b', a', hb', ha', h'⟩
    rw [ha] at ha'; rw [hb] at hb'; cases ha'; cases hb'
    exact ⟨a, ha, by rw [hb, le_antisymm h h']⟩
  · rintro ⟨a, ha, hb⟩
    exact ⟨⟨a, a, ha, hb, le_rfl⟩, a, a, hb, ha, le_rfl⟩

@[simp] theorem le_nan_left (y : F64) : le nan y = false := rfl
@[simp] theorem le_nan_right (x : F64) : le x nan = false := by
  rcases x with _ | s | _ <;> rfl

theorem le_refl {x : F64} (h : x ≠ nan) : le x x = true := by
  rw [le_iff]
  have : x.isNaN = false := by cases x <;> simp_all [isNaN]
  obtain ⟨a, ha⟩ := isNaN_false_iff.1 this
  exact ⟨a, a, ha, ha, _root_.le_refl a⟩

theorem le_trans {x y z : F64} (h1 : le x y = true) (h2 : le y z = true) : le x z = true := by
  rw [le_iff] at *
  obtain ⟨a, b, ha, hb, h⟩ := h1
  obtain ⟨b', c, hb', hc, h'⟩ := h2
  rw [hb] at hb'; cases hb'
  exact ⟨a, c, ha, hc, _root_.le_trans h h'⟩

theorem le_total {x y : F64} (hx : x ≠ nan) (hy : y ≠ nan) : le x y = true ∨ le y x = true := by
  have hx' : x.isNaN = false := by cases x <;> simp_all [isNaN]
  have hy' : y.isNaN = false := by cases y <;> simp_all [isNaN]
  obtain ⟨a, ha⟩ := isNaN_false_iff.1 hx'
  obtain ⟨b, hb⟩ := isNaN_false_iff.1 hy'
  rcases _root_.le_total a b with h | h
  · exact .inl ((le_iff _ _).2 ⟨a, b, ha, hb, h⟩)
  · exact .inr ((le_iff _ _).2 ⟨b, a, hb, ha, h⟩)

theorem ne_nan_of_le_left {x y : F64} (h : le x y = true) : x ≠ nan := by
  rintro rfl; simp at h
theorem ne_nan_of_le_right {x y : F64} (h : le x y = true) : y ≠ nan := by
  rintro rfl; simp at h

theorem fin_congr {s : Bool} {m n : Nat} {h : Rep m} {h' : Rep n} (e : m = n) : fin s m h = fin s n h' := by
  subst e; rfl

/-! ### Small integers are exact -/

theorem rep_unit_mul {n : Nat} (h : n ≤ 2 ^ 53) : Rep (n * unit) := by
  rw [unit_eq]
  refine rep_of_mul_pow h ?_
  rw [magLimit_eq]
  calc n * 2 ^ 1074 ≤ 2 ^ 53 * 2 ^ 1074 := Nat.mul_le_mul_right _ h
    _ = 2 ^ 1127 := by rw [← Nat.pow_add]
    _ < 2 ^ 2098 := Nat.pow_lt_pow_right (by norm_num) (by norm_num)

theorem ofRatio_rep {s : Bool} {m : Nat} (h : Rep m) : ofRatio s m 1 = fin s m h := by
  unfold ofRatio
  have := roundMag_rep h
  have hl : roundMag m 1 < magLimit := by rw [this]; exact h.1
  rw [dif_pos hl]
  exact fin_congr this

theorem ofNat_eq {n : Nat} (h : n ≤ 2 ^ 53) : ofNat n = fin false (n * unit) (rep_unit_mul h) := by
  unfold ofNat ofInt ofScaled
  have hu := unit_pos
  split
  · rename_i h0
    have h0' : n * unit = 0 := by exact_mod_cast h0
    exact fin_congr h0'.symm
  · rename_i h0
    have hneg : ¬ ((n : Int) * (unit : Int) < 0) := not_lt.2 (by positivity)
    have habs : ((n : Int) * (unit : Int)).natAbs = n * unit := by
      rw [Int.natAbs_mul]; simp
    rw [habs, decide_eq_false hneg]
    exact ofRatio_rep _

theorem trunc_ofNat {n : Nat} (h : n ≤ 2 ^ 53) : (ofNat n).trunc = some (n : Int) := by
  rw [ofNat_eq h]
  simp [trunc, Nat.mul_div_cancel _ unit_pos]

theorem ofNat_inj {m n : Nat} (hm : m ≤ 2 ^ 53) (hn : n ≤ 2 ^ 53) (h : ofNat m = ofNat n) : m = n := by
  have := trunc_ofNat hm
  rw [h, trunc_ofNat hn] at this
  simpa using this.symm

theorem isVal_ofNat {n : Nat} (h : n ≤ 2 ^ 53) : IsVal (ofNat n) n := by
  rw [ofNat_eq h]
  unfold IsVal
  have : (unit : ℚ) ≠ 0 := by exact_mod_cast unit_pos.ne'
  show some (pt (((n * unit : Nat) : ℚ) / (unit : ℚ))) = some (pt n)
  rw [Nat.cast_mul, mul_div_assoc, div_self this, mul_one]

theorem ofNat_one : ofNat 1 = one := by
  rw [ofNat_eq (by norm_num)]
  exact fin_congr (Nat.one_mul _)

theorem ofNat_zero : ofNat 0 = zero := by
  rw [ofNat_eq (by norm_num)]
  exact fin_congr (Nat.zero_mul _)

end F64

theorem toUint32_of_trunc (P : Platform) {x : F64} {n : Nat} (h : n < 2 ^ 32) (hx : x.trunc = some (n : Int)) :
    P.toUint32 x = n := by
  unfold Platform.toUint32
  rw [hx]
  have : (0 : Int) ≤ n ∧ (n : Int) < 2 ^ 32 := by omega
  exact (if_pos this).trans (Int.toNat_natCast n)

theorem toInt32_of_trunc (P : Platform) {x : F64} {i : Int} (h1 : -2 ^ 31 ≤ i) (h2 : i < 2 ^ 31)
    (hx : x.trunc = some i) : P.toInt32 x = i := by
  unfold Platform.toInt32
  rw [hx]
  exact if_pos ⟨h1, h2⟩

theorem toUint32_ofNat (P : Platform) {n : Nat} (h : n < 2 ^ 32) : P.toUint32 (F64.ofNat n) = n :=
  toUint32_of_trunc P h (F64.trunc_ofNat (by omega))

theorem toInt32_ofNat (P : Platform) {n : Nat} (h : n < 2 ^ 31) : P.toInt32 (F64.ofNat n) = n :=
  toInt32_of_trunc P (by omega) (by omega) (F64.trunc_ofNat (by omega))

end Leaves
