import Verif.Proofs.Softmax
import Mathlib.Tactic.Positivity
import Mathlib.Tactic.FieldSimp
import Mathlib.Algebra.Order.Field.Rat
import Mathlib.Algebra.Order.Ring.Pow
import Mathlib.Algebra.Order.BigOperators.Group.List

/-! Error bounds for rounding, sums and the softmax, over the rationals. -/

namespace Leaves
namespace F64

/-- half a unit in the last place -/
theorem roundMag_half {n d : Nat} (hd : 0 < d) :
    2 * n ≤ 2 * (roundMag n d * d) + d * 2 ^ ulpExp n d ∧ 2 * (roundMag n d * d) ≤ 2 * n + d * 2 ^ ulpExp n d := by
  unfold roundMag
  have hpos : 0 < d * 2 ^ ulpExp n d := by positivity
  obtain ⟨b1, b2, -, -⟩ := rne_bounds (n := n) hpos
  generalize rne n (d * 2 ^ ulpExp n d) = q at *
  have e1 : q * 2 ^ ulpExp n d * d = q * (d * 2 ^ ulpExp n d) := by ring
  rw [e1]
  generalize d * 2 ^ ulpExp n d = D at *
  constructor <;> nlinarith

/-- relative error, except for half of the smallest number -/
theorem roundMag_err {n d : Nat} (hd : 0 < d) :
    |(roundMag n d : ℚ) - n / d| ≤ (n / d : ℚ) / 2 ^ 53 + 1 / 2 := by
  obtain ⟨h1, h2⟩ := roundMag_half (n := n) hd
  have hD : 2 ^ 52 * (d * 2 ^ ulpExp n d) ≤ n + 2 ^ 52 * d := by
    rcases Nat.eq_zero_or_pos (ulpExp n d) with h0 | hpos
    · rw [h0, pow_zero, Nat.mul_one]; omega
    · have h1 := (Nat.le_div_iff_mul_le hd).1 (pow_le_div_of_ulpExp_pos hpos)
      rw [Nat.pow_add] at h1
      calc 2 ^ 52 * (d * 2 ^ ulpExp n d) = 2 ^ 52 * 2 ^ ulpExp n d * d := by ring
        _ ≤ n := h1
        _ ≤ _ := Nat.le_add_right _ _
  generalize d * 2 ^ ulpExp n d = D at *
  generalize roundMag n d = r at *
  have h1 : (2 * n : ℚ) ≤ 2 * (r * d) + D := by exact_mod_cast h1
  have h2 : (2 * (r * d) : ℚ) ≤ 2 * n + D := by exact_mod_cast h2
  have hD : (2 ^ 52 * D : ℚ) ≤ n + 2 ^ 52 * d := by exact_mod_cast hD
  have hd' : (0 : ℚ) < d := by exact_mod_cast hd
  rw [abs_le]
  have e : (n / d : ℚ) * d = n := by field_simp
  generalize (n / d : ℚ) = x at *
  rw [← e] at h1 h2 hD
  constructor <;> refine le_of_mul_le_mul_right ?_ hd' <;> nlinarith

/-- relative error of sums: no exception -/
theorem roundMag_err_one (n : Nat) : |(roundMag n 1 : ℚ) - n| ≤ (n : ℚ) / 2 ^ 53 := by
  rcases Nat.eq_zero_or_pos (ulpExp n 1) with h0 | hpos
  · have : roundMag n 1 = n := by
      unfold roundMag
      rw [h0, pow_zero, Nat.mul_one, Nat.mul_one]
      have := rne_mul_self (k := n) Nat.one_pos
      rwa [Nat.mul_one] at this
    rw [this, sub_self, abs_zero]
    positivity
  · obtain ⟨h1, h2⟩ := roundMag_half (n := n) Nat.one_pos
    have hD := (Nat.le_div_iff_mul_le Nat.one_pos).1 (pow_le_div_of_ulpExp_pos hpos)
    rw [Nat.pow_add] at hD
    rw [Nat.one_mul, Nat.mul_one] at *
    generalize 2 ^ ulpExp n 1 = D at *
    generalize roundMag n 1 = r at *
    have h1 : (2 * n : ℚ) ≤ 2 * r + D := by exact_mod_cast h1
    have h2 : (2 * r : ℚ) ≤ 2 * n + D := by exact_mod_cast h2
    have hD : (2 ^ 52 * D : ℚ) ≤ n := by exact_mod_cast hD
    rw [abs_le]
    constructor <;> linarith

/-- the magnitude as a rational number of units -/
def magQ (x : F64) : ℚ := x.toInt

theorem magQ_nonneg {x : F64} (h : le zero x = true) : 0 ≤ magQ x := by
  rcases nonneg_cases h with rfl | ⟨s, m, hm, rfl, e⟩
  · simp [magQ, toInt]
  · unfold magQ; rw [e]; positivity

/-- a finite number -/
def IsFin (x : F64) : Prop := ∃ s m h, x = fin s m h

theorem isFin_of_le {x y : F64} (h0 : le zero x = true) (h : le x y = true) (hy : IsFin y) : IsFin x := by
  rcases nonneg_cases h0 with rfl | ⟨s, m, hm, rfl, e⟩
  · obtain ⟨t, n, hn, rfl⟩ := hy
    cases h
  · exact ⟨_, _, _, rfl⟩

theorem ofScaled_magQ {z : Bool} {v : Nat} (h : IsFin (ofScaled z v 1)) : magQ (ofScaled z v 1) = roundMag v 1 := by
  obtain ⟨s, m, hm, he⟩ := h
  unfold ofScaled at he ⊢
  by_cases h0 : (v : Int) = 0
  · rw [if_pos h0]
    have : v = 0 := by omega
    subst this
    rw [roundMag_zero Nat.one_pos]
    cases z <;> simp [magQ, toInt]
  · rw [if_neg h0] at he ⊢
    rw [decide_eq_false (by omega), Int.natAbs_natCast] at he ⊢
    unfold ofRatio at he ⊢
    by_cases hl : roundMag v 1 < magLimit
    · rw [dif_pos hl]; simp [magQ, toInt]
    · rw [dif_neg hl] at he; cases he

/-- the relative error of an addition of non-negative numbers -/
theorem add_err {x y : F64} (hx : le zero x = true) (hy : le zero y = true) (h : IsFin (add x y)) :
    |magQ (add x y) - (magQ x + magQ y)| ≤ (magQ x + magQ y) / 2 ^ 53 := by
  have fx := isFin_of_le hx (le_add_left hx hy) h
  have fy := isFin_of_le hy (le_add_right hx hy) h
  rcases nonneg_cases hx with rfl | ⟨s, m, hm, rfl, e⟩
  · obtain ⟨_, _, _, fx⟩ := fx; cases fx
  rcases nonneg_cases hy with rfl | ⟨t, n, hn, rfl, e'⟩
  · obtain ⟨_, _, _, fy⟩ := fy; cases fy
  unfold add at h ⊢
  simp only at h ⊢
  rw [e, e'] at h ⊢
  rw [← Int.natCast_add] at h ⊢
  rw [ofScaled_magQ h]
  have := roundMag_err_one (m + n)
  unfold magQ
  rw [e, e']
  push_cast at this ⊢
  exact this

/-- the error of a sum of non-negative numbers -/
theorem foldl_err : ∀ (es : List F64) (a : F64), (∀ e ∈ es, le zero e = true) → le zero a = true → IsFin (es.foldl add a) →
    (magQ a + (es.map magQ).sum) * (1 - 1 / 2 ^ 53) ^ es.length ≤ magQ (es.foldl add a) ∧
      magQ (es.foldl add a) ≤ (magQ a + (es.map magQ).sum) * (1 + 1 / 2 ^ 53) ^ es.length
  | [], a, _, _, _ => by simp
  | e :: es, a, he, ha, hf => by
    have he0 := he e (by simp)
    have hes : ∀ x ∈ es, le zero x = true := fun x hx => he x (by simp [hx])
    have ha' : le zero (add a e) = true := F64.le_trans ha (le_add_left ha he0)
    rw [List.foldl_cons] at hf ⊢
    obtain ⟨g1, g2⟩ := foldl_err es (add a e) hes ha' hf
    have hfa := isFin_of_le ha' (foldl_add_nonneg es (add a e) hes ha').1 hf
    have herr := abs_le.1 (add_err ha he0 hfa)
    have hs : 0 ≤ (es.map magQ).sum := List.sum_nonneg fun x hx => by
      obtain ⟨y, hy, rfl⟩ := List.mem_map.1 hx
      exact magQ_nonneg (hes y hy)
    have hA : 0 ≤ magQ a + magQ e := add_nonneg (magQ_nonneg ha) (magQ_nonneg he0)
    rw [List.map_cons, List.sum_cons, List.length_cons, pow_succ' _ es.length, pow_succ' _ es.length, ← add_assoc]
    have p1 : (0 : ℚ) ≤ (1 - 1 / 2 ^ 53) ^ es.length := pow_nonneg (by norm_num) _
    have p2 : (0 : ℚ) ≤ (1 + 1 / 2 ^ 53) ^ es.length := by positivity
    generalize magQ a + magQ e = A at *
    generalize magQ (add a e) = A' at *
    generalize (es.map magQ).sum = S at *
    constructor
    · refine _root_.le_trans ?_ g1
      rw [← mul_assoc]
      exact mul_le_mul_of_nonneg_right (by linarith [herr.1]) p1
    · refine _root_.le_trans g2 ?_
      rw [← mul_assoc]
      exact mul_le_mul_of_nonneg_right (by linarith [herr.2]) p2

/-- the sum of the shares, from the error of the sum, of the reciprocal and of the products -/
theorem shares_err {N : Nat} (hN : N ≤ 2 ^ 20) {M n y R : ℚ} (hM : 0 ≤ M) (hn : 0 < n) (h1 : M * (1 - 1 / 2 ^ 53) ^ N ≤ n)
    (h2 : n ≤ M * (1 + 1 / 2 ^ 53) ^ N) (hy : |y - 1| ≤ 2 / 2 ^ 53) (hR : |R - y * (M / n)| ≤ y * (M / n) / 2 ^ 53 + 1 / 2 ^ 53) :
    |R - 1| ≤ (N + 4) / 2 ^ 52 := by
  have hNq : (N : ℚ) ≤ 2 ^ 20 := by exact_mod_cast hN
  have hN0 : (0 : ℚ) ≤ N := by positivity
  have b := one_add_mul_le_pow (a := (-(1 / 2 ^ 53) : ℚ)) (by norm_num) N
  rw [← sub_eq_add_neg] at b
  have hz1 : M / n * (1 - N / 2 ^ 53) ≤ 1 := by
    rw [div_mul_eq_mul_div, div_le_one hn]
    refine _root_.le_trans ?_ h1
    exact mul_le_mul_of_nonneg_left (by linarith) hM
  have hz2 : 1 - N / 2 ^ 53 ≤ M / n := by
    rw [le_div_iff₀ hn]
    have e : ((1 - 1 / 2 ^ 53 : ℚ) ^ N) * (1 + 1 / 2 ^ 53) ^ N ≤ 1 := by
      rw [← mul_pow]
      exact pow_le_one₀ (by norm_num) (by norm_num)
    have hpos : (0 : ℚ) ≤ 1 - N / 2 ^ 53 := by linarith
    have hp : (0 : ℚ) ≤ (1 + 1 / 2 ^ 53) ^ N := by positivity
    calc (1 - N / 2 ^ 53 : ℚ) * n ≤ (1 - N / 2 ^ 53) * (M * (1 + 1 / 2 ^ 53) ^ N) := mul_le_mul_of_nonneg_left h2 hpos
      _ ≤ (1 - 1 / 2 ^ 53) ^ N * (M * (1 + 1 / 2 ^ 53) ^ N) :=
        mul_le_mul_of_nonneg_right (by linarith) (mul_nonneg hM hp)
      _ = ((1 - 1 / 2 ^ 53) ^ N * (1 + 1 / 2 ^ 53) ^ N) * M := by ring
      _ ≤ 1 * M := mul_le_mul_of_nonneg_right e hM
      _ = M := one_mul M
  obtain ⟨y1, y2⟩ := abs_le.1 hy
  obtain ⟨r1, r2⟩ := abs_le.1 hR
  have hz0 : 0 ≤ M / n := div_nonneg hM hn.le
  generalize M / n = z at *
  -- z ≤ 1 + 2 N / 2^53
  have hz3 : z ≤ 1 + 2 * N / 2 ^ 53 := by
    by_contra hc
    push Not at hc
    have : (1 + 2 * N / 2 ^ 53) * (1 - N / 2 ^ 53) ≤ (1 : ℚ) := by
      refine _root_.le_trans ?_ hz1
      exact mul_le_mul_of_nonneg_right hc.le (by linarith)
    have h5 : (N : ℚ) / 2 ^ 53 * (1 - 2 * N / 2 ^ 53) ≤ 0 := by
      have : (1 + 2 * N / 2 ^ 53) * (1 - N / 2 ^ 53) = 1 + (N : ℚ) / 2 ^ 53 * (1 - 2 * N / 2 ^ 53) := by ring
      linarith
    rcases eq_or_lt_of_le hN0 with h0 | h0
    · rw [← h0] at hc hz1
      norm_num at hc hz1
      linarith
    · have : 0 < (N : ℚ) / 2 ^ 53 * (1 - 2 * N / 2 ^ 53) := mul_pos (by positivity) (by linarith)
      linarith
  have hyz1 : y * z ≤ 1 + (2 * N + 3) / 2 ^ 53 := by
    calc y * z ≤ (1 + 2 / 2 ^ 53) * z := mul_le_mul_of_nonneg_right (by linarith) hz0
      _ ≤ (1 + 2 / 2 ^ 53) * (1 + 2 * N / 2 ^ 53) := mul_le_mul_of_nonneg_left hz3 (by norm_num)
      _ ≤ _ := by nlinarith
  have hyz2 : 1 - (N + 2) / 2 ^ 53 ≤ y * z := by
    calc 1 - (N + 2) / 2 ^ 53 ≤ (1 - 2 / 2 ^ 53 : ℚ) * (1 - N / 2 ^ 53) := by
          have : (0 : ℚ) ≤ 2 / 2 ^ 53 * (N / 2 ^ 53) := by positivity
          linarith
      _ ≤ (1 - 2 / 2 ^ 53) * z := mul_le_mul_of_nonneg_left hz2 (by norm_num)
      _ ≤ y * z := mul_le_mul_of_nonneg_right (by linarith) hz0
  generalize y * z = p at *
  rw [abs_le]
  constructor <;> linarith

/-- the reciprocal of a number up to 2^1022 -/
theorem recip_err {n : Nat} (hpos : 0 < n) (h2 : n ≤ 2 ^ 2096) :
    |(roundMag (unit * unit) n : ℚ) * n / (unit * unit) - 1| ≤ 2 / 2 ^ 53 := by
  have h := roundMag_err (n := unit * unit) hpos
  have hn : (0 : ℚ) < n := by exact_mod_cast hpos
  have hU : (0 : ℚ) < unit := by exact_mod_cast unit_pos
  have hsmall : (n : ℚ) * 2 ^ 52 ≤ unit * unit := by
    have : n * 2 ^ 52 ≤ unit * unit := by
      rw [pow2096, Nat.mul_comm (2 ^ 52)]
      exact Nat.mul_le_mul_right _ h2
    exact_mod_cast this
  generalize roundMag (unit * unit) n = k at *
  push_cast at h
  have hV : (0 : ℚ) < (unit : ℚ) * unit := mul_pos hU hU
  generalize (unit : ℚ) * unit = V at *
  have e : (k : ℚ) * n / V - 1 = (k - V / n) * (n / V) := by field_simp
  rw [e, abs_mul, abs_of_pos (div_pos hn hV)]
  calc |(k : ℚ) - V / n| * (n / V) ≤ (V / n / 2 ^ 53 + 1 / 2) * (n / V) := mul_le_mul_of_nonneg_right h (by positivity)
    _ = 1 / 2 ^ 53 + n / V / 2 := by field_simp
    _ ≤ 1 / 2 ^ 53 + 1 / 2 ^ 53 := by
      have : (n : ℚ) / V ≤ 1 / 2 ^ 52 := by
        rw [div_le_div_iff₀ hV (by norm_num)]
        linarith
      linarith
    _ = 2 / 2 ^ 53 := by norm_num

/-- the error of one product -/
theorem mul_err {x : F64} {k : Nat} {hk : Rep k} (h0 : le zero x = true) (hx : IsFin x) (h : IsFin (mul x (fin false k hk))) :
    |magQ (mul x (fin false k hk)) - magQ x * k / unit| ≤ magQ x * k / unit / 2 ^ 53 + 1 / 2 := by
  obtain ⟨s, m, hm, rfl⟩ := hx
  have key : magQ (mul (fin s m hm) (fin false k hk)) = roundMag (m * k) unit ∧ magQ (fin s m hm) = m := by
    cases s
    · refine ⟨?_, by simp [magQ, toInt]⟩
      rw [mul_fin_fin] at h ⊢
      unfold ofRatio at h ⊢
      by_cases hl : roundMag (m * k) unit < magLimit
      · rw [dif_pos hl]; simp [magQ, toInt]
      · rw [dif_neg hl] at h
        obtain ⟨_, _, _, h⟩ := h
        cases h
    · have := nonneg_neg h0
      subst this
      rw [mul_fin_fin, Nat.zero_mul, ofRatio_zero _ unit_pos, roundMag_zero unit_pos]
      simp [magQ, toInt]
  rw [key.1, key.2]
  have := roundMag_err (n := m * k) unit_pos
  push_cast at this
  exact this

/-- the error of the products -/
theorem products_err {k : Nat} {hk : Rep k} : ∀ (es : List F64), (∀ e ∈ es, le zero e = true ∧ IsFin e ∧ IsFin (mul e (fin false k hk))) →
    |(es.map fun e => magQ (mul e (fin false k hk))).sum - (es.map magQ).sum * k / unit| ≤
      (es.map magQ).sum * k / unit / 2 ^ 53 + es.length / 2
  | [], _ => by simp
  | e :: es, he => by
    have ih := products_err es fun x hx => he x (by simp [hx])
    obtain ⟨h0, h1, h2⟩ := he e (by simp)
    have h := mul_err h0 h1 h2
    rw [List.map_cons, List.map_cons, List.sum_cons, List.sum_cons, List.length_cons]
    push_cast
    generalize (List.map magQ es).sum = S at *
    generalize (List.map (fun e => magQ (mul e (fin false k hk))) es).sum = T at *
    have e' : (magQ e + S) * k / unit = magQ e * k / unit + S * k / unit := by ring
    rw [e']
    obtain ⟨a1, a2⟩ := abs_le.1 h
    obtain ⟨b1, b2⟩ := abs_le.1 ih
    rw [abs_le]
    constructor <;> linarith

/-- half of the smallest number, a million times, is still nothing -/
theorem tiny_err {N : Nat} (hN : N ≤ 2 ^ 20) : (N : ℚ) / 2 / unit ≤ 1 / 2 ^ 53 := by
  have hU : (0 : ℚ) < unit := by exact_mod_cast unit_pos
  rw [div_div, div_le_div_iff₀ (by positivity) (by norm_num)]
  have : N * 2 ^ 53 ≤ 1 * (2 * unit) := by
    rw [unit_eq]
    calc N * 2 ^ 53 ≤ 2 ^ 20 * 2 ^ 53 := Nat.mul_le_mul_right _ hN
      _ = 2 ^ 73 := by rw [← Nat.pow_add]
      _ ≤ 2 ^ 1074 := Nat.pow_le_pow_right (by norm_num) (by norm_num)
      _ ≤ _ := by omega
  exact_mod_cast this

end F64
end Leaves
