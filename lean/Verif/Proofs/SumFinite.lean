import Verif.Proofs.SumAccuracy
import Verif.Proofs.Logistic

/-! Sums of numbers of moderate size do not overflow. -/

namespace Leaves
open F64 Spec

/-- a rounded number is at most twice as large, apart from underflow -/
theorem Rounded.bound {q p : ℚ} {x : F64} (h : Rounded q x) (hp : IsVal x p) : |p| ≤ 2 * |q| + 1 := by
  have h1 := Rounded.err h hp
  have h2 : |p| ≤ |p - q| + |q| := by
    calc |p| = |(p - q) + q| := by ring_nf
      _ ≤ _ := abs_add_le _ _
  have h3 : (1 : ℚ) / 2 ^ 1075 ≤ 1 := by
    have := inv_pow_le (K := ℚ) 0 1075 (by omega)
    linarith
  have h4 : |q| / 2 ^ 53 ≤ |q| := div_le_self (abs_nonneg _) (one_le_pow₀ (by norm_num))
  generalize (1 : ℚ) / 2 ^ 1075 = u at *
  linarith

theorem near_bound {m n : Nat} {S E q : ℚ} (h : Near m n S E q) (hm : m ≤ 2 ^ 52) (hn : n ≤ 2 ^ 52) (hS : 0 ≤ S) (hE : |E| ≤ S) : |q| ≤ 2 * S + 1 := by
  unfold Near at h
  have h2 : |q| ≤ |q - E| + |E| := by
    calc |q| = |(q - E) + E| := by ring_nf
      _ ≤ _ := abs_add_le _ _
  have h3 : (m : ℚ) / 2 ^ 52 ≤ 1 := by
    rw [div_le_one (by positivity)]
    exact_mod_cast hm
  have h4 : (n : ℚ) / unit ≤ 1 := by
    rw [div_le_one unitQ_pos]
    have : n ≤ unit := by
      rw [unit_eq]
      exact hn.trans (Nat.pow_le_pow_right (by norm_num) (by omega))
    exact_mod_cast this
  have h5 : (m : ℚ) / 2 ^ 52 * S ≤ 1 * S := mul_le_mul_of_nonneg_right h3 hS
  generalize (n : ℚ) / unit = u at *
  generalize (m : ℚ) / 2 ^ 52 = v at *
  linarith

/-- multiply and add numbers of moderate size -/
theorem mulAdd_finite {P : Platform} (hP : P.MulAddOK) {v c a : F64} {x w b A : ℚ} (hv : IsVal v x) (hc : IsVal c w) (ha : IsVal a b)
    (hA : A ≤ 2 ^ 990) (h1 : |w * x| ≤ A) (h2 : |b| ≤ 2 * A + 1) : ∃ p, IsVal (P.mulAdd v c a) p := by
  have hA0 : 0 ≤ A := (abs_nonneg _).trans h1
  have h4 : 4 * A + 2 ≤ 2 ^ 1000 := by
    have e : (2 : ℚ) ^ 1000 = 2 ^ 10 * 2 ^ 990 := by rw [← pow_add]
    have e1 : (1 : ℚ) ≤ 2 ^ 990 := one_le_pow₀ (by norm_num)
    rw [e]
    clear e
    generalize (2 : ℚ) ^ 990 = B at *
    linarith
  have h1' : |x * w| ≤ A := (congrArg abs (mul_comm x w)).le.trans h1
  have h5 : A ≤ 2 ^ 1000 := _root_.le_trans (by linarith) h4
  clear hA
  rcases hP v c a with h | h
  · rw [h]
    have hm := IEEE_mul hv hc
    obtain ⟨p, hp⟩ := Rounded.finite hm (h1'.trans h5)
    have hb := Rounded.bound hm hp
    refine Rounded.finite (IEEE_add hp ha) (_root_.le_trans (abs_add_le _ _) (_root_.le_trans ?_ h4))
    clear h4 h5
    linarith
  · rw [h]
    refine Rounded.finite (IEEE_fma hv hc ha) (_root_.le_trans (abs_add_le _ _) (_root_.le_trans ?_ h4))
    clear h4 h5
    linarith

/-- a sum of products of moderate size is finite -/
theorem weighted_finite {P : Platform} (hP : P.MulAddOK) {v c : Nat → F64} {z : F64} {x w : Nat → ℚ} {b : ℚ} {n : Nat}
    (hn : n + 1 ≤ 2 ^ 52) (hv : ∀ i < n, IsVal (v i) (x i) ∧ IsVal (c i) (w i)) (hz : IsVal z b)
    (hS : |b| + ∑ i ∈ Finset.range n, |w i * x i| ≤ 2 ^ 990) :
    ∃ q, IsVal (accumulate (fun i acc => P.mulAdd (v i) (c i) acc) n z) q ∧
      Near (n + 1) n (|b| + ∑ i ∈ Finset.range n, |w i * x i|) (b + ∑ i ∈ Finset.range n, w i * x i) q := by
  suffices h : ∃ q, IsVal (accumulate (fun i acc => P.mulAdd (v i) (c i) acc) n z) q by
    obtain ⟨q, hq⟩ := h
    refine ⟨q, hq, ?_⟩
    obtain ⟨x', w', b', h1, h2, h3⟩ := near_weighted hP hn hq
    have e : ∀ i ∈ Finset.range n, w' i * x' i = w i * x i := by
      intro i hi
      have hi := Finset.mem_range.1 hi
      rw [IsVal.unique (h1 i hi).1 (hv i hi).1, IsVal.unique (h1 i hi).2 (hv i hi).2]
    rwa [IsVal.unique h2 hz, Finset.sum_congr rfl e, Finset.sum_congr rfl fun i hi => congrArg abs (e i hi)] at h3
  induction n with
  | zero => exact ⟨b, hz⟩
  | succ n ih =>
    rw [Finset.sum_range_succ] at hS
    have h0 := abs_nonneg (w n * x n)
    have hb0 := abs_nonneg b
    have hs0 := sum_abs_nonneg n fun i => w i * x i
    obtain ⟨q, hq⟩ := ih (by omega) (fun i hi => hv i (by omega)) (by
      generalize (2 : ℚ) ^ 990 = B at *
      linarith)
    obtain ⟨x', w', b', h1, h2, h3⟩ := near_weighted hP (by omega) hq
    have e : ∀ i ∈ Finset.range n, w' i * x' i = w i * x i := by
      intro i hi
      have hi := Finset.mem_range.1 hi
      rw [IsVal.unique (h1 i hi).1 (hv i (by omega)).1, IsVal.unique (h1 i hi).2 (hv i (by omega)).2]
    rw [IsVal.unique h2 hz, Finset.sum_congr rfl e, Finset.sum_congr rfl fun i hi => congrArg abs (e i hi)] at h3
    have hE : |b + ∑ i ∈ Finset.range n, w i * x i| ≤ |b| + ∑ i ∈ Finset.range n, |w i * x i| :=
      (abs_add_le _ _).trans (add_le_add le_rfl (Finset.abs_sum_le_sum_abs _ _))
    have h4 := near_bound h3 (by omega) (by omega) (add_nonneg hb0 hs0) hE
    rw [accumulate_snoc]
    obtain ⟨hvn, hcn⟩ := hv n (by omega)
    refine mulAdd_finite hP hvn hcn hq (A := |b| + ∑ i ∈ Finset.range n, |w i * x i| + |w n * x n|) (by rw [add_assoc]; exact hS) ?_ ?_
    · linarith
    · linarith

/-- a plain sum of numbers of moderate size is finite -/
theorem sum_finite {P : Platform} (hP : P.MulAddOK) {v : Nat → F64} {x : Nat → ℚ} {n : Nat} (hn : n + 1 ≤ 2 ^ 52)
    (hv : ∀ i < n, IsVal (v i) (x i)) (hS : ∑ i ∈ Finset.range n, |x i| ≤ 2 ^ 990) :
    ∃ q, IsVal (accumulate (fun i acc => P.mulAdd (v i) F64.one acc) n F64.zero) q ∧
      Near n 0 (∑ i ∈ Finset.range n, |x i|) (∑ i ∈ Finset.range n, x i) q := by
  obtain ⟨q, hq, -⟩ := weighted_finite hP (v := v) (c := fun _ => F64.one) (z := F64.zero) (x := x) (w := fun _ => 1) (b := 0) hn
    (fun i hi => ⟨hv i hi, val_one⟩) (isVal_iff.2 ⟨isFin_fin _ _ _, by rw [show magQ F64.zero = 0 from magQ_zero _ _, zero_div]⟩) (by simpa using hS)
  refine ⟨q, hq, ?_⟩
  obtain ⟨x', h1, h3⟩ := near_sum hP (by omega) hq
  have e : ∀ i ∈ Finset.range n, x' i = x i := fun i hi => IsVal.unique (h1 i (Finset.mem_range.1 hi)) (hv i (Finset.mem_range.1 hi))
  rwa [Finset.sum_congr rfl e, Finset.sum_congr rfl fun i hi => congrArg abs (e i hi)] at h3

end Leaves
