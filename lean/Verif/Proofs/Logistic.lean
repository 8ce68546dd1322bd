import Verif.Spec.Probability
import Verif.Proofs.F64Accuracy
import Verif.Proofs.IEEE
import Verif.Proofs.Decimal
import Mathlib.Analysis.SpecialFunctions.Sigmoid
import Mathlib.Analysis.Calculus.MeanValue
import Mathlib.Tactic.Positivity
import Mathlib.Tactic.FieldSimp
import Mathlib.Tactic.Linarith

/-! # Lemmas on the accuracy of the logistic transformation -/

namespace Leaves

open Spec F64

/-- the logistic function changes at most a quarter as much as its argument -/
theorem logisticFn_lipschitz (a b : ℝ) : |logisticFn a - logisticFn b| ≤ |a - b| / 4 := by
  have e : ∀ x, logisticFn x = Real.sigmoid x := fun x => by rw [logisticFn, Real.sigmoid_def, one_div]
  rw [e, e]
  have h := Convex.norm_image_sub_le_of_norm_deriv_le (f := Real.sigmoid) (C := 1 / 4) (s := Set.univ) (x := b) (y := a)
    (fun x _ => differentiableAt_sigmoid) (fun x _ => by
      rw [Real.deriv_sigmoid, Real.norm_eq_abs, abs_le]
      have h1 := Real.sigmoid_pos x
      have h2 := Real.sigmoid_lt_one x
      constructor
      · nlinarith
      · nlinarith [sq_nonneg (2 * Real.sigmoid x - 1)]) convex_univ trivial trivial
  rw [Real.norm_eq_abs, Real.norm_eq_abs] at h
  linarith

theorem logisticFn_pos (a : ℝ) : 0 < logisticFn a := by
  unfold logisticFn
  have := Real.exp_pos (-a)
  positivity

theorem logisticFn_le_one (a : ℝ) : logisticFn a ≤ 1 := by
  unfold logisticFn
  have := Real.exp_pos (-a)
  rw [div_le_one (by positivity)]
  linarith

/-- how errors of the exponential, of the sum and of the quotient add up -/
theorem sigmoid_error {E e ε u t D Z η : ℝ} (hE : 0 < E) (he : 0 ≤ e) (hε : 0 ≤ ε) (hε' : ε ≤ 1 / 2) (hu : 0 ≤ u) (hu' : u ≤ 1 / 1000)
    (ht : 0 ≤ t) (ht' : t ≤ 1 / 1000)
    (h1 : |e - E| ≤ ε * E + u) (h2 : |D - (1 + e)| ≤ (1 + e) * t) (h3 : |Z - 1 / D| ≤ 1 / D * t + η) :
    |Z - 1 / (1 + E)| ≤ (2 * ε + u + 9 * t) * (1 / (1 + E)) + η := by
  have hA : (0 : ℝ) < 1 + e := by linarith
  have hS : (0 : ℝ) < 1 + E := by linarith
  obtain ⟨a1, a2⟩ := abs_le.1 h1
  obtain ⟨b1, b2⟩ := abs_le.1 h2
  -- the exponential
  have k1 : |1 / (1 + e) - 1 / (1 + E)| ≤ (2 * ε + u) * (1 / (1 + E)) := by
    have e1 : 1 / (1 + e) - 1 / (1 + E) = (E - e) / (1 + e) * (1 / (1 + E)) := by field_simp; ring
    rw [e1, abs_mul, abs_of_pos (by positivity : (0 : ℝ) < 1 / (1 + E))]
    refine mul_le_mul_of_nonneg_right ?_ (by positivity)
    rw [abs_div, abs_of_pos hA, div_le_iff₀ hA, abs_sub_comm]
    refine h1.trans ?_
    have : E ≤ 2 * (1 + e) := by nlinarith
    nlinarith
  have k2 : 1 / (1 + e) ≤ 3 * (1 / (1 + E)) := by
    have := (abs_le.1 k1).2
    have h : (2 * ε + u) * (1 / (1 + E)) ≤ 2 * (1 / (1 + E)) := mul_le_mul_of_nonneg_right (by linarith) (by positivity)
    linarith
  -- the sum
  have hD : (1 + e) / 2 ≤ D := by nlinarith
  have hD0 : 0 < D := by linarith
  have k3 : 1 / D ≤ 2 * (1 / (1 + e)) := by
    rw [div_le_iff₀ hD0]
    have : 2 * (1 / (1 + e)) * D = 2 * D / (1 + e) := by ring
    rw [this, le_div_iff₀ hA]
    linarith
  have k4 : |1 / D - 1 / (1 + e)| ≤ 1 / D * t := by
    have e1 : 1 / D - 1 / (1 + e) = (1 + e - D) / (1 + e) * (1 / D) := by field_simp
    rw [e1, abs_mul, abs_of_pos (by positivity : (0 : ℝ) < 1 / D), mul_comm (1 / D) t]
    refine mul_le_mul_of_nonneg_right ?_ (by positivity)
    rw [abs_div, abs_of_pos hA, div_le_iff₀ hA, abs_sub_comm, mul_comm t]
    exact h2
  have k5 : 1 / D * t ≤ 6 * (1 / (1 + E)) * t := mul_le_mul_of_nonneg_right (by linarith) ht
  have k6 : 1 / D ≤ (1 + 2 * ε + u + 6 * t) * (1 / (1 + E)) := by
    have h := (abs_le.1 k4).2
    have h' := (abs_le.1 k1).2
    nlinarith
  have k7 : 1 / D * t ≤ (2 * t + u * t + 6 * t * t) * (1 / (1 + E)) := by
    have := mul_le_mul_of_nonneg_right k6 ht
    have h0 : 0 ≤ 1 / (1 + E) := by positivity
    nlinarith [mul_nonneg h0 ht]
  have k8 : 1 / D * t ≤ 3 * t * (1 / (1 + E)) := by
    refine k7.trans (mul_le_mul_of_nonneg_right ?_ (by positivity))
    nlinarith
  have tri : |Z - 1 / (1 + E)| ≤ |Z - 1 / D| + |1 / D - 1 / (1 + e)| + |1 / (1 + e) - 1 / (1 + E)| :=
    (abs_sub_le _ (1 / (1 + e)) _).trans (by linarith [abs_sub_le Z (1 / D) (1 / (1 + e))])
  have h0 : 0 ≤ 1 / (1 + E) := by positivity
  have : 0 ≤ t * (1 / (1 + E)) := mul_nonneg ht h0
  nlinarith

theorem unit_cast : (unit : ℚ) = 2 ^ 1074 := by rw [unit_eq, Nat.cast_pow, Nat.cast_ofNat]

/-- (with variables for the exponents, which are too large to compute the powers) -/
theorem inv_pow_le {K : Type} [Field K] [LinearOrder K] [IsStrictOrderedRing K] (a b : Nat) (h : a ≤ b) : (1 : K) / 2 ^ b ≤ 1 / 2 ^ a :=
  one_div_le_one_div_of_le (by positivity) (pow_le_pow_right₀ one_le_two h)

theorem half_scaled {K : Type} [Field K] [LinearOrder K] [IsStrictOrderedRing K] (n : Nat) : (1 : K) / 2 ^ (n + 1) * 2 ^ n = 1 / 2 := by
  have : (2 : K) ^ n ≠ 0 := by positivity
  rw [pow_succ]
  field_simp

theorem pow_add_lt {K : Type} [Field K] [LinearOrder K] [IsStrictOrderedRing K] (a b c : Nat) (h : 1 + a + b < c) :
    (2 : K) * (2 ^ a * 2 ^ b) < 2 ^ c := by
  rw [← pow_add, ← pow_succ']
  exact pow_lt_pow_right₀ one_lt_two (by omega)

/-- the error of a correctly rounded number -/
theorem Rounded.err {q p : ℚ} {x : F64} (h : Rounded q x) (hp : IsVal x p) : |p - q| ≤ |q| / 2 ^ 53 + 1 / 2 ^ 1075 := by
  by_cases hq : q = 0
  · subst hq
    rw [IsVal.unique hp (Rounded.zero h), sub_self, abs_zero]
    have := inv_pow_le (K := ℚ) 0 1075 (by omega)
    positivity
  have hq' : q * unit = if decide (q.num < 0) = true then -(((q.num.natAbs * unit : Nat) : ℚ) / q.den) else ((q.num.natAbs * unit : Nat) : ℚ) / q.den := by
    obtain ⟨e1, -⟩ := signed_natAbs q.num
    have e2 : q = (q.num : ℚ) / q.den := (Rat.num_div_den q).symm
    calc q * unit = (q.num : ℚ) / q.den * unit := by rw [← e2]
      _ = (if decide (q.num < 0) = true then -(q.num.natAbs : ℚ) else q.num.natAbs) / q.den * unit := by rw [e1]
      _ = _ := by push_cast; split <;> ring
  have hr := ofRatio_rounded q.den_pos hq'
  obtain rfl := Rounded.unique h hr hq
  obtain ⟨hfin, rfl⟩ := isVal_iff.1 hp
  have he := ofRatio_err q.den_pos hfin
  rw [← hq'] at he
  have ha := signed_abs hq' (by positivity)
  rw [← ha, abs_mul] at he
  have hpos : (0 : ℚ) < unit := by exact_mod_cast unit_pos
  rw [abs_of_pos hpos] at he
  have e3 : magQ (ofRatio (decide (q.num < 0)) (q.num.natAbs * unit) q.den) / unit - q =
      (magQ (ofRatio (decide (q.num < 0)) (q.num.natAbs * unit) q.den) - q * unit) / unit := by field_simp
  rw [e3, abs_div, abs_of_pos hpos, div_le_iff₀ hpos]
  refine he.trans (le_of_eq ?_)
  rw [add_mul, unit_cast, half_scaled 1074]
  ring

/-- small numbers do not overflow -/
theorem Rounded.finite {q : ℚ} {x : F64} (h : Rounded q x) (hq : |q| ≤ 2 ^ 1000) : ∃ p, IsVal x p := by
  obtain ⟨-, -, m, ⟨-, hm⟩, hx⟩ := h
  rcases hx with ⟨-, s, hs, rfl⟩ | ⟨hl, -⟩
  · exact ⟨_, isVal_of_isFin (isFin_fin _ _ _)⟩
  · exfalso
    have h1 := (hm 0 ⟨0, 0, by norm_num, by norm_num⟩).1
    have h2 : |q| * unit ≤ 2 ^ 1000 * 2 ^ 1074 := by
      rw [unit_cast]
      exact mul_le_mul_of_nonneg_right hq (pow_nonneg zero_le_two _)
    have h3 : (2 : ℚ) ^ 2098 ≤ m := by
      rw [magLimit_eq] at hl
      have : ((2 ^ 2098 : Nat) : ℚ) ≤ m := Nat.cast_le.2 hl
      rwa [Nat.cast_pow, Nat.cast_ofNat] at this
    have h6 := pow_add_lt (K := ℚ) 1000 1074 2098 (by omega)
    have h0 : 0 ≤ |q| * unit := mul_nonneg (abs_nonneg _) (Nat.cast_nonneg _)
    rw [Nat.cast_zero, zero_sub, abs_neg, abs_of_nonneg h0] at h1
    have h4 := (abs_le.1 h1).2
    generalize (2 : ℚ) ^ 1000 * 2 ^ 1074 = A at h2 h6
    generalize (2 : ℚ) ^ 2098 = B at h3 h6
    linarith

/-- … and what overflows is large -/
theorem Rounded.overflow {k : Nat} {q : ℚ} {x : F64} (hk : Rep k) (hq : q = 1 + k / unit) (h : Rounded q x) (hx : ¬ IsFin x) : (2 : ℚ) ^ 1024 ≤ q + 1 := by
  obtain ⟨-, -, m, ⟨-, hm⟩, hx'⟩ := h
  rcases hx' with ⟨-, s, hs, rfl⟩ | ⟨hl, -⟩
  · exact absurd (isFin_fin _ _ _) hx
  · have hu : (0 : ℚ) < unit := by exact_mod_cast unit_pos
    have h1 := (hm k (rep_digits53 hk)).1
    have h3 : (2 : ℚ) ^ 1024 * unit ≤ m := by
      rw [magLimit_eq] at hl
      have : ((2 ^ 2098 : Nat) : ℚ) ≤ m := Nat.cast_le.2 hl
      rw [Nat.cast_pow, Nat.cast_ofNat] at this
      rwa [unit_cast, ← pow_add]
    have hq0 : 0 ≤ q := by rw [hq]; positivity
    have e : (k : ℚ) - q * unit = -unit := by rw [hq]; field_simp; ring
    rw [abs_of_nonneg hq0, e, abs_neg, abs_of_pos hu] at h1
    have h4 := (abs_le.1 h1).2
    generalize (2 : ℚ) ^ 1024 = A at h3 ⊢
    have : A * unit ≤ (q + 1) * unit := by linarith
    exact le_of_mul_le_mul_right this hu

theorem neg_val {x : F64} {q : ℚ} (h : IsVal x q) : IsVal x.neg (-q) := by
  obtain ⟨⟨s, m, hm, rfl⟩, rfl⟩ := isVal_iff.1 h
  refine isVal_iff.2 ⟨isFin_fin _ _ _, ?_⟩
  cases s <;> simp [F64.neg, magQ, toInt, neg_div]

theorem val_one : IsVal F64.one 1 := isVal_iff.2 ⟨isFin_fin _ _ _, by
  have hu : (unit : ℚ) ≠ 0 := by exact_mod_cast unit_pos.ne'
  rw [eq_div_iff hu]
  simp [F64.one, magQ, toInt]⟩

theorem one_div_inf (s : Bool) : IsVal (F64.div F64.one (F64.inf s)) 0 := by
  refine isVal_iff.2 ⟨isFin_fin _ _ _, ?_⟩
  have : magQ (F64.div F64.one (F64.inf s)) = 0 := magQ_zero _ _
  rw [this, zero_div]

/-- the result 0 is accurate for a large exponential -/
theorem sigmoid_small {B E c : ℝ} (hB : 0 < B) (hE : B ≤ E) (hc : 0 ≤ c) : |((0 : ℚ) : ℝ) - 1 / (1 + E)| ≤ c * (1 / (1 + E)) + 1 / B := by
  have h1 : 1 / (1 + E) ≤ 1 / B := one_div_le_one_div_of_le hB (by linarith)
  have h2 : 0 ≤ 1 / (1 + E) := by
    have : 0 < E := by linarith
    positivity
  rw [Rat.cast_zero, zero_sub, abs_neg, abs_of_nonneg h2]
  have : 0 ≤ c * (1 / (1 + E)) := by positivity
  linarith

theorem cast_abs_le {a b : ℚ} (h : |a| ≤ b) : |(a : ℝ)| ≤ b := by
  rw [← Rat.cast_abs]
  exact Rat.cast_le.2 h

theorem pow_third (n : Nat) : (2 : ℝ) ^ n * 4 = 2 ^ (n + 2) := by rw [pow_add]; norm_num

/-- the logistic transformation of a number -/
theorem logistic_val {P : Platform} {ε : ℝ} (hε : 0 ≤ ε) (hε' : ε ≤ 1 / 2) (hP : ExpAccurate P ε) {x : F64} {q : ℚ} (hx : IsVal x q) :
    ∃ p, IsVal (F64.div F64.one (F64.add F64.one (P.exp x.neg))) p ∧
      |(p : ℝ) - logisticFn q| ≤ (2 * ε + 1 / 2 ^ 48) * logisticFn q + 1 / 2 ^ 1022 := by
  have hc : 0 ≤ 2 * ε + 1 / 2 ^ 48 := by positivity
  have hB : (0 : ℝ) < 2 ^ 1022 := pow_pos two_pos _
  have hu : (1 : ℝ) / 2 ^ 1074 ≤ 1 / 2 ^ 50 := inv_pow_le _ _ (by omega)
  have hu0 : (0 : ℝ) ≤ 1 / 2 ^ 1074 := one_div_nonneg.2 (pow_nonneg zero_le_two _)
  have hη : (1 : ℝ) / 2 ^ 1075 ≤ 1 / 2 ^ 1022 := inv_pow_le _ _ (by omega)
  have hη' : (1 : ℚ) / 2 ^ 1075 ≤ 1 / 2 ^ 53 := inv_pow_le _ _ (by omega)
  unfold logisticFn
  rcases hP x.neg (-q) (neg_val hx) with ⟨e, h1, h2, h3⟩ | ⟨h1, h2⟩
  · have hr := IEEE_add val_one h1
    rw [Rat.cast_neg] at h3
    have hE := Real.exp_pos (-(q : ℝ))
    generalize Real.exp (-(q : ℝ)) = E at hE h3 ⊢
    generalize (1 : ℝ) / 2 ^ 1074 = u at h3 hu hu0
    have h2' : (0 : ℝ) ≤ e := by exact_mod_cast h2
    by_cases hfin : IsFin (add F64.one (P.exp x.neg))
    · have hD := isVal_of_isFin hfin
      have hadd := Rounded.err hr hD
      generalize magQ (add F64.one (P.exp x.neg)) / (unit : ℚ) = D at hD hadd
      rw [abs_of_pos (by linarith : (0 : ℚ) < 1 + e)] at hadd
      have hadd' : |D - (1 + e)| ≤ (1 + e) * (1 / 2 ^ 52) := by
        generalize (1 : ℚ) / 2 ^ 1075 = η at hadd hη'
        refine hadd.trans ?_
        have h5 : (1 : ℚ) / 2 ^ 53 ≤ (1 + e) * (1 / 2 ^ 53) := by
          have : (0 : ℚ) ≤ e * (1 / 2 ^ 53) := by positivity
          linarith
        linarith
      have hDpos : (1 : ℚ) / 2 ≤ D := by
        have := (abs_le.1 hadd').1
        nlinarith
      have hdiv := IEEE_div val_one hD (by linarith)
      have hDi : 1 / D ≤ 2 := by rw [div_le_iff₀ (by linarith)]; linarith
      have hDn : 0 < 1 / D := by
        have : 0 < D := by linarith
        positivity
      obtain ⟨p, hp⟩ := Rounded.finite hdiv (by
        rw [abs_of_pos hDn]
        exact hDi.trans ((pow_one (2 : ℚ)).symm.le.trans (pow_le_pow_right₀ one_le_two (by omega))))
      have hdiv' := Rounded.err hdiv hp
      rw [abs_of_pos hDn] at hdiv'
      refine ⟨p, hp, ?_⟩
      have h6 : |(p : ℝ) - 1 / D| ≤ 1 / D * (1 / 2 ^ 52) + 1 / 2 ^ 1075 := by
        have h7 := cast_abs_le hdiv'
        have e7 : (((1 : ℚ) / 2 ^ 1075 : ℚ) : ℝ) = 1 / 2 ^ 1075 := by
          rw [Rat.cast_div, Rat.cast_pow, Rat.cast_one, Rat.cast_ofNat]
        rw [Rat.cast_sub, Rat.cast_add, e7, Rat.cast_div (1 / D), Rat.cast_div 1 D, Rat.cast_pow, Rat.cast_one, Rat.cast_ofNat] at h7
        have hDn' : (0 : ℝ) < 1 / D := by exact_mod_cast hDn
        have : (1 : ℝ) / D * (1 / 2 ^ 53) ≤ 1 / D * (1 / 2 ^ 52) := mul_le_mul_of_nonneg_left (by norm_num) hDn'.le
        generalize (1 : ℝ) / 2 ^ 1075 = η at h7
        linarith
      have k := sigmoid_error (E := E) (e := e) (ε := ε) (u := u) (t := 1 / 2 ^ 52) (D := D) (Z := p)
        hE h2' hε hε' hu0 (hu.trans (by norm_num)) (by positivity) (by norm_num) h3 (by have h8 := cast_abs_le hadd'; push_cast at h8; exact h8) h6
      refine k.trans (add_le_add (mul_le_mul_of_nonneg_right ?_ (by positivity)) hη)
      have : (1 : ℝ) / 2 ^ 50 + 9 * (1 / 2 ^ 52) ≤ 1 / 2 ^ 48 := by norm_num
      linarith
    · refine ⟨0, ?_, ?_⟩
      · obtain ⟨s, m, hm, hx1, -⟩ := isVal_scaled h1
        have : ∃ s, add F64.one (P.exp x.neg) = inf s := by
          obtain ⟨-, -, m, -, ⟨-, s, hs, hh⟩ | ⟨-, s, hh⟩⟩ := hr
          · exact absurd (hh ▸ isFin_fin _ _ _) hfin
          · exact ⟨s, hh⟩
        obtain ⟨s, hs⟩ := this
        rw [hs]
        exact one_div_inf _
      · obtain ⟨s, m, hm, hx1, hx2, hx3⟩ := isVal_scaled h1
        have hunit : (0 : ℚ) < unit := by exact_mod_cast unit_pos
        have he : e = m / unit := by
          rw [eq_div_iff hunit.ne', hx2, hx3]
          cases s
          · rfl
          · have : (0 : ℚ) ≤ -(m : ℚ) := by
              rw [hx3, if_pos rfl] at hx2
              rw [← hx2]
              positivity
            have : (m : ℚ) = 0 := le_antisymm (by linarith) (by positivity)
            simp [this]
        have hov := Rounded.overflow hm (by rw [he]) hr hfin
        have hov' : (((2 : ℚ) ^ 1024 : ℚ) : ℝ) ≤ ((1 + e + 1 : ℚ) : ℝ) := Rat.cast_le.2 hov
        rw [Rat.cast_pow, Rat.cast_ofNat, Rat.cast_add, Rat.cast_add, Rat.cast_one] at hov'
        have hp4 := pow_third 1022
        have h4 : (4 : ℝ) ≤ 2 ^ 1022 := by
          have : (2 : ℝ) ^ 2 ≤ 2 ^ 1022 := pow_le_pow_right₀ one_le_two (by omega)
          exact _root_.le_trans (by norm_num) this
        refine sigmoid_small hB ?_ hc
        rw [← hp4] at hov'
        generalize (2 : ℝ) ^ 1022 = B at hov' h4 ⊢
        have h9 := (abs_le.1 h3).2
        have h10 : ε * E ≤ 1 / 2 * E := mul_le_mul_of_nonneg_right hε' hE.le
        have h11 : u ≤ 1 := hu.trans (by norm_num)
        linarith
  · refine ⟨0, ?_, ?_⟩
    · rw [h1]; exact one_div_inf _
    · refine sigmoid_small hB ?_ hc
      rw [Rat.cast_neg] at h2
      exact _root_.le_trans (pow_le_pow_right₀ one_le_two (by omega)) h2

end Leaves
