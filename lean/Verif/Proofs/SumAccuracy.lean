import Verif.Proofs.F64Accuracy
import Mathlib.Algebra.BigOperators.Field

/-! The scores of an ensemble are sums; how far they are from the exact sums. -/

namespace Leaves
open F64 Spec

theorem unitQ_pos : (0 : ℚ) < unit := by exact_mod_cast unit_pos

/-- from scaled errors to `Near` -/
theorem near_scale {Q E S : ℚ} {m m' n : Nat}
    (h : |Q - E| ≤ ((1 + 1 / 2 ^ 53) ^ m - 1) * S + n / 2 * (1 + 1 / 2 ^ 53) ^ m') (hm : m ≤ 2 ^ 52) (hm' : m' ≤ 2 ^ 52) (hS : 0 ≤ S) :
    Near m n (S / unit) (E / unit) (Q / unit) := by
  have hu := unitQ_pos
  have g1 := growth_le m hm
  have g2 := growth_le m' hm'
  have g3 : (m' : ℚ) / 2 ^ 52 ≤ 1 := by
    rw [div_le_one (by positivity)]
    exact_mod_cast hm'
  have hn : (0 : ℚ) ≤ n := Nat.cast_nonneg n
  unfold Near
  rw [← sub_div, abs_div, abs_of_pos hu, div_le_iff₀ hu]
  have e : ((m : ℚ) / 2 ^ 52 * (S / unit) + n / unit) * unit = m / 2 ^ 52 * S + n := by field_simp
  rw [e]
  generalize ((1 : ℚ) + 1 / 2 ^ 53) ^ m = a at *
  generalize ((1 : ℚ) + 1 / 2 ^ 53) ^ m' = b at *
  generalize (m : ℚ) / 2 ^ 52 = c at *
  have h1 : (a - 1) * S ≤ c * S := mul_le_mul_of_nonneg_right (by linarith) hS
  have h2 : (n : ℚ) / 2 * b ≤ n / 2 * 2 := mul_le_mul_of_nonneg_left (by linarith) (by linarith)
  linarith

theorem sum_abs_nonneg (n : Nat) (f : Nat → ℚ) : 0 ≤ ∑ i ∈ Finset.range n, |f i| :=
  Finset.sum_nonneg fun _ _ => abs_nonneg _

/-- a plain sum of floats -/
theorem near_sum {P : Platform} (hP : P.MulAddOK) {v : Nat → F64} {n : Nat} {q : ℚ} (hn : n ≤ 2 ^ 52)
    (h : IsVal (accumulate (fun i acc => P.mulAdd (v i) F64.one acc) n F64.zero) q) :
    ∃ x : Nat → ℚ, (∀ i < n, IsVal (v i) (x i)) ∧
      Near n 0 (∑ i ∈ Finset.range n, |x i|) (∑ i ∈ Finset.range n, x i) q := by
  simp only [hP.one] at h
  obtain ⟨hf, rfl⟩ := isVal_iff.1 h
  obtain ⟨⟨-, hv⟩, he⟩ := accumulate_add_err v F64.zero n hf
  refine ⟨fun i => magQ (v i) / unit, fun i hi => isVal_of_isFin (hv i hi), ?_⟩
  have hz : magQ F64.zero = 0 := magQ_zero _ _
  rw [hz] at he
  simp only [abs_zero, zero_add] at he
  have := near_scale (m' := 0) (n := 0) (by simpa using he) hn (by omega) (sum_abs_nonneg n _)
  simp only [abs_div, abs_of_pos unitQ_pos]
  rwa [← Finset.sum_div, ← Finset.sum_div]

/-- a sum of products of floats -/
theorem near_weighted {P : Platform} (hP : P.MulAddOK) {v c : Nat → F64} {z : F64} {n : Nat} {q : ℚ} (hn : n + 1 ≤ 2 ^ 52)
    (h : IsVal (accumulate (fun i acc => P.mulAdd (v i) (c i) acc) n z) q) :
    ∃ (x w : Nat → ℚ) (b : ℚ), (∀ i < n, IsVal (v i) (x i) ∧ IsVal (c i) (w i)) ∧ IsVal z b ∧
      Near (n + 1) n (|b| + ∑ i ∈ Finset.range n, |w i * x i|) (b + ∑ i ∈ Finset.range n, w i * x i) q := by
  obtain ⟨hf, rfl⟩ := isVal_iff.1 h
  obtain ⟨⟨hz, hv⟩, he⟩ := accumulate_err hP v c z n hf
  refine ⟨fun i => magQ (v i) / unit, fun i => magQ (c i) / unit, magQ z / unit,
    fun i hi => ⟨isVal_of_isFin (hv i hi).1, isVal_of_isFin (hv i hi).2⟩, isVal_of_isFin hz, ?_⟩
  have hS : 0 ≤ |magQ z| + ∑ i ∈ Finset.range n, |magQ (v i) * magQ (c i) / unit| :=
    add_nonneg (abs_nonneg _) (sum_abs_nonneg n _)
  have := near_scale he hn (by omega) hS
  have e : ∀ i, magQ (c i) / unit * (magQ (v i) / unit) = magQ (v i) * magQ (c i) / unit / (unit : ℚ) := fun i => by ring
  simp only [e, abs_div _ (unit : ℚ), abs_of_pos unitQ_pos]
  simp only [abs_div _ (unit : ℚ), abs_of_pos unitQ_pos] at this
  simp only [add_div, Finset.sum_div] at this ⊢
  exact this

/-- the bias of a linear model is itself a rounded sum -/
theorem near_biased {P : Platform} (hP : P.MulAddOK) {v c : Nat → F64} {z z' : F64} {n : Nat} {q : ℚ} (hn : n + 2 ≤ 2 ^ 52)
    (h : IsVal (accumulate (fun i acc => P.mulAdd (v i) (c i) acc) n (F64.add z z')) q) :
    ∃ (x w : Nat → ℚ) (b b' : ℚ), (∀ i < n, IsVal (v i) (x i) ∧ IsVal (c i) (w i)) ∧ IsVal z b ∧ IsVal z' b' ∧
      Near (n + 2) n (|b| + |b'| + ∑ i ∈ Finset.range n, |w i * x i|) (b + b' + ∑ i ∈ Finset.range n, w i * x i) q := by
  obtain ⟨hf, rfl⟩ := isVal_iff.1 h
  obtain ⟨⟨hz, hv⟩, he⟩ := accumulate_err hP v c _ n hf
  obtain ⟨hz1, hz2⟩ := isFin_add hz
  have ha := add_err' hz
  refine ⟨fun i => magQ (v i) / unit, fun i => magQ (c i) / unit, magQ z / unit, magQ z' / unit,
    fun i hi => ⟨isVal_of_isFin (hv i hi).1, isVal_of_isFin (hv i hi).2⟩, isVal_of_isFin hz1, isVal_of_isFin hz2, ?_⟩
  have hS := sum_abs_nonneg n fun i => magQ (v i) * magQ (c i) / unit
  have he' : |magQ (accumulate (fun i acc => P.mulAdd (v i) (c i) acc) n (F64.add z z')) -
      (magQ z + magQ z' + ∑ i ∈ Finset.range n, magQ (v i) * magQ (c i) / unit)| ≤
      ((1 + 1 / 2 ^ 53) ^ (n + 2) - 1) * (|magQ z| + |magQ z'| + ∑ i ∈ Finset.range n, |magQ (v i) * magQ (c i) / unit|) +
        n / 2 * (1 + 1 / 2 ^ 53) ^ n := by
    generalize magQ (accumulate (fun i acc => P.mulAdd (v i) (c i) acc) n (F64.add z z')) = r at *
    generalize magQ (F64.add z z') = a at *
    generalize magQ z = b at *
    generalize magQ z' = b' at *
    generalize ∑ i ∈ Finset.range n, magQ (v i) * magQ (c i) / unit = s at *
    generalize ∑ i ∈ Finset.range n, |magQ (v i) * magQ (c i) / unit| = S at *
    have h0 := abs_add_le b b'
    have h1 : |a| ≤ |a - (b + b')| + |b + b'| := by
      calc |a| = |(a - (b + b')) + (b + b')| := by ring_nf
        _ ≤ _ := abs_add_le _ _
    have h2 : |r - (b + b' + s)| ≤ |r - (a + s)| + |a - (b + b')| := by
      calc |r - (b + b' + s)| = |(r - (a + s)) + (a - (b + b'))| := by ring_nf
        _ ≤ _ := abs_add_le _ _
    have g : (1 : ℚ) ≤ (1 + 1 / 2 ^ 53) ^ (n + 1) := one_le_pow₀ (by norm_num)
    have p1 : ((1 : ℚ) + 1 / 2 ^ 53) ^ (n + 2) = (1 + 1 / 2 ^ 53) ^ (n + 1) * (1 + 1 / 2 ^ 53) := pow_succ _ _
    rw [p1]
    generalize ((1 : ℚ) + 1 / 2 ^ 53) ^ (n + 1) = G at *
    have h3 : |a| ≤ (1 + 1 / 2 ^ 53) * (|b| + |b'|) := by linarith
    have h4 := mul_le_mul_of_nonneg_left h3 (show 0 ≤ G - 1 by linarith)
    have h5 : (G - 1) * S ≤ (G * (1 + 1 / 2 ^ 53) - 1) * S := mul_le_mul_of_nonneg_right (by linarith) hS
    linarith
  have := near_scale he' hn (by omega) (add_nonneg (add_nonneg (abs_nonneg _) (abs_nonneg _)) hS)
  have e : ∀ i, magQ (c i) / unit * (magQ (v i) / unit) = magQ (v i) * magQ (c i) / unit / (unit : ℚ) := fun i => by ring
  simp only [e, abs_div _ (unit : ℚ), abs_of_pos unitQ_pos]
  simp only [abs_div _ (unit : ℚ), abs_of_pos unitQ_pos] at this
  simp only [add_div, Finset.sum_div] at this ⊢
  exact this

/-- the values added up are themselves rounded: `x * l` plus a start value for the first -/
theorem near_scaled {P : Platform} (hP : P.MulAddOK) {v : Nat → F64} {l p : F64} {n : Nat} {q : ℚ} (hn : n + 2 ≤ 2 ^ 52) (h1 : 1 ≤ n)
    (h : IsVal (accumulate (fun i acc => P.mulAdd (P.mulAdd (v i) l (if i = 0 then p else F64.zero)) F64.one acc) n F64.zero) q) :
    ∃ (x : Nat → ℚ) (b w : ℚ), (∀ i < n, IsVal (v i) (x i)) ∧ IsVal l w ∧ IsVal p b ∧
      Near (n + 2) n (|b| + ∑ i ∈ Finset.range n, |w * x i|) (b + ∑ i ∈ Finset.range n, w * x i) q := by
  simp only [hP.one] at h
  obtain ⟨hf, rfl⟩ := isVal_iff.1 h
  obtain ⟨⟨-, hv⟩, he⟩ := accumulate_add_err (fun i => P.mulAdd (v i) l (if i = 0 then p else F64.zero)) F64.zero n hf
  have hm := fun i hi => mulAdd_err hP (hv i hi)
  have hz : magQ F64.zero = 0 := magQ_zero _ _
  refine ⟨fun i => magQ (v i) / unit, magQ p / unit, magQ l / unit, fun i hi => isVal_of_isFin (hm i hi).1.1,
    isVal_of_isFin (hm 0 h1).1.2.1, isVal_of_isFin (by simpa using (hm 0 h1).1.2.2), ?_⟩
  have hb : ∀ i, magQ (if i = 0 then p else F64.zero) = if i = 0 then magQ p else 0 := by
    intro i; split
    · rfl
    · exact hz
  have hm2 : ∀ i < n, |magQ (P.mulAdd (v i) l (if i = 0 then p else F64.zero)) -
        (magQ (v i) * magQ l / unit + if i = 0 then magQ p else 0)| ≤
      ((1 + 1 / 2 ^ 53) ^ 2 - 1) * (|magQ (v i) * magQ l / unit| + if i = 0 then |magQ p| else 0) + (1 + 1 / 2 ^ 53) / 2 := by
    intro i hi
    have := (hm i hi).2
    rw [hb i] at this
    refine _root_.le_trans this ?_
    have : |if i = 0 then magQ p else 0| = if i = 0 then |magQ p| else 0 := by split <;> simp
    rw [this]
    have h0 : (0 : ℚ) ≤ if i = 0 then |magQ p| else 0 := by split <;> positivity
    generalize (if i = 0 then |magQ p| else (0 : ℚ)) = b at *
    linarith
  have hm3 : ∀ i < n, |magQ (P.mulAdd (v i) l (if i = 0 then p else F64.zero))| ≤
      (1 + 1 / 2 ^ 53) ^ 2 * (|magQ (v i) * magQ l / unit| + if i = 0 then |magQ p| else 0) + (1 + 1 / 2 ^ 53) / 2 := by
    intro i hi
    have h1 := hm2 i hi
    have e : |if i = 0 then magQ p else 0| = if i = 0 then |magQ p| else 0 := by split <;> simp
    have h2 := abs_add_le (magQ (v i) * magQ l / unit) (if i = 0 then magQ p else 0)
    rw [e] at h2
    generalize (if i = 0 then |magQ p| else (0 : ℚ)) = B at *
    generalize magQ (v i) * magQ l / unit + (if i = 0 then magQ p else 0) = t at *
    generalize magQ (P.mulAdd (v i) l (if i = 0 then p else F64.zero)) = r at *
    have : |r| ≤ |r - t| + |t| := by
      calc |r| = |(r - t) + t| := by ring_nf
        _ ≤ _ := abs_add_le _ _
    linarith
  have hc : ∑ i ∈ Finset.range n, ((1 + 1 / 2 ^ 53) / 2 : ℚ) = n * ((1 + 1 / 2 ^ 53) / 2) := by
    rw [Finset.sum_const, Finset.card_range, nsmul_eq_mul]
  have hB : ∀ b : ℚ, ∑ i ∈ Finset.range n, (if i = 0 then b else 0) = b := by
    intro b
    rw [Finset.sum_ite_eq' (Finset.range n) 0 fun _ => b, if_pos (Finset.mem_range.2 h1)]
  have s2 : |∑ i ∈ Finset.range n, magQ (P.mulAdd (v i) l (if i = 0 then p else F64.zero)) -
      (magQ p + ∑ i ∈ Finset.range n, magQ (v i) * magQ l / unit)| ≤
      ((1 + 1 / 2 ^ 53) ^ 2 - 1) * (|magQ p| + ∑ i ∈ Finset.range n, |magQ (v i) * magQ l / unit|) + n * ((1 + 1 / 2 ^ 53) / 2) := by
    have e : ∑ i ∈ Finset.range n, magQ (P.mulAdd (v i) l (if i = 0 then p else F64.zero)) -
        (magQ p + ∑ i ∈ Finset.range n, magQ (v i) * magQ l / unit) =
        ∑ i ∈ Finset.range n, (magQ (P.mulAdd (v i) l (if i = 0 then p else F64.zero)) -
          (magQ (v i) * magQ l / unit + if i = 0 then magQ p else 0)) := by
      rw [Finset.sum_sub_distrib, Finset.sum_add_distrib, hB]; ring
    rw [e]
    refine _root_.le_trans (Finset.abs_sum_le_sum_abs _ _) ?_
    refine _root_.le_trans (Finset.sum_le_sum fun i hi => hm2 i (Finset.mem_range.1 hi)) (le_of_eq ?_)
    rw [Finset.sum_add_distrib, hc, ← Finset.mul_sum, Finset.sum_add_distrib, hB]
    ring
  have s3 : ∑ i ∈ Finset.range n, |magQ (P.mulAdd (v i) l (if i = 0 then p else F64.zero))| ≤
      (1 + 1 / 2 ^ 53) ^ 2 * (|magQ p| + ∑ i ∈ Finset.range n, |magQ (v i) * magQ l / unit|) + n * ((1 + 1 / 2 ^ 53) / 2) := by
    refine _root_.le_trans (Finset.sum_le_sum fun i hi => hm3 i (Finset.mem_range.1 hi)) (le_of_eq ?_)
    rw [Finset.sum_add_distrib, hc, ← Finset.mul_sum, Finset.sum_add_distrib, hB]
    ring
  have hS := sum_abs_nonneg n fun i => magQ (v i) * magQ l / unit
  have he' : |magQ (accumulate (fun i acc => F64.add acc (P.mulAdd (v i) l (if i = 0 then p else F64.zero))) n F64.zero) -
      (magQ p + ∑ i ∈ Finset.range n, magQ (v i) * magQ l / unit)| ≤
      ((1 + 1 / 2 ^ 53) ^ (n + 2) - 1) * (|magQ p| + ∑ i ∈ Finset.range n, |magQ (v i) * magQ l / unit|) +
        n / 2 * (1 + 1 / 2 ^ 53) ^ (n + 1) := by
    rw [hz] at he
    simp only [abs_zero, zero_add] at he
    generalize magQ (accumulate (fun i acc => F64.add acc (P.mulAdd (v i) l (if i = 0 then p else F64.zero))) n F64.zero) = r at *
    generalize ∑ i ∈ Finset.range n, magQ (P.mulAdd (v i) l (if i = 0 then p else F64.zero)) = a at *
    generalize ∑ i ∈ Finset.range n, |magQ (P.mulAdd (v i) l (if i = 0 then p else F64.zero))| = A at *
    generalize ∑ i ∈ Finset.range n, magQ (v i) * magQ l / unit = s at *
    generalize ∑ i ∈ Finset.range n, |magQ (v i) * magQ l / unit| = S at *
    generalize magQ p = b at *
    have h2 : |r - (b + s)| ≤ |r - a| + |a - (b + s)| := by
      calc |r - (b + s)| = |(r - a) + (a - (b + s))| := by ring_nf
        _ ≤ _ := abs_add_le _ _
    have g : (1 : ℚ) ≤ (1 + 1 / 2 ^ 53) ^ n := one_le_pow₀ (by norm_num)
    have p1 : ((1 : ℚ) + 1 / 2 ^ 53) ^ (n + 2) = (1 + 1 / 2 ^ 53) ^ n * (1 + 1 / 2 ^ 53) ^ 2 := pow_add _ _ _
    have p2 : ((1 : ℚ) + 1 / 2 ^ 53) ^ (n + 1) = (1 + 1 / 2 ^ 53) ^ n * (1 + 1 / 2 ^ 53) := pow_succ _ _
    rw [p1, p2]
    generalize ((1 : ℚ) + 1 / 2 ^ 53) ^ n = G at *
    have h4 := mul_le_mul_of_nonneg_left s3 (show 0 ≤ G - 1 by linarith)
    linarith
  have := near_scale he' hn (by omega) (add_nonneg (abs_nonneg _) hS)
  have e : ∀ i, magQ l / unit * (magQ (v i) / unit) = magQ (v i) * magQ l / unit / (unit : ℚ) := fun i => by ring
  simp only [e, abs_div _ (unit : ℚ), abs_of_pos unitQ_pos]
  simp only [abs_div _ (unit : ℚ), abs_of_pos unitQ_pos] at this
  simp only [add_div, Finset.sum_div] at this ⊢
  exact this

/-- Numbers of the normal range are rounded with a relative error only. -/
theorem roundMag_err_normal {n d : Nat} (hd : 0 < d) (h : 2 ^ 52 * d ≤ n) :
    |(roundMag n d : ℚ) - n / d| ≤ (n / d : ℚ) / 2 ^ 53 := by
  obtain ⟨h1, h2⟩ := roundMag_half (n := n) hd
  have hD : 2 ^ 52 * (d * 2 ^ ulpExp n d) ≤ n := by
    rcases Nat.eq_zero_or_pos (ulpExp n d) with h0 | hpos
    · rw [h0, pow_zero, Nat.mul_one]; exact h
    · have h1 := (Nat.le_div_iff_mul_le hd).1 (pow_le_div_of_ulpExp_pos hpos)
      rw [Nat.pow_add] at h1
      calc 2 ^ 52 * (d * 2 ^ ulpExp n d) = 2 ^ 52 * 2 ^ ulpExp n d * d := by ring
        _ ≤ n := h1
  generalize d * 2 ^ ulpExp n d = D at *
  generalize roundMag n d = r at *
  have h1 : (2 * n : ℚ) ≤ 2 * (r * d) + D := by exact_mod_cast h1
  have h2 : (2 * (r * d) : ℚ) ≤ 2 * n + D := by exact_mod_cast h2
  have hD : (2 ^ 52 * D : ℚ) ≤ n := by exact_mod_cast hD
  have hd' : (0 : ℚ) < d := by exact_mod_cast hd
  rw [abs_le]
  have e : (n / d : ℚ) * d = n := by field_simp
  generalize (n / d : ℚ) = x at *
  rw [← e] at h1 h2 hD
  constructor <;> refine le_of_mul_le_mul_right ?_ hd' <;> nlinarith

/-- the factor of an averaging model -/
theorem reciprocal_err {n : Nat} (h1 : 1 ≤ n) (hn : n ≤ 2 ^ 52) (h : IsFin (F64.div F64.one (F64.ofNat n))) :
    |magQ (F64.div F64.one (F64.ofNat n)) - unit / n| ≤ (unit / n : ℚ) / 2 ^ 53 := by
  have hn' : n ≤ 2 ^ 53 := _root_.le_trans hn (by norm_num)
  have hne : n * unit ≠ 0 := (Nat.mul_pos h1 unit_pos).ne'
  have e : F64.div F64.one (F64.ofNat n) = ofRatio false (unit * unit) (n * unit) := by
    rw [ofNat_eq hn', one]
    show (if n * unit = 0 then _ else _) = _
    rw [if_neg hne]
    rfl
  have hbig : 2 ^ 52 * (n * unit) ≤ unit * unit := by
    rw [← Nat.mul_assoc]
    refine Nat.mul_le_mul_right _ ?_
    calc 2 ^ 52 * n ≤ 2 ^ 52 * 2 ^ 52 := Nat.mul_le_mul_left _ hn
      _ = 2 ^ 104 := by norm_num
      _ ≤ unit := by rw [unit_eq]; exact Nat.pow_le_pow_right (by norm_num) (by norm_num)
  have key := roundMag_err_normal (n := unit * unit) (Nat.pos_of_ne_zero hne) hbig
  have hu := unitQ_pos.ne'
  have hq : ((unit * unit : Nat) : ℚ) / ((n * unit : Nat) : ℚ) = unit / n := by
    push_cast
    rw [mul_div_mul_right _ _ hu]
  rw [hq] at key
  rw [e] at h ⊢
  unfold ofRatio at h ⊢
  by_cases hl : roundMag (unit * unit) (n * unit) < magLimit
  · rw [dif_pos hl]
    simpa [magQ, toInt] using key
  · rw [dif_neg hl] at h
    obtain ⟨_, _, _, h⟩ := h
    cases h

/-- an average of floats -/
theorem near_average {P : Platform} (hP : P.MulAddOK) {v : Nat → F64} {n : Nat} {q : ℚ} (h1 : 1 ≤ n) (hn : n + 2 ≤ 2 ^ 52)
    (h : IsVal (accumulate (fun i acc => P.mulAdd (v i) (F64.div F64.one (F64.ofNat n)) acc) n F64.zero) q) :
    ∃ x : Nat → ℚ, (∀ i < n, IsVal (v i) (x i)) ∧
      Near (n + 2) n ((∑ i ∈ Finset.range n, |x i|) / n) ((∑ i ∈ Finset.range n, x i) / n) q := by
  obtain ⟨hf, rfl⟩ := isVal_iff.1 h
  obtain ⟨⟨hz, hv⟩, he⟩ := accumulate_err hP v (fun _ => F64.div F64.one (F64.ofNat n)) F64.zero n hf
  refine ⟨fun i => magQ (v i) / unit, fun i hi => isVal_of_isFin (hv i hi).1, ?_⟩
  have hc := reciprocal_err h1 (by omega) (hv 0 h1).2
  have hz : magQ F64.zero = 0 := magQ_zero _ _
  rw [hz] at he
  simp only [abs_zero, zero_add] at he
  have hS := sum_abs_nonneg n fun i => magQ (v i)
  have hT : |∑ i ∈ Finset.range n, magQ (v i)| ≤ ∑ i ∈ Finset.range n, |magQ (v i)| := Finset.abs_sum_le_sum_abs _ _
  have hu := unitQ_pos
  have hnp : (0 : ℚ) < n := by exact_mod_cast h1
  have he' : |magQ (accumulate (fun i acc => P.mulAdd (v i) (F64.div F64.one (F64.ofNat n)) acc) n F64.zero) -
      (∑ i ∈ Finset.range n, magQ (v i)) / n| ≤
      ((1 + 1 / 2 ^ 53) ^ (n + 2) - 1) * ((∑ i ∈ Finset.range n, |magQ (v i)|) / n) + n / 2 * (1 + 1 / 2 ^ 53) ^ n := by
    simp only [abs_div _ (unit : ℚ), abs_of_pos hu, abs_mul] at he
    rw [← Finset.sum_div, ← Finset.sum_div, ← Finset.sum_mul, ← Finset.sum_mul] at he
    generalize magQ (accumulate (fun i acc => P.mulAdd (v i) (F64.div F64.one (F64.ofNat n)) acc) n F64.zero) = r at *
    generalize magQ (F64.div F64.one (F64.ofNat n)) = c at *
    generalize ∑ i ∈ Finset.range n, magQ (v i) = s at *
    generalize ∑ i ∈ Finset.range n, |magQ (v i)| = S at *
    obtain ⟨w, rfl⟩ : ∃ w, c = w * unit := ⟨c / unit, by field_simp⟩
    have e1 : s * (w * unit) / unit = s * w := by field_simp
    have e2 : S * |w * unit| / unit = S * |w| := by rw [abs_mul, abs_of_pos hu]; field_simp
    have e3 : |w * unit - unit / n| = |w - 1 / n| * unit := by
      rw [← abs_of_pos hu, ← abs_mul, abs_of_pos hu]; congr 1; ring
    rw [e3] at hc
    have hc' : |w - 1 / n| ≤ 1 / n / 2 ^ 53 := by
      refine le_of_mul_le_mul_right (_root_.le_trans hc (le_of_eq ?_)) hu
      ring
    rw [e1, e2] at he
    have hw : |w| ≤ 1 / n * (1 + 1 / 2 ^ 53) := by
      have h0 : (0 : ℚ) < 1 / n := by positivity
      have : |w| ≤ |w - 1 / n| + |1 / (n : ℚ)| := by
        calc |w| = |(w - 1 / n) + 1 / n| := by ring_nf
          _ ≤ _ := abs_add_le _ _
      rw [abs_of_pos h0] at this
      linarith
    have h2 : |r - s / n| ≤ |r - s * w| + |s| * |w - 1 / n| := by
      rw [← abs_mul]
      calc |r - s / n| = |(r - s * w) + s * (w - 1 / n)| := by ring_nf
        _ ≤ _ := abs_add_le _ _
    have g : (1 : ℚ) ≤ (1 + 1 / 2 ^ 53) ^ (n + 1) := one_le_pow₀ (by norm_num)
    have p1 : ((1 : ℚ) + 1 / 2 ^ 53) ^ (n + 2) = (1 + 1 / 2 ^ 53) ^ (n + 1) * (1 + 1 / 2 ^ 53) := pow_succ _ _
    rw [p1]
    generalize ((1 : ℚ) + 1 / 2 ^ 53) ^ (n + 1) = G at *
    have h3 : |s| * |w - 1 / n| ≤ S * (1 / n / 2 ^ 53) := mul_le_mul hT hc' (abs_nonneg _) hS
    have h4 : (G - 1) * (S * |w|) ≤ (G - 1) * (S * (1 / n * (1 + 1 / 2 ^ 53))) :=
      mul_le_mul_of_nonneg_left (mul_le_mul_of_nonneg_left hw hS) (by linarith)
    have e4 : (G * (1 + 1 / 2 ^ 53) - 1) * (S / n) = (G - 1) * (S * (1 / n * (1 + 1 / 2 ^ 53))) + S * (1 / n / 2 ^ 53) := by
      field_simp
      ring
    rw [e4]
    linarith
  have := near_scale he' hn (by omega) (by positivity)
  simp only [abs_div _ (unit : ℚ), abs_of_pos hu]
  rw [← Finset.sum_div, ← Finset.sum_div]
  rwa [div_right_comm, div_right_comm (∑ i ∈ Finset.range n, magQ (v i))]

end Leaves
