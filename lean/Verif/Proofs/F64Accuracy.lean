import Verif.Proofs.F64Error
import Verif.Proofs.F64Arith
import Verif.Spec.Output
import Verif.Spec.Accuracy
import Mathlib.Algebra.Order.BigOperators.Group.Finset
import Mathlib.Algebra.BigOperators.Ring.Finset

/-! Rounding errors of signed sums and of products added up. -/

namespace Leaves
namespace F64

theorem isFin_fin (s : Bool) (m : Nat) (h : Rep m) : IsFin (fin s m h) := ⟨s, m, h, rfl⟩

theorem ofRatio_err {s : Bool} {n d : Nat} (hd : 0 < d) (h : IsFin (ofRatio s n d)) :
    |magQ (ofRatio s n d) - (if s then -(n / d) else n / d : ℚ)| ≤ (n / d : ℚ) / 2 ^ 53 + 1 / 2 := by
  have key := roundMag_err (n := n) hd
  unfold ofRatio at h ⊢
  by_cases hl : roundMag n d < magLimit
  · rw [dif_pos hl]
    cases s
    · simpa [magQ, toInt] using key
    · have e : magQ (fin true (roundMag n d) (rep_roundMag hl)) = -(roundMag n d : ℚ) := by simp [magQ, toInt]
      rw [e, if_pos rfl]
      rw [← abs_neg]
      convert key using 2
      ring
  · rw [dif_neg hl] at h
    obtain ⟨_, _, _, h⟩ := h
    cases h

theorem ofRatio_err_one {s : Bool} {n : Nat} (h : IsFin (ofRatio s n 1)) :
    |magQ (ofRatio s n 1) - (if s then -n else n : ℚ)| ≤ (n : ℚ) / 2 ^ 53 := by
  have key := roundMag_err_one n
  unfold ofRatio at h ⊢
  by_cases hl : roundMag n 1 < magLimit
  · rw [dif_pos hl]
    cases s
    · simpa [magQ, toInt] using key
    · have e : magQ (fin true (roundMag n 1) (rep_roundMag hl)) = -(roundMag n 1 : ℚ) := by simp [magQ, toInt]
      rw [e, if_pos rfl]
      rw [← abs_neg]
      convert key using 2
      ring
  · rw [dif_neg hl] at h
    obtain ⟨_, _, _, h⟩ := h
    cases h

theorem magQ_zero (s : Bool) (h : Rep 0) : magQ (fin s 0 h) = 0 := by cases s <;> simp [magQ, toInt]

theorem signed_natAbs (v : Int) : (if decide (v < 0) = true then -(v.natAbs : ℚ) else v.natAbs) = v ∧ (v.natAbs : ℚ) = |(v : ℚ)| := by
  have e : (v.natAbs : ℚ) = |(v : ℚ)| := by rw [Nat.cast_natAbs, Int.cast_abs]
  refine ⟨?_, e⟩
  rw [e]
  by_cases h : v < 0
  · have h' : (v : ℚ) < 0 := by exact_mod_cast h
    simp [h, abs_of_neg h']
  · have h' : (0 : ℚ) ≤ v := by exact_mod_cast not_lt.1 h
    simp [h, abs_of_nonneg h']

theorem ofScaled_err {z : Bool} {v : Int} {d : Nat} (hd : 0 < d) (h : IsFin (ofScaled z v d)) :
    |magQ (ofScaled z v d) - (v / d : ℚ)| ≤ |(v / d : ℚ)| / 2 ^ 53 + 1 / 2 := by
  unfold ofScaled at h ⊢
  by_cases h0 : v = 0
  · rw [if_pos h0, magQ_zero]; subst h0; norm_num
  · rw [if_neg h0] at h ⊢
    have key := ofRatio_err hd h
    obtain ⟨e1, e2⟩ := signed_natAbs v
    have e3 : (if decide (v < 0) = true then -((v.natAbs : ℚ) / d) else (v.natAbs : ℚ) / d) = v / d := by
      have e4 := congrArg (fun q : ℚ => q / d) e1
      change (if decide (v < 0) = true then -(v.natAbs : ℚ) else v.natAbs) / d = v / d at e4
      rw [← e4]; split <;> ring
    rw [e3, e2] at key
    rwa [abs_div, Nat.abs_cast]

theorem ofScaled_err_one {z : Bool} {v : Int} (h : IsFin (ofScaled z v 1)) :
    |magQ (ofScaled z v 1) - (v : ℚ)| ≤ |(v : ℚ)| / 2 ^ 53 := by
  unfold ofScaled at h ⊢
  by_cases h0 : v = 0
  · rw [if_pos h0, magQ_zero]; subst h0; norm_num
  · rw [if_neg h0] at h ⊢
    have key := ofRatio_err_one h
    obtain ⟨e1, e2⟩ := signed_natAbs v
    rwa [e1, e2] at key

theorem isFin_add {x y : F64} (h : IsFin (add x y)) : IsFin x ∧ IsFin y := by
  obtain ⟨s, m, hm, h⟩ := h
  cases x with
  | nan => cases h
  | inf a =>
    cases y with
    | nan => cases h
    | inf b => simp only [add] at h; split at h <;> cases h
    | fin => cases h
  | fin =>
    cases y with
    | nan => cases h
    | inf b => cases h
    | fin => exact ⟨isFin_fin _ _ _, isFin_fin _ _ _⟩

theorem isFin_mul {x y : F64} (h : IsFin (mul x y)) : IsFin x ∧ IsFin y := by
  obtain ⟨s, m, hm, h⟩ := h
  cases x with
  | nan => cases h
  | inf a =>
    cases y with
    | nan => cases h
    | inf b => cases h
    | fin => simp only [mul] at h; split at h <;> cases h
  | fin =>
    cases y with
    | nan => cases h
    | inf b => simp only [mul] at h; split at h <;> cases h
    | fin => exact ⟨isFin_fin _ _ _, isFin_fin _ _ _⟩

theorem fma_of_not {x y : F64} (h : ¬(IsFin x ∧ IsFin y)) (z : F64) : fma x y z = add (mul x y) z := by
  cases x <;> cases y <;> first | (cases z <;> rfl) | skip
  exact absurd ⟨isFin_fin _ _ _, isFin_fin _ _ _⟩ h

theorem isFin_fma {x y z : F64} (h : IsFin (fma x y z)) : IsFin x ∧ IsFin y ∧ IsFin z := by
  by_cases hxy : IsFin x ∧ IsFin y
  · obtain ⟨⟨s, m, hm, rfl⟩, ⟨t, n, hn, rfl⟩⟩ := hxy
    refine ⟨isFin_fin _ _ _, isFin_fin _ _ _, ?_⟩
    cases z with
    | nan => exact h
    | inf => exact h
    | fin => exact isFin_fin _ _ _
  · rw [fma_of_not hxy] at h
    exact absurd (isFin_mul (isFin_add h).1) hxy

/-- the relative error of an addition -/
theorem add_err' {x y : F64} (h : IsFin (add x y)) :
    |magQ (add x y) - (magQ x + magQ y)| ≤ |magQ x + magQ y| / 2 ^ 53 := by
  obtain ⟨⟨s, m, hm, rfl⟩, t, n, hn, rfl⟩ := isFin_add h
  have := ofScaled_err_one (z := s && t) (v := (fin s m hm).toInt + (fin t n hn).toInt) h
  push_cast at this
  exact this

theorem magQ_xor (s t : Bool) (m n : Nat) (hm : Rep m) (hn : Rep n) :
    (if xor s t then -((m * n : Nat) : ℚ) else ((m * n : Nat) : ℚ)) = magQ (fin s m hm) * magQ (fin t n hn) := by
  cases s <;> cases t <;> simp [magQ, toInt]

/-- the error of a product -/
theorem mul_err' {x y : F64} (h : IsFin (mul x y)) :
    |magQ (mul x y) - magQ x * magQ y / unit| ≤ |magQ x * magQ y / unit| / 2 ^ 53 + 1 / 2 := by
  obtain ⟨⟨s, m, hm, rfl⟩, t, n, hn, rfl⟩ := isFin_mul h
  have key := ofRatio_err (s := xor s t) (n := m * n) unit_pos h
  have e := magQ_xor s t m n hm hn
  have e1 : (if xor s t then -(((m * n : Nat) : ℚ) / unit) else ((m * n : Nat) : ℚ) / unit) =
      magQ (fin s m hm) * magQ (fin t n hn) / unit := by
    rw [← e]; split <;> ring
  have e2 : ((m * n : Nat) : ℚ) / unit = |magQ (fin s m hm) * magQ (fin t n hn) / unit| := by
    rw [← e, abs_div, Nat.abs_cast]
    split
    · rw [abs_neg, Nat.abs_cast]
    · rw [Nat.abs_cast]
  rw [e1, e2] at key
  exact key

/-- the error of a fused multiply-add -/
theorem fma_err {x y z : F64} (h : IsFin (fma x y z)) :
    |magQ (fma x y z) - (magQ x * magQ y / unit + magQ z)| ≤ |magQ x * magQ y / unit + magQ z| / 2 ^ 53 + 1 / 2 := by
  obtain ⟨⟨s, m, hm, rfl⟩, ⟨t, n, hn, rfl⟩, w, k, hk, rfl⟩ := isFin_fma h
  have hu : (unit : ℚ) ≠ 0 := by exact_mod_cast unit_pos.ne'
  have key := ofScaled_err (z := xor s t && w) (v := (fin s m hm).toInt * (fin t n hn).toInt + (fin w k hk).toInt * unit) unit_pos h
  have e : (((fin s m hm).toInt * (fin t n hn).toInt + (fin w k hk).toInt * unit : Int) : ℚ) / unit =
      magQ (fin s m hm) * magQ (fin t n hn) / unit + magQ (fin w k hk) := by
    unfold magQ
    push_cast
    field_simp
  rw [e] at key
  exact key

/-- Both ways of computing `x*y + z` have the error of at most two roundings. -/
theorem mulAdd_err {P : Platform} (hP : P.MulAddOK) {x y z : F64} (h : IsFin (P.mulAdd x y z)) :
    (IsFin x ∧ IsFin y ∧ IsFin z) ∧
    |magQ (P.mulAdd x y z) - (magQ x * magQ y / unit + magQ z)| ≤
      ((1 + 1 / 2 ^ 53) ^ 2 - 1) * |magQ x * magQ y / unit| + |magQ z| / 2 ^ 53 + (1 + 1 / 2 ^ 53) / 2 := by
  rcases hP x y z with e | e
  · rw [e] at h ⊢
    obtain ⟨hm, hz⟩ := isFin_add h
    obtain ⟨hx, hy⟩ := isFin_mul hm
    refine ⟨⟨hx, hy, hz⟩, ?_⟩
    have h1 := mul_err' hm
    have h2 := add_err' h
    generalize magQ (add (mul x y) z) = r at *
    generalize magQ (mul x y) = p at *
    generalize magQ x * magQ y / unit = a at *
    generalize magQ z = b at *
    have h3 : |p + b| ≤ |p - a| + |a| + |b| := by
      calc |p + b| = |(p - a) + a + b| := by ring_nf
        _ ≤ |(p - a) + a| + |b| := abs_add_le _ _
        _ ≤ _ := by linarith [abs_add_le (p - a) a]
    have h4 : |r - (a + b)| ≤ |r - (p + b)| + |p - a| := by
      calc |r - (a + b)| = |(r - (p + b)) + (p - a)| := by ring_nf
        _ ≤ _ := abs_add_le _ _
    nlinarith [abs_nonneg a, abs_nonneg b]
  · rw [e] at h ⊢
    refine ⟨isFin_fma h, ?_⟩
    have h1 := fma_err h
    generalize magQ (fma x y z) = r at *
    generalize magQ x * magQ y / unit = a at *
    generalize magQ z = b at *
    have h2 := abs_add_le a b
    nlinarith [abs_nonneg a, abs_nonneg b]

end F64

open F64 Spec

theorem accumulate_snoc (f : Nat → F64 → F64) (n : Nat) (z : F64) : accumulate f (n + 1) z = f n (accumulate f n z) := by
  simp [accumulate, List.range_succ]

/-- the sum of the products, in units of `2^-1074` -/
theorem accumulate_err {P : Platform} (hP : P.MulAddOK) (v c : Nat → F64) (z : F64) : ∀ n,
    IsFin (accumulate (fun i acc => P.mulAdd (v i) (c i) acc) n z) →
    (IsFin z ∧ ∀ i < n, IsFin (v i) ∧ IsFin (c i)) ∧
    |magQ (accumulate (fun i acc => P.mulAdd (v i) (c i) acc) n z) - (magQ z + ∑ i ∈ Finset.range n, magQ (v i) * magQ (c i) / unit)| ≤
      ((1 + 1 / 2 ^ 53) ^ (n + 1) - 1) * (|magQ z| + ∑ i ∈ Finset.range n, |magQ (v i) * magQ (c i) / unit|) +
        n / 2 * (1 + 1 / 2 ^ 53) ^ n := by
  intro n
  induction n with
  | zero =>
    intro h
    refine ⟨⟨h, fun i hi => absurd hi (Nat.not_lt_zero _)⟩, ?_⟩
    simp [accumulate]
  | succ n ih =>
    intro h
    rw [accumulate_snoc] at h ⊢
    obtain ⟨⟨hv, hc, ha⟩, he⟩ := mulAdd_err hP h
    obtain ⟨⟨hz, hi⟩, hb⟩ := ih ha
    refine ⟨⟨hz, ?_⟩, ?_⟩
    · intro i hin
      rcases Nat.lt_succ_iff_lt_or_eq.1 hin with h | rfl
      · exact hi i h
      · exact ⟨hv, hc⟩
    · rw [Finset.sum_range_succ, Finset.sum_range_succ]
      have hS : |∑ i ∈ Finset.range n, magQ (v i) * magQ (c i) / unit| ≤ ∑ i ∈ Finset.range n, |magQ (v i) * magQ (c i) / unit| :=
        Finset.abs_sum_le_sum_abs _ _
      generalize magQ (P.mulAdd (v n) (c n) (accumulate (fun i acc => P.mulAdd (v i) (c i) acc) n z)) = r at *
      generalize magQ (accumulate (fun i acc => P.mulAdd (v i) (c i) acc) n z) = a at *
      generalize magQ (v n) * magQ (c n) / unit = t at *
      generalize ∑ i ∈ Finset.range n, magQ (v i) * magQ (c i) / unit = s at *
      generalize ∑ i ∈ Finset.range n, |magQ (v i) * magQ (c i) / unit| = S at *
      generalize magQ z = b at *
      have hg : ((1 : ℚ) + 1 / 2 ^ 53) ^ 2 ≤ (1 + 1 / 2 ^ 53) ^ (n + 1 + 1) :=
        pow_le_pow_right₀ (by norm_num) (by omega)
      have hg1 : (1 : ℚ) ≤ (1 + 1 / 2 ^ 53) ^ n := one_le_pow₀ (by norm_num)
      have p1 : ((1 : ℚ) + 1 / 2 ^ 53) ^ (n + 1 + 1) = (1 + 1 / 2 ^ 53) ^ (n + 1) * (1 + 1 / 2 ^ 53) := pow_succ _ _
      have p2 : ((1 : ℚ) + 1 / 2 ^ 53) ^ (n + 1) = (1 + 1 / 2 ^ 53) ^ n * (1 + 1 / 2 ^ 53) := pow_succ _ _
      have h1 : |a| ≤ |b| + S + |a - (b + s)| := by
        calc |a| = |(a - (b + s)) + b + s| := by ring_nf
          _ ≤ |(a - (b + s)) + b| + |s| := abs_add_le _ _
          _ ≤ _ := by linarith [abs_add_le (a - (b + s)) b]
      have h2 : |r - (b + (s + t))| ≤ |r - (t + a)| + |a - (b + s)| := by
        calc |r - (b + (s + t))| = |(r - (t + a)) + (a - (b + s))| := by ring_nf
          _ ≤ _ := abs_add_le _ _
      have hS0 : 0 ≤ S := _root_.le_trans (abs_nonneg _) hS
      have ht := mul_le_mul_of_nonneg_right hg (abs_nonneg t)
      have hn0 : (0 : ℚ) ≤ n := Nat.cast_nonneg n
      generalize |r - (b + (s + t))| = e' at *
      generalize |r - (t + a)| = e1 at *
      generalize |a - (b + s)| = e0 at *
      generalize |a| = A at *
      have hb0 := abs_nonneg b
      have ht0 := abs_nonneg t
      generalize |b| = B at *
      generalize |t| = T at *
      rw [p1] at ht
      rw [p1]
      generalize ((1 : ℚ) + 1 / 2 ^ 53) ^ (n + 1) = G at *
      generalize ((1 : ℚ) + 1 / 2 ^ 53) ^ n = g at *
      subst p2
      push_cast
      have hb' := mul_le_mul_of_nonneg_left hb (show (0 : ℚ) ≤ 1 + 1 / 2 ^ 53 by norm_num)
      nlinarith

/-- plain sums: the errors are relative only -/
theorem accumulate_add_err (v : Nat → F64) (z : F64) : ∀ n,
    IsFin (accumulate (fun i acc => add acc (v i)) n z) →
    (IsFin z ∧ ∀ i < n, IsFin (v i)) ∧
    |magQ (accumulate (fun i acc => add acc (v i)) n z) - (magQ z + ∑ i ∈ Finset.range n, magQ (v i))| ≤
      ((1 + 1 / 2 ^ 53) ^ n - 1) * (|magQ z| + ∑ i ∈ Finset.range n, |magQ (v i)|) := by
  intro n
  induction n with
  | zero =>
    intro h
    refine ⟨⟨h, fun i hi => absurd hi (Nat.not_lt_zero _)⟩, ?_⟩
    simp [accumulate]
  | succ n ih =>
    intro h
    rw [accumulate_snoc] at h ⊢
    obtain ⟨ha, hv⟩ := isFin_add h
    have he := add_err' h
    obtain ⟨⟨hz, hi⟩, hb⟩ := ih ha
    refine ⟨⟨hz, ?_⟩, ?_⟩
    · intro i hin
      rcases Nat.lt_succ_iff_lt_or_eq.1 hin with h | rfl
      · exact hi i h
      · exact hv
    · rw [Finset.sum_range_succ, Finset.sum_range_succ]
      have hS : |∑ i ∈ Finset.range n, magQ (v i)| ≤ ∑ i ∈ Finset.range n, |magQ (v i)| := Finset.abs_sum_le_sum_abs _ _
      generalize magQ (add (accumulate (fun i acc => add acc (v i)) n z) (v n)) = r at *
      generalize magQ (accumulate (fun i acc => add acc (v i)) n z) = a at *
      generalize magQ (v n) = t at *
      generalize ∑ i ∈ Finset.range n, magQ (v i) = s at *
      generalize ∑ i ∈ Finset.range n, |magQ (v i)| = S at *
      generalize magQ z = b at *
      have hg : ((1 : ℚ) + 1 / 2 ^ 53) ^ 1 ≤ (1 + 1 / 2 ^ 53) ^ (n + 1) := pow_le_pow_right₀ (by norm_num) (by omega)
      have p2 : ((1 : ℚ) + 1 / 2 ^ 53) ^ (n + 1) = (1 + 1 / 2 ^ 53) ^ n * (1 + 1 / 2 ^ 53) := pow_succ _ _
      have h1 : |a + t| ≤ |b| + S + |t| + |a - (b + s)| := by
        calc |a + t| = |(a - (b + s)) + b + s + t| := by ring_nf
          _ ≤ |(a - (b + s)) + b + s| + |t| := abs_add_le _ _
          _ ≤ _ := by linarith [abs_add_le (a - (b + s)) b, abs_add_le (a - (b + s) + b) s]
      have h2 : |r - (b + (s + t))| ≤ |r - (a + t)| + |a - (b + s)| := by
        calc |r - (b + (s + t))| = |(r - (a + t)) + (a - (b + s))| := by ring_nf
          _ ≤ _ := abs_add_le _ _
      have hS0 : 0 ≤ S := _root_.le_trans (abs_nonneg _) hS
      have ht := mul_le_mul_of_nonneg_right hg (abs_nonneg t)
      generalize |r - (b + (s + t))| = e' at *
      generalize |r - (a + t)| = e1 at *
      generalize |a - (b + s)| = e0 at *
      generalize |a + t| = A at *
      have hb0 := abs_nonneg b
      have ht0 := abs_nonneg t
      generalize |b| = B at *
      generalize |t| = T at *
      rw [p2] at ht ⊢
      rw [pow_one] at ht
      generalize ((1 : ℚ) + 1 / 2 ^ 53) ^ n = g at *
      have hb' := mul_le_mul_of_nonneg_left hb (show (0 : ℚ) ≤ 1 + 1 / 2 ^ 53 by norm_num)
      nlinarith

/-- `n` relative errors of `2^-53` are at most `n` of `2^-52` -/
theorem growth_le : ∀ n : Nat, n ≤ 2 ^ 52 → ((1 : ℚ) + 1 / 2 ^ 53) ^ n ≤ 1 + n / 2 ^ 52
  | 0, _ => by norm_num
  | n + 1, h => by
    have ih := growth_le n (by omega)
    have hn : (n : ℚ) / 2 ^ 52 ≤ 1 := by
      rw [div_le_one (by positivity)]
      exact_mod_cast (by omega : n ≤ 2 ^ 52)
    rw [pow_succ]
    calc ((1 : ℚ) + 1 / 2 ^ 53) ^ n * (1 + 1 / 2 ^ 53) ≤ (1 + n / 2 ^ 52) * (1 + 1 / 2 ^ 53) :=
          mul_le_mul_of_nonneg_right ih (by norm_num)
      _ ≤ _ := by
        push_cast
        have : ((n : ℚ) + 1) / 2 ^ 52 = n / 2 ^ 52 + 1 / 2 ^ 52 := by ring
        rw [this]
        nlinarith

/-- the denoted number -/
theorem isVal_iff {x : F64} {q : ℚ} : IsVal x q ↔ IsFin x ∧ q = magQ x / unit := by
  constructor
  · intro h
    cases x with
    | nan => simp [IsVal, value] at h
    | inf s => cases s <;> simp [IsVal, value, pt] at h
    | fin s m hm =>
      refine ⟨isFin_fin _ _ _, ?_⟩
      unfold IsVal at h
      rw [value_fin] at h
      exact (pt_inj.1 (Option.some.inj h)).symm
  · rintro ⟨⟨s, m, hm, rfl⟩, rfl⟩
    exact value_fin _ _ _

theorem isVal_of_isFin {x : F64} (h : IsFin x) : IsVal x (magQ x / unit) := isVal_iff.2 ⟨h, rfl⟩

theorem IsVal.unique {x : F64} {p q : ℚ} (h : IsVal x p) (h' : IsVal x q) : p = q := by
  rw [(isVal_iff.1 h).2, (isVal_iff.1 h').2]

end Leaves
