import Verif.Proofs.Rounding
import Verif.Proofs.F64Mono

/-!
# The model's arithmetic is IEEE-754 arithmetic

For finite arguments every operation of `Model/F64` yields the exact result, correctly rounded (`Spec.Rounded`), and correct rounding
determines the result up to the sign of an exact zero. This removes the rounding code of the model from what has to be trusted.
-/

namespace Leaves
open F64 Spec

theorem signed_abs {s : Bool} {a q : ℚ} (h : q = if s then -a else a) (ha : 0 ≤ a) : |q| = a := by
  subst h; split
  · rw [abs_neg, abs_of_nonneg ha]
  · exact abs_of_nonneg ha

theorem ofRatio_hasSign (s : Bool) (n d : Nat) : HasSign (ofRatio s n d) s := by
  unfold ofRatio; split
  · exact .inl ⟨_, _, rfl⟩
  · exact .inr rfl

theorem ofRatio_rounded {s : Bool} {n d : Nat} (hd : 0 < d) {q : ℚ} (hq : q * unit = if s then -((n : ℚ) / d) else n / d) :
    Rounded q (ofRatio s n d) := by
  have hu : (0 : ℚ) < unit := by exact_mod_cast unit_pos
  have hnd : (0 : ℚ) ≤ n / d := by positivity
  have habs : |q| * unit = n / d := by
    rw [← signed_abs hq hnd, abs_mul, abs_of_pos hu]
  refine ⟨fun h => ?_, fun h => ?_, roundMag n d, ?_, ?_⟩
  · have : 0 < q * unit := by positivity
    cases s
    · exact ofRatio_hasSign _ _ _
    · rw [hq, if_pos rfl] at this; linarith
  · have : q * unit < 0 := mul_neg_of_neg_of_pos h hu
    cases s
    · rw [hq, if_neg Bool.false_ne_true] at this; linarith
    · exact ofRatio_hasSign _ _ _
  · rw [habs]; exact roundMag_spec hd
  · unfold ofRatio
    by_cases hl : roundMag n d < magLimit
    · rw [dif_pos hl]; exact .inl ⟨hl, _, _, rfl⟩
    · rw [dif_neg hl]; exact .inr ⟨not_lt.1 hl, _, rfl⟩

theorem ofScaled_rounded {z : Bool} {v : Int} {d : Nat} (hd : 0 < d) {q : ℚ} (hq : q * unit = v / d) : Rounded q (ofScaled z v d) := by
  have hu : (unit : ℚ) ≠ 0 := by exact_mod_cast unit_pos.ne'
  unfold ofScaled
  by_cases h0 : v = 0
  · subst h0
    rw [if_pos rfl]
    have hq0 : q = 0 := by
      rw [Int.cast_zero, zero_div] at hq
      exact (mul_eq_zero.1 hq).resolve_right hu
    subst hq0
    refine ⟨fun h => absurd h (lt_irrefl _), fun h => absurd h (lt_irrefl _), 0, ?_, .inl ⟨magLimit_pos, _, _, rfl⟩⟩
    have := roundMag_spec (n := 0) (d := 1) Nat.one_pos
    rw [roundMag_zero Nat.one_pos] at this
    simpa using this
  · rw [if_neg h0]
    refine ofRatio_rounded hd ?_
    rw [hq]
    obtain ⟨e1, -⟩ := signed_natAbs v
    have e4 := congrArg (fun q : ℚ => q / d) e1
    change (if decide (v < 0) = true then -(v.natAbs : ℚ) else v.natAbs) / d = v / d at e4
    rw [← e4]; split <;> ring

/-- correct rounding determines the result -/
theorem Rounded.unique {q : ℚ} {x y : F64} (h : Rounded q x) (h' : Rounded q y) (hq : q ≠ 0) : x = y := by
  obtain ⟨p1, p2, m, hm, hx⟩ := h
  obtain ⟨p1', p2', m', hm', hy⟩ := h'
  obtain rfl := Nearest.unique hm hm'
  obtain ⟨s, hs, hs'⟩ : ∃ s, HasSign x s ∧ HasSign y s := by
    rcases lt_or_gt_of_ne hq with h | h
    · exact ⟨true, p2 h, p2' h⟩
    · exact ⟨false, p1 h, p1' h⟩
  rcases hx with ⟨hl, s1, h1, rfl⟩ | ⟨hl, s1, rfl⟩ <;> rcases hy with ⟨hl', s2, h2, rfl⟩ | ⟨hl', s2, rfl⟩
  · obtain rfl := HasSign.unique hs (.inl ⟨_, _, rfl⟩)
    obtain rfl := HasSign.unique hs' (.inl ⟨_, _, rfl⟩)
    rfl
  · omega
  · omega
  · obtain rfl := HasSign.unique hs (.inr rfl)
    obtain rfl := HasSign.unique hs' (.inr rfl)
    rfl

/-- … also for zero, up to its sign -/
theorem Rounded.zero {x : F64} (h : Rounded 0 x) : IsVal x 0 := by
  obtain ⟨-, -, m, hm, hx⟩ := h
  have h0 := roundMag_spec (n := 0) (d := 1) Nat.one_pos
  rw [roundMag_zero Nat.one_pos] at h0
  have : m = 0 := Nearest.unique hm (by simpa using h0)
  subst this
  have := magLimit_pos
  rcases hx with ⟨-, s, h, rfl⟩ | ⟨h, -⟩
  · rw [isVal_iff]; exact ⟨isFin_fin _ _ _, by rw [magQ_zero, zero_div]⟩
  · omega

theorem isVal_scaled {x : F64} {a : ℚ} (h : IsVal x a) : ∃ s m hm, x = fin s m hm ∧ a * unit = magQ x ∧ magQ x = if s then -(m : ℚ) else m := by
  obtain ⟨⟨s, m, hm, rfl⟩, rfl⟩ := isVal_iff.1 h
  have hu : (unit : ℚ) ≠ 0 := by exact_mod_cast unit_pos.ne'
  refine ⟨s, m, hm, rfl, div_mul_cancel₀ _ hu, ?_⟩
  cases s <;> simp [magQ, toInt]

theorem IEEE_add {x y : F64} {a b : ℚ} (hx : IsVal x a) (hy : IsVal y b) : Rounded (a + b) (add x y) := by
  obtain ⟨s, m, hm, rfl, e, -⟩ := isVal_scaled hx
  obtain ⟨t, n, hn, rfl, f, -⟩ := isVal_scaled hy
  refine ofScaled_rounded Nat.one_pos ?_
  rw [add_mul, e, f]
  unfold magQ
  push_cast
  ring

theorem IEEE_mul {x y : F64} {a b : ℚ} (hx : IsVal x a) (hy : IsVal y b) : Rounded (a * b) (mul x y) := by
  obtain ⟨s, m, hm, rfl, e, -⟩ := isVal_scaled hx
  obtain ⟨t, n, hn, rfl, f, -⟩ := isVal_scaled hy
  have hu : (unit : ℚ) ≠ 0 := by exact_mod_cast unit_pos.ne'
  refine ofRatio_rounded unit_pos ?_
  have g := magQ_xor s t m n hm hn
  have : a * b * unit = magQ (fin s m hm) * magQ (fin t n hn) / unit := by
    rw [← e, ← f]; field_simp
  rw [this, ← g]
  split <;> ring

theorem IEEE_div {x y : F64} {a b : ℚ} (hx : IsVal x a) (hy : IsVal y b) (hb : b ≠ 0) : Rounded (a / b) (div x y) := by
  obtain ⟨s, m, hm, rfl, e, e'⟩ := isVal_scaled hx
  obtain ⟨t, n, hn, rfl, f, f'⟩ := isVal_scaled hy
  have hu : (unit : ℚ) ≠ 0 := by exact_mod_cast unit_pos.ne'
  have hn0 : n ≠ 0 := by
    rintro rfl
    rw [f'] at f
    have : b * unit = 0 := by rw [f]; split <;> simp
    exact hb ((mul_eq_zero.1 this).resolve_right hu)
  have hnq : (n : ℚ) ≠ 0 := by exact_mod_cast hn0
  show Rounded (a / b) (if n = 0 then _ else ofRatio (xor s t) (m * unit) n)
  rw [if_neg hn0]
  refine ofRatio_rounded (Nat.pos_of_ne_zero hn0) ?_
  have : a / b = (a * unit) / (b * unit) := (mul_div_mul_right _ _ hu).symm
  rw [this, e, f, e', f']
  push_cast
  cases s <;> cases t <;> simp <;> field_simp

theorem IEEE_fma {x y z : F64} {a b c : ℚ} (hx : IsVal x a) (hy : IsVal y b) (hz : IsVal z c) : Rounded (a * b + c) (fma x y z) := by
  obtain ⟨s, m, hm, rfl, e, -⟩ := isVal_scaled hx
  obtain ⟨t, n, hn, rfl, f, -⟩ := isVal_scaled hy
  obtain ⟨w, k, hk, rfl, g, -⟩ := isVal_scaled hz
  have hu : (unit : ℚ) ≠ 0 := by exact_mod_cast unit_pos.ne'
  refine ofScaled_rounded unit_pos ?_
  unfold magQ at e f g
  push_cast
  rw [← e, ← f, ← g]
  field_simp

/-- conversion of integers -/
theorem IEEE_ofInt (i : Int) : Rounded i (ofInt i) := by
  refine ofScaled_rounded Nat.one_pos ?_
  push_cast
  ring

/-- conversion of constants -/
theorem IEEE_const (n : Nat) {d : Nat} (hd : 0 < d) : Rounded (n / d) (const n d) := by
  refine ofRatio_rounded hd ?_
  rw [if_neg Bool.false_ne_true]
  push_cast
  ring

/-- the bits of a finite float64: `(-1)^s * 0.f * 2^-1022` or `(-1)^s * 1.f * 2^(e-1023)` -/
theorem IEEE_ofBits (b : BitVec 64) (e f : Nat) (he : e = b.toNat / 2 ^ 52 % 2 ^ 11) (hf : f = b.toNat % 2 ^ 52) (hfin : e ≠ 2047) :
    IsVal (ofBits b) ((if b.getLsbD 63 then -1 else 1) * (if e = 0 then (f : ℚ) else (2 ^ 52 + f) * 2 ^ (e - 1)) / unit) := by
  have hf' : f < 2 ^ 52 := by rw [hf]; exact Nat.mod_lt _ (by norm_num)
  have key : ∀ s (q k : Nat), q ≤ 2 ^ 53 → q * 2 ^ k < magLimit →
      IsVal (ofRatio s (q * 2 ^ k) 1) ((if s then -1 else 1) * ((q * 2 ^ k : Nat) : ℚ) / unit) := by
    intro s q k h1 h2
    rw [ofRatio_rep (rep_of_mul_pow h1 h2), isVal_iff]
    refine ⟨isFin_fin _ _ _, ?_⟩
    cases s <;> simp [magQ, toInt]
  unfold ofBits
  simp only
  rw [← he, ← hf, if_neg hfin]
  by_cases h0 : e = 0
  · rw [if_pos h0, if_pos h0]
    have := key (b.getLsbD 63) f 0 (by omega) (by
      rw [magLimit_eq, pow_zero, Nat.mul_one]
      exact lt_of_lt_of_le hf' (Nat.pow_le_pow_right (by norm_num) (by norm_num)))
    rwa [pow_zero, Nat.mul_one] at this
  · rw [if_neg h0, if_neg h0]
    have he' : e < 2 ^ 11 := by rw [he]; exact Nat.mod_lt _ (by norm_num)
    have := key (b.getLsbD 63) (2 ^ 52 + f) (e - 1) (by omega) (by
      calc (2 ^ 52 + f) * 2 ^ (e - 1) < 2 ^ 53 * 2 ^ (e - 1) := Nat.mul_lt_mul_of_pos_right (by omega) (by positivity)
        _ = 2 ^ (53 + (e - 1)) := by rw [← pow_add]
        _ ≤ magLimit := by rw [magLimit_eq]; exact Nat.pow_le_pow_right (by norm_num) (by omega))
    push_cast at this
    exact this

/-- the bits of a finite float32, converted to float64 without loss -/
theorem IEEE_ofBits32 (b : BitVec 32) (e f : Nat) (he : e = b.toNat / 2 ^ 23 % 2 ^ 8) (hf : f = b.toNat % 2 ^ 23) (hfin : e ≠ 255) :
    IsVal (ofBits32 b) ((if b.getLsbD 31 then -1 else 1) * (if e = 0 then (f : ℚ) else (2 ^ 23 + f) * 2 ^ (e - 1)) / 2 ^ 149) := by
  have hf' : f < 2 ^ 23 := by rw [hf]; exact Nat.mod_lt _ (by norm_num)
  have hu : (unit : ℚ) = 2 ^ 925 * 2 ^ 149 := by rw [← pow_add]; exact_mod_cast unit_eq
  have key : ∀ s (q k : Nat), q ≤ 2 ^ 53 → q * 2 ^ k < magLimit →
      IsVal (ofRatio s (q * 2 ^ k) 1) ((if s then -1 else 1) * ((q * 2 ^ k : Nat) : ℚ) / unit) := by
    intro s q k h1 h2
    rw [ofRatio_rep (rep_of_mul_pow h1 h2), isVal_iff]
    refine ⟨isFin_fin _ _ _, ?_⟩
    cases s <;> simp [magQ, toInt]
  unfold ofBits32
  simp only
  rw [← he, ← hf, if_neg hfin]
  have hp : (2 : ℚ) ^ 925 ≠ 0 := pow_ne_zero _ (by norm_num)
  generalize hP : (2 : ℚ) ^ 925 = p at *
  by_cases h0 : e = 0
  · rw [if_pos h0, if_pos h0]
    have := key (b.getLsbD 31) f 925 (by omega) (by
      calc f * 2 ^ 925 < 2 ^ 23 * 2 ^ 925 := Nat.mul_lt_mul_of_pos_right hf' (Nat.two_pow_pos _)
        _ = 2 ^ (23 + 925) := (pow_add _ _ _).symm
        _ ≤ magLimit := by rw [magLimit_eq]; exact Nat.pow_le_pow_right (by norm_num) (by norm_num))
    rw [Nat.cast_mul, Nat.cast_pow, Nat.cast_ofNat, hP, hu, ← mul_assoc, mul_comm p, mul_div_mul_right _ _ hp] at this
    exact this
  · rw [if_neg h0, if_neg h0]
    have he' : e < 2 ^ 8 := by rw [he]; exact Nat.mod_lt _ (by norm_num)
    have := key (b.getLsbD 31) (2 ^ 23 + f) (e - 1 + 925) (by omega) (by
      calc (2 ^ 23 + f) * 2 ^ (e - 1 + 925) < 2 ^ 24 * 2 ^ (e - 1 + 925) := Nat.mul_lt_mul_of_pos_right (by omega) (Nat.two_pow_pos _)
        _ = 2 ^ (24 + (e - 1 + 925)) := (pow_add _ _ _).symm
        _ ≤ magLimit := by rw [magLimit_eq]; exact Nat.pow_le_pow_right (by norm_num) (by omega))
    rw [Nat.cast_mul, Nat.cast_pow, Nat.cast_ofNat, pow_add (2 : ℚ), hP, hu, ← mul_assoc, ← mul_assoc, mul_comm p, mul_div_mul_right _ _ hp] at this
    push_cast at this
    rw [mul_assoc] at this
    exact this

/-! ### infinities, NaN and the signs of zeros (IEEE-754 sections 6.1 to 6.3, 7.2 and 7.3) -/

/-- NaN operands give NaN. -/
theorem IEEE_nan (x y : F64) : add nan x = nan ∧ add x nan = nan ∧ mul nan x = nan ∧ mul x nan = nan ∧ div nan x = nan ∧ div x nan = nan ∧
    fma nan x y = nan ∧ fma x nan y = nan ∧ fma x y nan = nan := by
  refine ⟨?_, ?_, ?_, ?_, ?_, ?_, ?_, ?_, fma_nan_addend x y⟩ <;> cases x <;> rfl

/-- Sums with infinities: opposite infinities give NaN, otherwise the infinity stays. -/
theorem IEEE_add_inf (s t : Bool) (m : Nat) (h : Rep m) : add (inf s) (inf (!s)) = nan ∧ add (inf s) (inf s) = inf s ∧
    add (inf s) (fin t m h) = inf s ∧ add (fin t m h) (inf s) = inf s := by
  refine ⟨?_, ?_, rfl, rfl⟩ <;> cases s <;> rfl

/-- Products with infinities: with zero NaN, otherwise an infinity with the product of the signs. -/
theorem IEEE_mul_inf (s t : Bool) (m : Nat) (h : Rep m) : mul (inf s) (inf t) = inf (xor s t) ∧
    mul (inf s) (fin t m h) = (if m = 0 then nan else inf (xor s t)) ∧ mul (fin t m h) (inf s) = (if m = 0 then nan else inf (xor t s)) := ⟨rfl, rfl, rfl⟩

/-- Quotients with infinities, and division by zero. -/
theorem IEEE_div_special (s t : Bool) (m : Nat) (h : Rep m) (h0 : Rep 0) : div (inf s) (inf t) = nan ∧ div (inf s) (fin t m h) = inf (xor s t) ∧
    (∃ hz, div (fin s m h) (inf t) = fin (xor s t) 0 hz) ∧ div (fin s m h) (fin t 0 h0) = (if m = 0 then nan else inf (xor s t)) :=
  ⟨rfl, rfl, ⟨_, rfl⟩, by simp only [div, if_true]⟩

/-- Finite products and quotients have the product of the signs. -/
theorem IEEE_sign (s t : Bool) (m n : Nat) (hm : Rep m) (hn : Rep n) : HasSign (mul (fin s m hm) (fin t n hn)) (xor s t) ∧
    (n ≠ 0 → HasSign (div (fin s m hm) (fin t n hn)) (xor s t)) := by
  refine ⟨ofRatio_hasSign _ _ _, fun h => ?_⟩
  simp only [div, if_neg h]
  exact ofRatio_hasSign _ _ _

/-- The sum of two zeros is negative only if both are; any other sum that is zero is positive. -/
theorem IEEE_add_zero (s t : Bool) (m n : Nat) (hm : Rep m) (hn : Rep n) (h : (fin s m hm).toInt + (fin t n hn).toInt = 0) :
    HasSign (add (fin s m hm) (fin t n hn)) (s && t) := by
  simp only [add, ofScaled, if_pos h]
  exact .inl ⟨_, _, rfl⟩

/-- A fused operation with an infinity or NaN is the two operations one after the other; with finite factors, an infinite addend stays. -/
theorem IEEE_fma_special (x y : F64) (s : Bool) (z : F64) : fma (inf s) y z = add (mul (inf s) y) z ∧ fma x (inf s) z = add (mul x (inf s)) z ∧
    ∀ t u m n hm hn, fma (fin t m hm) (fin u n hn) (inf s) = inf s :=
  ⟨fma_of_inf_left s y z, fma_of_inf_right x z s, fun t u m n hm hn => fma_fin_inf t u s m n hm hn⟩

/-- the square of 1 + 2^-52 is not a float; it is rounded down to 1 + 2^-51 -/
example : Rounded ((1 + 1 / 2 ^ 52) * (1 + 1 / 2 ^ 52)) (mul (const (2 ^ 52 + 1) (2 ^ 52)) (const (2 ^ 52 + 1) (2 ^ 52))) ∧
    mul (const (2 ^ 52 + 1) (2 ^ 52)) (const (2 ^ 52 + 1) (2 ^ 52)) = const (2 ^ 51 + 1) (2 ^ 51) := by
  have h : IsVal (const (2 ^ 52 + 1) (2 ^ 52)) (1 + 1 / 2 ^ 52) := by
    have e : const (2 ^ 52 + 1) (2 ^ 52) = ofBits 0x3ff0000000000001#64 := by decide +kernel
    have := IEEE_ofBits 0x3ff0000000000001#64 1023 1 (by decide) (by decide) (by decide)
    rw [e]
    convert this using 1
    have hu : (unit : ℚ) = 2 ^ 52 * 2 ^ 1022 := by rw [← pow_add]; exact_mod_cast unit_eq
    rw [hu]
    have hp : (2 : ℚ) ^ 1022 ≠ 0 := pow_ne_zero _ (by norm_num)
    have hb : (0x3ff0000000000001#64).getLsbD 63 = false := by decide
    rw [hb, if_neg Bool.false_ne_true, if_neg (by decide)]
    generalize (2 : ℚ) ^ 1022 = p at *
    field_simp
    norm_num
  exact ⟨IEEE_mul h h, by decide +kernel⟩

end Leaves
