import Verif.Proofs.F64Accuracy
import Verif.Spec.Rounding

/-! `roundMag` is IEEE rounding, and there is only one. -/

namespace Leaves
open F64 Spec

theorem digits53_dvd {m : Nat} (h : Digits53 m) : 2 ^ (m.log2 - 52) ∣ m := by
  obtain ⟨s, e, rfl, hs⟩ := h
  rcases Nat.eq_zero_or_pos s with rfl | hpos
  · simp
  · have hne : s * 2 ^ e ≠ 0 := by positivity
    have : (s * 2 ^ e).log2 < 53 + e := by
      rw [Nat.log2_lt hne, Nat.pow_add]
      exact Nat.mul_lt_mul_of_pos_right hs (by positivity)
    exact Dvd.dvd.mul_left (Nat.pow_dvd_pow 2 (by omega)) s

theorem digits53_of_le {q e : Nat} (h : q ≤ 2 ^ 53) : Digits53 (q * 2 ^ e) := by
  rcases Nat.lt_or_ge q (2 ^ 53) with hlt | hge
  · exact ⟨q, e, rfl, hlt⟩
  · have : q = 2 ^ 53 := by omega
    subst this
    refine ⟨2 ^ 52, e + 1, ?_, by norm_num⟩
    rw [pow_succ 2 e]
    ring

/-- a magnitude of 53 digits that is at least `2^(52+e)` is a multiple of `2^e` -/
theorem digits53_multiple {m e : Nat} (h : Digits53 m) (hm : 2 ^ (52 + e) ≤ m) : 2 ^ e ∣ m := by
  have hne : m ≠ 0 := by
    have : 0 < 2 ^ (52 + e) := by positivity
    omega
  have hl : 52 + e ≤ m.log2 := (Nat.le_log2 hne).2 hm
  exact dvd_trans (Nat.pow_dvd_pow 2 (show e ≤ m.log2 - 52 by omega)) (digits53_dvd h)

theorem roundMag_digits (n d : Nat) : Digits53 (roundMag n d) := by
  refine digits53_of_le ?_
  have := div_ulp_lt n d
  rcases rne_cases n (d * 2 ^ ulpExp n d) with h | h <;> omega

theorem ratDist_eq {n d y : Nat} (hd : 0 < d) : |(y : ℚ) - n / d| = ratDist n d y / d := by
  have hd' : (0 : ℚ) < d := by exact_mod_cast hd
  rw [eq_div_iff hd'.ne', ← abs_of_pos hd', ← abs_mul, abs_of_pos hd', sub_mul, div_mul_cancel₀ _ hd'.ne']
  unfold ratDist
  rcases Nat.le_total n (y * d) with h | h
  · rw [Nat.sub_eq_zero_of_le h, zero_add, Nat.cast_sub h, abs_of_nonneg]
    · push_cast; ring
    · rw [sub_nonneg]; exact_mod_cast h
  · rw [Nat.sub_eq_zero_of_le h, add_zero, Nat.cast_sub h, abs_of_nonpos]
    · push_cast; ring
    · rw [sub_nonpos]; exact_mod_cast h

/-- `roundMag` rounds to the nearest magnitude, ties to even. -/
theorem roundMag_spec {n d : Nat} (hd : 0 < d) : Nearest (n / d) (roundMag n d) := by
  have hd' : (0 : ℚ) < d := by exact_mod_cast hd
  have hmin : ∀ m', Digits53 m' → |(roundMag n d : ℚ) - n / d| ≤ |(m' : ℚ) - n / d| := by
    intro m' hm'
    rw [ratDist_eq hd, ratDist_eq hd, div_le_div_iff_of_pos_right hd']
    exact_mod_cast roundMag_nearest hd (digits53_dvd hm')
  refine ⟨roundMag_digits n d, fun m' hm' => ⟨hmin m' hm', fun hne heq => ?_⟩⟩
  set e := ulpExp n d with he
  have hD : 0 < d * 2 ^ e := by positivity
  obtain ⟨b1, b2, b3, b4⟩ := rne_bounds (n := n) hD
  have hr : roundMag n d = rne n (d * 2 ^ e) * 2 ^ e := rfl
  have hq : rne n (d * 2 ^ e) ≤ 2 ^ 53 := by
    have := div_ulp_lt n d
    rw [← he] at this
    rcases rne_cases n (d * 2 ^ e) with h | h <;> omega
  have hq2 : 2 ^ 52 ≤ rne n (d * 2 ^ e) ∨ e = 0 := by
    rcases Nat.eq_zero_or_pos e with h0 | hpos
    · exact .inr h0
    · left
      have := pow_le_roundMag_of_ulpExp_pos hd (he ▸ hpos)
      rw [← he, hr, Nat.pow_add] at this
      exact Nat.le_of_mul_le_mul_right this (by positivity)
  -- the other nearest magnitude is a multiple of `2^e` too
  have hdvd : 2 ^ e ∣ m' := by
    rcases Nat.eq_zero_or_pos e with h0 | hpos
    · rw [h0]; simp
    · refine digits53_multiple hm' ?_
      by_contra hlt
      push Not at hlt
      have h1 := pow_le_div_of_ulpExp_pos (n := n) (d := d) (by omega)
      rw [← he] at h1
      have h2 : (2 : ℚ) ^ (52 + e) ≤ n / d := by
        rw [le_div_iff₀ hd']
        exact_mod_cast (Nat.le_div_iff_mul_le hd).1 h1
      have h3 : (m' : ℚ) < 2 ^ (52 + e) := by exact_mod_cast hlt
      have h4 := hmin (2 ^ (52 + e)) ⟨2 ^ 52, e, by rw [pow_add], by norm_num⟩
      rw [← heq] at h4
      push_cast at h4
      rw [abs_of_nonpos (by linarith), abs_of_nonpos (by linarith)] at h4
      linarith
  obtain ⟨k, hk⟩ := hdvd
  have hkq : k ≠ rne n (d * 2 ^ e) := by
    rintro rfl
    exact hne (by rw [hk, hr, Nat.mul_comm])
  have heven : rne n (d * 2 ^ e) % 2 = 0 := by
    rw [ratDist_eq hd, ratDist_eq hd, div_left_inj' hd'.ne'] at heq
    have heq : ratDist n d m' = ratDist n d (roundMag n d) := by exact_mod_cast heq
    rw [hr, hk] at heq
    unfold ratDist at heq
    generalize rne n (d * 2 ^ e) = q at *
    have e1 : q * 2 ^ e * d = q * (d * 2 ^ e) := by ring
    have e2 : 2 ^ e * k * d = k * (d * 2 ^ e) := by ring
    rw [e1, e2] at heq
    generalize d * 2 ^ e = D at *
    rcases Nat.lt_or_gt_of_ne hkq with hlt | hgt
    · have : (k + 1) * D ≤ q * D := Nat.mul_le_mul_right _ hlt
      have h3 : k * D + D ≤ q * D := by nlinarith
      have h4 : 2 * (q * D) ≤ 2 * n + D := by nlinarith
      refine b4 ?_
      rw [Nat.mul_assoc]
      omega
    · have : (q + 1) * D ≤ k * D := Nat.mul_le_mul_right _ hgt
      have h3 : q * D + D ≤ k * D := by nlinarith
      have h4 : 2 * n ≤ 2 * (q * D) + D := by nlinarith
      refine b3 ?_
      rw [Nat.add_mul, Nat.one_mul, Nat.mul_assoc]
      omega
  rw [hr]
  generalize rne n (d * 2 ^ e) = q at *
  rcases Nat.lt_or_ge q (2 ^ 53) with hlt | hge
  · exact ⟨q, e, rfl, hlt, heven, hq2⟩
  · have : q = 2 ^ 53 := by omega
    subst this
    refine ⟨2 ^ 52, e + 1, ?_, by norm_num, by norm_num, .inl le_rfl⟩
    rw [pow_succ 2 e]
    ring

theorem evenDigits_gap {m m' : Nat} (h : EvenDigits m) (h' : EvenDigits m') (hlt : m < m') : ∃ c, Digits53 c ∧ m < c ∧ c < m' := by
  obtain ⟨s, e, rfl, hs, he, hc⟩ := h
  have hdvd : 2 * 2 ^ e ∣ m' := by
    obtain ⟨s', e', rfl, hs', he', hc'⟩ := h'
    obtain ⟨t, rfl⟩ : ∃ t, s' = 2 * t := ⟨s' / 2, by omega⟩
    rcases hc with hc | rfl
    · have hee : e ≤ e' := by
        by_contra hlt'
        push Not at hlt'
        have h1 : 2 ^ 52 * 2 ^ e ≤ s * 2 ^ e := Nat.mul_le_mul_right _ hc
        have h2 : 2 ^ e' * 2 ≤ 2 ^ e := by rw [← pow_succ]; exact Nat.pow_le_pow_right (by norm_num) hlt'
        have h3 : 2 * t * 2 ^ e' < 2 ^ 53 * 2 ^ e' := Nat.mul_lt_mul_of_pos_right hs' (by positivity)
        have : 2 ^ 53 * 2 ^ e' = 2 ^ 52 * (2 ^ e' * 2) := by ring
        have h4 : 2 ^ 52 * (2 ^ e' * 2) ≤ 2 ^ 52 * 2 ^ e := Nat.mul_le_mul_left _ h2
        omega
      obtain ⟨c, hc⟩ := Nat.pow_dvd_pow 2 hee
      exact ⟨t * c, by rw [hc]; ring⟩
    · exact ⟨t * 2 ^ e', by rw [pow_zero]; ring⟩
  obtain ⟨t, rfl⟩ : ∃ t, s = 2 * t := ⟨s / 2, by omega⟩
  obtain ⟨k, rfl⟩ := hdvd
  have hp : 0 < 2 ^ e := by positivity
  refine ⟨(2 * t + 1) * 2 ^ e, ⟨2 * t + 1, e, rfl, by omega⟩, Nat.mul_lt_mul_of_pos_right (by omega) hp, ?_⟩
  have h1 : t < k := by
    have : 2 * 2 ^ e * t < 2 * 2 ^ e * k := by
      calc 2 * 2 ^ e * t = 2 * t * 2 ^ e := by ring
        _ < _ := hlt
    exact Nat.lt_of_mul_lt_mul_left this
  calc (2 * t + 1) * 2 ^ e < (2 * (t + 1)) * 2 ^ e := Nat.mul_lt_mul_of_pos_right (by omega) hp
    _ ≤ (2 * k) * 2 ^ e := Nat.mul_le_mul_right _ (by omega)
    _ = 2 * 2 ^ e * k := by ring

/-- there is only one nearest magnitude -/
theorem Nearest.unique {a : ℚ} {m m' : Nat} (h : Nearest a m) (h' : Nearest a m') : m = m' := by
  by_contra hne
  have hd : |(m : ℚ) - a| = |(m' : ℚ) - a| := le_antisymm (h.2 m' h'.1).1 (h'.2 m h.1).1
  have e1 := (h.2 m' h'.1).2 (fun e => hne e.symm) hd.symm
  have e2 := (h'.2 m h.1).2 hne hd
  have between : ∀ {x y c : Nat}, x < c → c < y → |(x : ℚ) - a| = |(y : ℚ) - a| → |(c : ℚ) - a| < |(x : ℚ) - a| := by
    intro x y c h1 h2 he
    have h1 : (x : ℚ) < c := by exact_mod_cast h1
    have h2 : (c : ℚ) < y := by exact_mod_cast h2
    have hx : (x : ℚ) - a ≤ |(x : ℚ) - a| ∧ -((x : ℚ) - a) ≤ |(x : ℚ) - a| := ⟨le_abs_self _, neg_le_abs _⟩
    have hs : (x : ℚ) - a = -((y : ℚ) - a) := by
      rcases abs_eq_abs.1 he with h | h
      · linarith
      · exact h
    have : a - x = |(x : ℚ) - a| := by
      rw [abs_of_neg (by linarith)]; ring
    rw [← this, abs_lt]
    constructor <;> linarith
  rcases Nat.lt_or_gt_of_ne hne with hlt | hlt
  · obtain ⟨c, hc, h1, h2⟩ := evenDigits_gap e1 e2 hlt
    exact absurd (h.2 c hc).1 (not_le.2 (between h1 h2 hd))
  · obtain ⟨c, hc, h1, h2⟩ := evenDigits_gap e2 e1 hlt
    exact absurd (h'.2 c hc).1 (not_le.2 (between h1 h2 hd.symm))

theorem HasSign.unique {x : F64} {s t : Bool} (h : HasSign x s) (h' : HasSign x t) : s = t := by
  rcases h with ⟨m, hm, rfl⟩ | rfl <;> rcases h' with ⟨n, hn, h⟩ | h <;> cases h <;> rfl

end Leaves
