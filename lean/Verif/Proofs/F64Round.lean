import Verif.Model.F64

/-! Rounding lemmas: `roundMag` is monotone, exact on representable values, and a nearest value. -/

namespace Leaves

theorem rne_bounds {n d : Nat} (hd : 0 < d) :
    2 * n ≤ (2 * rne n d + 1) * d ∧ 2 * rne n d * d ≤ 2 * n + d ∧
    (2 * n = (2 * rne n d + 1) * d → rne n d % 2 = 0) ∧
    (2 * rne n d * d = 2 * n + d → rne n d % 2 = 0) := by
  have h1 := Nat.div_add_mod n d
  have h2 := Nat.mod_lt n hd
  unfold rne; dsimp only
  generalize n / d = q at *
  generalize n % d = r at *
  split
  · refine ⟨by nlinarith, by nlinarith, fun h => ?_, fun h => ?_⟩ <;> exfalso <;> nlinarith
  · split
    · refine ⟨by nlinarith, by nlinarith, fun h => ?_, fun h => ?_⟩ <;> exfalso <;> nlinarith
    · have h3 : 2 * r = d := by omega
      split
      · refine ⟨by nlinarith, by nlinarith, fun h => by assumption, fun h => by assumption⟩
      · refine ⟨by nlinarith, by nlinarith, fun h => ?_, fun h => ?_⟩
        · exfalso; nlinarith
        · omega

/-- rounding to integers is monotone in the rational argument -/
theorem rne_mono {n d n' d' : Nat} (hd : 0 < d) (hd' : 0 < d') (h : n * d' ≤ n' * d) :
    rne n d ≤ rne n' d' := by
  by_contra hlt
  push Not at hlt
  obtain ⟨_, b2, _, b4⟩ := rne_bounds (n := n) hd
  obtain ⟨c1, _, c3, _⟩ := rne_bounds (n := n') hd'
  generalize rne n d = q at *
  generalize rne n' d' = q' at *
  -- (2q-1) d ≤ 2n and 2n' ≤ (2q'+1) d'
  have e1 : 2 * q * d * d' ≤ 2 * n * d' + d * d' := by nlinarith
  have e2 : 2 * n' * d ≤ (2 * q' + 1) * d' * d := by nlinarith
  have hdd : 0 < d * d' := Nat.mul_pos hd hd'
  have e3 : 2 * q * (d * d') ≤ (2 * q' + 2) * (d * d') := by nlinarith
  have hq : q = q' + 1 := by
    have := Nat.le_of_mul_le_mul_right e3 hdd
    omega
  subst hq
  have f1 : 2 * n' = (2 * q' + 1) * d' := by
    refine le_antisymm c1 ?_
    have : (2 * q' + 1) * d' * d ≤ 2 * n' * d := by nlinarith
    exact Nat.le_of_mul_le_mul_right this hd
  have f2 : 2 * (q' + 1) * d = 2 * n + d := by
    refine le_antisymm b2 ?_
    have : (2 * n + d) * d' ≤ (2 * (q' + 1) * d) * d' := by nlinarith
    exact Nat.le_of_mul_le_mul_right this hd'
  have := c3 f1
  have := b4 f2
  omega

theorem rne_mul_self {k d : Nat} (hd : 0 < d) : rne (k * d) d = k := by
  unfold rne; simp [Nat.mul_div_cancel _ hd, hd]

theorem ulpExp_mono {n d n' d' : Nat} (hd : 0 < d) (hd' : 0 < d') (h : n * d' ≤ n' * d) :
    ulpExp n d ≤ ulpExp n' d' := by
  have h1 : n / d ≤ n' / d' := by
    rw [Nat.le_div_iff_mul_le hd']
    have : n / d * d' * d ≤ n' * d := by
      calc n / d * d' * d = (n / d * d) * d' := by ring
        _ ≤ n * d' := Nat.mul_le_mul_right _ (Nat.div_mul_le_self n d)
        _ ≤ n' * d := h
    exact Nat.le_of_mul_le_mul_right this hd
  unfold ulpExp
  rcases Nat.eq_zero_or_pos (n / d) with h0 | hpos
  · simp [h0]
  · have : (n / d).log2 ≤ (n' / d').log2 := by
      rw [Nat.le_log2 (by omega)]
      exact le_trans (Nat.log2_self_le (by omega)) h1
    omega

/-- within the binade, `2^(53+e)` bounds the rounded value -/
theorem roundMag_le_pow (n d : Nat) : roundMag n d ≤ 2 ^ (53 + ulpExp n d) := by
  unfold roundMag
  rw [Nat.pow_add]
  refine Nat.mul_le_mul_right _ ?_
  have := div_ulp_lt n d
  rcases rne_cases n (d * 2 ^ ulpExp n d) with h | h <;> omega

theorem pow_le_div_of_ulpExp_pos {n d : Nat} (h : 0 < ulpExp n d) : 2 ^ (52 + ulpExp n d) ≤ n / d := by
  have hne : n / d ≠ 0 := by
    intro h0; simp [ulpExp, h0] at h
  have : 52 + ulpExp n d = (n / d).log2 := by unfold ulpExp at *; omega
  rw [this]
  exact Nat.log2_self_le hne

theorem pow_le_roundMag_of_ulpExp_pos {n d : Nat} (hd : 0 < d) (h : 0 < ulpExp n d) :
    2 ^ (52 + ulpExp n d) ≤ roundMag n d := by
  have h1 := pow_le_div_of_ulpExp_pos h
  unfold roundMag
  rw [Nat.pow_add]
  refine Nat.mul_le_mul_right _ ?_
  have h2 : 2 ^ 52 ≤ n / (d * 2 ^ ulpExp n d) := by
    rw [Nat.le_div_iff_mul_le (by positivity)]
    have := (Nat.le_div_iff_mul_le hd).1 h1
    rw [Nat.pow_add] at this
    calc 2 ^ 52 * (d * 2 ^ ulpExp n d) = 2 ^ 52 * 2 ^ ulpExp n d * d := by ring
      _ ≤ n := this
  rcases rne_cases n (d * 2 ^ ulpExp n d) with h | h <;> omega

/-- rounding to 53 bits is monotone in the rational argument -/
theorem roundMag_mono {n d n' d' : Nat} (hd : 0 < d) (hd' : 0 < d') (h : n * d' ≤ n' * d) :
    roundMag n d ≤ roundMag n' d' := by
  rcases Nat.eq_or_lt_of_le (ulpExp_mono hd hd' h) with he | hlt
  · unfold roundMag
    rw [← he]
    refine Nat.mul_le_mul_right _ (rne_mono (by positivity) (by positivity) ?_)
    calc n * (d' * 2 ^ ulpExp n d) = n * d' * 2 ^ ulpExp n d := by ring
      _ ≤ n' * d * 2 ^ ulpExp n d := Nat.mul_le_mul_right _ h
      _ = n' * (d * 2 ^ ulpExp n d) := by ring
  · calc roundMag n d ≤ 2 ^ (53 + ulpExp n d) := roundMag_le_pow n d
      _ ≤ 2 ^ (52 + ulpExp n' d') := Nat.pow_le_pow_right (by norm_num) (by omega)
      _ ≤ roundMag n' d' := pow_le_roundMag_of_ulpExp_pos hd' (by omega)

/-- rounding is exact on 53-bit values -/
theorem roundMag_exact {m d : Nat} (hd : 0 < d) (h : 2 ^ (m.log2 - 52) ∣ m) :
    roundMag (m * d) d = m := by
  have he : ulpExp (m * d) d = m.log2 - 52 := by
    unfold ulpExp; rw [Nat.mul_div_cancel _ hd]
  unfold roundMag
  rw [he]
  obtain ⟨k, hk⟩ := h
  generalize m.log2 - 52 = e at *
  have : rne (m * d) (d * 2 ^ e) = k := by
    have : m * d = k * (d * 2 ^ e) := by rw [hk]; ring
    rw [this]
    exact rne_mul_self (by positivity)
  rw [this, hk]; ring

theorem roundMag_rep {m : Nat} (h : Rep m) : roundMag m 1 = m := by
  have := roundMag_exact (m := m) (d := 1) (by norm_num) h.2
  simpa using this

theorem roundMag_zero {d : Nat} (hd : 0 < d) : roundMag 0 d = 0 := by
  have := roundMag_exact (m := 0) (d := d) hd (by simp)
  simpa using this

/-- distance in `Nat`, cross-multiplied: `|n/d - y| * d` -/
def ratDist (n d y : Nat) : Nat := (n - y * d) + (y * d - n)

/-- The rounded value is a nearest representable (53-bit) value to `n / d`. -/
theorem roundMag_nearest {n d y : Nat} (hd : 0 < d) (hy : 2 ^ (y.log2 - 52) ∣ y) :
    ratDist n d (roundMag n d) ≤ ratDist n d y := by
  set e := ulpExp n d with he
  have hgrid : ∀ k : Nat, ratDist n d (roundMag n d) ≤ ratDist n d (k * 2 ^ e) := by
    intro k
    have hd' : 0 < d * 2 ^ e := by positivity
    obtain ⟨b1, b2, _, _⟩ := rne_bounds (n := n) hd'
    unfold ratDist roundMag
    rw [← he]
    generalize rne n (d * 2 ^ e) = q at *
    have e1 : q * 2 ^ e * d = q * (d * 2 ^ e) := by ring
    have e2 : k * 2 ^ e * d = k * (d * 2 ^ e) := by ring
    rw [e1, e2]
    generalize d * 2 ^ e = D at *
    rcases Nat.lt_trichotomy k q with hk | hk | hk
    · have : (k + 1) * D ≤ q * D := Nat.mul_le_mul_right _ hk
      have h3 : k * D + D ≤ q * D := by nlinarith
      have h4 : 2 * (q * D) ≤ 2 * n + D := by nlinarith
      omega
    · subst hk; omega
    · have : (q + 1) * D ≤ k * D := Nat.mul_le_mul_right _ hk
      have h3 : q * D + D ≤ k * D := by nlinarith
      have h4 : 2 * n ≤ 2 * (q * D) + D := by nlinarith
      omega
  rcases Nat.lt_or_ge y (2 ^ (52 + e)) with hlt | hge
  · rcases Nat.eq_zero_or_pos e with h0 | hpos
    · have := hgrid y
      simpa [h0] using this
    · have h1 := pow_le_div_of_ulpExp_pos (n := n) (d := d) (by omega)
      rw [← he] at h1
      have h2 := (Nat.le_div_iff_mul_le hd).1 h1
      refine le_trans (hgrid (2 ^ 52)) ?_
      rw [← Nat.pow_add]
      have h3 : y * d ≤ 2 ^ (52 + e) * d := Nat.mul_le_mul_right _ hlt.le
      unfold ratDist
      omega
  · have hne : y ≠ 0 := by
      have : 0 < 2 ^ (52 + e) := by positivity
      omega
    have hl : 52 + e ≤ y.log2 := (Nat.le_log2 hne).2 hge
    obtain ⟨k, hk⟩ := dvd_trans (Nat.pow_dvd_pow 2 (show e ≤ y.log2 - 52 by omega)) hy
    have := hgrid k
    rw [hk, Nat.mul_comm]
    exact this

end Leaves
