import Verif.Props.Transform
import Verif.Proofs.Logistic
import Mathlib.Analysis.Complex.ExponentialBounds

/-! # Lemmas on the accuracy of the softmax transformation -/

namespace Leaves

open Spec

/-- `exp 690 ≤ 2^997`, since `exp 9 ≤ 2^13` -/
theorem exp_le_pow {q : ℝ} (h : q ≤ 690) : Real.exp q ≤ 2 ^ 997 := by
  have h1 : Real.exp 1 ≤ 2.7182818286 := Real.exp_one_lt_d9.le
  have h9 : Real.exp 1 ^ 9 ≤ 2 ^ 13 := (pow_le_pow_left₀ (Real.exp_pos _).le h1 9).trans (by norm_num)
  have h6 : Real.exp 1 ^ 6 ≤ 2 ^ 9 := (pow_le_pow_left₀ (Real.exp_pos _).le h1 6).trans (by norm_num)
  have h690 : Real.exp 690 = (Real.exp 1 ^ 9) ^ 76 * Real.exp 1 ^ 6 := by
    rw [← pow_mul, ← pow_add, ← Real.exp_nat_mul]
    norm_num
  refine (Real.exp_le_exp.2 h).trans ?_
  rw [h690]
  have e : (2 : ℝ) ^ 997 = (2 ^ 13) ^ 76 * 2 ^ 9 := by rw [← pow_mul, ← pow_add]
  rw [e]
  exact mul_le_mul (pow_le_pow_left₀ (by positivity) h9 76) h6 (by positivity) (by positivity)

theorem pow_le_exp {q : ℝ} (h : -690 ≤ q) : 1 / 2 ^ 997 ≤ Real.exp q := by
  have := exp_le_pow (q := -q) (by linarith)
  rw [Real.exp_neg] at this
  rw [div_le_iff₀ (pow_pos two_pos _)]
  have h0 := Real.exp_pos q
  calc (1 : ℝ) = Real.exp q * (Real.exp q)⁻¹ := (mul_inv_cancel₀ h0.ne').symm
    _ ≤ _ := mul_le_mul_of_nonneg_left this h0.le

theorem sum_close {ε : ℝ} {es Es : List ℝ} (h : List.Forall₂ (fun e E => |e - E| ≤ ε * E) es Es) : |es.sum - Es.sum| ≤ ε * Es.sum := by
  induction h with
  | nil => simp
  | cons h _ ih =>
    rw [List.sum_cons, List.sum_cons]
    obtain ⟨a1, a2⟩ := abs_le.1 h
    obtain ⟨b1, b2⟩ := abs_le.1 ih
    rw [abs_le]
    constructor <;> nlinarith

theorem ratio_close {ε e E s S : ℝ} (hε : 0 ≤ ε) (hε' : ε ≤ 1 / 3) (hE : 0 < E) (hS : 0 < S) (he : |e - E| ≤ ε * E) (hs : |s - S| ≤ ε * S) :
    |e / s - E / S| ≤ 3 * ε * (E / S) := by
  obtain ⟨a1, a2⟩ := abs_le.1 he
  obtain ⟨b1, b2⟩ := abs_le.1 hs
  have hs1 : 2 / 3 * S ≤ s := by nlinarith
  have hs0 : 0 < s := by linarith
  have e1 : e / s - E / S = ((e - E) * S - E * (s - S)) / (s * S) := by field_simp; ring
  rw [e1, abs_div, abs_of_pos (mul_pos hs0 hS), div_le_iff₀ (mul_pos hs0 hS)]
  have e2 : 3 * ε * (E / S) * (s * S) = 3 * ε * E * s := by field_simp
  rw [e2]
  have k1 : |(e - E) * S| ≤ ε * E * S := by rw [abs_mul, abs_of_pos hS]; exact mul_le_mul_of_nonneg_right he hS.le
  have k2 : |E * (s - S)| ≤ ε * E * S := by
    rw [abs_mul, abs_of_pos hE]
    calc E * |s - S| ≤ E * (ε * S) := mul_le_mul_of_nonneg_left hs hE.le
      _ = _ := by ring
  have k3 : 0 ≤ ε * E := mul_nonneg hε hE.le
  have k4 : ε * E * (2 / 3 * S) ≤ ε * E * s := mul_le_mul_of_nonneg_left hs1 k3
  calc _ ≤ |(e - E) * S| + |E * (s - S)| := abs_sub _ _
    _ ≤ _ := by linarith

theorem share_error {ε r R g τ p η : ℝ} (hε' : ε ≤ 1 / 4) (hR : 0 ≤ R) (hr : |r - R| ≤ 3 * ε * R) (hr0 : 0 ≤ r) (hτ : 0 ≤ τ)
    (hτ' : τ ≤ 1 / 8) (hg : |g - 1| ≤ τ) (hp : |p - r * g| ≤ r * g / 2 ^ 53 + η) : |p - R| ≤ (3 * ε + 2 * τ + 4 / 2 ^ 53) * R + η := by
  obtain ⟨a1, a2⟩ := abs_le.1 hr
  obtain ⟨b1, b2⟩ := abs_le.1 hg
  have k1 : r ≤ 7 / 4 * R := by nlinarith
  have k2 : |r * g - r| ≤ τ * r := by
    have : r * g - r = r * (g - 1) := by ring
    rw [this, abs_mul, abs_of_nonneg hr0, mul_comm]
    exact mul_le_mul_of_nonneg_right hg hr0
  have k3 : τ * r ≤ τ * (7 / 4 * R) := mul_le_mul_of_nonneg_left k1 hτ
  have k4 : r * g ≤ 2 * R := by
    calc r * g ≤ r * (9 / 8) := mul_le_mul_of_nonneg_left (by linarith) hr0
      _ ≤ 7 / 4 * R * (9 / 8) := mul_le_mul_of_nonneg_right k1 (by norm_num)
      _ ≤ _ := by linarith
  have tri : |p - R| ≤ |p - r * g| + |r * g - r| + |r - R| :=
    (abs_sub_le _ r _).trans (by linarith [abs_sub_le p (r * g) r])
  have : 0 ≤ τ * R := mul_nonneg hτ hR
  nlinarith

/-- an accurate exponential of a score between -690 and 690 -/
theorem exp_between {P : Platform} {ε : ℝ} (hε' : ε ≤ 1 / 8) (hP : ExpAccurate P ε) {x : F64} {q : ℚ} (hx : IsVal x q)
    (hq : |(q : ℝ)| ≤ 690) : ∃ e : ℚ, IsVal (P.exp x) e ∧ F64.le lowest (P.exp x) = true ∧ F64.le (P.exp x) highest = true ∧
      |(e : ℝ) - Real.exp q| ≤ (ε + 1 / 2 ^ 77) * Real.exp q := by
  obtain ⟨q1, q2⟩ := abs_le.1 hq
  have hlo := pow_le_exp q1
  have hhi := exp_le_pow q2
  have hE := Real.exp_pos (q : ℝ)
  rcases hP x q hx with ⟨e, h1, h2, h3⟩ | ⟨h1, h2⟩
  · generalize Real.exp (q : ℝ) = E at *
    have hu : (1 : ℝ) / 2 ^ 1074 ≤ 1 / 2 ^ 77 * E := by
      have e1 : (1 : ℝ) / 2 ^ 1074 = 1 / 2 ^ 77 * (1 / 2 ^ 997) := by rw [one_div_mul_one_div, ← pow_add]
      rw [e1]
      exact mul_le_mul_of_nonneg_left hlo (one_div_nonneg.2 (pow_nonneg zero_le_two _))
    have herr : |(e : ℝ) - E| ≤ (ε + 1 / 2 ^ 77) * E := by rw [add_mul]; exact h3.trans (add_le_add le_rfl hu)
    have herr' : |(e : ℝ) - E| ≤ 1 / 4 * E := herr.trans (mul_le_mul_of_nonneg_right (by
      have : (1 : ℝ) / 2 ^ 77 ≤ 1 / 8 := by norm_num
      linarith) hE.le)
    obtain ⟨a1, a2⟩ := abs_le.1 herr'
    obtain ⟨s, m, hm, hfin, hm1, hm2⟩ := isVal_scaled h1
    have hunit : (0 : ℚ) < unit := by exact_mod_cast unit_pos
    have he0 : (0 : ℝ) < e := by linarith
    have he0' : (0 : ℚ) < e := by exact_mod_cast he0
    have hs : s = false := by
      cases s
      · rfl
      · exfalso
        rw [if_pos rfl] at hm2
        have : (0 : ℚ) < e * unit := mul_pos he0' hunit
        rw [hm1, hm2] at this
        have : (0 : ℚ) ≤ m := by positivity
        linarith
    subst hs
    rw [if_neg Bool.false_ne_true] at hm2
    have hmr : (e : ℝ) * 2 ^ 1074 = m := by
      have : ((e * unit : ℚ) : ℝ) = ((m : ℚ) : ℝ) := by rw [hm1, hm2]
      rw [unit_cast, Rat.cast_mul, Rat.cast_pow, Rat.cast_ofNat, Rat.cast_natCast] at this
      exact this
    refine ⟨e, h1, ?_, ?_, herr⟩
    · rw [hfin, lowest_eq, F64.le_fin]
      show ((2 ^ 74 : Nat) : Int) ≤ m
      have : ((2 ^ 74 : Nat) : ℝ) ≤ m := by
        rw [← hmr, Nat.cast_pow, Nat.cast_ofNat]
        have h5 : (2 : ℝ) ^ 74 = 1 / 2 ^ 1000 * 2 ^ 1074 := by
          rw [div_mul_eq_mul_div, one_mul, eq_div_iff (pow_ne_zero _ two_ne_zero), ← pow_add]
        rw [h5]
        refine mul_le_mul_of_nonneg_right ?_ (pow_nonneg zero_le_two _)
        have h6 : (1 : ℝ) / 2 ^ 1000 ≤ 1 / 2 ^ 998 := inv_pow_le _ _ (by omega)
        have h7 : (1 : ℝ) / 2 ^ 998 = 1 / 2 * (1 / 2 ^ 997) := by rw [pow_succ, one_div_mul_one_div, mul_comm]
        rw [h7] at h6
        generalize (1 : ℝ) / 2 ^ 1000 = A at h6 ⊢
        generalize (1 : ℝ) / 2 ^ 997 = B at h6 hlo
        linarith
      exact_mod_cast (Nat.cast_le (α := ℝ)).1 this
    · rw [hfin, highest_eq, F64.le_fin]
      show (m : Int) ≤ ((2 ^ 2074 : Nat) : Int)
      have : (m : ℝ) ≤ ((2 ^ 2074 : Nat) : ℝ) := by
        rw [← hmr, Nat.cast_pow, Nat.cast_ofNat, show 2074 = 1000 + 1074 from rfl, pow_add]
        refine mul_le_mul_of_nonneg_right ?_ (pow_nonneg zero_le_two _)
        have h6 : (2 : ℝ) ^ 998 ≤ 2 ^ 1000 := pow_le_pow_right₀ one_le_two (by omega)
        have h7 : (2 : ℝ) ^ 998 = 2 ^ 997 * 2 := pow_succ _ _
        rw [h7] at h6
        generalize (2 : ℝ) ^ 1000 = A at h6 ⊢
        generalize (2 : ℝ) ^ 997 = B at h6 hhi
        linarith
      exact Int.ofNat_le.2 ((Nat.cast_le (α := ℝ)).1 this)
  · exfalso
    have : (2 : ℝ) ^ 997 < 2 ^ 1023 := pow_lt_pow_right₀ one_lt_two (by omega)
    exact absurd (h2.trans hhi) (not_le.2 this)

/-- one entry of a softmax, compared with the share of its exponential -/
theorem softmax_share {es : List F64} (h1 : 1 ≤ es.length) (h2 : es.length ≤ 2 ^ 20)
    (he : ∀ e ∈ es, F64.le lowest e = true ∧ F64.le e highest = true) {x : F64} (hx : x ∈ es) :
    ∃ p g : ℚ, IsVal (F64.mul x (F64.div F64.one (es.foldl F64.add F64.zero))) p ∧ F64.feq (es.foldl F64.add F64.zero) F64.zero = false ∧
      |g - 1| ≤ (es.length + 4) / 2 ^ 52 ∧
      |p - F64.magQ x / (es.map F64.magQ).sum * g| ≤ F64.magQ x / (es.map F64.magQ).sum * g / 2 ^ 53 + 1 / 2 ^ 1075 := by
  obtain ⟨n, hn, k, hk, hS, hpos, hd, hb, hle, hup⟩ := softmax_sum h1 h2 he
  have hl0 : F64.le F64.zero lowest = true := by decide +kernel
  have he0 : ∀ e ∈ es, F64.le F64.zero e = true := fun e h => F64.le_trans hl0 (he e h).1
  have hfin : ∀ e ∈ es, F64.IsFin e := by
    intro e hm
    have h3 := (he e hm).2
    rw [highest_eq] at h3
    obtain ⟨s, m, hr, he, -⟩ := fin_between (he0 e hm) h3
    exact ⟨s, m, hr, he⟩
  have hfeq : F64.feq (F64.fin false n hn) F64.zero = false := by
    have : F64.le (F64.fin false n hn) F64.zero = false := by
      rw [← Bool.not_eq_true]
      unfold F64.zero
      rw [F64.le_fin]
      show ¬ (n : Int) ≤ ((0 : Nat) : Int)
      omega
    unfold F64.feq
    rw [this]; rfl
  have hz : F64.IsFin (F64.mul x (F64.fin false k hk)) := by
    obtain ⟨s, m, hm', rfl⟩ := hfin x hx
    exact F64.isFin_of_le (F64.zero_le_mul (he0 _ hx)) (F64.le_trans (F64.mul_mono (he0 _ hx) (hle _ hx)) (F64.share_le_one hb)) ⟨_, _, _, rfl⟩
  have hkk : k = roundMag (unit * unit) n := by
    rw [F64.div_one_fin hn hpos] at hd
    unfold F64.ofRatio at hd
    split at hd
    · cases hd; rfl
    · cases hd
  obtain ⟨s1, s2⟩ := F64.foldl_err es F64.zero he0 F64.zero_le_zero (by rw [hS]; exact ⟨_, _, _, rfl⟩)
  have hr := F64.recip_err hpos hup
  rw [← hkk] at hr
  have hm := F64.mul_err (he0 x hx) (hfin x hx) hz
  rw [hS] at s1 s2
  have hz0 : F64.magQ F64.zero = 0 := by simp [F64.magQ, F64.toInt, F64.zero]
  have hnn : F64.magQ (F64.fin false n hn) = n := by simp [F64.magQ, F64.toInt]
  rw [hz0, zero_add, hnn] at s1 s2
  have hM : 0 ≤ (es.map F64.magQ).sum := List.sum_nonneg fun x hx => by
    obtain ⟨y, hy, rfl⟩ := List.mem_map.1 hx
    exact F64.magQ_nonneg (he0 y hy)
  have hn0 : (0 : ℚ) < n := by exact_mod_cast hpos
  have hM' : (es.map F64.magQ).sum ≠ 0 := by
    intro h
    rw [h, zero_mul] at s2
    linarith
  have hU : (0 : ℚ) < unit := by exact_mod_cast unit_pos
  clear hup
  have hy0 : (0 : ℚ) ≤ k * n / (unit * unit) := by positivity
  have hg := F64.shares_err h2 hM hn0 s1 s2 hr (R := (k : ℚ) * n / (unit * unit) * ((es.map F64.magQ).sum / n)) (by
    rw [sub_self, abs_zero]
    have : 0 ≤ (k : ℚ) * n / (unit * unit) * ((es.map F64.magQ).sum / n) := mul_nonneg hy0 (div_nonneg hM hn0.le)
    positivity)
  have hval := isVal_of_isFin hz
  refine ⟨F64.magQ (F64.mul x (F64.fin false k hk)) / unit, (k : ℚ) * n / (unit * unit) * ((es.map F64.magQ).sum / n), ?_, ?_, hg, ?_⟩
  · rw [hS, hd]
    exact hval
  · rw [hS]
    exact hfeq
  · generalize (es.map F64.magQ).sum = M at *
    have e1 : F64.magQ x / M * ((k : ℚ) * n / (unit * unit) * (M / n)) = F64.magQ x * k / unit / unit := by field_simp
    rw [e1, ← sub_div, abs_div, abs_of_pos hU, div_le_iff₀ hU]
    refine hm.trans (le_of_eq ?_)
    rw [add_mul, unit_cast, half_scaled 1074]
    have : (2 : ℚ) ^ 1074 ≠ 0 := pow_ne_zero _ two_ne_zero
    generalize (2 : ℚ) ^ 1074 = U at *
    field_simp

/-- the value of a number, in units -/
theorem val_magQ {x : F64} {e : ℚ} (h : IsVal x e) : F64.magQ x = e * unit := by
  have hU : (unit : ℚ) ≠ 0 := by exact_mod_cast unit_pos.ne'
  rw [(isVal_iff.1 h).2]
  field_simp

/-- the softmax transformation of numbers -/
theorem softmax_val {P : Platform} {ε : ℝ} (hε : 0 ≤ ε) (hε' : ε ≤ 1 / 8) (hP : ExpAccurate P ε) {w : List F64} {qs : List ℚ}
    (hw : List.Forall₂ IsVal w qs) (h1 : 1 ≤ w.length) (h2 : w.length ≤ 2 ^ 20) (hq : ∀ q ∈ qs, |(q : ℝ)| ≤ 690) {k : Nat} {z : F64} {q : ℚ}
    (hz : (softmaxOf P w)[k]? = some z) (hk : qs[k]? = some q) :
    ∃ p : ℚ, IsVal z p ∧ |(p : ℝ) - softmaxFn (qs.map (↑)) q| ≤
      (3 * ε + (w.length + 6) / 2 ^ 51) * softmaxFn (qs.map (↑)) q + 1 / 2 ^ 1075 := by
  -- the exponentials
  have hexp : ∃ es : List ℚ, List.Forall₂ IsVal (w.map P.exp) es ∧
      List.Forall₂ (fun (e E : ℝ) => |e - E| ≤ (ε + 1 / 2 ^ 77) * E) (es.map (↑)) ((qs.map (fun q : ℚ => (q : ℝ))).map Real.exp) ∧
      ∀ e ∈ w.map P.exp, F64.le lowest e = true ∧ F64.le e highest = true := by
    clear h1 h2 hz hk
    induction hw with
    | nil => exact ⟨[], .nil, .nil, by simp⟩
    | @cons x q w qs hx hw ih =>
      obtain ⟨e, e1, e2, e3, e4⟩ := exp_between hε' hP hx (hq q (by simp))
      obtain ⟨es, g1, g2, g3⟩ := ih fun q hq' => hq q (by simp [hq'])
      refine ⟨e :: es, .cons e1 g1, .cons e4 g2, fun y hy => ?_⟩
      rcases List.mem_cons.1 hy with rfl | hy
      · exact ⟨e2, e3⟩
      · exact g3 y hy
  obtain ⟨es, g1, g2, g3⟩ := hexp
  obtain ⟨hklt, rfl⟩ := List.getElem?_eq_some_iff.1 hk
  have hlw : w.length = qs.length := hw.length_eq
  have hle : es.length = qs.length := by
    have := g1.length_eq
    rw [List.length_map] at this
    omega
  have hmem : P.exp (w[k]'(by omega)) ∈ w.map P.exp := List.mem_map_of_mem (List.getElem_mem _)
  obtain ⟨p, g, s1, s2, s3, s4⟩ := softmax_share (es := w.map P.exp) (by simpa using h1) (by simpa using h2) g3 hmem
  have hzz : z = F64.mul (P.exp (w[k]'(by omega))) (F64.div F64.one ((w.map P.exp).foldl F64.add F64.zero)) := by
    unfold softmaxOf at hz
    simp only at hz
    rw [s2] at hz
    simp only [Bool.false_eq_true, if_false, List.getElem?_map] at hz
    rw [List.getElem?_eq_getElem (by omega)] at hz
    exact (Option.some.inj hz).symm
  subst hzz
  refine ⟨p, s1, ?_⟩
  -- their sum
  have hU : (0 : ℚ) < unit := by exact_mod_cast unit_pos
  have hsum : ((w.map P.exp).map F64.magQ).sum = es.sum * unit := by
    generalize w.map P.exp = l at g1
    clear * - g1
    induction g1 with
    | nil => simp
    | cons h _ ih => rw [List.map_cons, List.sum_cons, List.sum_cons, ih, val_magQ h]; ring
  have hek : IsVal (P.exp (w[k]'(by omega))) (es[k]'(by omega)) := by
    have := List.Forall₂.get g1 (i := k) (by rw [List.length_map]; omega) (by omega)
    simpa using this
  rw [hsum, val_magQ hek, mul_div_mul_right _ _ hU.ne'] at s4
  have hgk : |((es[k]'(by omega) : ℚ) : ℝ) - Real.exp (qs[k] : ℚ)| ≤ (ε + 1 / 2 ^ 77) * Real.exp (qs[k] : ℚ) := by
    have := List.Forall₂.get g2 (i := k) (by rw [List.length_map]; omega) (by rw [List.length_map, List.length_map]; omega)
    simpa using this
  have hgs := sum_close g2
  have hes : (es.map (fun e : ℚ => (e : ℝ))).sum = ((es.sum : ℚ) : ℝ) := by
    clear * -
    induction es with
    | nil => simp
    | cons e es ih => rw [List.map_cons, List.sum_cons, List.sum_cons, ih, Rat.cast_add]
  rw [hes] at hgs
  have hE := Real.exp_pos ((qs[k] : ℚ) : ℝ)
  have hS : 0 < ((qs.map (fun q : ℚ => (q : ℝ))).map Real.exp).sum := by
    have hpos : ∀ l : List ℝ, l ≠ [] → 0 < (l.map Real.exp).sum := by
      intro l hl
      induction l with
      | nil => exact absurd rfl hl
      | cons a l ih =>
        rw [List.map_cons, List.sum_cons]
        have := Real.exp_pos a
        rcases eq_or_ne l [] with rfl | h
        · simpa using this
        · have := ih h; linarith
    refine hpos _ fun h => ?_
    have : qs.length = 0 := by simpa using congrArg List.length h
    omega
  unfold softmaxFn
  generalize ((qs.map (fun q : ℚ => (q : ℝ))).map Real.exp).sum = S at *
  have hε2 : ε + 1 / 2 ^ 77 ≤ 1 / 4 := by
    have : (1 : ℝ) / 2 ^ 77 ≤ 1 / 8 := by norm_num
    linarith
  have hr := ratio_close (by positivity) (by linarith) hE hS hgk hgs
  have hN : (w.length : ℝ) ≤ 2 ^ 20 := by exact_mod_cast h2
  have hτ' : ((w.length : ℝ) + 4) / 2 ^ 52 ≤ 1 / 8 := by
    rw [div_le_iff₀ (by norm_num)]
    linarith
  rw [List.length_map] at s3
  have s3' := cast_abs_le s3
  push_cast at s3'
  have s4' := cast_abs_le s4
  have e7 : (((1 : ℚ) / 2 ^ 1075 : ℚ) : ℝ) = 1 / 2 ^ 1075 := by
    rw [Rat.cast_div, Rat.cast_pow, Rat.cast_one, Rat.cast_ofNat]
  rw [Rat.cast_sub, Rat.cast_add, e7, Rat.cast_div _ (2 ^ 53), Rat.cast_mul, Rat.cast_div, Rat.cast_pow, Rat.cast_ofNat] at s4'
  have he0 : (0 : ℝ) ≤ ((es[k]'(by omega) : ℚ) : ℝ) / ((es.sum : ℚ) : ℝ) := by
    have a1 := (abs_le.1 hgk).1
    have a2 := (abs_le.1 hgs).1
    have b1 : (ε + 1 / 2 ^ 77) * Real.exp ((qs[k] : ℚ) : ℝ) ≤ 1 / 4 * Real.exp ((qs[k] : ℚ) : ℝ) := mul_le_mul_of_nonneg_right hε2 hE.le
    have b2 : (ε + 1 / 2 ^ 77) * S ≤ 1 / 4 * S := mul_le_mul_of_nonneg_right hε2 hS.le
    exact div_nonneg (by linarith) (by linarith)
  have hR : 0 ≤ Real.exp ((qs[k] : ℚ) : ℝ) / S := (div_pos hE hS).le
  have key := share_error hε2 hR hr he0 (by positivity) hτ' s3' s4'
  refine key.trans (add_le_add (mul_le_mul_of_nonneg_right ?_ hR) le_rfl)
  have c1 : 3 * (1 / 2 ^ 77 : ℝ) ≤ 1 / 2 ^ 51 := by norm_num
  have c2 : 2 * (((w.length : ℝ) + 4) / 2 ^ 52) = (w.length + 4) / 2 ^ 51 := by ring
  have c3 : (4 : ℝ) / 2 ^ 53 = 1 / 2 ^ 51 := by norm_num
  have c4 : ((w.length : ℝ) + 6) / 2 ^ 51 = (w.length + 4) / 2 ^ 51 + 1 / 2 ^ 51 + 1 / 2 ^ 51 := by ring
  rw [c2, c3, c4]
  linarith

/-- exponentials of scores that differ by at most `δ` -/
theorem softmaxFn_close {δ : ℝ} (hδ : 0 ≤ δ) {as bs : List ℝ} (h : List.Forall₂ (fun a b => |a - b| ≤ δ) as bs) (hne : as ≠ []) {x y : ℝ}
    (hxy : |x - y| ≤ δ) : |softmaxFn as x - softmaxFn bs y| ≤ (Real.exp (2 * δ) - 1) * softmaxFn bs y := by
  have ratio : ∀ {a b : ℝ}, |a - b| ≤ δ → Real.exp (-δ) * Real.exp b ≤ Real.exp a ∧ Real.exp a ≤ Real.exp δ * Real.exp b := by
    intro a b h
    obtain ⟨h1, h2⟩ := abs_le.1 h
    rw [← Real.exp_add, ← Real.exp_add, Real.exp_le_exp, Real.exp_le_exp]
    constructor <;> linarith
  have sums : ∀ {as bs : List ℝ}, List.Forall₂ (fun a b => |a - b| ≤ δ) as bs →
      Real.exp (-δ) * (bs.map Real.exp).sum ≤ (as.map Real.exp).sum ∧ (as.map Real.exp).sum ≤ Real.exp δ * (bs.map Real.exp).sum := by
    intro as bs h
    induction h with
    | nil => simp
    | cons h _ ih =>
      rw [List.map_cons, List.map_cons, List.sum_cons, List.sum_cons, mul_add, mul_add]
      have := ratio h
      exact ⟨add_le_add this.1 ih.1, add_le_add this.2 ih.2⟩
  have hb : 0 < (bs.map Real.exp).sum := by
    cases h with
    | nil => exact absurd rfl hne
    | cons _ h =>
      rw [List.map_cons, List.sum_cons]
      refine add_pos_of_pos_of_nonneg (Real.exp_pos _) (List.sum_nonneg fun x hx => ?_)
      obtain ⟨y, -, rfl⟩ := List.mem_map.1 hx
      exact (Real.exp_pos _).le
  obtain ⟨r1, r2⟩ := ratio hxy
  obtain ⟨s1, s2⟩ := sums h
  unfold softmaxFn
  generalize (as.map Real.exp).sum = A at *
  generalize (bs.map Real.exp).sum = B at *
  have hy := Real.exp_pos y
  have hd := Real.exp_pos δ
  have hd' := Real.exp_pos (-δ)
  have hdd : Real.exp (-δ) * Real.exp δ = 1 := by rw [← Real.exp_add]; simp
  have h2δ : Real.exp (2 * δ) = Real.exp δ * Real.exp δ := by rw [← Real.exp_add]; ring_nf
  have hA : 0 < A := lt_of_lt_of_le (mul_pos hd' hb) s1
  generalize Real.exp x = X at *
  generalize Real.exp y = Y at *
  rw [h2δ]
  have hd1 : 1 ≤ Real.exp δ := Real.one_le_exp hδ
  generalize Real.exp δ = d at *
  generalize Real.exp (-δ) = c at *
  have u1 : X / A ≤ d * d * (Y / B) := by
    rw [div_le_iff₀ hA]
    have : d * d * (Y / B) * A = d * Y * (d * A / B) := by ring
    rw [this]
    have : 1 ≤ d * A / B := by
      rw [le_div_iff₀ hb, one_mul]
      calc B = d * (c * B) := by rw [← mul_assoc, mul_comm d c, hdd, one_mul]
        _ ≤ d * A := mul_le_mul_of_nonneg_left s1 hd.le
    calc X ≤ d * Y := r2
      _ = d * Y * 1 := (mul_one _).symm
      _ ≤ _ := mul_le_mul_of_nonneg_left this (mul_pos hd hy).le
  have u2 : c * c * (Y / B) ≤ X / A := by
    rw [le_div_iff₀ hA]
    have : c * c * (Y / B) * A = c * Y * (c * A / B) := by ring
    rw [this]
    have : c * A / B ≤ 1 := by
      rw [div_le_iff₀ hb, one_mul]
      calc c * A ≤ c * (d * B) := mul_le_mul_of_nonneg_left s2 hd'.le
        _ = B := by rw [← mul_assoc, hdd, one_mul]
    calc c * Y * (c * A / B) ≤ c * Y * 1 := mul_le_mul_of_nonneg_left this (mul_pos hd' hy).le
      _ ≤ _ := by rw [mul_one]; exact r1
  have hYB : 0 < Y / B := div_pos hy hb
  have hcd : 1 - (d * d - 1) ≤ c * c := by
    have : c * c * (d * d) = 1 := by
      calc c * c * (d * d) = (c * d) * (c * d) := by ring
        _ = 1 := by rw [hdd, one_mul]
    have h1 : 1 ≤ d * d := by nlinarith
    have hcc : 0 < c * c := mul_pos hd' hd'
    generalize d * d = D at *
    generalize c * c = C at *
    nlinarith [sq_nonneg (D - 1)]
  rw [abs_le]
  constructor
  · have := mul_le_mul_of_nonneg_right hcd hYB.le
    linarith
  · linarith

end Leaves
