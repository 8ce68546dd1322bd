import Verif.Proofs.F64Order

/-! Bounds for the softmax. -/

namespace Leaves
namespace F64

/-- the relative error of rounding a number of at least 2^-1022 -/
theorem roundMag_upper {n d : Nat} (hd : 0 < d) (h : 2 ^ 52 * d ≤ n) : roundMag n d * d * 2 ^ 53 ≤ n * (2 ^ 53 + 1) := by
  have hD : 2 ^ 52 * (d * 2 ^ ulpExp n d) ≤ n := by
    rcases Nat.eq_zero_or_pos (ulpExp n d) with h0 | hpos
    · rw [h0, pow_zero, Nat.mul_one]; exact h
    · have h1 := (Nat.le_div_iff_mul_le hd).1 (pow_le_div_of_ulpExp_pos hpos)
      rw [Nat.pow_add] at h1
      calc 2 ^ 52 * (d * 2 ^ ulpExp n d) = 2 ^ 52 * 2 ^ ulpExp n d * d := by ring
        _ ≤ n := h1
  unfold roundMag
  have hpos : 0 < d * 2 ^ ulpExp n d := by positivity
  obtain ⟨-, b2, -, -⟩ := rne_bounds (n := n) hpos
  generalize rne n (d * 2 ^ ulpExp n d) = q at *
  have e1 : q * 2 ^ ulpExp n d * d = q * (d * 2 ^ ulpExp n d) := by ring
  rw [e1]
  generalize d * 2 ^ ulpExp n d = D at *
  have b3 : 2 * (q * D) ≤ 2 * n + D := by linarith
  omega

theorem round_near_one : roundMag ((2 ^ 53 + 1) * unit) (2 ^ 53) = unit := by decide +kernel

theorem pow2096 : unit * unit = 2 ^ 52 * 2 ^ 2096 := by
  rw [unit_eq, ← Nat.pow_add, ← Nat.pow_add]

theorem rep_pow {e : Nat} (h : 2 ^ e < magLimit) : Rep (2 ^ e) := by
  have := rep_of_mul_pow (q := 1) (e := e) (by norm_num) (by rw [Nat.one_mul]; exact h)
  rwa [Nat.one_mul] at this

/-- the reciprocal of a number between 2^-1022 and 2^1022 is a number -/
theorem recip_fin {n : Nat} (hn : Rep n) (h1 : 2 ^ 52 ≤ n) (h2 : n ≤ 2 ^ 2096) :
    ∃ k hk, div one (fin false n hn) = fin false k hk ∧ n * k * 2 ^ 53 ≤ (2 ^ 53 + 1) * unit * unit := by
  have hpos : 0 < n := lt_of_lt_of_le (by norm_num) h1
  have hlt : 2 ^ 2096 < magLimit := by rw [magLimit_eq]; exact Nat.pow_lt_pow_right (by norm_num) (by norm_num)
  have hk : roundMag (unit * unit) n ≤ 2 ^ 2096 := by
    rw [← roundMag_rep (rep_pow hlt)]
    refine roundMag_mono hpos Nat.one_pos ?_
    rw [pow2096, Nat.mul_one, Nat.mul_comm (2 ^ 2096) n]
    exact Nat.mul_le_mul_right _ h1
  have hk' : roundMag (unit * unit) n < magLimit := lt_of_le_of_lt hk hlt
  refine ⟨roundMag (unit * unit) n, rep_roundMag hk', ?_, ?_⟩
  · rw [div_one_fin hn hpos]
    unfold ofRatio
    rw [dif_pos hk']
  · have := roundMag_upper (n := unit * unit) hpos (by rw [pow2096]; exact Nat.mul_le_mul_left _ h2)
    calc n * roundMag (unit * unit) n * 2 ^ 53 = roundMag (unit * unit) n * n * 2 ^ 53 := by ring
      _ ≤ _ := this
      _ = _ := by ring

theorem ofRatio_zero (s : Bool) {d : Nat} (hd : 0 < d) : ofRatio s 0 d = fin s 0 (by decide +kernel) := by
  have h0 := roundMag_zero hd
  unfold ofRatio
  rw [dif_pos (by rw [h0]; exact magLimit_pos)]
  exact fin_congr h0

theorem mul_fin_fin {s t : Bool} {m k : Nat} {hm : Rep m} {hk : Rep k} : mul (fin s m hm) (fin t k hk) = ofRatio (xor s t) (m * k) unit := rfl

theorem nonneg_neg {m : Nat} {hm : Rep m} (h : le zero (fin true m hm) = true) : m = 0 := by
  have : (0 : Int) ≤ (fin true m hm).toInt := le_fin.1 h
  simp only [toInt] at this
  omega

/-- multiplying by a non-negative number respects the order of non-negative numbers -/
theorem mul_mono {m m' k : Nat} {s s' : Bool} {hm : Rep m} {hm' : Rep m'} {hk : Rep k} (h0 : le zero (fin s m hm) = true)
    (h : le (fin s m hm) (fin s' m' hm') = true) : le (mul (fin s m hm) (fin false k hk)) (mul (fin s' m' hm') (fin false k hk)) = true := by
  have h0' := F64.le_trans h0 h
  rw [mul_fin_fin, mul_fin_fin, Bool.xor_false, Bool.xor_false]
  cases s
  · cases s'
    · have h : (m : Int) ≤ m' := le_fin.1 h
      exact le_ofRatio unit_pos unit_pos (Nat.mul_le_mul_right _ (Nat.mul_le_mul_right _ (by omega)))
    · have := nonneg_neg h0'
      subst this
      have h : (m : Int) ≤ -((0 : Nat) : Int) := le_fin.1 h
      have : m = 0 := by omega
      subst this
      rw [Nat.zero_mul, ofRatio_zero _ unit_pos, ofRatio_zero _ unit_pos]
      rw [le_fin]; simp [toInt]
  · have := nonneg_neg h0
    subst this
    cases s'
    · exact ofRatio_neg_le _ _ _ _
    · have := nonneg_neg h0'
      subst this
      exact le_ofRatio_neg unit_pos unit_pos (Nat.le_refl _)

theorem zero_le_mul {m k : Nat} {s : Bool} {hm : Rep m} {hk : Rep k} (h0 : le zero (fin s m hm) = true) :
    le zero (mul (fin s m hm) (fin false k hk)) = true := by
  rw [mul_fin_fin, Bool.xor_false]
  cases s
  · exact zero_le_ofRatio _ _
  · have := nonneg_neg h0
    subst this
    rw [Nat.zero_mul, ofRatio_zero _ unit_pos]
    unfold zero
    rw [le_fin]; simp [toInt]

/-- a share of the sum is at most 1 -/
theorem share_le_one {n k : Nat} {hn : Rep n} {hk : Rep k} (h : n * k * 2 ^ 53 ≤ (2 ^ 53 + 1) * unit * unit) :
    le (mul (fin false n hn) (fin false k hk)) one = true := by
  rw [mul_fin_fin, Bool.xor_false]
  refine F64.le_trans (le_ofRatio (n' := (2 ^ 53 + 1) * unit) (d' := 2 ^ 53) unit_pos (by norm_num) h) ?_
  have : ofRatio false ((2 ^ 53 + 1) * unit) (2 ^ 53) = one := by
    unfold ofRatio one
    rw [dif_pos (by rw [round_near_one, unit_eq, magLimit_eq]; exact Nat.pow_lt_pow_right (by norm_num) (by norm_num))]
    exact fin_congr round_near_one
  rw [this]
  decide +kernel

/-! ### sums -/

theorem foldl_add_nonneg : ∀ (es : List F64) (a : F64), (∀ e ∈ es, le zero e = true) → le zero a = true →
    le a (es.foldl add a) = true ∧ ∀ e ∈ es, le e (es.foldl add a) = true
  | [], a, _, ha => ⟨le_refl (ne_nan_of_le_right ha), by simp⟩
  | e :: es, a, h, ha => by
    have he := h e (by simp)
    have h1 := le_add_left ha he
    have h2 := le_add_right ha he
    obtain ⟨g1, g2⟩ := foldl_add_nonneg es (add a e) (fun x hx => h x (by simp [hx])) (F64.le_trans ha h1)
    refine ⟨F64.le_trans h1 g1, fun x hx => ?_⟩
    rcases List.mem_cons.1 hx with rfl | hx
    · exact F64.le_trans h2 g1
    · exact g2 x hx

/-- a sum of at most 2^20 numbers of at most 2^E each -/
theorem foldl_add_le {E : Nat} (hE : 2 ^ 20 * 2 ^ E < magLimit) : ∀ (es : List F64) (k : Nat) (a : F64), k + es.length ≤ 2 ^ 20 →
    (∀ e ∈ es, le zero e = true ∧ ∀ h, le e (fin false (2 ^ E) h) = true) → le zero a = true →
    (∀ h, le a (fin false (k * 2 ^ E) h) = true) → ∀ h, le (es.foldl add a) (fin false ((k + es.length) * 2 ^ E) h) = true
  | [], k, a, _, _, _, ha => ha
  | e :: es, k, a, hl, he, ha0, ha => by
    intro h
    have hlen : (e :: es).length = es.length + 1 := rfl
    rw [hlen] at hl
    obtain ⟨e1, e2⟩ := he e (by simp)
    have hrep : ∀ {j : Nat}, j ≤ 2 ^ 20 → Rep (j * 2 ^ E) := fun {j} hj =>
      rep_of_mul_pow (Nat.le_trans hj (by norm_num)) (lt_of_le_of_lt (Nat.mul_le_mul_right _ hj) hE)
    have hr1 : Rep (2 ^ E) := by have := hrep (j := 1) (by norm_num); rwa [Nat.one_mul] at this
    have key := foldl_add_le hE es (k + 1) (add a e) (by omega) (fun x hx => he x (by simp [hx]))
      (F64.le_trans ha0 (le_add_left ha0 e1)) (by
        intro h'
        have hk0 : le zero (fin false (k * 2 ^ E) (hrep (by omega))) = true := by unfold zero; rw [le_fin]; simp [toInt]
        have h10 : le zero (fin false (2 ^ E) hr1) = true := by unfold zero; rw [le_fin]; simp [toInt]
        refine F64.le_trans (add_mono (ha (hrep (by omega))) (e2 hr1) (add_nonneg_ne_nan ha0 e1) (add_nonneg_ne_nan hk0 h10)) ?_
        have : add (fin false (k * 2 ^ E) (hrep (by omega))) (fin false (2 ^ E) hr1) = fin false ((k + 1) * 2 ^ E) h' := by
          show ofScaled _ ((k * 2 ^ E : Nat) + (2 ^ E : Nat) : Int) 1 = _
          have hs : ((k * 2 ^ E : Nat) + (2 ^ E : Nat) : Int) = (((k + 1) * 2 ^ E : Nat) : Int) := by push_cast; ring
          rw [hs]
          have hp : 0 < (k + 1) * 2 ^ E := by positivity
          unfold ofScaled
          rw [if_neg (by omega), decide_eq_false (by omega), Int.natAbs_natCast, ofRatio_rep h']
        rw [this]
        exact le_refl (by simp))
    have hh : (k + 1 + es.length) * 2 ^ E = (k + (e :: es).length) * 2 ^ E := by rw [hlen]; ring
    have := key (by rw [hh]; exact h)
    rw [List.foldl_cons]
    rw [fin_congr (h' := h) hh] at this
    exact this

end F64
end Leaves
