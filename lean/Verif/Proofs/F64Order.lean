import Verif.Proofs.F64Arith
import Verif.Proofs.F64Lemmas

/-! Arithmetic on float64 respects the order. -/

namespace Leaves
namespace F64

theorem ofRatio_ne_nan (s : Bool) (n d : Nat) : ofRatio s n d ≠ nan := by
  unfold ofRatio; split <;> simp

theorem le_fin {s t : Bool} {m n : Nat} {hm : Rep m} {hn : Rep n} : le (fin s m hm) (fin t n hn) = true ↔ (fin s m hm).toInt ≤ (fin t n hn).toInt :=
  decide_eq_true_iff

theorem le_ofRatio {n d n' d' : Nat} (hd : 0 < d) (hd' : 0 < d') (h : n * d' ≤ n' * d) :
    le (ofRatio false n d) (ofRatio false n' d') = true := by
  have hm := roundMag_mono hd hd' h
  unfold ofRatio
  by_cases h2 : roundMag n' d' < magLimit
  · rw [dif_pos h2, dif_pos (by omega)]
    rw [le_fin]
    exact Int.ofNat_le.2 hm
  · rw [dif_neg h2]
    split <;> rfl

theorem le_ofRatio_neg {n d n' d' : Nat} (hd : 0 < d) (hd' : 0 < d') (h : n' * d ≤ n * d') :
    le (ofRatio true n d) (ofRatio true n' d') = true := by
  have hm := roundMag_mono hd' hd h
  unfold ofRatio
  by_cases h2 : roundMag n d < magLimit
  · rw [dif_pos h2, dif_pos (by omega)]
    rw [le_fin]
    simp only [toInt]
    omega
  · rw [dif_neg h2]
    split <;> rfl

theorem ofRatio_neg_le (n d n' d' : Nat) : le (ofRatio true n d) (ofRatio false n' d') = true := by
  unfold ofRatio
  split <;> split <;> simp [le, toInt]

theorem zero_le_ofRatio (n d : Nat) : le zero (ofRatio false n d) = true := by
  unfold ofRatio zero
  split <;> simp [le, toInt]

theorem ofRatio_neg_le_zero (s : Bool) (h : Rep 0) (n d : Nat) : le (ofRatio true n d) (fin s 0 h) = true := by
  unfold ofRatio
  split <;> cases s <;> simp [le, toInt]

theorem zero_le_ofRatio' (s : Bool) (h : Rep 0) (n d : Nat) : le (fin s 0 h) (ofRatio false n d) = true := by
  unfold ofRatio
  split <;> cases s <;> simp [le, toInt]

theorem ofScaled_mono {z z' : Bool} {v v' : Int} {d d' : Nat} (hd : 0 < d) (hd' : 0 < d') (h : v * d' ≤ v' * d) :
    le (ofScaled z v d) (ofScaled z' v' d') = true := by
  have hdi : (0 : Int) < d := by exact_mod_cast hd
  have hdi' : (0 : Int) < d' := by exact_mod_cast hd'
  unfold ofScaled
  rcases lt_trichotomy v 0 with hv | hv | hv
  · rw [if_neg (by omega), decide_eq_true hv]
    rcases lt_trichotomy v' 0 with hv' | hv' | hv'
    · rw [if_neg (by omega), decide_eq_true hv']
      refine le_ofRatio_neg hd hd' ?_
      zify
      rw [abs_of_neg hv, abs_of_neg hv']
      linarith
    · rw [if_pos hv']; exact ofRatio_neg_le_zero _ _ _ _
    · rw [if_neg (by omega), decide_eq_false (by omega)]; exact ofRatio_neg_le _ _ _ _
  · rw [if_pos hv]
    rcases lt_trichotomy v' 0 with hv' | hv' | hv'
    · exfalso; subst hv; nlinarith
    · rw [if_pos hv']; cases z <;> cases z' <;> simp [le, toInt]
    · rw [if_neg (by omega), decide_eq_false (by omega)]; exact zero_le_ofRatio' _ _ _ _
  · have hv' : 0 < v' := by
      by_contra hc
      have : v' * d ≤ 0 := mul_nonpos_of_nonpos_of_nonneg (by omega) (by omega)
      have : 0 < v * d' := by positivity
      omega
    rw [if_neg (by omega), decide_eq_false (by omega), if_neg (by omega), decide_eq_false (by omega)]
    refine le_ofRatio hd hd' ?_
    zify
    rw [abs_of_pos hv, abs_of_pos hv']
    exact h

theorem ofScaled_ne_nan (z : Bool) (v : Int) (d : Nat) : ofScaled z v d ≠ nan := by
  unfold ofScaled
  split
  · simp
  · exact ofRatio_ne_nan _ _ _

theorem neg_inf_le {x : F64} (h : x ≠ nan) : le (inf true) x = true := by
  rcases x with _ | s | ⟨s, m, hm⟩
  · exact absurd rfl h
  · rfl
  · rfl

theorem le_inf {x : F64} (h : x ≠ nan) : le x (inf false) = true := by
  rcases x with _ | s | ⟨s, m, hm⟩
  · exact absurd rfl h
  · cases s <;> rfl
  · rfl

/-- addition is monotone where it is defined -/
theorem add_mono {x x' y y' : F64} (hx : le x x' = true) (hy : le y y' = true) (h : add x y ≠ nan) (h' : add x' y' ≠ nan) :
    le (add x y) (add x' y') = true := by
  rcases x with _ | s | ⟨s, m, hm⟩
  · cases hx
  · cases s
    · rcases x' with _ | s' | ⟨s', m', hm'⟩
      · cases hx
      · cases s'
        · rcases y' with _ | t' | ⟨t', n', hn'⟩
          · cases y <;> cases hy
          · cases t'
            · exact le_inf h
            · exact absurd rfl h'
          · exact le_inf h
        · cases hx
      · cases hx
    · rcases y with _ | t | ⟨t, n, hn⟩
      · cases hy
      · cases t
        · exact absurd rfl h
        · exact neg_inf_le h'
      · exact neg_inf_le h'
  · rcases y with _ | t | ⟨t, n, hn⟩
    · cases hy
    · cases t
      · rcases y' with _ | t' | ⟨t', n', hn'⟩
        · cases hy
        · cases t'
          · rcases x' with _ | s' | ⟨s', m', hm'⟩
            · cases hx
            · cases s'
              · exact le_inf h
              · exact absurd rfl h'
            · exact le_inf h
          · cases hy
        · cases hy
      · exact neg_inf_le h'
    · rcases x' with _ | s' | ⟨s', m', hm'⟩
      · cases hx
      · cases s'
        · rcases y' with _ | t' | ⟨t', n', hn'⟩
          · cases hy
          · cases t'
            · exact le_inf h
            · exact absurd rfl h'
          · exact le_inf h
        · cases hx
      · rcases y' with _ | t' | ⟨t', n', hn'⟩
        · cases hy
        · cases t'
          · exact le_inf h
          · cases hy
        · have e1 := of_decide_eq_true hx
          have e2 := of_decide_eq_true hy
          refine ofScaled_mono Nat.one_pos Nat.one_pos ?_
          push_cast
          linarith

/-- a number that is at least 0 -/
theorem nonneg_cases {x : F64} (h : le zero x = true) : x = inf false ∨ ∃ s m hm, x = fin s m hm ∧ (fin s m hm).toInt = m := by
  rcases x with _ | s | ⟨s, m, hm⟩
  · cases h
  · cases s
    · exact Or.inl rfl
    · cases h
  · refine Or.inr ⟨s, m, hm, rfl, ?_⟩
    cases s
    · rfl
    · have : (0 : Int) ≤ (fin true m hm).toInt := of_decide_eq_true h
      simp only [toInt] at this ⊢
      omega

theorem add_nonneg_ne_nan {x y : F64} (hx : le zero x = true) (hy : le zero y = true) : add x y ≠ nan := by
  rcases nonneg_cases hx with rfl | ⟨s, m, hm, rfl, -⟩ <;> rcases nonneg_cases hy with rfl | ⟨t, n, hn, rfl, -⟩
  · simp [add]
  · simp [add]
  · simp [add]
  · exact ofScaled_ne_nan _ _ _

theorem add_zero_le {x : F64} (hx : le zero x = true) : le x (add x zero) = true := by
  rcases nonneg_cases hx with rfl | ⟨s, m, hm, rfl, e⟩
  · rfl
  · unfold zero add
    simp only
    rw [e]
    refine F64.le_trans ?_ (ofScaled_mono (z := false) (v := m) Nat.one_pos Nat.one_pos (by simp [toInt]))
    unfold ofScaled
    split
    · rename_i h0
      have : m = 0 := by exact_mod_cast h0
      subst this
      cases s <;> simp [le, toInt]
    · rw [decide_eq_false (by omega), Int.natAbs_natCast, ofRatio_rep hm]
      rw [le_fin, e]
      exact Int.le_refl _

theorem zero_le_zero : le zero zero = true := by decide +kernel
theorem zero_le_one : le zero one = true := by decide +kernel

/-- a sum of non-negative numbers is at least each of them -/
theorem le_add_left {x y : F64} (hx : le zero x = true) (hy : le zero y = true) : le x (add x y) = true :=
  F64.le_trans (add_zero_le hx) (add_mono (le_refl (ne_nan_of_le_right hx)) hy (add_nonneg_ne_nan hx zero_le_zero) (add_nonneg_ne_nan hx hy))

theorem le_add_right {x y : F64} (hx : le zero x = true) (hy : le zero y = true) : le y (add x y) = true := by
  rw [F64.add_comm]; exact le_add_left hy hx

theorem neg_le_neg {x y : F64} (h : le x y = true) : le (neg y) (neg x) = true := by
  rcases x with _ | s | ⟨s, m, hm⟩ <;> rcases y with _ | t | ⟨t, n, hn⟩
  · cases h
  · cases h
  · cases h
  · cases s <;> cases h
  · cases s <;> cases t <;> first | rfl | cases h
  · cases s <;> first | rfl | cases h
  · cases h
  · cases t <;> first | rfl | cases h
  · have h := le_fin.1 h
    show le (fin (!t) n hn) (fin (!s) m hm) = true
    rw [le_fin]
    cases s <;> cases t <;> simp only [toInt, Bool.not_true, Bool.not_false] at h ⊢ <;> omega

theorem neg_ne_nan {x : F64} (h : x ≠ nan) : neg x ≠ nan := by cases x <;> simp_all [neg]

/-- a number greater than 0 -/
theorem pos_cases {x : F64} (h : lt zero x = true) : x = inf false ∨ ∃ m hm, x = fin false m hm ∧ 0 < m := by
  rcases x with _ | s | ⟨s, m, hm⟩
  · cases h
  · cases s
    · exact Or.inl rfl
    · cases h
  · cases s
    · refine Or.inr ⟨m, hm, rfl, ?_⟩
      simp only [lt, le, isNaN, toInt, zero] at h
      have : ¬ m = 0 := by simpa using h
      omega
    · simp [lt, le, isNaN, toInt, zero] at h

theorem div_one_fin {n : Nat} (hn : Rep n) (h : 0 < n) : div one (fin false n hn) = ofRatio false (unit * unit) n := by
  unfold div one
  simp only
  rw [if_neg (by omega)]
  rfl

/-- the reciprocal reverses the order of positive numbers -/
theorem div_one_anti {a b : F64} (ha : lt zero a = true) (hab : le a b = true) : le (div one b) (div one a) = true := by
  rcases pos_cases ha with rfl | ⟨m, hm, rfl, hpos⟩
  · rcases b with _ | s | ⟨s, n, hn⟩
    · cases hab
    · cases s
      · rfl
      · cases hab
    · cases hab
  · rcases b with _ | s | ⟨s, n, hn⟩
    · cases hab
    · cases s
      · rw [div_one_fin hm hpos]; exact zero_le_ofRatio _ _
      · cases hab
    · cases s
      · have hmn : (m : Int) ≤ n := of_decide_eq_true hab
        have hmn : m ≤ n := by exact_mod_cast hmn
        rw [div_one_fin hm hpos, div_one_fin hn (by omega)]
        exact le_ofRatio (by omega) hpos (Nat.mul_le_mul_left _ hmn)
      · exfalso
        have : (m : Int) ≤ -(n : Int) := of_decide_eq_true hab
        omega

theorem div_one_one : div one one = one := by
  show div one (fin false unit _) = _
  rw [div_one_fin _ unit_pos, ofRatio_unit]
  exact ofRatio_rep _

theorem zero_le_div_one {a : F64} (ha : lt zero a = true) : le zero (div one a) = true := by
  rcases pos_cases ha with rfl | ⟨m, hm, rfl, hpos⟩
  · exact zero_le_zero
  · rw [div_one_fin hm hpos]; exact zero_le_ofRatio _ _

theorem pos_of_one_le {a : F64} (h : le one a = true) : lt zero a = true := by
  rcases a with _ | s | ⟨s, n, hn⟩
  · cases h
  · cases s
    · rfl
    · cases h
  · have h : (unit : Int) ≤ (fin s n hn).toInt := of_decide_eq_true h
    have hu := unit_pos
    have : le (fin s n hn) zero = false := by
      rw [← Bool.not_eq_true]
      unfold zero
      rw [le_fin]
      show ¬ _ ≤ (0 : Int)
      omega
    unfold lt
    rw [this]
    rfl

end F64
end Leaves
