import Verif.Proofs.F64Order
import Verif.Proofs.F64Arith

/-! # Multiplication and `x*y + z` are monotone -/

namespace Leaves.F64

theorem ofRatio_mono {s s' : Bool} {m m' d d' : Nat} (hd : 0 < d) (hd' : 0 < d')
    (h : (if s then -(m : Int) else m) * d' ≤ (if s' then -(m' : Int) else m') * d) : le (ofRatio s m d) (ofRatio s' m' d') = true := by
  cases s <;> cases s' <;> simp only [if_true, Bool.false_eq_true, if_false] at h
  · exact le_ofRatio hd hd' (by exact_mod_cast h)
  · have h1 : (0 : Int) ≤ m * d' := by positivity
    have h2 : (0 : Int) ≤ m' * d := by positivity
    have e1 : (m : Int) * d' = 0 := by nlinarith
    have e2 : (m' : Int) * d = 0 := by nlinarith
    have hm : m = 0 := by
      rcases Int.mul_eq_zero.1 e1 with h | h <;> omega
    have hm' : m' = 0 := by
      rcases Int.mul_eq_zero.1 e2 with h | h <;> omega
    subst hm hm'
    unfold ofRatio
    simp only [roundMag_zero hd, roundMag_zero hd', magLimit_pos, dif_pos]
    rfl
  · exact ofRatio_neg_le _ _ _ _
  · refine le_ofRatio_neg hd hd' ?_
    have : (m' : Int) * d ≤ m * d' := by nlinarith
    exact_mod_cast this

theorem unit_pos' : 0 < unit := by decide +kernel

theorem fin_le_inf_neg {s : Bool} {m : Nat} {hm : Rep m} (h : le (fin s m hm) (inf true) = true) : False := by cases s <;> cases h

theorem inf_le_fin {s : Bool} {m : Nat} {hm : Rep m} (h : le (inf false) (fin s m hm) = true) : False := by cases h

/-- multiplication by a number that is at least 0 is monotone where it is defined -/
theorem mul_mono_left {x x' y : F64} (hx : le x x' = true) (hy : le zero y = true) (h : mul x y ≠ nan) (h' : mul x' y ≠ nan) :
    le (mul x y) (mul x' y) = true := by
  rcases nonneg_cases hy with rfl | ⟨t, n, hn, rfl, ht⟩
  · rcases x with _ | s | ⟨s, m, hm⟩
    · cases hx
    · cases s
      · rcases x' with _ | s' | ⟨s', m', hm'⟩
        · cases hx
        · cases s'
          · rfl
          · cases hx
        · cases hx
      · exact neg_inf_le h'
    · have hm0 : m ≠ 0 := fun h0 => h (by simp [mul, h0])
      have e : mul (fin s m hm) (inf false) = inf s := by simp [mul, hm0]
      rw [e]
      cases s
      · rcases x' with _ | s' | ⟨s', m', hm'⟩
        · cases hx
        · cases s'
          · rfl
          · cases hx
        · have hm0' : m' ≠ 0 := fun h0 => h' (by simp [mul, h0])
          have e' : mul (fin s' m' hm') (inf false) = inf s' := by simp [mul, hm0']
          rw [e']
          cases s'
          · rfl
          · have := of_decide_eq_true hx
            simp only [toInt] at this
            omega
      · exact neg_inf_le h'
  · rcases x with _ | s | ⟨s, m, hm⟩
    · cases hx
    · have hn0 : n ≠ 0 := fun h0 => h (by simp [mul, h0])
      have ht' : t = false := by
        cases t
        · rfl
        · simp only [toInt] at ht; omega
      subst ht'
      cases s
      · rcases x' with _ | s' | ⟨s', m', hm'⟩
        · cases hx
        · cases s'
          · simp [mul, hn0, le]
          · cases hx
        · cases hx
      · have e : mul (inf true) (fin false n hn) = inf true := by simp [mul, hn0]
        rw [e]
        exact neg_inf_le h'
    · rcases x' with _ | s' | ⟨s', m', hm'⟩
      · cases s <;> cases hx
      · have hn0 : n ≠ 0 := fun h0 => h' (by simp [mul, h0])
        have ht' : t = false := by
          cases t
          · rfl
          · simp only [toInt] at ht; omega
        subst ht'
        cases s'
        · have e : mul (inf false) (fin false n hn) = inf false := by simp [mul, hn0]
          rw [e]
          exact le_inf h
        · cases s <;> cases hx
      · have hle := of_decide_eq_true hx
        refine ofRatio_mono unit_pos' unit_pos' ?_
        refine mul_le_mul_of_nonneg_right ?_ (by positivity)
        by_cases hn0 : n = 0
        · subst hn0
          simp
        · have ht' : t = false := by
            cases t
            · rfl
            · simp only [toInt] at ht; omega
          subst ht'
          have hle' : (if s then -(m : Int) else m) ≤ if s' then -(m' : Int) else m' := by
            cases s <;> cases s' <;> exact hle
          have := mul_le_mul_of_nonneg_right hle' (show (0 : Int) ≤ n by omega)
          cases s <;> cases s' <;> simp only [Bool.xor_false, if_true, Bool.false_eq_true, if_false] at this ⊢ <;> push_cast <;> linarith

theorem nan_add (x : F64) : add nan x = nan := by cases x <;> rfl
theorem add_nan (x : F64) : add x nan = nan := by cases x <;> rfl

theorem fma_of_inf_left (s : Bool) (y z : F64) : fma (inf s) y z = add (mul (inf s) y) z := by cases y <;> cases z <;> rfl
theorem fma_of_inf_right (x z : F64) (s : Bool) : fma x (inf s) z = add (mul x (inf s)) z := by cases x <;> cases z <;> rfl

/-- fused or not, the result is defined only where the product and the sum are -/
theorem mul_fin (s t : Bool) (m n : Nat) (hm : Rep m) (hn : Rep n) : mul (fin s m hm) (fin t n hn) = ofRatio (xor s t) (m * n) unit := rfl

theorem fma_fin_inf (s t u : Bool) (m n : Nat) (hm : Rep m) (hn : Rep n) : fma (fin s m hm) (fin t n hn) (inf u) = inf u := rfl

/-- fused multiply-add with a multiplier that is at least 0 is monotone where it is defined -/
theorem fma_mono {x x' y z z' : F64} (hx : le x x' = true) (hy : le zero y = true) (hz : le z z' = true) (h : fma x y z ≠ nan)
    (h' : fma x' y z' ≠ nan) : le (fma x y z) (fma x' y z') = true := by
  rcases nonneg_cases hy with rfl | ⟨t, n, hn, rfl, ht⟩
  · rw [fma_of_inf_right] at h h' ⊢
    rw [fma_of_inf_right]
    exact add_mono (mul_mono_left hx rfl (fun e => h (by rw [e, nan_add])) (fun e => h' (by rw [e, nan_add]))) hz h h'
  · rcases x with _ | s | ⟨s, m, hm⟩
    · cases hx
    · rcases x' with _ | s' | ⟨s', m', hm'⟩
      · cases s <;> cases hx
      · rw [fma_of_inf_left] at h h' ⊢
        rw [fma_of_inf_left]
        exact add_mono (mul_mono_left hx hy (fun e => h (by rw [e, nan_add])) (fun e => h' (by rw [e, nan_add]))) hz h h'
      · cases s
        · cases hx
        · rw [fma_of_inf_left] at h ⊢
          have hn0 : n ≠ 0 := fun h0 => h (by simp [mul, h0, nan_add])
          have ht' : t = false := by
            cases t
            · rfl
            · simp only [toInt] at ht; omega
          subst ht'
          have e : mul (inf true) (fin false n hn) = inf true := by simp [mul, hn0]
          rw [e] at h ⊢
          have : add (inf true) z = inf true := by
            rcases z with _ | u | ⟨u, k, hk⟩
            · exact absurd rfl h
            · cases u
              · exact absurd rfl h
              · rfl
            · rfl
          rw [this]
          exact neg_inf_le h'
    · rcases x' with _ | s' | ⟨s', m', hm'⟩
      · cases s <;> cases hx
      · cases s'
        · rw [fma_of_inf_left] at h' ⊢
          have hn0 : n ≠ 0 := fun h0 => h' (by simp [mul, h0, nan_add])
          have ht' : t = false := by
            cases t
            · rfl
            · simp only [toInt] at ht; omega
          subst ht'
          have e : mul (inf false) (fin false n hn) = inf false := by simp [mul, hn0]
          rw [e] at h' ⊢
          have : add (inf false) z' = inf false := by
            rcases z' with _ | u | ⟨u, k, hk⟩
            · exact absurd rfl h'
            · cases u
              · rfl
              · exact absurd rfl h'
            · rfl
          rw [this]
          exact le_inf h
        · cases s <;> cases hx
      · rcases z with _ | u | ⟨u, k, hk⟩
        · cases hz
        · rw [fma_fin_inf] at h ⊢
          cases u
          · rcases z' with _ | u' | ⟨u', k', hk'⟩
            · cases hz
            · cases u'
              · rfl
              · cases hz
            · cases hz
          · exact neg_inf_le h'
        · rcases z' with _ | u' | ⟨u', k', hk'⟩
          · cases u <;> cases hz
          · cases u'
            · exact le_inf h
            · cases u <;> cases hz
          · have e1 := of_decide_eq_true hx
            have e2 := of_decide_eq_true hz
            refine ofScaled_mono unit_pos' unit_pos' ?_
            refine mul_le_mul_of_nonneg_right ?_ (by positivity)
            rw [ht]
            have e3 := mul_le_mul_of_nonneg_right e1 (show (0 : Int) ≤ n by omega)
            have e4 := mul_le_mul_of_nonneg_right e2 (show (0 : Int) ≤ (unit : Nat) by omega)
            linarith

theorem fma_nan_addend (x y : F64) : fma x y nan = nan := by
  cases x <;> cases y <;> first | rfl | exact add_nan _

theorem fma_nan_left (y z : F64) : fma nan y z = nan := by
  cases y <;> cases z <;> rfl

end Leaves.F64
