import Verif.Proofs.F64Error
import Verif.Model.Util
import Verif.Spec.Output

/-! # C72: comparing predictions with a tolerance -/

namespace Leaves

open Spec Util

theorem isVal_fin {x : F64} {q : ℚ} (h : IsVal x q) : ∃ s m hm, x = .fin s m hm ∧ q = ((F64.fin s m hm).toInt : ℚ) / unit := by
  rcases x with _ | s | ⟨s, m, hm⟩
  · cases h
  · cases s <;> cases h
  · refine ⟨s, m, hm, rfl, ?_⟩
    unfold IsVal at h
    rw [F64.value_fin] at h
    exact (F64.pt_inj.1 (Option.some.inj h)).symm

/-- the computed distance of two numbers -/
theorem abs_sub_fin {s t : Bool} {m n : Nat} {hm : Rep m} {hn : Rep n} :
    Util.abs (Util.sub (.fin s m hm) (.fin t n hn)) =
      F64.ofRatio false ((F64.fin s m hm).toInt - (F64.fin t n hn).toInt).natAbs 1 := by
  have e : Util.sub (.fin s m hm) (.fin t n hn) =
      F64.ofScaled (s && !t) ((F64.fin s m hm).toInt - (F64.fin t n hn).toInt) 1 := by
    have : (F64.fin (!t) n hn).toInt = -(F64.fin t n hn).toInt := by cases t <;> simp [F64.toInt]
    show F64.ofScaled _ (_ + _) 1 = _
    rw [this, Int.sub_eq_add_neg]
  rw [e]
  generalize (F64.fin s m hm).toInt - (F64.fin t n hn).toInt = d
  unfold F64.ofScaled
  split
  · rename_i h0
    subst h0
    rw [Int.natAbs_zero, F64.ofRatio_zero _ Nat.one_pos]
    rfl
  · unfold F64.ofRatio
    split <;> rfl

theorem dist_eq {s t : Bool} {m n : Nat} {hm : Rep m} {hn : Rep n} :
    |((F64.fin s m hm).toInt : ℚ) / unit - ((F64.fin t n hn).toInt : ℚ) / unit| =
      (((F64.fin s m hm).toInt - (F64.fin t n hn).toInt).natAbs : ℚ) / unit := by
  have hU : (0 : ℚ) < unit := by exact_mod_cast unit_pos
  rw [← sub_div, abs_div, abs_of_pos hU, Nat.cast_natAbs]
  push_cast
  rfl

theorem le_ofRatio_one {d m : Nat} {t : Bool} {hm : Rep m} : F64.le (F64.ofRatio false d 1) (.fin t m hm) = true ↔
    (roundMag d 1 : Int) ≤ (F64.fin t m hm).toInt := by
  unfold F64.ofRatio
  split
  · rw [F64.le_fin]; rfl
  · rename_i h
    constructor
    · intro h'; cases h'
    · intro h'
      exfalso
      have : (F64.fin t m hm).toInt ≤ m := by cases t <;> simp only [F64.toInt] <;> omega
      have := hm.1
      omega

/-- the comparison: the rounded distance is at most the tolerance -/
theorem close_iff {x y t : F64} {p q r : ℚ} (hx : IsVal x p) (hy : IsVal y q) (ht : IsVal t r) :
    ∃ d : Nat, |p - q| = (d : ℚ) / unit ∧ ∃ T : Int, r = (T : ℚ) / unit ∧ (∃ s m hm, t = .fin s m hm ∧ (F64.fin s m hm).toInt = T) ∧
      (F64.le (Util.abs (Util.sub x y)) t = true ↔ (roundMag d 1 : Int) ≤ T) ∧
      (F64.lt t (Util.abs (Util.sub x y)) = true ↔ ¬ (roundMag d 1 : Int) ≤ T) := by
  obtain ⟨s, m, hm, rfl, rfl⟩ := isVal_fin hx
  obtain ⟨s', m', hm', rfl, rfl⟩ := isVal_fin hy
  obtain ⟨s'', m'', hm'', rfl, rfl⟩ := isVal_fin ht
  refine ⟨_, dist_eq, _, rfl, ⟨_, _, _, rfl, rfl⟩, ?_, ?_⟩
  · rw [abs_sub_fin, le_ofRatio_one]
  · rw [abs_sub_fin]
    unfold F64.lt
    have hnn : (F64.ofRatio false ((F64.fin s m hm).toInt - (F64.fin s' m' hm').toInt).natAbs 1).isNaN = false := by
      rw [← Bool.not_eq_true, F64.isNaN_iff]
      exact F64.ofRatio_ne_nan _ _ _
    rw [hnn]
    simp only [F64.isNaN, Bool.not_false, Bool.true_and, Bool.not_eq_true', ← Bool.not_eq_true, le_ofRatio_one]

/-- numbers whose distance is at most the tolerance are close -/
theorem close_of_le {d : Nat} {T : Int} {t : F64} (ht : ∃ s m hm, t = F64.fin s m hm ∧ (F64.fin s m hm).toInt = T)
    (h : (d : ℚ) / unit ≤ (T : ℚ) / unit) : (roundMag d 1 : Int) ≤ T := by
  have hU : (0 : ℚ) < unit := by exact_mod_cast unit_pos
  rw [div_le_div_iff_of_pos_right hU] at h
  have h : (d : Int) ≤ T := by exact_mod_cast h
  obtain ⟨s, m, hm, -, e⟩ := ht
  have hTm : T = m := by
    cases s <;> simp only [F64.toInt] at e
    · exact e.symm
    · omega
  subst hTm
  have := roundMag_mono (n := d) (d := 1) (n' := m) (d' := 1) Nat.one_pos Nat.one_pos (by omega)
  rw [roundMag_rep hm] at this
  exact_mod_cast this

/-- close numbers are not farther from each other than half-way to the next larger tolerance -/
theorem le_of_close {d : Nat} {T : Int} {u : F64} {s : ℚ} (hu : IsVal u s) (hs : (T : ℚ) / unit < s)
    (h : (roundMag d 1 : Int) ≤ T) : (d : ℚ) / unit ≤ ((T : ℚ) / unit + s) / 2 := by
  have hU : (0 : ℚ) < unit := by exact_mod_cast unit_pos
  obtain ⟨b, m', hm', rfl, rfl⟩ := isVal_fin hu
  rw [div_lt_div_iff_of_pos_right hU] at hs
  have hs : T < (F64.fin b m' hm').toInt := by exact_mod_cast hs
  have hm : (F64.fin b m' hm').toInt = m' := by
    cases b <;> simp only [F64.toInt] at hs ⊢
    omega
  rw [hm] at hs ⊢
  have key : (2 * d : Int) ≤ T + m' := by
    have hn := roundMag_nearest (n := d) (d := 1) Nat.one_pos hm'.2
    unfold ratDist at hn
    have hmono : m' ≤ d → m' ≤ roundMag d 1 := by
      intro hle
      have := roundMag_mono (n := m') (d := 1) (n' := d) (d' := 1) Nat.one_pos Nat.one_pos (by omega)
      rwa [roundMag_rep hm'] at this
    generalize roundMag d 1 = r at *
    rcases Nat.lt_or_ge d m' with hlt | hge
    · omega
    · have := hmono hge
      omega
  have key' : (2 * d : ℚ) ≤ T + m' := by exact_mod_cast key
  rw [← add_div, div_div, div_le_div_iff₀ hU (by positivity)]
  push_cast
  nlinarith

/-! ### the properties -/

/-- C72: AlmostEqualFloat64 accepts two numbers whose distance is at most the tolerance. -/
theorem C72_close (x y t : F64) (p q r : ℚ) (hx : IsVal x p) (hy : IsVal y q) (ht : IsVal t r) (h : |p - q| ≤ r) :
    almostEqualFloat64 x y t = true := by
  obtain ⟨d, hd, T, hT, hf, hle, -⟩ := close_iff hx hy ht
  rw [hd, hT] at h
  exact hle.2 (close_of_le hf h)

/-- C72: numbers accepted by AlmostEqualFloat64 are not farther from each other than the mean of the tolerance and any larger
float64. -/
theorem C72_not_far (x y t u : F64) (p q r s : ℚ) (hx : IsVal x p) (hy : IsVal y q) (ht : IsVal t r) (hu : IsVal u s) (hs : r < s)
    (h : almostEqualFloat64 x y t = true) : |p - q| ≤ (r + s) / 2 := by
  obtain ⟨d, hd, T, hT, hf, hle, -⟩ := close_iff hx hy ht
  rw [hd]
  subst hT
  exact le_of_close hu hs (hle.1 h)

theorem almostEqualLoop_iff (t : F64) : ∀ (a b : List F64), a.length = b.length → (almostEqualLoop t a b = .ok () ↔
    ∀ (i : Nat) (x y : F64), a[i]? = some x → b[i]? = some y → F64.lt t (Util.abs (Util.sub x y)) = false)
  | [], [], _ => by simp [almostEqualLoop]
  | x :: a, y :: b, h => by
    unfold almostEqualLoop
    have ih := almostEqualLoop_iff t a b (by simpa using h)
    by_cases hlt : F64.lt t (Util.abs (Util.sub x y)) = true
    · rw [if_pos hlt]
      constructor
      · intro h; cases h
      · intro h
        have := h 0 x y rfl rfl
        rw [hlt] at this
        cases this
    · rw [if_neg hlt, ih]
      constructor
      · intro h i x' y' hx hy
        cases i with
        | zero => cases hx; cases hy; exact Bool.eq_false_iff.2 hlt
        | succ i => exact h i x' y' hx hy
      · intro h i x' y' hx hy
        exact h (i + 1) x' y' hx hy

theorem almostEqualFloat64Slices_iff (t : F64) (a b : List F64) : almostEqualFloat64Slices a b t = .ok () ↔ a.length = b.length ∧
    ∀ (i : Nat) (x y : F64), a[i]? = some x → b[i]? = some y → F64.lt t (Util.abs (Util.sub x y)) = false := by
  unfold almostEqualFloat64Slices
  by_cases h : a.length = b.length
  · rw [if_neg (by simpa using h), almostEqualLoop_iff t a b h]
    exact ⟨fun g => ⟨h, g⟩, fun g => g.2⟩
  · rw [if_pos h]
    constructor
    · intro g; cases g
    · intro g; exact absurd g.1 h

/-- C72: AlmostEqualFloat64Slices accepts slices of the same length whose elements are numbers at most the tolerance apart. -/
theorem C72_slices_close (a b : List F64) (t : F64) (r : ℚ) (ht : IsVal t r) (ps qs : List ℚ) (ha : List.Forall₂ IsVal a ps)
    (hb : List.Forall₂ IsVal b qs) (h : List.Forall₂ (fun p q => |p - q| ≤ r) ps qs) : almostEqualFloat64Slices a b t = .ok () := by
  rw [almostEqualFloat64Slices_iff]
  refine ⟨by rw [ha.length_eq, hb.length_eq, h.length_eq], fun i x y hx hy => ?_⟩
  obtain ⟨hi, rfl⟩ := List.getElem?_eq_some_iff.1 hx
  obtain ⟨hj, rfl⟩ := List.getElem?_eq_some_iff.1 hy
  have h1 := List.forall₂_iff_get.1 ha
  have h2 := List.forall₂_iff_get.1 hb
  have h3 := List.forall₂_iff_get.1 h
  have v1 := h1.2 i hi (h1.1 ▸ hi)
  have v2 := h2.2 i hj (h2.1 ▸ hj)
  have v3 := h3.2 i (h1.1 ▸ hi) (h2.1 ▸ hj)
  obtain ⟨d, hd, T, hT, hf, -, hlt⟩ := close_iff v1 v2 ht
  rw [← Bool.not_eq_true]
  refine fun hc => hlt.1 hc ?_
  rw [hd, hT] at v3
  exact close_of_le hf v3

/-- C72, for slices of numbers: slices accepted by AlmostEqualFloat64Slices have the same length and corresponding elements are not
farther from each other than the mean of the tolerance and any larger float64. What is missing: NaN, for which it is false
(`C72_nan_unnoticed`). -/
theorem C72_slices_not_far_partial (a b : List F64) (t u : F64) (r s : ℚ) (ht : IsVal t r) (hu : IsVal u s) (hs : r < s) (ps qs : List ℚ)
    (ha : List.Forall₂ IsVal a ps) (hb : List.Forall₂ IsVal b qs) (h : almostEqualFloat64Slices a b t = .ok ()) :
    List.Forall₂ (fun p q => |p - q| ≤ (r + s) / 2) ps qs := by
  obtain ⟨hl, h⟩ := (almostEqualFloat64Slices_iff t a b).1 h
  have h1 := List.forall₂_iff_get.1 ha
  have h2 := List.forall₂_iff_get.1 hb
  refine List.forall₂_iff_get.2 ⟨by rw [← h1.1, ← h2.1, hl], fun i hi hj => ?_⟩
  have v1 := h1.2 i (h1.1 ▸ hi) hi
  have v2 := h2.2 i (h2.1 ▸ hj) hj
  obtain ⟨d, hd, T, hT, hf, -, hlt⟩ := close_iff v1 v2 ht
  have := h i _ _ (List.getElem?_eq_getElem (h1.1 ▸ hi)) (List.getElem?_eq_getElem (h2.1 ▸ hj))
  rw [hd]
  subst hT
  refine le_of_close hu hs ?_
  by_contra hc
  have := hlt.2 hc
  simp_all

/-- C72: slices of different lengths are never accepted, by either function. -/
theorem C72_lengths (a b : List F64) (t : F64) (h : a.length ≠ b.length) :
    (∃ s, almostEqualFloat64Slices a b t = .err s) ∧ ∃ s, numMismatchedFloat64Slices a b t = .err s := by
  unfold almostEqualFloat64Slices numMismatchedFloat64Slices
  rw [if_pos h, if_pos h]
  exact ⟨⟨_, rfl⟩, ⟨_, rfl⟩⟩

theorem foldl_count (t : F64) : ∀ (l : List (F64 × F64)) (n : Nat),
    l.foldl (fun n ab => if F64.lt t (Util.abs (Util.sub ab.1 ab.2)) then n + 1 else n) n =
      n + (l.countP fun ab => F64.lt t (Util.abs (Util.sub ab.1 ab.2)))
  | [], n => by simp
  | ab :: l, n => by
    rw [List.foldl_cons, foldl_count t l, List.countP_cons]
    split <;> omega

/-- C72: NumMismatchedFloat64Slices counts the positions at which AlmostEqualFloat64Slices rejects the two elements. -/
theorem C72_count (a b : List F64) (t : F64) (h : a.length = b.length) :
    numMismatchedFloat64Slices a b t = .ok ((a.zip b).countP fun ab => decide (almostEqualFloat64Slices [ab.1] [ab.2] t ≠ .ok ())) := by
  unfold numMismatchedFloat64Slices
  rw [if_neg (by simpa using h), foldl_count, Nat.zero_add]
  congr 1
  refine List.countP_congr fun ab _ => ?_
  rw [decide_eq_true_iff]
  unfold almostEqualFloat64Slices almostEqualLoop
  rw [if_neg (by simp)]
  by_cases hlt : F64.lt t (Util.abs (Util.sub ab.1 ab.2)) = true
  · rw [if_pos hlt, hlt]; simp
  · rw [if_neg hlt]
    simp [hlt, almostEqualLoop]

/-- C72: no mismatch is counted exactly when AlmostEqualFloat64Slices accepts. -/
theorem C72_count_zero (a b : List F64) (t : F64) :
    numMismatchedFloat64Slices a b t = .ok 0 ↔ almostEqualFloat64Slices a b t = .ok () := by
  by_cases h : a.length = b.length
  · unfold numMismatchedFloat64Slices
    rw [if_neg (by simpa using h), foldl_count, Nat.zero_add, almostEqualFloat64Slices_iff, Res.ok.injEq, List.countP_eq_zero]
    constructor
    · refine fun g => ⟨h, fun i x y hx hy => ?_⟩
      have hm : (x, y) ∈ a.zip b := List.mem_of_getElem? (i := i) (by rw [List.getElem?_zip_eq_some]; exact ⟨hx, hy⟩)
      exact Bool.eq_false_iff.2 (g _ hm)
    · intro g ab hab
      obtain ⟨i, hi⟩ := List.getElem?_of_mem hab
      have := List.getElem?_zip_eq_some.1 hi
      have := g.2 i _ _ this.1 this.2
      simp [this]
  · obtain ⟨⟨s, h1⟩, ⟨s', h2⟩⟩ := C72_lengths a b t h
    rw [h1, h2]
    constructor <;> intro g <;> cases g

/-- C72 is false for NaN: a slice with NaN in place of a number is accepted, whatever the number and the tolerance, and the mismatch
is not counted; AlmostEqualFloat64 does notice it. -/
theorem C72_nan_unnoticed (x t : F64) : almostEqualFloat64Slices [F64.nan] [x] t = .ok () ∧ almostEqualFloat64Slices [x] [F64.nan] t = .ok () ∧
    numMismatchedFloat64Slices [F64.nan] [x] t = .ok 0 ∧ almostEqualFloat64 F64.nan x t = false := by
  have h1 : F64.lt t (Util.abs (Util.sub F64.nan x)) = false := by
    show F64.lt t F64.nan = false
    unfold F64.lt
    simp [F64.isNaN]
  have h2 : F64.lt t (Util.abs (Util.sub x F64.nan)) = false := by
    have : Util.sub x F64.nan = F64.nan := by rcases x with _ | s | _ <;> rfl
    rw [this]
    exact h1
  refine ⟨?_, ?_, ?_, rfl⟩
  · rw [almostEqualFloat64Slices_iff]
    refine ⟨rfl, fun i a b ha hb => ?_⟩
    cases i with
    | zero => cases ha; cases hb; exact h1
    | succ i => cases ha
  · rw [almostEqualFloat64Slices_iff]
    refine ⟨rfl, fun i a b ha hb => ?_⟩
    cases i with
    | zero => cases ha; cases hb; exact h2
    | succ i => cases ha
  · rw [C72_count_zero, almostEqualFloat64Slices_iff]
    refine ⟨rfl, fun i a b ha hb => ?_⟩
    cases i with
    | zero => cases ha; cases hb; exact h1
    | succ i => cases ha

/-- SigmoidFloat64SliceInplace replaces every element by what the logistic transformation makes of it. -/
theorem C72_sigmoid (P : Platform) (vec : List F64) :
    List.Forall₂ (fun x z => IsTransformed P .logistic [x] [z]) vec (sigmoidFloat64SliceInplace P vec) := by
  unfold sigmoidFloat64SliceInplace
  induction vec with
  | nil => exact .nil
  | cons x vec ih => exact .cons ⟨x, rfl, rfl⟩ ih

namespace CompareExample

/-- 1 and 1.5 are half a unit apart: accepted with tolerance 0.5, not with 0.25 -/
example : almostEqualFloat64 F64.one (F64.const 3 2) (F64.const 1 2) = true ∧ almostEqualFloat64 F64.one (F64.const 3 2) (F64.const 1 4) = false ∧
    almostEqualFloat64Slices [F64.one, F64.one] [F64.one, F64.const 3 2] (F64.const 1 4) = .err "element mismatch" ∧
    numMismatchedFloat64Slices [F64.one, F64.one, F64.zero] [F64.one, F64.const 3 2, F64.one] (F64.const 1 4) = .ok 2 := by
  decide +kernel

end CompareExample
end Leaves
