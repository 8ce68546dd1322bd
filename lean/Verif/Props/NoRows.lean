import Verif.Props.Batch
import Verif.Props.CsrShape
import Verif.Props.Machines

/-! # C111: matrices without rows -/

namespace Leaves
open Spec GoM

/-- **C111, dense matrices**: with no rows, or with a negative number of them, PredictDense returns, with nil or with an error, and changes
nothing. -/
theorem C111_dense_untouched (P : Platform) (e : Ensemble) (hf : Fits e) (vals m : List F64) (r ncols req nt : Int) (hr : r ≤ 0) :
    ∃ res : Res Unit, (res = .ok ⟨⟩ ∨ ∃ tag, res = .err tag) ∧ ∀ out, e.PredictDense P vals r ncols m req nt out ↔ out = (res, m) := by
  obtain ⟨G, total, hG, hG0, ht, hm⟩ := id hf
  obtain ⟨n, hu⟩ := Used.exists req total
  unfold Ensemble.PredictDense Ensemble.denseChecks
  by_cases h1 : (m.length : Int) < wrap64 (e.nOutputGroups * r)
  · rw [if_pos h1]
    exact ⟨_, .inr ⟨_, rfl⟩, fun _ => Iff.rfl⟩
  rw [if_neg h1]
  by_cases h2 : ncols = 0 ∨ e.nFeatures > ncols
  · rw [if_pos h2]
    exact ⟨_, .inr ⟨_, rfl⟩, fun _ => Iff.rfl⟩
  rw [if_neg h2]
  have hp : plan P r nt = .sequential := by
    unfold plan
    rw [if_pos (.inl (by unfold batchSize; omega))]
  by_cases hl : e.isLeaf → n = total
  · have hck := checks_of ht hu hl (fun k => (Res.ok k : Res Int))
    simp only [Res.pure_eq]
    rw [hck]
    simp only
    rw [hp]
    simp only
    rw [Int.toNat_of_nonpos hr]
    exact ⟨_, .inl rfl, fun _ => Iff.rfl⟩
  · push Not at hl
    obtain ⟨tag, he⟩ := checks_err ht hu hl.1 hl.2 (fun k => (Res.ok k : Res Int))
    simp only [Res.pure_eq]
    rw [he]
    exact ⟨_, .inr ⟨_, rfl⟩, fun _ => Iff.rfl⟩

/-- **C111, when it succeeds**: the numbers of rows times outputs must not wrap, the number of columns must be enough for the model, as for
a matrix with rows, and the leaf view wants all estimators. What the array of values holds does not matter. -/
theorem C111_dense_ok (P : Platform) (e : Ensemble) (hf : Fits e) (vals m : List F64) (r ncols req nt : Int) (hr : r ≤ 0)
    (hw : -2 ^ 63 ≤ e.nOutputGroups * r) :
    e.PredictDense P vals r ncols m req nt (.ok ⟨⟩, m) ↔
      ncols ≠ 0 ∧ e.nFeatures ≤ ncols ∧ (e.isLeaf → ∃ total, IsTotal e.base total ∧ Used req total total) := by
  obtain ⟨G, total, hG, hG0, ht, hm⟩ := id hf
  obtain ⟨n, hu⟩ := Used.exists req total
  have hnn : e.nOutputGroups * r ≤ 0 := Int.mul_nonpos_of_nonneg_of_nonpos hf.width_nonneg hr
  unfold Ensemble.PredictDense Ensemble.denseChecks
  rw [wrap64_id hw (by omega), if_neg (by omega)]
  by_cases h2 : ncols = 0 ∨ e.nFeatures > ncols
  · rw [if_pos h2]
    constructor
    · intro h; cases h
    · rintro ⟨h3, h4, -⟩; omega
  rw [if_neg h2]
  have hp : plan P r nt = .sequential := by
    unfold plan
    rw [if_pos (.inl (by unfold batchSize; omega))]
  have hl' : (e.isLeaf → ∃ total, IsTotal e.base total ∧ Used req total total) ↔ (e.isLeaf → n = total) := by
    refine forall_congr' fun _ => ⟨fun ⟨t, h3, h4⟩ => ?_, fun h => ⟨total, ht, h ▸ hu⟩⟩
    obtain rfl := IsTotal.unique ht h3
    exact Used.unique hu h4
  rw [hl']
  by_cases hl : e.isLeaf → n = total
  · have hck := checks_of ht hu hl (fun k => (Res.ok k : Res Int))
    simp only [Res.pure_eq]
    rw [hck]
    simp only
    rw [hp]
    simp only
    rw [Int.toNat_of_nonpos hr]
    exact ⟨fun _ => ⟨by omega, by omega, hl⟩, fun _ => rfl⟩
  · have hl2 := hl
    push Not at hl
    obtain ⟨tag, he⟩ := checks_err ht hu hl.1 hl.2 (fun k => (Res.ok k : Res Int))
    simp only [Res.pure_eq]
    rw [he]
    constructor
    · intro h; cases h
    · rintro ⟨-, -, h⟩; exact absurd h hl2

/-- **C111, sparse matrices**: with at most one entry in `indptr` there are no rows; PredictCSR returns and changes nothing, if a row of the
model fits into memory. It succeeds for the leaf view with all estimators and for all other models. -/
theorem C111_csr (P : Platform) (e : Ensemble) (hf : Fits e) (nf : Nat) (hnf : e.nFeatures = nf ∧ nf * 8 ≤ P.maxAlloc) (indptr cols : List Int)
    (vals m : List F64) (req nt : Int) (hr : indptr.length ≤ 1) (hw : e.nOutputGroups ≤ 2 ^ 63) :
    ∃ res : Res Unit, (res = .ok ⟨⟩ ↔ (e.isLeaf → ∃ total, IsTotal e.base total ∧ Used req total total)) ∧
      (res = .ok ⟨⟩ ∨ ∃ tag, res = .err tag) ∧ ∀ out, e.PredictCSR P indptr cols vals m req nt out ↔ out = (res, m) := by
  obtain ⟨G, total, hG, hG0, ht, hm⟩ := id hf
  obtain ⟨n, hu⟩ := Used.exists req total
  have hr' : (indptr.length : Int) - 1 ≤ 0 := by omega
  have hnn : e.nOutputGroups * ((indptr.length : Int) - 1) ≤ 0 := Int.mul_nonpos_of_nonneg_of_nonpos hf.width_nonneg hr'
  have hge : -2 ^ 63 ≤ e.nOutputGroups * ((indptr.length : Int) - 1) := by
    rcases (show (indptr.length : Int) - 1 = 0 ∨ (indptr.length : Int) - 1 = -1 by omega) with h | h <;> rw [h] <;> omega
  have hl' : (e.isLeaf → ∃ total, IsTotal e.base total ∧ Used req total total) ↔ (e.isLeaf → n = total) := by
    refine forall_congr' fun _ => ⟨fun ⟨t, h3, h4⟩ => ?_, fun h => ⟨total, ht, h ▸ hu⟩⟩
    obtain rfl := IsTotal.unique ht h3
    exact Used.unique hu h4
  have hp : plan P ((indptr.length : Int) - 1) nt = .sequential := by
    unfold plan
    rw [if_pos (.inl (by unfold batchSize; omega))]
  rw [hl']
  unfold Ensemble.PredictCSR Ensemble.csrChecks
  simp only
  rw [wrap64_id hge (by omega), if_neg (by omega)]
  by_cases hl : e.isLeaf → n = total
  · have hck := checks_of ht hu hl (fun k => (Res.ok k : Res Int))
    simp only [Res.pure_eq]
    rw [hck]
    simp only
    rw [hp]
    have hrun : (e.csrSequential P indptr cols vals n).run m = (.ok ⟨⟩, m) := by
      rw [csrSequential_run hnf, Nat.sub_eq_zero_of_le hr]
      rfl
    simp only
    rw [hrun]
    exact ⟨_, ⟨fun _ => hl, fun _ => rfl⟩, .inl rfl, fun _ => Iff.rfl⟩
  · have hl2 := hl
    push Not at hl
    obtain ⟨tag, he⟩ := checks_err ht hu hl.1 hl.2 (fun k => (Res.ok k : Res Int))
    simp only [Res.pure_eq]
    rw [he]
    exact ⟨_, ⟨(fun h => by cases h), fun h => absurd h hl2⟩, .inr ⟨_, rfl⟩, fun _ => Iff.rfl⟩

/-! ## Examples -/

namespace NoRowsExample

open PredictExample BatchExample

/-- No rows; minus three rows, with an array that has values; `indptr` with one entry, and without any. -/
theorem C111_example : Fits lg ∧ (∀ nt, lg.PredictDense Platform.demo [] 0 2 [F64.one] 0 nt (.ok ⟨⟩, [F64.one])) ∧
    (∀ nt, lg.PredictDense Platform.demo [F64.zero] (-3) 2 [F64.one] 0 nt (.ok ⟨⟩, [F64.one])) ∧
    (∀ nt, ¬ lg.PredictDense Platform.demo [] 0 1 [F64.one] 0 nt (.ok ⟨⟩, [F64.one])) ∧
    (∀ nt, lg.PredictCSR Platform.demo [7] [] [] [F64.one] 0 nt (.ok ⟨⟩, [F64.one])) ∧
    ∀ nt, lg.PredictCSR Platform.demo [] [] [] [F64.one] 0 nt (.ok ⟨⟩, [F64.one]) := by
  have hleaf : ¬ lg.isLeaf := by rintro ⟨n, h⟩
  have csr : ∀ indptr : List Int, indptr.length ≤ 1 → ∀ nt, lg.PredictCSR Platform.demo indptr [] [] [F64.one] 0 nt (.ok ⟨⟩, [F64.one]) := by
    intro indptr h nt
    obtain ⟨res, h1, -, h2⟩ := C111_csr Platform.demo lg lg_fits 2 (by decide) indptr [] [] [F64.one] 0 nt h (by decide)
    exact (h2 _).2 (by rw [h1.2 fun h => absurd h hleaf])
  exact ⟨lg_fits,
    fun nt => (C111_dense_ok Platform.demo lg lg_fits [] [F64.one] 0 2 0 nt (by decide) (by decide)).2 ⟨by decide, by decide, fun h => absurd h hleaf⟩,
    fun nt => (C111_dense_ok Platform.demo lg lg_fits [F64.zero] [F64.one] (-3) 2 0 nt (by decide) (by decide)).2
      ⟨by decide, by decide, fun h => absurd h hleaf⟩,
    fun nt h => absurd ((C111_dense_ok Platform.demo lg lg_fits [] [F64.one] 0 1 0 nt (by decide) (by decide)).1 h).2.1 (by decide),
    csr [7] (by decide), csr [] (by decide)⟩

end NoRowsExample

end Leaves
