import Verif.Props.Batch
import Verif.Props.Predict
import Verif.Props.CsrShape
import Verif.Props.SameLeaves

/-! # C108: a prediction is the transformation of what the raw view predicts -/

namespace Leaves
open Spec GoM

/-- what a model stores, in terms of what its raw view stores -/
theorem output_of_raw {P : Platform} {e : Ensemble} (hl : ∀ k, e.transform ≠ .leafIndex k) {row : List F64} {n : Nat} {out : List F64} :
    IsOutput P e row n out ↔ ∃ w, IsOutput P e.withRawPredictions row n w ∧ IsTransformed P e.transform w out := by
  have h : ∀ w, IsOutput P e.withRawPredictions row n w ↔ IsRaw P e.base row n w := by
    intro w
    show (∃ u, IsRaw P e.base row n u ∧ w = u) ↔ _
    exact ⟨fun ⟨u, h1, h2⟩ => h2 ▸ h1, fun h => ⟨w, h, rfl⟩⟩
  simp only [h]
  unfold IsOutput
  split
  · rename_i k hk
    exact absurd hk (hl k)
  · exact Iff.rfl

theorem width_of_raw {e : Ensemble} (hf : Fits e) (hl : ∀ k, e.transform ≠ .leafIndex k) :
    e.withRawPredictions.nOutputGroups = e.nOutputGroups := by
  obtain ⟨G, total, hG, -, ht, h⟩ := hf
  have hr : e.withRawPredictions.nOutputGroups = G := hG
  rw [hr]
  unfold Ensemble.nOutputGroups
  cases hk : e.transform with
  | leafIndex k => exact absurd hk (hl k)
  | raw n => rw [hk] at h; exact h.symm
  | softmax n => rw [hk] at h; exact h.symm
  | logistic => rw [hk] at h; simp only at h; rw [h]; rfl
  | exponential => rw [hk] at h; simp only at h; rw [h]; rfl

theorem isLeaf_none {e : Ensemble} (hl : ∀ k, e.transform ≠ .leafIndex k) : ¬ e.isLeaf :=
  fun h => by obtain ⟨k, hk⟩ := isLeaf_iff.1 h; exact hl k hk

/-- **C108.** Predict stores the transformation of what Predict of the raw view stores, for the same row and number of estimators; and it
stores something whenever the raw view does. (Leaf views aside.) -/
theorem C108_row (P : Platform) (e : Ensemble) (hf : Fits e) (hl : ∀ k, e.transform ≠ .leafIndex k) (w : Nat) (hw : e.nOutputGroups = w)
    (hlt : w < 2 ^ 63) (row : List F64) (req : Int) (buf rbuf out : List F64) (hb : buf.length = w) (hrb : rbuf.length = w) :
    (e.predict P row req w).run buf = (.ok ⟨⟩, out) ↔
      ∃ raw, (e.withRawPredictions.predict P row req w).run rbuf = (.ok ⟨⟩, raw) ∧ IsTransformed P e.transform raw out := by
  have hr := (C24_views_fit e hf).1
  have hwr : e.withRawPredictions.nOutputGroups = w := (width_of_raw hf hl).trans hw
  simp only [predict_exact hf hw hlt hb, predict_exact hr hwr hlt hrb]
  constructor
  · rintro ⟨h1, total, n, ht, hu, -, ho⟩
    obtain ⟨u, h2, h3⟩ := (output_of_raw hl).1 ho
    exact ⟨u, ⟨h1, total, n, ht, hu, fun h => absurd h (isLeaf_none (fun k h => by cases h)), h2⟩, h3⟩
  · rintro ⟨u, ⟨h1, total, n, ht, hu, -, h2⟩, h3⟩
    exact ⟨h1, total, n, ht, hu, fun h => absurd h (isLeaf_none hl), (output_of_raw hl).2 ⟨u, h2, h3⟩⟩

/-- **C108, matrices.** PredictDense stores row by row the transformations of what PredictDense of the raw view stores, whatever the
numbers of threads and the schedules. -/
theorem C108_dense (P : Platform) (e : Ensemble) (hf : Fits e) (hl : ∀ k, e.transform ≠ .leafIndex k) (w r ncols : Nat)
    (hw : e.nOutputGroups = w) (hrange : w * r < 2 ^ 63) (hr : r ≤ 2 ^ 53) (hr0 : 0 < r) (vals m m' rm : List F64) (hrm : r * w ≤ rm.length)
    (req nt nt' : Int) :
    e.PredictDense P vals r ncols m req nt (.ok ⟨⟩, m') ↔
      ∃ rm' raws outs, e.withRawPredictions.PredictDense P vals r ncols rm req nt' (.ok ⟨⟩, rm') ∧ StoredRows rm w r raws rm' ∧
        (∀ i < r, IsTransformed P e.transform (raws i) (outs i)) ∧ StoredRows m w r outs m' := by
  have hfr := (C24_views_fit e hf).1
  have hwr : e.withRawPredictions.nOutputGroups = w := (width_of_raw hf hl).trans hw
  have hlt : w < 2 ^ 63 := lt_of_le_of_lt (Nat.le_mul_of_pos_right w hr0) hrange
  constructor
  · intro h
    obtain ⟨outs, hst, h1⟩ := C14_dense_is_rowwise P e hf w r ncols hw hrange hr vals m m' req nt h
    have hc : 0 < ncols := ((dense_iff hf hw hrange hr).1 h).1
    have key : ∀ i, ∃ raw, i < r → (∃ row, DenseRow vals ncols i row ∧
        (e.withRawPredictions.predict P row req w).run (List.replicate w F64.zero) = (.ok ⟨⟩, raw)) ∧ raw.length = w ∧
        IsTransformed P e.transform raw (outs i) := by
      intro i
      by_cases hi : i < r
      · obtain ⟨row, d, h2⟩ := h1 i hi
        obtain ⟨raw, h3, h4⟩ := (C108_row P e hf hl w hw hlt row req (List.replicate w F64.zero) (List.replicate w F64.zero) _ (by simp) (by simp)).1
          (h2 _ (by simp))
        refine ⟨raw, fun _ => ⟨⟨row, d, h3⟩, ?_, h4⟩⟩
        obtain ⟨-, t, n, -, -, -, ho⟩ := (predict_exact hfr hwr hlt (by simp)).1 h3
        obtain ⟨G, -, hG, -⟩ := id hf
        have hGr : e.withRawPredictions.base.nRawOutputGroups = G := hG
        rw [output_length hGr ho]
        have : e.withRawPredictions.nOutputGroups = G := hG
        show G = w
        omega
      · exact ⟨[], fun h => absurd h hi⟩
    choose raws hraws using key
    obtain ⟨rm', hrm'⟩ := storedRows_exists rm w r raws hrm fun i hi => (hraws i hi).2.1
    refine ⟨rm', raws, outs, ?_, hrm', fun i hi => (hraws i hi).2.2, hst⟩
    refine C14_rowwise_is_dense P _ hfr w r ncols hwr hrange hr hr0 hc vals rm rm' req nt' raws hrm' fun i hi => ?_
    obtain ⟨row, d, h2⟩ := (hraws i hi).1
    exact ⟨row, _, d, by simp, h2⟩
  · rintro ⟨rm', raws, outs, h, hst, htr, hst'⟩
    obtain ⟨raws', hst2, h1⟩ := C14_dense_is_rowwise P _ hfr w r ncols hwr hrange hr vals rm rm' req nt' h
    have hc : 0 < ncols := ((dense_iff hfr hwr hrange hr).1 h).1
    refine C14_rowwise_is_dense P e hf w r ncols hw hrange hr hr0 hc vals m m' req nt outs hst' fun i hi => ?_
    obtain ⟨row, d, h2⟩ := h1 i hi
    refine ⟨row, List.replicate w F64.zero, d, by simp, ?_⟩
    refine (C108_row P e hf hl w hw hlt row req _ (List.replicate w F64.zero) _ (by simp) (by simp)).2 ⟨raws' i, h2 _ (by simp), ?_⟩
    rw [← storedRows_same hst hst2 hi]
    exact htr i hi

/-- **C108, sparse matrices.** -/
theorem C108_csr (P : Platform) (e : Ensemble) (hf : Fits e) (hl : ∀ k, e.transform ≠ .leafIndex k) (w r nf : Nat)
    (hw : e.nOutputGroups = w) (hnf : e.nFeatures = nf ∧ nf * 8 ≤ P.maxAlloc) (hrange : w * r < 2 ^ 63) (hr : r ≤ 2 ^ 53) (hr0 : 0 < r)
    (indptr cols : List Int) (hp : indptr.length = r + 1) (vals m m' rm : List F64) (hrm : r * w ≤ rm.length) (req nt nt' : Int) :
    e.PredictCSR P indptr cols vals m req nt (.ok ⟨⟩, m') ↔
      ∃ rm' raws outs, e.withRawPredictions.PredictCSR P indptr cols vals rm req nt' (.ok ⟨⟩, rm') ∧ StoredRows rm w r raws rm' ∧
        (∀ i < r, IsTransformed P e.transform (raws i) (outs i)) ∧ StoredRows m w r outs m' := by
  have hfr := (C24_views_fit e hf).1
  have hwr : e.withRawPredictions.nOutputGroups = w := (width_of_raw hf hl).trans hw
  have hlt : w < 2 ^ 63 := lt_of_le_of_lt (Nat.le_mul_of_pos_right w hr0) hrange
  constructor
  · intro h
    obtain ⟨outs, hst, h1⟩ := C15_csr_is_rowwise P e hf w r nf hw hnf hrange hr indptr cols hp vals m m' req nt h
    have key : ∀ i, ∃ raw, i < r → (∃ row, SparseRow indptr cols vals nf (dflt e.base) i row ∧
        (e.withRawPredictions.predict P row req w).run (List.replicate w F64.zero) = (.ok ⟨⟩, raw)) ∧ raw.length = w ∧
        IsTransformed P e.transform raw (outs i) := by
      intro i
      by_cases hi : i < r
      · obtain ⟨row, d, h2⟩ := h1 i hi
        obtain ⟨raw, h3, h4⟩ := (C108_row P e hf hl w hw hlt row req (List.replicate w F64.zero) (List.replicate w F64.zero) _ (by simp) (by simp)).1
          (h2 _ (by simp))
        refine ⟨raw, fun _ => ⟨⟨row, d, h3⟩, ?_, h4⟩⟩
        obtain ⟨-, t, n, -, -, -, ho⟩ := (predict_exact hfr hwr hlt (by simp)).1 h3
        obtain ⟨G, -, hG, -⟩ := id hf
        have hGr : e.withRawPredictions.base.nRawOutputGroups = G := hG
        rw [output_length hGr ho]
        have : e.withRawPredictions.nOutputGroups = G := hG
        show G = w
        omega
      · exact ⟨[], fun h => absurd h hi⟩
    choose raws hraws using key
    obtain ⟨rm', hrm'⟩ := storedRows_exists rm w r raws hrm fun i hi => (hraws i hi).2.1
    refine ⟨rm', raws, outs, ?_, hrm', fun i hi => (hraws i hi).2.2, hst⟩
    refine C15_rowwise_is_csr P _ hfr w r nf hwr hnf hrange hr hr0 indptr cols hp vals rm rm' req nt' raws hrm' fun i hi => ?_
    obtain ⟨row, d, h2⟩ := (hraws i hi).1
    exact ⟨row, _, d, by simp, h2⟩
  · rintro ⟨rm', raws, outs, h, hst, htr, hst'⟩
    obtain ⟨raws', hst2, h1⟩ := C15_csr_is_rowwise P _ hfr w r nf hwr hnf hrange hr indptr cols hp vals rm rm' req nt' h
    refine C15_rowwise_is_csr P e hf w r nf hw hnf hrange hr hr0 indptr cols hp vals m m' req nt outs hst' fun i hi => ?_
    obtain ⟨row, d, h2⟩ := h1 i hi
    refine ⟨row, List.replicate w F64.zero, d, by simp, ?_⟩
    refine (C108_row P e hf hl w hw hlt row req _ (List.replicate w F64.zero) _ (by simp) (by simp)).2 ⟨raws' i, h2 _ (by simp), ?_⟩
    rw [← storedRows_same hst hst2 hi]
    exact htr i hi

/-- **C108, single values.** Where PredictSingle of the raw view predicts (rather than answering a row that is too short with 0),
PredictSingle is the transformation of its result. -/
theorem C108_single (P : Platform) (e : Ensemble) (hf : Fits e) (hl : ∀ k, e.transform ≠ .leafIndex k) (hw : e.nOutputGroups = 1)
    (row : List F64) (req : Int) (x y : F64) (h : (e.withRawPredictions.predict P row req 1).run [F64.zero] = (.ok ⟨⟩, [x]))
    (ht : IsTransformed P e.transform [x] [y]) :
    e.withRawPredictions.predictSingle P row req = .ok x ∧ e.predictSingle P row req = .ok y :=
  ⟨C13_any_buffer P _ (C24_views_fit e hf).1 ((width_of_raw hf hl).trans hw) row req _ x h,
    C13_any_buffer P e hf hw row req F64.zero y
      ((C108_row P e hf hl 1 hw (by norm_num) row req [F64.zero] [F64.zero] [y] rfl rfl).2 ⟨[x], h, ht⟩)⟩

namespace RawViewExample
open PredictExample

/-- The raw view gives 22; on the demo platform `exp (-22) = 1`, and the logistic model gives 1/2. -/
example : (lg1.withRawPredictions.predict Platform.demo [F64.ofNat 7, F64.zero] 2 1).run [F64.zero] = (.ok ⟨⟩, [F64.ofNat 22]) ∧
    lg1.predictSingle Platform.demo [F64.ofNat 7, F64.zero] 2 = .ok (F64.div F64.one (F64.ofNat 2)) := by
  have h : (lg1.withRawPredictions.predict Platform.demo [F64.ofNat 7, F64.zero] 2 1).run [F64.zero] = (.ok ⟨⟩, [F64.ofNat 22]) := by
    decide +kernel
  refine ⟨h, (C108_single Platform.demo lg1 lg1_fits (fun k h => by cases h) rfl _ 2 (F64.ofNat 22) _ h ⟨_, rfl, ?_⟩).2⟩
  decide +kernel

/-- a case of C108_row -/
example (x : F64) : ∃ out, (lg1.predict Platform.demo [F64.ofNat 7, F64.zero] 2 1).run [x] = (.ok ⟨⟩, out) :=
  ⟨_, (C108_row Platform.demo lg1 lg1_fits (fun k h => by cases h) 1 rfl (by norm_num) [F64.ofNat 7, F64.zero] 2 [x] [F64.zero] _ rfl rfl).2
    ⟨[F64.ofNat 22], by decide +kernel, ⟨_, rfl, rfl⟩⟩⟩

/-- A row that is too short: both answer 0, which is not the transformation of 0 (1/2). -/
theorem C108_single_short : lg1.withRawPredictions.predictSingle Platform.demo [F64.ofNat 7] 2 = .ok F64.zero ∧
    lg1.predictSingle Platform.demo [F64.ofNat 7] 2 = .ok F64.zero ∧ ¬ IsTransformed Platform.demo lg1.transform [F64.zero] [F64.zero] := by
  refine ⟨by decide +kernel, by decide +kernel, ?_⟩
  rintro ⟨x, h1, h2⟩
  cases h1
  revert h2
  decide +kernel

end RawViewExample
end Leaves
