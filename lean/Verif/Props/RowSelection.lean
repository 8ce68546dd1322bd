import Verif.Props.CsrShape

/-!
# C104: predicting some of the rows, in any order

The predictions for a matrix made of rows of another matrix (a piece of it, its rows in another order, some rows more than once) are the
predictions of those rows. In particular a matrix can be predicted in pieces.
-/

namespace Leaves
open Spec GoM

/-- **C104, dense matrices.** Row `i` of the second matrix is row `σ i` of the first. If `PredictDense` succeeds for the first matrix, then
for the second one it has a single outcome, with any number of threads: success, with the predictions of row `σ i` at place `i` and nothing
else changed. -/
theorem C104_dense (P : Platform) (e : Ensemble) (hf : Fits e) (w r r' ncols : Nat) (hw : e.nOutputGroups = w)
    (hrange : w * r < 2 ^ 63) (hrange' : w * r' < 2 ^ 63) (hr : r ≤ 2 ^ 53) (hr' : r' ≤ 2 ^ 53) (hr0 : 0 < r') (σ : Nat → Nat)
    (vals vals' m m' m₂ : List F64) (req nt nt' : Int)
    (hσ : ∀ i < r', σ i < r ∧ ∀ j < ncols, vals'[i * ncols + j]? = vals[σ i * ncols + j]?) (hroom : r' * w ≤ m₂.length)
    (h : e.PredictDense P vals r ncols m req nt (.ok ⟨⟩, m')) :
    ∃ m₂', (∀ out, e.PredictDense P vals' r' ncols m₂ req nt' out ↔ out = (.ok ⟨⟩, m₂')) ∧ m₂'.length = m₂.length ∧
      (∀ i < r', ∀ k < w, m₂'[i * w + k]? = m'[σ i * w + k]?) ∧ ∀ j, r' * w ≤ j → m₂'[j]? = m₂[j]? := by
  obtain ⟨outs, s, g⟩ := C14_dense_is_rowwise P e hf w r ncols hw hrange hr vals m m' req nt h
  have hc : 0 < ncols := ((dense_iff hf hw hrange hr).1 h).1
  obtain ⟨m₂', s'⟩ := storedRows_exists m₂ w r' (fun i => outs (σ i)) hroom fun i hi => s.2.2.1 _ (hσ i hi).1
  have hp := C14_rowwise_is_dense P e hf w r' ncols hw hrange' hr' hr0 hc vals' m₂ m₂' req 1 (fun i => outs (σ i)) s' fun i hi => by
    obtain ⟨row, g1, g2⟩ := g _ (hσ i hi).1
    refine ⟨row, List.replicate w F64.zero, ⟨g1.1, fun j hj => ?_⟩, by simp, g2 _ (by simp)⟩
    obtain ⟨x, x1, x2⟩ := g1.2 j hj
    exact ⟨x, ((hσ i hi).2 j hj).trans x1, x2⟩
  refine ⟨m₂', C16_dense_deterministic P e hf w r' ncols hw hrange' hr' vals' m₂ m₂' req nt' hp, s'.2.1, fun i hi k hk => ?_, s'.2.2.2.2⟩
  rw [s'.2.2.2.1 i hi k hk, s.2.2.2.1 _ (hσ i hi).1 k hk]

/-- **C104, sparse matrices.** -/
theorem C104_csr (P : Platform) (e : Ensemble) (hf : Fits e) (w r r' nf : Nat) (hw : e.nOutputGroups = w)
    (hnf : e.nFeatures = nf ∧ nf * 8 ≤ P.maxAlloc) (hrange : w * r < 2 ^ 63) (hrange' : w * r' < 2 ^ 63) (hr : r ≤ 2 ^ 53) (hr' : r' ≤ 2 ^ 53)
    (hr0 : 0 < r') (σ : Nat → Nat) (indptr indptr' cols cols' : List Int) (hp : indptr.length = r + 1) (hp' : indptr'.length = r' + 1)
    (vals vals' m m' m₂ : List F64) (req nt nt' : Int)
    (hσ : ∀ i < r', σ i < r ∧ ∀ row, SparseRow indptr cols vals nf (dflt e.base) (σ i) row → SparseRow indptr' cols' vals' nf (dflt e.base) i row)
    (hroom : r' * w ≤ m₂.length) (h : e.PredictCSR P indptr cols vals m req nt (.ok ⟨⟩, m')) :
    ∃ m₂', (∀ out, e.PredictCSR P indptr' cols' vals' m₂ req nt' out ↔ out = (.ok ⟨⟩, m₂')) ∧ m₂'.length = m₂.length ∧
      (∀ i < r', ∀ k < w, m₂'[i * w + k]? = m'[σ i * w + k]?) ∧ ∀ j, r' * w ≤ j → m₂'[j]? = m₂[j]? := by
  obtain ⟨outs, s, g⟩ := C15_csr_is_rowwise P e hf w r nf hw hnf hrange hr indptr cols hp vals m m' req nt h
  obtain ⟨m₂', s'⟩ := storedRows_exists m₂ w r' (fun i => outs (σ i)) hroom fun i hi => s.2.2.1 _ (hσ i hi).1
  have hq := C15_rowwise_is_csr P e hf w r' nf hw hnf hrange' hr' hr0 indptr' cols' hp' vals' m₂ m₂' req 1 (fun i => outs (σ i)) s' fun i hi => by
    obtain ⟨row, g1, g2⟩ := g _ (hσ i hi).1
    exact ⟨row, List.replicate w F64.zero, (hσ i hi).2 row g1, by simp, g2 _ (by simp)⟩
  refine ⟨m₂', C17_csr_deterministic P e hf w r' nf hw hnf hrange' hr' indptr' cols' hp' vals' m₂ m₂' req nt' hq, s'.2.1,
    fun i hi k hk => ?_, s'.2.2.2.2⟩
  rw [s'.2.2.2.1 i hi k hk, s.2.2.2.1 _ (hσ i hi).1 k hk]

/-- **C104, a piece of a dense matrix**: rows `a` to `a + r' - 1`, as a slice of the values. -/
theorem C104_dense_piece (P : Platform) (e : Ensemble) (hf : Fits e) (w r a r' ncols : Nat) (hw : e.nOutputGroups = w)
    (hrange : w * r < 2 ^ 63) (hr : r ≤ 2 ^ 53) (hr0 : 0 < r') (ha : a + r' ≤ r) (vals m m' m₂ : List F64) (req nt nt' : Int)
    (hroom : r' * w ≤ m₂.length) (h : e.PredictDense P vals r ncols m req nt (.ok ⟨⟩, m')) :
    ∃ m₂', (∀ out, e.PredictDense P ((vals.drop (a * ncols)).take (r' * ncols)) r' ncols m₂ req nt' out ↔ out = (.ok ⟨⟩, m₂')) ∧
      m₂'.take (r' * w) = (m'.drop (a * w)).take (r' * w) ∧ m₂'.drop (r' * w) = m₂.drop (r' * w) := by
  have hle : w * r' ≤ w * r := Nat.mul_le_mul_left w (by omega)
  obtain ⟨m₂', h1, h2, h3, h4⟩ := C104_dense P e hf w r r' ncols hw hrange (by omega) hr (by omega) hr0 (fun i => a + i) vals
    ((vals.drop (a * ncols)).take (r' * ncols)) m m' m₂ req nt nt'
    (fun i hi => ⟨by omega, fun j hj => by
      have : i * ncols + j < r' * ncols := by
        calc i * ncols + j < i * ncols + ncols := by omega
          _ = (i + 1) * ncols := by ring
          _ ≤ r' * ncols := Nat.mul_le_mul_right _ hi
      rw [List.getElem?_take_of_lt this, List.getElem?_drop]
      congr 1
      ring⟩) hroom h
  refine ⟨m₂', h1, List.ext_getElem? fun q => ?_, List.ext_getElem? fun q => ?_⟩
  · by_cases hq : q < r' * w
    · rw [List.getElem?_take_of_lt hq, List.getElem?_take_of_lt hq, List.getElem?_drop]
      have hw0 : 0 < w := Nat.pos_of_ne_zero (by rintro rfl; simp at hq)
      have := h3 (q / w) ((Nat.div_lt_iff_lt_mul hw0).2 hq) (q % w) (Nat.mod_lt _ hw0)
      rw [Nat.div_add_mod'] at this
      rw [this]
      congr 1
      have := Nat.div_add_mod' q w
      calc (a + q / w) * w + q % w = a * w + (q / w * w + q % w) := by ring
        _ = a * w + q := by rw [this]
    · rw [List.getElem?_take, List.getElem?_take, if_neg hq, if_neg hq]
  · rw [List.getElem?_drop, List.getElem?_drop]
    exact h4 _ (by omega)

/-- **C104, a piece of a sparse matrix**: for rows `a` to `a + r' - 1` a slice of the row pointers is enough; the other arrays can stay as
they are. -/
theorem C104_csr_piece (P : Platform) (e : Ensemble) (hf : Fits e) (w r a r' nf : Nat) (hw : e.nOutputGroups = w)
    (hnf : e.nFeatures = nf ∧ nf * 8 ≤ P.maxAlloc) (hrange : w * r < 2 ^ 63) (hr : r ≤ 2 ^ 53) (hr0 : 0 < r') (ha : a + r' ≤ r)
    (indptr cols : List Int) (hp : indptr.length = r + 1) (vals m m' m₂ : List F64) (req nt nt' : Int)
    (hroom : r' * w ≤ m₂.length) (h : e.PredictCSR P indptr cols vals m req nt (.ok ⟨⟩, m')) :
    ∃ m₂', (∀ out, e.PredictCSR P ((indptr.drop a).take (r' + 1)) cols vals m₂ req nt' out ↔ out = (.ok ⟨⟩, m₂')) ∧
      m₂'.take (r' * w) = (m'.drop (a * w)).take (r' * w) ∧ m₂'.drop (r' * w) = m₂.drop (r' * w) := by
  have hle : w * r' ≤ w * r := Nat.mul_le_mul_left w (by omega)
  obtain ⟨m₂', h1, h2, h3, h4⟩ := C104_csr P e hf w r r' nf hw hnf hrange (by omega) hr (by omega) hr0 (fun i => a + i) indptr
    ((indptr.drop a).take (r' + 1)) cols cols hp (by rw [List.length_take, List.length_drop, hp]; omega) vals vals m m' m₂ req nt nt'
    (fun i hi => ⟨by omega, fun row hrow => by
      obtain ⟨x, y, hx, hy, hrest⟩ := hrow
      refine ⟨x, y, ?_, ?_, hrest⟩
      · rw [List.getElem?_take_of_lt (by omega), List.getElem?_drop]
        exact hx
      · rw [List.getElem?_take_of_lt (by omega), List.getElem?_drop, ← Nat.add_assoc]
        exact hy⟩) hroom h
  refine ⟨m₂', h1, List.ext_getElem? fun q => ?_, List.ext_getElem? fun q => ?_⟩
  · by_cases hq : q < r' * w
    · rw [List.getElem?_take_of_lt hq, List.getElem?_take_of_lt hq, List.getElem?_drop]
      have hw0 : 0 < w := Nat.pos_of_ne_zero (by rintro rfl; simp at hq)
      have := h3 (q / w) ((Nat.div_lt_iff_lt_mul hw0).2 hq) (q % w) (Nat.mod_lt _ hw0)
      rw [Nat.div_add_mod'] at this
      rw [this]
      congr 1
      have := Nat.div_add_mod' q w
      calc (a + q / w) * w + q % w = a * w + (q / w * w + q % w) := by ring
        _ = a * w + q := by rw [this]
    · rw [List.getElem?_take, List.getElem?_take, if_neg hq, if_neg hq]
  · rw [List.getElem?_drop, List.getElem?_drop]
    exact h4 _ (by omega)

namespace RowSelectionExample

open PredictExample BatchExample

/-- The last two of 17 rows, predicted with four threads into a buffer of their own: the predictions that all 17 rows together got at the
end. -/
example : ∃ m₂', (∀ out, lg.PredictDense Platform.demo ((vals.drop (15 * 2)).take (2 * 2)) (2 : Nat) (2 : Nat) [F64.nan, F64.nan, F64.nan, F64.nan] 0 4
      out ↔ out = (.ok ⟨⟩, m₂')) ∧
    m₂'.take 4 = [F64.ofNat 101, F64.ofNat 1010, F64.ofNat 202, F64.ofNat 2020] := by
  obtain ⟨m₂', h1, h2, -⟩ := C104_dense_piece Platform.demo lg lg_fits 2 17 15 2 2 rfl (by decide) (by decide) (by decide) (by decide) vals buf result
    [F64.nan, F64.nan, F64.nan, F64.nan] 0 1 4 (by decide) seq_dense
  exact ⟨m₂', h1, h2.trans (by decide +kernel)⟩

/-- The last two rows of the sparse example of C15: the row pointers from the second on, the other arrays as they are. -/
example : ∃ m₂', (∀ out, lg.PredictCSR Platform.demo ([0, 2, 2, 4].drop 1 |>.take 3) [0, 0, 5, 1]
      [F64.ofNat 1, F64.ofNat 7, F64.ofNat 9, F64.ofNat 3] [F64.nan, F64.nan, F64.nan, F64.nan] 0 3 out ↔ out = (.ok ⟨⟩, m₂')) ∧
    m₂'.take 4 = [F64.ofNat 101, F64.ofNat 1010, F64.ofNat 101, F64.ofNat 1010] := by
  have h : lg.PredictCSR Platform.demo [0, 2, 2, 4] [0, 0, 5, 1] [F64.ofNat 1, F64.ofNat 7, F64.ofNat 9, F64.ofNat 3]
      (List.replicate 6 F64.nan) 0 1
      (.ok ⟨⟩, [F64.ofNat 202, F64.ofNat 2020, F64.ofNat 101, F64.ofNat 1010, F64.ofNat 101, F64.ofNat 1010]) :=
    (csr_seq (n := 2) (by decide +kernel) (by decide +kernel)).2 (by decide +kernel)
  obtain ⟨m₂', h1, h2, -⟩ := C104_csr_piece Platform.demo lg lg_fits 2 3 1 2 2 rfl ⟨rfl, by decide⟩ (by decide) (by decide) (by decide) (by decide)
    [0, 2, 2, 4] [0, 0, 5, 1] rfl _ _ _ [F64.nan, F64.nan, F64.nan, F64.nan] 0 1 3 (by decide) h
  exact ⟨m₂', h1, h2.trans (by decide +kernel)⟩

/-- The rows in the opposite order, the middle one twice: row `i` of the new matrix is row `[2, 1, 1, 0][i]` of the old one. -/
example : ∃ m₂', (∀ out, lg.PredictCSR Platform.demo [0, 2, 2, 2, 4] [5, 1, 0, 0]
      [F64.ofNat 9, F64.ofNat 3, F64.ofNat 1, F64.ofNat 7] (List.replicate 8 F64.nan) 0 3 out ↔ out = (.ok ⟨⟩, m₂')) ∧
    ∀ i < 4, ∀ k < 2, m₂'[i * 2 + k]? =
      [F64.ofNat 202, F64.ofNat 2020, F64.ofNat 101, F64.ofNat 1010, F64.ofNat 101, F64.ofNat 1010][[2, 1, 1, 0].getD i 0 * 2 + k]? := by
  have h : lg.PredictCSR Platform.demo [0, 2, 2, 4] [0, 0, 5, 1] [F64.ofNat 1, F64.ofNat 7, F64.ofNat 9, F64.ofNat 3]
      (List.replicate 6 F64.nan) 0 1
      (.ok ⟨⟩, [F64.ofNat 202, F64.ofNat 2020, F64.ofNat 101, F64.ofNat 1010, F64.ofNat 101, F64.ofNat 1010]) :=
    (csr_seq (n := 2) (by decide +kernel) (by decide +kernel)).2 (by decide +kernel)
  have rows : ∀ i < 4, csrRowOf [0, 2, 2, 4] [0, 0, 5, 1] [F64.ofNat 1, F64.ofNat 7, F64.ofNat 9, F64.ofNat 3] (List.replicate 2 F64.zero)
      ([2, 1, 1, 0].getD i 0) =
      csrRowOf [0, 2, 2, 2, 4] [5, 1, 0, 0] [F64.ofNat 9, F64.ofNat 3, F64.ofNat 1, F64.ofNat 7] (List.replicate 2 F64.zero) i := by decide +kernel
  obtain ⟨m₂', h1, -, h2, -⟩ := C104_csr Platform.demo lg lg_fits 2 3 4 2 rfl ⟨rfl, by decide⟩ (by decide) (by decide) (by decide) (by decide)
    (by decide) (fun i => [2, 1, 1, 0].getD i 0) [0, 2, 2, 4] [0, 2, 2, 2, 4] [0, 0, 5, 1] [5, 1, 0, 0] rfl rfl _
    [F64.ofNat 9, F64.ofNat 3, F64.ofNat 1, F64.ofNat 7] _ _ (List.replicate 8 F64.nan) 0 1 3
    (fun i hi => ⟨by revert i; decide, fun row hr => csrRowOf_iff.1 ((rows i hi) ▸ csrRowOf_iff.2 hr)⟩) (by decide) h
  exact ⟨m₂', h1, h2⟩

end RowSelectionExample

end Leaves
