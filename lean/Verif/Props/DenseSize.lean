import Verif.Props.Batch
import Verif.Model.DenseCap

/-!
# C85: PredictDense and the size of the matrix
-/

namespace Leaves

open Spec GoM

theorem denseRow_append {vals spare row : List F64} {r ncols i : Nat} (hi : i < r) (h : r * ncols ≤ vals.length) :
    DenseRow (vals ++ spare) ncols i row ↔ DenseRow (vals.take (r * ncols)) ncols i row := by
  unfold DenseRow
  refine and_congr_right fun _ => forall₂_congr fun j hj => ?_
  have : i * ncols + j < r * ncols := by
    have : (i + 1) * ncols ≤ r * ncols := Nat.mul_le_mul_right _ hi
    rw [Nat.add_mul, Nat.one_mul] at this
    omega
  rw [List.getElem?_append_left (by omega), List.getElem?_take_of_lt this]

/-- C85, the part that holds: if `vals` has the announced number of rows, a call that succeeds uses the first `nrows * ncols` elements
and nothing else; elements behind them, in the slice or behind its end, make no difference.

Missing for the full property, that PredictDense uses only elements of `vals` and returns an error if there are too few: see
`C85_too_short` and `C85_reads_behind_the_end`. -/
theorem C85_matrix_partial (P : Platform) (e : Ensemble) (hf : Fits e) (w r ncols : Nat) (hw : e.nOutputGroups = w)
    (hrange : w * r < 2 ^ 63) (hr : r ≤ 2 ^ 53) (vals spare m m' : List F64) (req nt : Int) (size : r * ncols ≤ vals.length) :
    e.PredictDenseCap P vals spare r ncols m req nt (.ok ⟨⟩, m') ↔
      e.PredictDenseCap P (vals.take (r * ncols)) [] r ncols m req nt (.ok ⟨⟩, m') := by
  unfold Ensemble.PredictDenseCap
  rw [dense_iff hf hw hrange hr, dense_iff hf hw hrange hr, List.append_nil]
  unfold BatchOK
  refine and_congr_right fun _ => and_congr_right fun _ => ?_
  refine exists₂_congr fun total n => and_congr_right fun _ => and_congr_right fun _ => and_congr_right fun _ => exists_congr fun outs => ?_
  refine and_congr_left fun _ => forall₂_congr fun i hi => exists_congr fun row => and_congr_left fun _ => denseRow_append hi size

/-- C85 is false: a matrix with too few elements (in its whole array) makes PredictDense panic or never return; it does not return,
neither with nil nor with an error, unless it rejects the number of columns, of estimators or of predictions. -/
theorem C85_too_short (P : Platform) (e : Ensemble) (hf : Fits e) (w r ncols : Nat) (hw : e.nOutputGroups = w)
    (hrange : w * r < 2 ^ 63) (hr : r ≤ 2 ^ 53) (vals spare m m' : List F64) (req nt : Int) (hr0 : 0 < r)
    (short : vals.length + spare.length < r * ncols) (n : Int) (args : e.denseChecks r ncols req m.length = .ok n) (res : Res Unit)
    (h : e.PredictDenseCap P vals spare r ncols m req nt (res, m')) : res = .panic ∨ res = .hang := by
  unfold Ensemble.PredictDenseCap at h
  cases res with
  | panic => exact .inl rfl
  | hang => exact .inr rfl
  | ok u =>
    exfalso
    rw [dense_iff hf hw hrange hr] at h
    obtain ⟨h1, -, total, n, -, -, -, outs, h2, -⟩ := h
    obtain ⟨row, h3, -⟩ := h2 (r - 1) (by omega)
    obtain ⟨x, h4, -⟩ := h3.2 (ncols - 1) (by omega)
    have := (List.getElem?_eq_some_iff.1 h4).1
    have e1 : (r - 1) * ncols + (ncols - 1) + 1 = r * ncols := by
      obtain ⟨r, rfl⟩ : ∃ k, r = k + 1 := ⟨r - 1, by omega⟩
      rw [Nat.add_sub_cancel, Nat.add_mul]
      omega
    rw [List.length_append] at this
    omega
  | err tag =>
    exfalso
    unfold Ensemble.PredictDense at h
    rw [args] at h
    dsimp only at h
    split at h
    · have hn : NoErr (e.denseRows P (vals ++ spare) ncols n 0 (r : Int).toNat) :=
        NoErr.forRange fun k => NoErr.bind (NoErr.ofRes fun tag => by unfold Ensemble.denseRowSlice; dsimp only; split <;> simp)
          fun _ => pit_noErr ..
      exact absurd (congrArg Prod.fst h.symm) (hn.run m tag)
    · cases h

namespace BatchExample

open PredictExample

/-- C85 applies to the 17 rows of `vals`, followed by anything. -/
example (spare : List F64) : lg.PredictDenseCap Platform.demo vals spare (17 : Nat) (2 : Nat) buf 0 4 (.ok ⟨⟩, result) := by
  have := C16_dense_parallel Platform.demo lg lg_fits 2 17 2 rfl (by decide) (by decide) vals buf result 0 4
  rw [C85_matrix_partial Platform.demo lg lg_fits 2 17 2 rfl (by decide) (by decide) vals spare buf result 0 4 (by decide)]
  have e : vals.take (17 * 2) = vals := by decide +kernel
  rw [e]
  unfold Ensemble.PredictDenseCap
  rw [List.append_nil]
  exact this.2 seq_dense

/-- C85 is false: a slice of one row, announced as two rows, gives a prediction from what lies behind its end in memory (here 0 or 7) and
no error. -/
theorem C85_reads_behind_the_end :
    lg.PredictDenseCap Platform.demo [F64.zero, F64.zero] [F64.zero, F64.zero] 2 2 (List.replicate 4 F64.nan) 0 1
      (.ok ⟨⟩, [F64.ofNat 101, F64.ofNat 1010, F64.ofNat 101, F64.ofNat 1010]) ∧
    lg.PredictDenseCap Platform.demo [F64.zero, F64.zero] [F64.ofNat 7, F64.zero] 2 2 (List.replicate 4 F64.nan) 0 1
      (.ok ⟨⟩, [F64.ofNat 101, F64.ofNat 1010, F64.ofNat 202, F64.ofNat 2020]) :=
  ⟨(dense_seq (n := 2) (by decide +kernel) (by decide +kernel)).2 (by decide +kernel),
    (dense_seq (n := 2) (by decide +kernel) (by decide +kernel)).2 (by decide +kernel)⟩

/-- C85 is false: with one row missing and no capacity left the call panics; predictions for the rows before have been stored. -/
theorem C85_short_panics :
    ∀ out, lg.PredictDenseCap Platform.demo [F64.zero, F64.zero] [] 2 2 (List.replicate 4 F64.nan) 0 1 out ↔
      out = (.panic, [F64.ofNat 101, F64.ofNat 1010, F64.nan, F64.nan]) := by
  intro out
  unfold Ensemble.PredictDenseCap
  rw [dense_seq (n := 2) (by decide +kernel) (by decide +kernel)]
  have : (lg.denseRows Platform.demo ([F64.zero, F64.zero] ++ []) 2 2 0 (2 : Int).toNat).run (List.replicate 4 F64.nan) =
      (.panic, [F64.ofNat 101, F64.ofNat 1010, F64.nan, F64.nan]) := by decide +kernel
  rw [this]

end BatchExample

end Leaves
