import Verif.Proofs.CsrArray
import Verif.Props.Predict

/-!
# C14-C20, C59, C60: batch prediction and its worker pool

`e.PredictDense P vals r ncols m req nt out` says that `out` (outcome and final contents of `predictions`, which
held `m`) is a possible result of the call with `nt` threads; for the parallel branch: that some schedule of the
goroutines' individual loads, stores and hand-overs leads to it. The theorems about the parallel branch hold for up
to 2^53 rows (C60 shows why) and outputs of fewer than 2^63 elements (C59 shows why).
-/

namespace Leaves

open Spec GoM

/-! ### C14 -/

/-- C14: a successful PredictDense, with any number of threads and under any schedule, stores in window `i` what
Predict returns for row `i`, and changes nothing else. -/
theorem C14_dense_is_rowwise (P : Platform) (e : Ensemble) (hf : Fits e) (w r ncols : Nat) (hw : e.nOutputGroups = w)
    (hrange : w * r < 2 ^ 63) (hr : r ≤ 2 ^ 53) (vals m m' : List F64) (req nt : Int)
    (h : e.PredictDense P vals r ncols m req nt (.ok ⟨⟩, m')) :
    ∃ outs, StoredRows m w r outs m' ∧ ∀ i < r, ∃ row, DenseRow vals ncols i row ∧
      ∀ buf : List F64, buf.length = w → (e.predict P row req w).run buf = (.ok ⟨⟩, outs i) := by
  obtain ⟨hc, hn, total, n, ht, hu, hl, outs, h1, h2⟩ := (dense_iff hf hw hrange hr).1 h
  refine ⟨outs, h2, fun i hi => ?_⟩
  obtain ⟨row, h3, h4⟩ := h1 i hi
  have hwlt : w < 2 ^ 63 := lt_of_le_of_lt (Nat.le_mul_of_pos_right w (by omega)) hrange
  refine ⟨row, h3, fun buf hb => (predict_exact hf hw hwlt hb).2 ⟨by rw [h3.1]; exact hn, total, n, ht, hu, hl, h4⟩⟩

/-- C14, the other direction: if Predict succeeds for every row then PredictDense can return with these outputs. -/
theorem C14_rowwise_is_dense (P : Platform) (e : Ensemble) (hf : Fits e) (w r ncols : Nat) (hw : e.nOutputGroups = w)
    (hrange : w * r < 2 ^ 63) (hr : r ≤ 2 ^ 53) (hr0 : 0 < r) (hc : 0 < ncols) (vals m m' : List F64) (req nt : Int)
    (outs : Nat → List F64) (hs : StoredRows m w r outs m')
    (h : ∀ i < r, ∃ row buf, DenseRow vals ncols i row ∧ buf.length = w ∧ (e.predict P row req w).run buf = (.ok ⟨⟩, outs i)) :
    e.PredictDense P vals r ncols m req nt (.ok ⟨⟩, m') := by
  have hwlt : w < 2 ^ 63 := lt_of_le_of_lt (Nat.le_mul_of_pos_right w (by omega)) hrange
  obtain ⟨row, buf, h1, h2, h3⟩ := h 0 hr0
  obtain ⟨h4, total, n, ht, hu, hl, _⟩ := (predict_exact hf hw hwlt h2).1 h3
  refine (dense_iff hf hw hrange hr).2 ⟨hc, by rw [← h1.1]; exact h4, total, n, ht, hu, hl, outs, fun i hi => ?_, hs⟩
  obtain ⟨row, buf, h1, h2, h3⟩ := h i hi
  obtain ⟨_, total', n', ht', hu', _, ho⟩ := (predict_exact hf hw hwlt h2).1 h3
  have := IsTotal.unique ht ht'
  subst this
  have := Used.unique hu hu'
  subst this
  exact ⟨row, h1, ho⟩

/-- C14: a PredictDense that returns an error changes nothing (for any model whatsoever, any shape). -/
theorem C14_error_changes_nothing (P : Platform) (e : Ensemble) (vals m m' : List F64) (r ncols req nt : Int) (tag : String)
    (h : e.PredictDense P vals r ncols m req nt (.err tag, m')) : m' = m := by
  unfold Ensemble.PredictDense at h
  split at h
  · split at h
    · rename_i n _ _ _
      have hn : NoErr (e.denseRows P vals ncols n 0 r.toNat) :=
        NoErr.forRange fun k => NoErr.bind (NoErr.ofRes fun tag => by unfold Ensemble.denseRowSlice; dsimp only; split <;> simp)
          fun _ => pit_noErr ..
      exact absurd (congrArg Prod.fst h.symm) (hn.run m tag)
    · cases h
  · exact (Prod.mk.inj h).2
  · cases (Prod.mk.inj h).1
  · cases (Prod.mk.inj h).1

/-! ### C15 -/

/-- C15: a successful PredictCSR, with any number of threads and under any schedule, stores in window `i` what Predict
returns for the written-out row `i`, and changes nothing else. -/
theorem C15_csr_is_rowwise (P : Platform) (e : Ensemble) (hf : Fits e) (w r nf : Nat) (hw : e.nOutputGroups = w)
    (hnf : e.nFeatures = nf ∧ nf * 8 ≤ P.maxAlloc) (hrange : w * r < 2 ^ 63) (hr : r ≤ 2 ^ 53) (indptr cols : List Int) (hp : indptr.length = r + 1)
    (vals m m' : List F64) (req nt : Int) (h : e.PredictCSR P indptr cols vals m req nt (.ok ⟨⟩, m')) :
    ∃ outs, StoredRows m w r outs m' ∧ ∀ i < r, ∃ row, SparseRow indptr cols vals nf (dflt e.base) i row ∧
      ∀ buf : List F64, buf.length = w → (e.predict P row req w).run buf = (.ok ⟨⟩, outs i) := by
  obtain ⟨total, n, ht, hu, hl, outs, h1, h2⟩ := (csr_iff hf hw hnf hrange hr hp).1 h
  refine ⟨outs, h2, fun i hi => ?_⟩
  obtain ⟨row, h3, h4⟩ := h1 i hi
  have hwlt : w < 2 ^ 63 := lt_of_le_of_lt (Nat.le_mul_of_pos_right w (by omega)) hrange
  have hlen : row.length = nf := by obtain ⟨_, _, _, _, _, h5, _⟩ := h3; exact h5
  refine ⟨row, h3, fun buf hb => (predict_exact hf hw hwlt hb).2 ⟨by rw [hlen, hnf.1], total, n, ht, hu, hl, h4⟩⟩

/-- C15, the other direction. -/
theorem C15_rowwise_is_csr (P : Platform) (e : Ensemble) (hf : Fits e) (w r nf : Nat) (hw : e.nOutputGroups = w)
    (hnf : e.nFeatures = nf ∧ nf * 8 ≤ P.maxAlloc) (hrange : w * r < 2 ^ 63) (hr : r ≤ 2 ^ 53) (hr0 : 0 < r) (indptr cols : List Int)
    (hp : indptr.length = r + 1) (vals m m' : List F64) (req nt : Int) (outs : Nat → List F64) (hs : StoredRows m w r outs m')
    (h : ∀ i < r, ∃ row buf, SparseRow indptr cols vals nf (dflt e.base) i row ∧ buf.length = w ∧
      (e.predict P row req w).run buf = (.ok ⟨⟩, outs i)) :
    e.PredictCSR P indptr cols vals m req nt (.ok ⟨⟩, m') := by
  have hwlt : w < 2 ^ 63 := lt_of_le_of_lt (Nat.le_mul_of_pos_right w (by omega)) hrange
  obtain ⟨row, buf, h1, h2, h3⟩ := h 0 hr0
  obtain ⟨h4, total, n, ht, hu, hl, _⟩ := (predict_exact hf hw hwlt h2).1 h3
  refine (csr_iff hf hw hnf hrange hr hp).2 ⟨total, n, ht, hu, hl, outs, fun i hi => ?_, hs⟩
  obtain ⟨row, buf, h1, h2, h3⟩ := h i hi
  obtain ⟨_, total', n', ht', hu', _, ho⟩ := (predict_exact hf hw hwlt h2).1 h3
  have := IsTotal.unique ht ht'
  subst this
  have := Used.unique hu hu'
  subst this
  exact ⟨row, h1, ho⟩

/-- C15: the written-out row is unique, so C15 determines the result. -/
theorem C15_row_unique (indptr cols : List Int) (vals : List F64) (nf : Nat) (d : F64) (i : Nat) (row row' : List F64)
    (h : SparseRow indptr cols vals nf d i row) (h' : SparseRow indptr cols vals nf d i row') : row = row' :=
  SparseRow.unique h h'

/-! ### C16, C17 -/

/-- C16: the possible successful results with `nt` threads are those of the single-threaded loop. -/
theorem C16_dense_parallel (P : Platform) (e : Ensemble) (hf : Fits e) (w r ncols : Nat) (hw : e.nOutputGroups = w)
    (hrange : w * r < 2 ^ 63) (hr : r ≤ 2 ^ 53) (vals m m' : List F64) (req nt : Int) :
    e.PredictDense P vals r ncols m req nt (.ok ⟨⟩, m') ↔ e.PredictDense P vals r ncols m req 1 (.ok ⟨⟩, m') := by
  rw [dense_iff hf hw hrange hr, dense_iff hf hw hrange hr]

/-- C16: if the single-threaded call succeeds then every schedule with any number of threads gives the same result; in
particular none panics. -/
theorem C16_dense_deterministic (P : Platform) (e : Ensemble) (hf : Fits e) (w r ncols : Nat) (hw : e.nOutputGroups = w)
    (hrange : w * r < 2 ^ 63) (hr : r ≤ 2 ^ 53) (vals m m' : List F64) (req nt : Int)
    (h : e.PredictDense P vals r ncols m req 1 (.ok ⟨⟩, m')) (out : Res Unit × List F64) :
    e.PredictDense P vals r ncols m req nt out ↔ out = (.ok ⟨⟩, m') := by
  refine ⟨dense_outcome hf hw hrange hr h, ?_⟩
  rintro rfl
  exact (C16_dense_parallel P e hf w r ncols hw hrange hr vals m m' req nt).2 h

/-- C17: as C16, for sparse matrices. -/
theorem C17_csr_parallel (P : Platform) (e : Ensemble) (hf : Fits e) (w r nf : Nat) (hw : e.nOutputGroups = w)
    (hnf : e.nFeatures = nf ∧ nf * 8 ≤ P.maxAlloc) (hrange : w * r < 2 ^ 63) (hr : r ≤ 2 ^ 53) (indptr cols : List Int) (hp : indptr.length = r + 1)
    (vals m m' : List F64) (req nt : Int) :
    e.PredictCSR P indptr cols vals m req nt (.ok ⟨⟩, m') ↔ e.PredictCSR P indptr cols vals m req 1 (.ok ⟨⟩, m') := by
  rw [csr_iff hf hw hnf hrange hr hp, csr_iff hf hw hnf hrange hr hp]

/-- C17: as C16, for sparse matrices. -/
theorem C17_csr_deterministic (P : Platform) (e : Ensemble) (hf : Fits e) (w r nf : Nat) (hw : e.nOutputGroups = w)
    (hnf : e.nFeatures = nf ∧ nf * 8 ≤ P.maxAlloc) (hrange : w * r < 2 ^ 63) (hr : r ≤ 2 ^ 53) (indptr cols : List Int) (hp : indptr.length = r + 1)
    (vals m m' : List F64) (req nt : Int) (h : e.PredictCSR P indptr cols vals m req 1 (.ok ⟨⟩, m')) (out : Res Unit × List F64) :
    e.PredictCSR P indptr cols vals m req nt out ↔ out = (.ok ⟨⟩, m') := by
  refine ⟨csr_outcome hf hw hnf hrange hr hp h, ?_⟩
  rintro rfl
  exact (C17_csr_parallel P e hf w r nf hw hnf hrange hr indptr cols hp vals m m' req nt).2 h

/-! ### C18, C19

`n` is the number of estimators the argument checks settled on; `t` threads and `b` batches are what the call planned.
`GoM.next p` is the element of `predictions` that a worker with remaining program `p` accesses next. -/

/-- C18: in no reachable state do two workers access the same element next; no worker is left when the call returns. -/
theorem C18_dense_no_race (P : Platform) (e : Ensemble) (hf : Fits e) (vals : List F64) (ncols n t b req : Int) (r len : Nat)
    (hck : e.denseChecks r ncols req len = .ok n) (m : List F64) (k : Nat) (s : PState Unit)
    (hs : PState.Steps (e.denseJob P vals ncols n r t b) k (.start m) s) :
    (∀ (x y : Nat) (p q : GoM Unit) (i : Int), s.workers[x]? = some (.busy p) → s.workers[y]? = some (.busy q) → x ≠ y →
      p.next = some i → q.next ≠ some i) ∧
    (s.main = .returned → ∀ x ∈ s.workers, x = .exited) := by
  obtain ⟨total, n', ht, hu, rfl, hl, _⟩ := denseChecks_ok hf hck
  obtain ⟨G, _, hG, _⟩ := id hf
  have hwin := row_within P hf hG ht (Used.le hu) (Ensemble.denseRowSlice vals ncols)
  have hw := width_full hf hG ht hl
  have hok := (dense_rowPool P e vals ncols n' r t b).ok (W := e.nOutputGroups) (by omega) hwin
  exact ⟨fun x y p q i h1 h2 hne h3 => pool_race hok hs h1 h2 hne h3, pool_no_worker_left hok hs⟩

/-- C18 for sparse matrices. -/
theorem C18_csr_no_race (P : Platform) (e : Ensemble) (hf : Fits e) (nf : Nat) (hnf : e.nFeatures = nf ∧ nf * 8 ≤ P.maxAlloc) (indptr cols : List Int)
    (vals : List F64) (n t b req : Int) (r len : Nat) (hck : e.csrChecks r req len = .ok n) (m : List F64) (k : Nat)
    (s : PState (List F64)) (hs : PState.Steps (e.csrJob P indptr cols vals n r t b) k (.start m) s) :
    (∀ (x y : Nat) (p q : GoM (List F64)) (i : Int), s.workers[x]? = some (.busy p) → s.workers[y]? = some (.busy q) → x ≠ y →
      p.next = some i → q.next ≠ some i) ∧
    (s.main = .returned → ∀ x ∈ s.workers, x = .exited) := by
  obtain ⟨total, n', ht, hu, rfl, hl, _⟩ := csrChecks_ok hf hck
  obtain ⟨G, _, hG, _⟩ := id hf
  have hwin := row_within P hf hG ht (Used.le hu) (csrRowOf indptr cols vals (List.replicate nf (dflt e.base)))
  have hw := width_full hf hG ht hl
  have hok := (csr_rowPool P e indptr cols vals n' r t b hnf).ok (W := e.nOutputGroups) (by omega) hwin
  exact ⟨fun x y p q i h1 h2 hne h3 => pool_race hok hs h1 h2 hne h3, pool_no_worker_left hok hs⟩

/-- C19: if the single-threaded call succeeds, no reachable state of the planned pool is stuck, and there is a bound on
the length of all executions. -/
theorem C19_dense_terminates (P : Platform) (e : Ensemble) (hf : Fits e) (w r ncols : Nat) (hw : e.nOutputGroups = w)
    (hrange : w * r < 2 ^ 63) (hr : r ≤ 2 ^ 53) (vals m m' : List F64) (req nt n t b : Int)
    (h : e.PredictDense P vals r ncols m req 1 (.ok ⟨⟩, m')) (hck : e.denseChecks r ncols req m.length = .ok n)
    (hp : plan P r nt = .parallel t b) :
    (∀ k s, PState.Steps (e.denseJob P vals ncols n r t b) k (.start m) s →
      s.main = .returned ∨ ∃ s', PState.Step (e.denseJob P vals ncols n r t b) s s') ∧
    ∃ N, ∀ k s, PState.Steps (e.denseJob P vals ncols n r t b) k (.start m) s → k ≤ N := by
  obtain ⟨total, n', ht, hu, rfl, hl, _⟩ := denseChecks_ok hf hck
  obtain ⟨hc1, hc2, total', n'', ht', hu', _, outs, _, hs⟩ := (dense_iff hf hw hrange hr).1 h
  obtain ⟨G, _, hG, _⟩ := id hf
  have hwin := row_within P hf hG ht (Used.le hu) (Ensemble.denseRowSlice vals ncols)
  have hpool := dense_rowPool P e vals ncols n' r t b
  have hok := hpool.ok (W := e.nOutputGroups) (by omega) hwin
  rw [dense_reduce hw hrange hs.1 ⟨hc1, hc2⟩ ht hu hl,
    show plan P r 1 = .sequential from by unfold plan; rw [if_pos (by simp)]] at h
  obtain ⟨g1, _, _⟩ := plan_parallel hr hp
  exact ⟨fun k s hst => pool_progress hok rfl g1 (fun b _ => hpool.batches_ok (by omega) hwin h.symm b) hst, pool_bounded hok m⟩

/-- C19 for sparse matrices. -/
theorem C19_csr_terminates (P : Platform) (e : Ensemble) (hf : Fits e) (w r nf : Nat) (hw : e.nOutputGroups = w)
    (hnf : e.nFeatures = nf ∧ nf * 8 ≤ P.maxAlloc) (hrange : w * r < 2 ^ 63) (hr : r ≤ 2 ^ 53) (indptr cols : List Int) (hlenp : indptr.length = r + 1)
    (vals m m' : List F64) (req nt n t b : Int) (h : e.PredictCSR P indptr cols vals m req 1 (.ok ⟨⟩, m'))
    (hck : e.csrChecks r req m.length = .ok n) (hp : plan P r nt = .parallel t b) :
    (∀ k s, PState.Steps (e.csrJob P indptr cols vals n r t b) k (.start m) s →
      s.main = .returned ∨ ∃ s', PState.Step (e.csrJob P indptr cols vals n r t b) s s') ∧
    ∃ N, ∀ k s, PState.Steps (e.csrJob P indptr cols vals n r t b) k (.start m) s → k ≤ N := by
  obtain ⟨total, n', ht, hu, rfl, hl, _⟩ := csrChecks_ok hf hck
  obtain ⟨total', n'', ht', hu', _, outs, _, hs⟩ := (csr_iff hf hw hnf hrange hr hlenp).1 h
  obtain ⟨G, _, hG, _⟩ := id hf
  have hwin := row_within P hf hG ht (Used.le hu) (csrRowOf indptr cols vals (List.replicate nf (dflt e.base)))
  have hpool := csr_rowPool P e indptr cols vals n' r t b hnf
  have hok := hpool.ok (W := e.nOutputGroups) (by omega) hwin
  rw [csr_reduce hw hrange hlenp hs.1 ht hu hl,
    show plan P r 1 = .sequential from by unfold plan; rw [if_pos (by simp)]] at h
  simp only at h
  rw [eq_comm, csrSequential_run hnf, hlenp, Nat.add_sub_cancel] at h
  obtain ⟨g1, _, _⟩ := plan_parallel hr hp
  exact ⟨fun k s hst => pool_progress hok (newFVals_eq hnf) g1 (fun b _ => hpool.batches_ok (by omega) hwin h b) hst,
    pool_bounded hok m⟩

/-! ### C20 -/

/-- C20: for a matrix with at least as many columns as the model has features, if the sparse call on its converted form
succeeds then the dense call gives the same result. -/
theorem C20_csr_to_dense (P : Platform) (e : Ensemble) (hf : Fits e) (w r ncols nf : Nat) (hw : e.nOutputGroups = w)
    (hnf : e.nFeatures = nf ∧ nf * 8 ≤ P.maxAlloc) (hrange : w * r < 2 ^ 63) (hr : r ≤ 2 ^ 53) (hc : 0 < ncols) (hcols : nf ≤ ncols)
    (vals m m' : List F64) (req nt nt' : Int) (hvals : vals.length = r * ncols) (mt : Mat.CSRMat)
    (hm : Mat.csrMatFromArray P vals r ncols = .ok mt)
    (h : e.PredictCSR P mt.rowHeaders mt.colIndexes mt.values m req nt (.ok ⟨⟩, m')) :
    e.PredictDense P vals r ncols m req nt' (.ok ⟨⟩, m') := by
  obtain ⟨_, _, h3, _, _⟩ := Mat.csrMatFromArray_full hm
  obtain ⟨total, n, ht, hu, hl, outs, h1, h2⟩ := (csr_iff hf hw hnf hrange hr h3).1 h
  refine (dense_iff hf hw hrange hr).2 ⟨hc, by omega, total, n, ht, hu, hl, outs, fun i hi => ?_, h2⟩
  obtain ⟨row, h4, h5⟩ := h1 i hi
  obtain ⟨drow, hd⟩ := Mat.dense_of_len hvals hi
  have := SparseRow.unique h4 (Mat.sparse_of_dense hm hcols hi hd)
  subst this
  exact ⟨drow, hd, output_prefix h5⟩

/-- C20 (partial), the other direction. Missing: models whose trees split on features beyond the ones the model
announces; `C20_single_feature_fails` shows that the claim is false for them. -/
theorem C20_dense_to_csr_partial (P : Platform) (e : Ensemble) (hf : Fits e) (w r ncols nf : Nat) (hw : e.nOutputGroups = w)
    (hnf : e.nFeatures = nf ∧ nf * 8 ≤ P.maxAlloc) (hfeat : ∀ t ∈ treesOf e.base, ∀ nd ∈ t.nodes, nd.feature < nf)
    (hrange : w * r < 2 ^ 63) (hr : r ≤ 2 ^ 53)
    (vals m m' : List F64) (req nt nt' : Int) (mt : Mat.CSRMat)
    (hm : Mat.csrMatFromArray P vals r ncols = .ok mt)
    (h : e.PredictDense P vals r ncols m req nt (.ok ⟨⟩, m')) :
    e.PredictCSR P mt.rowHeaders mt.colIndexes mt.values m req nt' (.ok ⟨⟩, m') := by
  obtain ⟨_, _, h3, _, _⟩ := Mat.csrMatFromArray_full hm
  obtain ⟨hc, hcols, total, n, ht, hu, hl, outs, h1, h2⟩ := (dense_iff hf hw hrange hr).1 h
  refine (csr_iff hf hw hnf hrange hr h3).2 ⟨total, n, ht, hu, hl, outs, fun i hi => ?_, h2⟩
  obtain ⟨row, h4, h5⟩ := h1 i hi
  exact ⟨_, Mat.sparse_of_dense hm (by omega) hi h4, output_take hnf.1 hfeat h5⟩

/-! ### C59 -/

/-- C59 (partial): as long as the product of rows and output width is below 2^63, passing the checks means that every
row's window lies in `predictions`. Missing: larger products; `C59_product_wraps` shows the check failing there. -/
theorem C59_length_check_partial (e : Ensemble) (hf : Fits e) (w r : Nat) (hw : e.nOutputGroups = w) (hrange : w * r < 2 ^ 63)
    (req : Int) (len : Nat) (n : Int) :
    (∀ ncols, e.denseChecks r ncols req len = .ok n → ∀ i < r, i * w + w ≤ len) ∧
    (e.csrChecks r req len = .ok n → ∀ i < r, i * w + w ≤ len) := by
  have key : wrap64 (e.nOutputGroups * r) ≤ len → ∀ i < r, i * w + w ≤ len := by
    intro h i hi
    have hcast : e.nOutputGroups * (r : Int) = ((w * r : Nat) : Int) := by rw [hw]; push_cast; ring
    rw [hcast, wrap64_id (by omega) (by omega)] at h
    have : (i + 1) * w ≤ r * w := Nat.mul_le_mul_right w hi
    rw [Nat.succ_mul, Nat.mul_comm r w] at this
    omega
  refine ⟨fun ncols h => ?_, fun h => ?_⟩
  · obtain ⟨_, _, _, _, _, _, _, _, h⟩ := denseChecks_ok hf h
    exact key h
  · obtain ⟨_, _, _, _, _, _, h⟩ := csrChecks_ok hf h
    exact key h

/-- C59 is false in general: 2^62 rows with two outputs each pass the check for an empty `predictions`. -/
theorem C59_product_wraps : Fits PredictExample.lg ∧ PredictExample.lg.nOutputGroups = 2 ∧
    PredictExample.lg.denseChecks (2 ^ 62) 2 0 0 = .ok 2 ∧ PredictExample.lg.csrChecks (2 ^ 62) 0 0 = .ok 2 :=
  ⟨PredictExample.lg_fits, by decide +kernel, by decide +kernel, by decide +kernel⟩

/-! ### C60 -/

/-- C60: the batches tile the rows: every row below `r` lies in exactly one batch, and every batch has a row. -/
theorem C60_batches_tile (P : Platform) (r : Nat) (hr : r ≤ 2 ^ 53) :
    (∀ i < r, ∃! b : Nat, (b : Int) < nBatchesOf P r ∧ b * 16 ≤ i ∧ i < min (b * 16 + 16) r) ∧
    (∀ b : Nat, (b : Int) < nBatchesOf P r → b * 16 < r) ∧ 0 ≤ nBatchesOf P r := by
  rw [nBatchesOf_eq P hr]
  refine ⟨fun i hi => ⟨i / 16, ⟨by omega, by omega, by omega⟩, ?_⟩, fun b hb => by omega, by omega⟩
  rintro b ⟨h1, h2, h3⟩
  omega

/-- an execution together with the list of batches handed out in it, in order -/
inductive Handed {σ : Type} (J : Job σ) (s0 : PState σ) : List Nat → PState σ → Prop where
  | start : Handed J s0 [] s0
  | send {l i s t} : Handed J s0 l s → PState.Step J s t → s.main = .sending i → t.main = .sending (i + 1) →
      Handed J s0 (l ++ [i]) t
  | other {l s t} : Handed J s0 l s → PState.Step J s t → (∀ i, s.main = .sending i → t.main ≠ .sending (i + 1)) →
      Handed J s0 l t

/-- C60: in every execution the batches are handed out in order, each exactly once, and all of them have been handed out
when the call returns. -/
theorem C60_each_once (σ : Type) (J : Job σ) (m : List F64) (l : List Nat) (s : PState σ) (h : Handed J (.start m) l s) :
    match s.main with
    | .spawning _ => l = []
    | .sending i => i ≤ J.nBatches ∧ l = List.range i
    | .waiting => l = List.range J.nBatches
    | .returned => l = List.range J.nBatches
    | .crashed => True := by
  induction h with
  | start => rfl
  | @send l i s t _ hst h1 h2 ih =>
    rw [h1] at ih
    rw [h2]
    simp only at ih ⊢
    have hlt : i < J.nBatches := by
      cases hst <;> simp_all
    exact ⟨hlt, by rw [ih.2, List.range_succ]⟩
  | @other l s t _ hst hno ih =>
    cases hst with
    | spawn h => exact ih
    | spawned h => exact ⟨Nat.zero_le _, by simpa using ih⟩
    | begin _ _ hc => exact ih
    | beginPanic => trivial
    | handOver h => exact absurd rfl (hno _ rfl)
    | close h =>
      obtain ⟨h1, h2⟩ := ih
      show l = _
      rw [h2]
      congr 1
      omega
    | exit => exact ih
    | ret => exact ih
    | done _ _ => exact ih
    | load _ _ _ => exact ih
    | store _ _ _ => exact ih
    | loadPanic => trivial
    | storePanic => trivial
    | panic => trivial

/-- every execution has such a list -/
theorem C60_trace_exists (σ : Type) (J : Job σ) (m : List F64) (k : Nat) (s : PState σ) (h : PState.Steps J k (.start m) s) :
    ∃ l, Handed J (.start m) l s := by
  generalize hst : PState.start m = st at h ⊢
  induction h with
  | refl => exact ⟨[], .start⟩
  | @tail n s t u h1 h2 ih =>
    obtain ⟨l, hl⟩ := ih hst
    by_cases hex : ∃ i, t.main = .sending i ∧ u.main = .sending (i + 1)
    · obtain ⟨i, g1, g2⟩ := hex
      exact ⟨_, .send hl h2 g1 g2⟩
    · push Not at hex
      exact ⟨l, .other hl h2 hex⟩

/-- the limit 2^53 in C60 is sharp: with one more row the last row is in no batch -/
theorem C60_limit_sharp : (nBatchesOf Platform.demo (2 ^ 53 + 1)) * 16 < 2 ^ 53 + 1 := by decide +kernel

/-! ### Concrete calls -/

theorem dense_seq {P : Platform} {e : Ensemble} {vals m : List F64} {r ncols req nt n : Int} (h1 : e.denseChecks r ncols req m.length = .ok n)
    (h2 : plan P r nt = .sequential) {out : Res Unit × List F64} :
    e.PredictDense P vals r ncols m req nt out ↔ out = (e.denseRows P vals ncols n 0 r.toNat).run m := by
  unfold Ensemble.PredictDense
  rw [h1]
  simp only
  rw [h2]

theorem csr_seq {P : Platform} {e : Ensemble} {indptr cols : List Int} {vals m : List F64} {req nt n : Int}
    (h1 : e.csrChecks (indptr.length - 1) req m.length = .ok n) (h2 : plan P (indptr.length - 1) nt = .sequential)
    {out : Res Unit × List F64} :
    e.PredictCSR P indptr cols vals m req nt out ↔ out = (e.csrSequential P indptr cols vals n).run m := by
  unfold Ensemble.PredictCSR
  simp only
  rw [h1]
  simp only
  rw [h2]

namespace BatchExample

open PredictExample

/-- 17 rows of two columns, the first column of the last row beyond the threshold 5 -/
def vals : List F64 := List.replicate 32 F64.zero ++ [F64.ofNat 7, F64.nan]

/-- room for one value more than needed -/
def buf : List F64 := List.replicate 35 F64.nan

def result : List F64 := (List.replicate 16 [F64.ofNat 101, F64.ofNat 1010]).flatten ++ [F64.ofNat 202, F64.ofNat 2020, F64.nan]

/-- 17 rows are two batches, for two workers -/
example : plan Platform.demo 17 4 = .parallel 2 2 := by decide +kernel

theorem seq_dense : lg.PredictDense Platform.demo vals (17 : Nat) (2 : Nat) buf 0 1 (.ok ⟨⟩, result) :=
  (dense_seq (n := 2) (by decide +kernel) (by decide +kernel)).2 (by decide +kernel)

/-- C14, C16, C19: a parallel call and its result -/
example : lg.PredictDense Platform.demo vals (17 : Nat) (2 : Nat) buf 0 4 (.ok ⟨⟩, result) :=
  (C16_dense_parallel Platform.demo lg lg_fits 2 17 2 rfl (by decide) (by decide) vals buf result 0 4).2 seq_dense

/-- C15, C17: rows `{0: 1, 0: 7}` (the last entry counts), `{}` and `{5: 9, 1: 3}` (column 5 does not exist) -/
example : lg.PredictCSR Platform.demo [0, 2, 2, 4] [0, 0, 5, 1] [F64.ofNat 1, F64.ofNat 7, F64.ofNat 9, F64.ofNat 3]
    (List.replicate 6 F64.nan) 0 1
    (.ok ⟨⟩, [F64.ofNat 202, F64.ofNat 2020, F64.ofNat 101, F64.ofNat 1010, F64.ofNat 101, F64.ofNat 1010]) :=
  (csr_seq (n := 2) (by decide +kernel) (by decide +kernel)).2 (by decide +kernel)

example : SparseRow [0, 2, 2, 4] [0, 0, 5, 1] [F64.ofNat 1, F64.ofNat 7, F64.ofNat 9, F64.ofNat 3] 2 F64.zero 0
    [F64.ofNat 7, F64.zero] := csrRowOf_iff.1 (by decide +kernel)

/-- C20: the conversion succeeds and the trees split on the model's features only -/
example : ∃ mt, Mat.csrMatFromArray Platform.demo vals (17 : Nat) (2 : Nat) = .ok mt ∧ vals.length = 17 * 2 ∧
    lg.PredictCSR Platform.demo mt.rowHeaders mt.colIndexes mt.values buf 0 3 (.ok ⟨⟩, result) := by
  have : ∃ mt, Mat.csrMatFromArray Platform.demo vals (17 : Nat) (2 : Nat) = .ok mt := by
    have h : (match Mat.csrMatFromArray Platform.demo vals (17 : Nat) (2 : Nat) with | .ok _ => true | _ => false) = true := by
      decide +kernel
    split at h
    · rename_i mt hm; exact ⟨mt, hm⟩
    · cases h
  obtain ⟨mt, hm⟩ := this
  exact ⟨mt, hm, by decide +kernel, C20_dense_to_csr_partial Platform.demo lg lg_fits 2 17 2 2 rfl ⟨rfl, by decide⟩ (by decide) (by decide) (by decide) vals buf result
    0 1 3 mt hm seq_dense⟩

/-- a model on one feature; LightGBM writes `max_feature_idx=0` for it -/
def single : Ensemble := ⟨.lg { lgm with maxFeatureIdx := 0 }, .raw 2⟩

/-- C20 (and C58) is false for models on a single feature: they announce no features, so dense prediction works and sparse
prediction panics on the same matrix. -/
theorem C20_single_feature_fails : Fits single ∧ single.nFeatures = 0 ∧
    (∃ m', single.PredictDense Platform.demo [F64.ofNat 7] 1 1 [F64.nan, F64.nan] 0 1 (.ok ⟨⟩, m')) ∧
    Mat.csrMatFromArray Platform.demo [F64.ofNat 7] 1 1 = .ok ⟨[0, 1], [0], [F64.ofNat 7]⟩ ∧
    ∀ out, single.PredictCSR Platform.demo [0, 1] [0] [F64.ofNat 7] [F64.nan, F64.nan] 0 1 out → out.1 = .panic := by
  refine ⟨⟨2, 2, rfl, by decide, ⟨2, rfl, by decide, by decide⟩, rfl⟩, rfl,
    ⟨[F64.ofNat 202, F64.ofNat 2020], (dense_seq (n := 2) (by decide +kernel) (by decide +kernel)).2 (by decide +kernel)⟩,
    by decide +kernel, fun out h => ?_⟩
  rw [csr_seq (n := 2) (by decide +kernel) (by decide +kernel)] at h
  rw [h]
  decide +kernel

/-- C18, C19: the checks behind the parallel call pass with 2 estimators -/
example : lg.denseChecks (17 : Nat) (2 : Nat) 0 buf.length = .ok 2 ∧ lg.csrChecks (17 : Nat) 0 buf.length = .ok 2 := by decide +kernel

end BatchExample

end Leaves
