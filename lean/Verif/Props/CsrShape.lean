import Verif.Spec.CsrShape
import Verif.Props.Batch

/-!
# C93: matrices that `PredictCSR` accepts

Every matrix in compressed sparse row form is accepted. Of arrays that are not in this form the function rejects none: it panics for
some and takes others for a matrix.
-/

namespace Leaves
open Spec GoM

/-- the pointers of a CSR matrix lie between 0 and the number of entries -/
theorem Spec.IsCSR.pointer {indptr cols : List Int} {vals : List F64} {r ncols : Nat} (h : IsCSR indptr cols vals r ncols) :
    (∀ i ≤ r, ∃ a, indptr[i]? = some a ∧ 0 ≤ a) ∧ ∀ k i, i + k = r → ∀ a, indptr[i]? = some a → a ≤ cols.length := by
  constructor
  · intro i hi
    induction i with
    | zero => exact ⟨0, h.first, le_refl _⟩
    | succ i ih =>
      obtain ⟨a, ha, h0⟩ := ih (by omega)
      have hlt : i + 1 < indptr.length := by rw [h.pointers]; omega
      refine ⟨indptr[i + 1], List.getElem?_eq_getElem hlt, ?_⟩
      exact le_trans h0 (h.monotone i a _ ha (List.getElem?_eq_getElem hlt))
  · intro k
    induction k with
    | zero =>
      intro i hi a ha
      have : i = r := by omega
      subst this
      rw [h.last] at ha
      cases ha
      exact le_refl _
    | succ k ih =>
      intro i hi a ha
      have hlt : i + 1 < indptr.length := by rw [h.pointers]; omega
      exact le_trans (h.monotone i a _ ha (List.getElem?_eq_getElem hlt)) (ih (i + 1) (by omega) _ (List.getElem?_eq_getElem hlt))

/-- C93: every row of a CSR matrix can be written out, with any number of columns. -/
theorem C93_rows_exist (indptr cols : List Int) (vals : List F64) (r ncols nf : Nat) (h : IsCSR indptr cols vals r ncols) (d : F64)
    (i : Nat) (hi : i < r) : ∃ row, SparseRow indptr cols vals nf d i row := by
  obtain ⟨h1, h2⟩ := h.pointer
  obtain ⟨a, ha, ha0⟩ := h1 i (by omega)
  obtain ⟨b, hb, -⟩ := h1 (i + 1) (by omega)
  have hbl := h2 (r - (i + 1)) (i + 1) (by omega) b hb
  have hex : ∃ row, csrRowOf indptr cols vals (List.replicate nf d) i = .ok row := by
    unfold csrRowOf
    rw [Res.idx_eq_ok.2 ha, Res.ok_bind, Res.idx_eq_ok.2 hb, Res.ok_bind]
    refine fillRow_exists fun j g1 g2 => ?_
    have hj : j.toNat < cols.length := by omega
    have hjv : j.toNat < vals.length := by rw [h.values]; exact hj
    exact ⟨by omega, _, List.getElem?_eq_getElem hj, fun _ =>
      ⟨(h.range _ (List.getElem_mem hj)).1, _, List.getElem?_eq_getElem hjv⟩⟩
  obtain ⟨row, hr⟩ := hex
  exact ⟨row, csrRowOf_iff.1 hr⟩

/-- room for the outputs of all rows is room for storing them -/
theorem storedRows_exists (m : List F64) (w r : Nat) (outs : Nat → List F64) (hm : r * w ≤ m.length) (hl : ∀ i < r, (outs i).length = w) :
    ∃ m', StoredRows m w r outs m' := by
  refine ⟨(List.range m.length).map fun j => if j < r * w then (outs (j / w)).getD (j % w) F64.zero else m.getD j F64.zero, hm, by simp, hl,
    fun i hi k hk => ?_, fun j hj => ?_⟩
  · have h1 : i * w + k < r * w := by
      have := Nat.mul_le_mul_right w (Nat.succ_le_of_lt hi)
      rw [Nat.succ_mul] at this
      omega
    have h2 : (i * w + k) / w = i := by
      rw [Nat.mul_comm, Nat.mul_add_div (by omega), Nat.div_eq_of_lt hk, Nat.add_zero]
    have h3 : (i * w + k) % w = k := by
      rw [Nat.mul_comm, Nat.mul_add_mod, Nat.mod_eq_of_lt hk]
    have h4 : k < (outs i).length := by rw [hl i hi]; exact hk
    rw [List.getElem?_map, List.getElem?_range (by omega), Option.map_some, if_pos h1, h2, h3, List.getD_eq_getElem?_getD,
      List.getElem?_eq_getElem h4]
    rfl
  · by_cases hlt : j < m.length
    · rw [List.getElem?_map, List.getElem?_range hlt, Option.map_some, if_neg (by omega), List.getD_eq_getElem?_getD,
        List.getElem?_eq_getElem hlt]
      rfl
    · rw [List.getElem?_eq_none (by simpa using hlt), List.getElem?_eq_none (by omega)]

/-- C93: on a CSR matrix, if Predict accepts every row of the model's width, then PredictCSR returns without error, whatever the number
of threads and the schedule. -/
theorem C93_accepted (P : Platform) (e : Ensemble) (hf : Fits e) (w r ncols nf : Nat) (hw : e.nOutputGroups = w)
    (hnf : e.nFeatures = nf ∧ nf * 8 ≤ P.maxAlloc) (hrange : w * r < 2 ^ 63) (hr : r ≤ 2 ^ 53) (hr0 : 0 < r) (indptr cols : List Int) (vals : List F64)
    (hcsr : IsCSR indptr cols vals r ncols) (m : List F64) (hm : r * w ≤ m.length) (req : Int)
    (hp : ∀ row : List F64, row.length = nf → ∃ buf out, buf.length = w ∧ (e.predict P row req w).run buf = (.ok ⟨⟩, out)) :
    ∃ m', ∀ nt out, e.PredictCSR P indptr cols vals m req nt out ↔ out = (.ok ⟨⟩, m') := by
  have hwlt : w < 2 ^ 63 := lt_of_le_of_lt (Nat.le_mul_of_pos_right w (by omega)) hrange
  have hrow : ∀ i < r, ∃ row out, SparseRow indptr cols vals nf (dflt e.base) i row ∧
      ∃ buf, buf.length = w ∧ (e.predict P row req w).run buf = (.ok ⟨⟩, out) := by
    intro i hi
    obtain ⟨row, hrow⟩ := C93_rows_exist indptr cols vals r ncols nf hcsr (dflt e.base) i hi
    obtain ⟨buf, out, h1, h2⟩ := hp row (by obtain ⟨_, _, _, _, _, h5, _⟩ := hrow; exact h5)
    exact ⟨row, out, hrow, buf, h1, h2⟩
  have hch : ∃ outs : Nat → List F64, ∀ i < r, ∃ row buf, SparseRow indptr cols vals nf (dflt e.base) i row ∧ buf.length = w ∧
      (e.predict P row req w).run buf = (.ok ⟨⟩, outs i) := by
    refine ⟨fun i => if hi : i < r then (hrow i hi).choose_spec.choose else [], fun i hi => ?_⟩
    obtain ⟨h1, buf, h2, h3⟩ := (hrow i hi).choose_spec.choose_spec
    exact ⟨_, buf, h1, h2, by dsimp only; rw [dif_pos hi]; exact h3⟩
  obtain ⟨outs, houts⟩ := hch
  have hlen : ∀ i < r, (outs i).length = w := by
    intro i hi
    obtain ⟨row, buf, h1, h2, h3⟩ := houts i hi
    have := GoM.run_length (e.predict P row req w) buf
    rw [h3] at this
    rw [← h2]; exact this
  obtain ⟨m', hs⟩ := storedRows_exists m w r outs hm hlen
  have hp' := hcsr.pointers
  have h1 := C15_rowwise_is_csr P e hf w r nf hw hnf hrange hr hr0 indptr cols hp' vals m m' req 1 outs hs houts
  exact ⟨m', fun nt out => C17_csr_deterministic P e hf w r nf hw hnf hrange hr indptr cols hp' vals m m' req nt h1 out⟩

theorem noErr_forState {σ : Type} {body : Nat → σ → GoM σ} (h : ∀ k st, NoErr (body k st)) :
    ∀ (c s : Nat) (st : σ), NoErr (forState body s c st)
  | 0, _, _ => trivial
  | c + 1, s, st => NoErr.bind (h s st) fun st => noErr_forState h c (s + 1) st

/-- C93: a PredictCSR that returns an error changes nothing (for any model and any arrays). -/
theorem C93_error_changes_nothing (P : Platform) (e : Ensemble) (indptr cols : List Int) (vals m m' : List F64) (req nt : Int) (tag : String)
    (h : e.PredictCSR P indptr cols vals m req nt (.err tag, m')) : m' = m := by
  unfold Ensemble.PredictCSR at h
  dsimp only at h
  split at h
  · split at h
    · rename_i n _ _ _
      have hfill : ∀ (count : Nat) (j : Int) (fvals : List F64) (tag : String), Ensemble.fillRow cols vals j count fvals ≠ .err tag := by
        intro count
        induction count with
        | zero => intro j fvals tag h; cases h
        | succ count ih =>
          intro j fvals tag h
          rw [Ensemble.fillRow] at h
          cases hc : Res.idxI cols j with
          | err t => exact idxI_ne_err _ _ _ hc
          | panic => rw [hc] at h; cases h
          | hang => rw [hc] at h; cases h
          | ok c =>
            rw [hc, Res.ok_bind] at h
            split at h
            · cases hv : Res.idxI vals j with
              | err t => exact idxI_ne_err _ _ _ hv
              | panic => rw [hv] at h; cases h
              | hang => rw [hv] at h; cases h
              | ok v =>
                rw [hv, Res.ok_bind] at h
                split at h
                · cases h
                · exact ih _ _ _ h
            · exact ih _ _ _ h
      have hrow : ∀ i fvals, NoErr (e.csrRow P indptr cols vals n i fvals) := fun i fvals =>
        NoErr.bind (NoErr.ofRes (idx_ne_err _ _)) fun _ => NoErr.bind (NoErr.ofRes (idx_ne_err _ _)) fun _ =>
          NoErr.bind (NoErr.ofRes (hfill _ _ _)) fun _ => NoErr.bind (pit_noErr ..) fun _ => trivial
      have hn : NoErr (e.csrSequential P indptr cols vals n) := by
        refine NoErr.bind (NoErr.ofRes fun tag h => ?_) fun fvals => NoErr.bind (noErr_forState hrow _ _ _) fun _ => trivial
        unfold Ensemble.newFVals allocCheck at h
        split at h <;> cases h
      exact absurd (congrArg Prod.fst h.symm) (hn.run m tag)
    · cases h
  · exact (Prod.mk.inj h).2
  · cases (Prod.mk.inj h).1
  · cases (Prod.mk.inj h).1

/-- C93 (partial), what can be said of arrays that PredictCSR accepts: every entry that a row's pointers name has a column, the column is
not negative, and there is a value when the model uses the column. Missing: that the arrays are a CSR matrix; `C93_fails` shows that
they need not be. -/
theorem C93_entries_partial (P : Platform) (e : Ensemble) (hf : Fits e) (w r nf : Nat) (hw : e.nOutputGroups = w)
    (hnf : e.nFeatures = nf ∧ nf * 8 ≤ P.maxAlloc) (hrange : w * r < 2 ^ 63) (hr : r ≤ 2 ^ 53) (indptr cols : List Int) (hp : indptr.length = r + 1)
    (vals m m' : List F64) (req nt : Int) (h : e.PredictCSR P indptr cols vals m req nt (.ok ⟨⟩, m')) (i : Nat) (a b : Int)
    (ha : indptr[i]? = some a) (hb : indptr[i + 1]? = some b) (j : Int) (h1 : a ≤ j) (h2 : j < b) :
    0 ≤ j ∧ ∃ c, cols[j.toNat]? = some c ∧ 0 ≤ c ∧ (c < nf → ∃ v, vals[j.toNat]? = some v) := by
  have hi : i < r := by
    have := (List.getElem?_eq_some_iff.1 hb).1
    omega
  obtain ⟨outs, -, h3⟩ := C15_csr_is_rowwise P e hf w r nf hw hnf hrange hr indptr cols hp vals m m' req nt h
  obtain ⟨row, ⟨a', b', ha', hb', h4, -⟩, -⟩ := h3 i hi
  rw [ha] at ha'
  rw [hb] at hb'
  cases ha'
  cases hb'
  obtain ⟨h5, c, h6, h7⟩ := h4 j h1 h2
  refine ⟨h5, c, h6, ?_, fun hc => (h7 hc).2⟩
  by_cases hc : c < nf
  · exact (h7 hc).1
  · omega

/-! ### examples -/

namespace CsrShapeExample
open PredictExample

/-- two rows, `{0: 7, 1: 3}` and `{1: 4}` -/
def ptr : List Int := [0, 2, 3]
def col : List Int := [0, 1, 1]
def val : List F64 := [F64.ofNat 7, F64.ofNat 3, F64.ofNat 4]
def room : List F64 := List.replicate 4 F64.nan

/-- the result for a row beyond the threshold followed by a row below it -/
def res : List F64 := [F64.ofNat 202, F64.ofNat 2020, F64.ofNat 101, F64.ofNat 1010]

theorem is : IsCSR ptr col val 2 2 where
  pointers := rfl
  first := rfl
  monotone := by
    intro i a b h1 h2
    rcases i with _ | _ | _ | i
    · cases h1; cases h2; decide
    · cases h1; cases h2; decide
    · cases h2
    · cases h1
  last := rfl
  values := rfl
  range := by decide

/-- C93: the example is accepted -/
example : lg.PredictCSR Platform.demo ptr col val room 0 1 (.ok ⟨⟩, res) :=
  (csr_seq (n := 2) (by decide +kernel) (by decide +kernel)).2 (by decide +kernel)

/-- a call that is rejected -/
example : lg.PredictCSR Platform.demo ptr col val [F64.nan] 0 1 (.err "predictions slice too short", [F64.nan]) := by
  unfold Ensemble.PredictCSR
  exact rfl

open PredictExample in
/-- C93 is false: PredictCSR has no check of its arrays. It accepts, without an error,
* no row pointers at all,
* row pointers that do not begin with 0, and entries that belong to no row,
* decreasing row pointers: the row is taken to be empty,
* fewer values than columns, when the model does not use the columns whose values are missing;
and it panics, instead of returning an error, on
* a last row pointer beyond the entries,
* a negative row pointer,
* a negative column. -/
theorem C93_fails : Fits lg ∧
    (∀ ncols, ¬ IsCSR [] [0] [F64.ofNat 7] 0 ncols) ∧
      lg.PredictCSR Platform.demo [] [0] [F64.ofNat 7] room 0 1 (.ok ⟨⟩, room) ∧
    (∀ ncols, ¬ IsCSR [1, 2, 2] col val 2 ncols) ∧
      lg.PredictCSR Platform.demo [1, 2, 2] col val room 0 1
        (.ok ⟨⟩, [F64.ofNat 101, F64.ofNat 1010, F64.ofNat 101, F64.ofNat 1010]) ∧
    (∀ ncols, ¬ IsCSR [0, 3, 1] col val 2 ncols) ∧ lg.PredictCSR Platform.demo [0, 3, 1] col val room 0 1 (.ok ⟨⟩, res) ∧
    (∀ ncols, ¬ IsCSR ptr [0, 5, 6] [F64.ofNat 7] 2 ncols) ∧
      lg.PredictCSR Platform.demo ptr [0, 5, 6] [F64.ofNat 7] room 0 1 (.ok ⟨⟩, res) ∧
    (∀ out, lg.PredictCSR Platform.demo [0, 2, 4] col val room 0 1 out → out.1 = .panic) ∧
    (∀ out, lg.PredictCSR Platform.demo [-1, 2, 3] col val room 0 1 out → out.1 = .panic) ∧
    (∀ out, lg.PredictCSR Platform.demo ptr [0, -1, 1] val room 0 1 out → out.1 = .panic) := by
  refine ⟨lg_fits, (fun _ h => nomatch h.first), ?_, (fun _ h => nomatch h.first), ?_,
    (fun _ h => absurd (h.monotone 1 3 1 rfl rfl) (by decide)), ?_, (fun _ h => nomatch h.values), ?_, ?_, ?_, ?_⟩
  · exact (csr_seq (n := 2) (by decide +kernel) (by decide +kernel)).2 (by decide +kernel)
  · exact (csr_seq (n := 2) (by decide +kernel) (by decide +kernel)).2 (by decide +kernel)
  · exact (csr_seq (n := 2) (by decide +kernel) (by decide +kernel)).2 (by decide +kernel)
  · exact (csr_seq (n := 2) (by decide +kernel) (by decide +kernel)).2 (by decide +kernel)
  all_goals
    intro out h
    rw [csr_seq (n := 2) (by decide +kernel) (by decide +kernel)] at h
    rw [h]
    decide +kernel

end CsrShapeExample

end Leaves
