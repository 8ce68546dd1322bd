import Verif.Props.Batch
import Verif.Props.Mat
import Verif.Spec.SparseRows

/-!
# C75, C76: sparse matrices as lists of entries; from matrix files to predictions
-/

namespace Leaves

open Spec Mat

theorem flatten_get {α : Type} : ∀ (rows : List (List α)) (i : Nat) (es : List α) (p : Nat), rows[i]? = some es → p < es.length →
    rows.flatten[((rows.take i).map List.length).sum + p]? = es[p]?
  | [], i, es, p, h, _ => by cases h
  | r :: rows, 0, es, p, h, hp => by
    cases h
    simp only [List.take_zero, List.map_nil, List.sum_nil, Nat.zero_add, List.flatten_cons]
    exact List.getElem?_append_left hp
  | r :: rows, i + 1, es, p, h, hp => by
    simp only [List.take_succ_cons, List.map_cons, List.sum_cons, List.flatten_cons]
    rw [List.getElem?_append_right (by omega), show r.length + ((rows.take i).map List.length).sum + p - r.length =
      ((rows.take i).map List.length).sum + p by omega]
    exact flatten_get rows i es p h hp

theorem sum_take_succ {α : Type} : ∀ (rows : List (List α)) (i : Nat) (es : List α), rows[i]? = some es →
    ((rows.take (i + 1)).map List.length).sum = ((rows.take i).map List.length).sum + es.length
  | [], i, es, h => by cases h
  | r :: rows, 0, es, h => by cases h; simp
  | r :: rows, i + 1, es, h => by
    have := sum_take_succ rows i es h
    simp only [List.take_succ_cons, List.map_cons, List.sum_cons] at this ⊢
    omega

theorem lastOf_none {k : Nat} : ∀ {es : List (Nat × F64)}, lastOf k es = none ↔ ∀ e ∈ es, e.1 ≠ k
  | [] => by simp [lastOf]
  | (c, v) :: es => by
    have ih := lastOf_none (k := k) (es := es)
    simp only [lastOf, Option.or_eq_none_iff, ih, List.forall_mem_cons]
    constructor
    · rintro ⟨h1, h2⟩
      refine ⟨fun hc => ?_, h1⟩
      rw [if_pos hc] at h2
      cases h2
    · rintro ⟨h1, h2⟩
      exact ⟨h2, if_neg h1⟩

theorem lastOf_some {k : Nat} {v : F64} : ∀ {es : List (Nat × F64)}, lastOf k es = some v →
    ∃ p : Nat, es[p]? = some (k, v) ∧ ∀ p' : Nat, p < p' → ∀ e : Nat × F64, es[p']? = some e → e.1 ≠ k
  | [], h => by cases h
  | (c, w) :: es, h => by
    unfold lastOf at h
    cases hl : lastOf k es with
    | some u =>
      rw [hl, Option.some_or] at h
      cases h
      obtain ⟨p, h1, h2⟩ := lastOf_some hl
      refine ⟨p + 1, h1, fun p' hp' e he => ?_⟩
      obtain ⟨q, rfl⟩ : ∃ q, p' = q + 1 := ⟨p' - 1, by omega⟩
      exact h2 q (by omega) e he
    | none =>
      rw [hl, Option.none_or] at h
      split at h
      · rename_i hc
        cases h
        subst hc
        refine ⟨0, rfl, fun p' hp' e he => ?_⟩
        obtain ⟨q, rfl⟩ : ∃ q, p' = q + 1 := ⟨p' - 1, by omega⟩
        exact lastOf_none.1 hl e (List.mem_of_getElem? he)
      · cases h

/-- row `i` of the compressed matrix is the row that its entries describe -/
theorem sparse_of_csr {rows : SRows} {m : CSRMat} (h : CsrOf rows m) {i : Nat} {es : List (Nat × F64)} (hi : rows[i]? = some es) (nf : Nat)
    (d : F64) (row : List F64) : SparseRow m.rowHeaders m.colIndexes m.values nf d i row ↔ row = written nf d es := by
  have hlt : i < rows.length := (List.getElem?_eq_some_iff.1 hi).1
  have key : SparseRow m.rowHeaders m.colIndexes m.values nf d i (written nf d es) := by
    have h2 := h.pointers (i + 1) (by omega)
    rw [sum_take_succ rows i es hi] at h2
    refine ⟨_, _, h.pointers i (by omega), h2, ?_, by simp [written], ?_⟩
    · intro j h3 h4
      obtain ⟨p, hp, rfl⟩ : ∃ p : Nat, p < es.length ∧ j = ((((rows.take i).map List.length).sum + p : Nat) : Int) :=
        ⟨(j - (((rows.take i).map List.length).sum : Nat)).toNat, by omega, by omega⟩
      have hg := flatten_get rows i es p hi hp
      rw [List.getElem?_eq_getElem hp] at hg
      refine ⟨by omega, (es[p].1 : Int), ?_, fun _ => ⟨by omega, es[p].2, ?_⟩⟩
      · rw [Int.toNat_natCast, h.columns, List.getElem?_map, hg]
        rfl
      · rw [Int.toNat_natCast, h.values, List.getElem?_map, hg]
        rfl
    · intro k hk
      have hcol : ∀ p, p < es.length → m.colIndexes[((rows.take i).map List.length).sum + p]? = es[p]?.map fun e => (e.1 : Int) := by
        intro p hp
        rw [h.columns, List.getElem?_map, flatten_get rows i es p hi hp]
      cases hl : lastOf k es with
      | some v =>
        obtain ⟨p, h3, h4⟩ := lastOf_some hl
        have hp : p < es.length := (List.getElem?_eq_some_iff.1 h3).1
        refine .inl ⟨((rows.take i).map List.length).sum + p, by omega, by omega, ?_, ?_, ?_⟩
        · rw [hcol p hp, h3]
          rfl
        · rw [h.values, List.getElem?_map, flatten_get rows i es p hi hp, h3, written, List.getElem?_map, List.getElem?_range hk, Option.map_some,
            hl]
          rfl
        · intro j' h5 h6 hc
          obtain ⟨q, rfl⟩ : ∃ q, j' = ((rows.take i).map List.length).sum + q := ⟨j' - ((rows.take i).map List.length).sum, by omega⟩
          have hq : q < es.length := by omega
          rw [hcol q hq, List.getElem?_eq_getElem hq] at hc
          exact h4 q (by omega) _ (List.getElem?_eq_getElem hq) (by simpa using hc)
      | none =>
        refine .inr ⟨fun j h5 h6 hc => ?_, ?_⟩
        · obtain ⟨q, rfl⟩ : ∃ q, j = ((rows.take i).map List.length).sum + q := ⟨j - ((rows.take i).map List.length).sum, by omega⟩
          have hq : q < es.length := by omega
          rw [hcol q hq, List.getElem?_eq_getElem hq] at hc
          exact lastOf_none.1 hl _ (List.getElem_mem hq) (by simpa using hc)
        · rw [written, List.getElem?_map, List.getElem?_range hk, Option.map_some, hl]
          rfl
  constructor
  · intro hs
    exact C15_row_unique _ _ _ _ _ _ _ _ hs key
  · rintro rfl
    exact key

/-! ### C75 -/

/-- C75: PredictCSR on the compressed form of rows of entries stores, row by row, what Predict returns for the rows the entries
describe, and nothing else. -/
theorem C75_csr_rows (P : Platform) (e : Ensemble) (hf : Fits e) (w nf : Nat) (hw : e.nOutputGroups = w) (hnf : e.nFeatures = nf ∧ nf * 8 ≤ P.maxAlloc) (rows : SRows)
    (hrange : w * rows.length < 2 ^ 63) (hr : rows.length ≤ 2 ^ 53) (hr0 : 0 < rows.length) (M : CSRMat) (hM : CsrOf rows M)
    (m m' : List F64) (req nt : Int) :
    e.PredictCSR P M.rowHeaders M.colIndexes M.values m req nt (.ok ⟨⟩, m') ↔
      ∃ outs, StoredRows m w rows.length outs m' ∧ ∀ (i : Nat) (es : List (Nat × F64)), rows[i]? = some es →
        ∀ buf : List F64, buf.length = w → (e.predict P (written nf (dflt e.base) es) req w).run buf = (.ok ⟨⟩, outs i) := by
  constructor
  · intro h
    obtain ⟨outs, h1, h2⟩ := C15_csr_is_rowwise P e hf w rows.length nf hw hnf hrange hr M.rowHeaders M.colIndexes hM.count M.values m m' req nt h
    refine ⟨outs, h1, fun i es hi buf hb => ?_⟩
    obtain ⟨row, h3, h4⟩ := h2 i (List.getElem?_eq_some_iff.1 hi).1
    rw [sparse_of_csr hM hi] at h3
    rw [← h3]
    exact h4 buf hb
  · rintro ⟨outs, h1, h2⟩
    refine C15_rowwise_is_csr P e hf w rows.length nf hw hnf hrange hr hr0 M.rowHeaders M.colIndexes hM.count M.values m m' req nt outs h1
      fun i hi => ⟨_, List.replicate w F64.zero, (sparse_of_csr hM (List.getElem?_eq_getElem hi) _ _ _).2 rfl, by simp,
        h2 i _ (List.getElem?_eq_getElem hi) _ (by simp)⟩

/-- C75: matrices whose rows describe the same values give the same predictions, with any numbers of threads. -/
theorem C75_same_values (P : Platform) (e : Ensemble) (hf : Fits e) (w nf : Nat) (hw : e.nOutputGroups = w) (hnf : e.nFeatures = nf ∧ nf * 8 ≤ P.maxAlloc)
    (rows rows' : SRows) (hrange : w * rows.length < 2 ^ 63) (hr : rows.length ≤ 2 ^ 53) (hr0 : 0 < rows.length)
    (hs : rows.map (written nf (dflt e.base)) = rows'.map (written nf (dflt e.base))) (M M' : CSRMat) (hM : CsrOf rows M) (hM' : CsrOf rows' M')
    (m m' : List F64) (req nt nt' : Int) :
    e.PredictCSR P M.rowHeaders M.colIndexes M.values m req nt (.ok ⟨⟩, m') ↔
      e.PredictCSR P M'.rowHeaders M'.colIndexes M'.values m req nt' (.ok ⟨⟩, m') := by
  have hl : rows.length = rows'.length := by simpa using congrArg List.length hs
  rw [C75_csr_rows P e hf w nf hw hnf rows hrange hr hr0 M hM, C75_csr_rows P e hf w nf hw hnf rows' (hl ▸ hrange) (hl ▸ hr) (hl ▸ hr0) M' hM', ← hl]
  have hrow : ∀ (i : Nat) (es es' : List (Nat × F64)), rows[i]? = some es → rows'[i]? = some es' → written nf (dflt e.base) es = written nf (dflt e.base) es' := by
    intro i es es' h1 h2
    have := congrArg (·[i]?) hs
    simpa [h1, h2] using this
  refine exists_congr fun outs => and_congr_right fun _ => ⟨fun h i es' hi => ?_, fun h i es hi => ?_⟩
  · have hlt : i < rows.length := by rw [hl]; exact (List.getElem?_eq_some_iff.1 hi).1
    rw [← hrow i _ es' (List.getElem?_eq_getElem hlt) hi]
    exact h i _ (List.getElem?_eq_getElem hlt)
  · have hlt : i < rows'.length := by rw [← hl]; exact (List.getElem?_eq_some_iff.1 hi).1
    rw [hrow i es _ hi (List.getElem?_eq_getElem hlt)]
    exact h i _ (List.getElem?_eq_getElem hlt)

theorem lastOf_of_mem {k : Nat} {v : F64} {es : List (Nat × F64)} (hn : (es.map Prod.fst).Nodup) : lastOf k es = some v ↔ (k, v) ∈ es := by
  induction es with
  | nil => simp [lastOf]
  | cons e es ih =>
    obtain ⟨c, u⟩ := e
    rw [List.map_cons, List.nodup_cons] at hn
    have ih := ih hn.2
    unfold lastOf
    cases hl : lastOf k es with
    | some x =>
      rw [hl] at ih
      have hm : (k, x) ∈ es := by
        obtain ⟨p, h1, -⟩ := lastOf_some hl
        exact List.mem_of_getElem? h1
      have hc : c ≠ k := fun hc => hn.1 (List.mem_map.2 ⟨_, hm, hc.symm⟩)
      rw [Option.some_or, ih, List.mem_cons]
      constructor
      · exact .inr
      · rintro (h | h)
        · exact absurd (congrArg Prod.fst h).symm hc
        · exact h
    | none =>
      rw [Option.none_or, List.mem_cons]
      have : (k, v) ∉ es := fun h => lastOf_none.1 hl _ h rfl
      constructor
      · intro h
        split at h
        · rename_i hc
          cases h
          subst hc
          exact .inl rfl
        · cases h
      · rintro (h | h)
        · cases h
          rw [if_pos rfl]
        · exact absurd h this

/-- C75: the order of a row's entries does not matter when their columns are different. -/
theorem C75_order (nf : Nat) (d : F64) (es es' : List (Nat × F64)) (hn : (es.map Prod.fst).Nodup) (hp : es.Perm es') :
    written nf d es = written nf d es' := by
  have hn' : (es'.map Prod.fst).Nodup := (hp.map Prod.fst).nodup_iff.1 hn
  refine List.map_congr_left fun k _ => congrArg (Option.getD · d) ?_
  refine Option.ext fun v => ?_
  rw [lastOf_of_mem hn, lastOf_of_mem hn', hp.mem_iff]

/-- C75: entries with the default value may be left out, when no other entry has their column. -/
theorem C75_default (nf : Nat) (d : F64) (es es' : List (Nat × F64)) (c : Nat) (h : ∀ x ∈ es ++ es', x.1 ≠ c) :
    written nf d (es ++ (c, d) :: es') = written nf d (es ++ es') := by
  refine List.map_congr_left fun k _ => ?_
  have app : ∀ a b : List (Nat × F64), lastOf k (a ++ b) = (lastOf k b).or (lastOf k a) := by
    intro a b
    induction a with
    | nil => simp [lastOf]
    | cons x a ih => simp only [List.cons_append, lastOf, ih, Option.or_assoc]
  rw [app, app, lastOf]
  by_cases hk : c = k
  · subst hk
    have h1 : lastOf c es = none := lastOf_none.2 fun x hx => h x (List.mem_append_left _ hx)
    have h2 : lastOf c es' = none := lastOf_none.2 fun x hx => h x (List.mem_append_right _ hx)
    simp [h1, h2]
  · rw [if_neg hk, Option.or_none]

/-- C75: entries for columns beyond the model's features may be left out. -/
theorem C75_beyond (nf : Nat) (d : F64) (es : List (Nat × F64)) : written nf d es = written nf d (es.filter fun e => e.1 < nf) := by
  refine List.map_congr_left fun k hk => congrArg (Option.getD · d) ?_
  have hk := List.mem_range.1 hk
  induction es with
  | nil => rfl
  | cons e es ih =>
    rw [List.filter_cons]
    split
    · simp only [lastOf, ih]
    · rename_i he
      have : e.1 ≠ k := fun hc => he (by simpa [hc] using hk)
      simp only [lastOf, if_neg this, Option.or_none, ih]

/-! ### C76 -/

theorem firstRows_length_pos {α : Type} {limit : Int} {rows : List α} (h : rows ≠ []) : 0 < (firstRows limit rows).length :=
  List.length_pos_of_ne_nil (firstRows_ne_nil h)

theorem firstRows_length_le {α : Type} {limit : Int} {rows : List α} : (firstRows limit rows).length ≤ rows.length := by
  unfold firstRows
  split
  · exact Nat.le_refl _
  · rw [List.length_take]; omega

/-- C76 (partial: well-formed files without empty rows): reading a labelled libsvm file and predicting from the matrix gives, row by row, what Predict returns for the file's rows
(columns that a row does not list have the model's default value). -/
theorem C76_libsvm_partial (P : Platform) (print : F64 → Str) (rows : List (Str × List (Nat × F64))) (limit : Int) (t rest : Str) (eof : Bool)
    (hl : ∀ x ∈ rows, ' ' ∉ x.1) (hne : ∀ x ∈ rows, x.2 ≠ []) (hv : ∀ x ∈ rows, ∀ e ∈ x.2, e.1 < 2 ^ 32 ∧ PrintsBack P print ":".toList e.2)
    (hb : Block t (rows.map fun x => svmLine print x.1 x.2) rest eof) (hrows : rows ≠ [])
    (e : Ensemble) (hf : Fits e) (w nf : Nat) (hw : e.nOutputGroups = w) (hnf : e.nFeatures = nf ∧ nf * 8 ≤ P.maxAlloc) (hrange : w * rows.length < 2 ^ 63)
    (hr : rows.length ≤ 2 ^ 53) :
    ∃ M, csrMatFromLibsvm P ⟨t, false⟩ limit true = .ok M ∧ ∀ (m m' : List F64) (req nt : Int),
      e.PredictCSR P M.rowHeaders M.colIndexes M.values m req nt (.ok ⟨⟩, m') ↔
        ∃ outs, StoredRows m w (firstRows limit rows).length outs m' ∧ ∀ (i : Nat) (x : Str × List (Nat × F64)), (firstRows limit rows)[i]? = some x →
          ∀ buf : List F64, buf.length = w → (e.predict P (written nf (dflt e.base) x.2) req w).run buf = (.ok ⟨⟩, outs i) := by
  obtain ⟨M, h1, h2⟩ := C48_csr_partial P print rows limit t rest eof hl hne hv hb
  refine ⟨M, h1, fun m m' req nt => ?_⟩
  rw [firstRows_map] at h2
  have hle := firstRows_length_le (limit := limit) (rows := rows)
  have hlen : ((firstRows limit rows).map Prod.snd).length = (firstRows limit rows).length := List.length_map _
  have hpos := firstRows_length_pos (limit := limit) hrows
  rw [C75_csr_rows P e hf w nf hw hnf _ (by rw [hlen]; exact lt_of_le_of_lt (Nat.mul_le_mul_left _ hle) hrange) (by omega) (by omega) M h2, hlen]
  refine exists_congr fun outs => and_congr_right fun _ => ⟨fun h i x hi => ?_, fun h i es hi => ?_⟩
  · exact h i x.2 (by rw [List.getElem?_map, hi]; rfl)
  · rw [List.getElem?_map] at hi
    cases hx : (firstRows limit rows)[i]? with
    | none => rw [hx] at hi; cases hi
    | some x =>
      rw [hx] at hi
      cases hi
      exact h i x hx

/-- predictions from a full matrix given by its rows -/
theorem dense_rows (P : Platform) (e : Ensemble) (hf : Fits e) (w : Nat) (hw : e.nOutputGroups = w) (rows : List (List F64)) (c : Nat)
    (hc : 0 < c) (hl : ∀ row ∈ rows, row.length = c) (hrange : w * rows.length < 2 ^ 63) (hr : rows.length ≤ 2 ^ 53) (hr0 : 0 < rows.length)
    (M : DenseMat) (hM : DenseOf rows c M) (m m' : List F64) (req nt : Int) :
    e.PredictDense P M.values M.rows M.cols m req nt (.ok ⟨⟩, m') ↔
      ∃ outs, StoredRows m w rows.length outs m' ∧ ∀ (i : Nat) (row : List F64), rows[i]? = some row →
        ∀ buf : List F64, buf.length = w → (e.predict P row req w).run buf = (.ok ⟨⟩, outs i) := by
  rw [hM.rows, hM.cols, hM.values]
  constructor
  · intro h
    obtain ⟨outs, h1, h2⟩ := C14_dense_is_rowwise P e hf w rows.length c hw hrange hr _ m m' req nt h
    refine ⟨outs, h1, fun i row hi buf hb => ?_⟩
    obtain ⟨row', h3, h4⟩ := h2 i (List.getElem?_eq_some_iff.1 hi).1
    have h5 := flatten_row rows hl i row hi
    have : row = row' := by
      refine List.ext_getElem? fun j => ?_
      by_cases hj : j < c
      · obtain ⟨x, g1, g2⟩ := h3.2 j hj
        obtain ⟨y, g3, g4⟩ := h5.2 j hj
        rw [g2, g4, ← g1, ← g3]
      · rw [List.getElem?_eq_none (by rw [h5.1]; omega), List.getElem?_eq_none (by rw [h3.1]; omega)]
    rw [this]
    exact h4 buf hb
  · rintro ⟨outs, h1, h2⟩
    refine C14_rowwise_is_dense P e hf w rows.length c hw hrange hr hr0 hc _ m m' req nt outs h1 fun i hi =>
      ⟨rows[i], List.replicate w F64.zero, flatten_row rows hl i _ (List.getElem?_eq_getElem hi), by simp,
        h2 i _ (List.getElem?_eq_getElem hi) _ (by simp)⟩

/-- C76 (partial: well-formed files without empty rows): reading a file of delimited fields and predicting from the matrix gives, row by row, what Predict returns for the file's rows
with absent values replaced by the given default. -/
theorem C76_csv_partial (P : Platform) (print : F64 → Str) (delim : Str) (d : F64) (skip : Bool) (rows : List (List Str × List (Option F64)))
    (c : Nat) (limit : Int) (t rest : Str) (eof : Bool) (hd : delim ≠ []) (hc : 1 ≤ c) (hrows : rows ≠ [])
    (hlead : ∀ x ∈ rows, x.1.length = if skip then 1 else 0) (hl : ∀ x ∈ rows, ∀ s ∈ x.1, ∀ ch ∈ s, ch ∉ delim)
    (hrow : ∀ x ∈ rows, x.2.length = c) (hv : ∀ x ∈ rows, ∀ v, some v ∈ x.2 → PrintsBack P print delim v)
    (hb : Block t (rows.map fun x => Spec.csvLine print delim x.1 x.2) rest eof)
    (e : Ensemble) (hf : Fits e) (w : Nat) (hw : e.nOutputGroups = w) (hrange : w * rows.length < 2 ^ 63) (hr : rows.length ≤ 2 ^ 53) :
    ∃ M, denseMatFromCsv P ⟨t, false⟩ limit skip delim d = .ok M ∧ ∀ (m m' : List F64) (req nt : Int),
      e.PredictDense P M.values M.rows M.cols m req nt (.ok ⟨⟩, m') ↔
        ∃ outs, StoredRows m w (firstRows limit rows).length outs m' ∧ ∀ (i : Nat) (x : List Str × List (Option F64)),
          (firstRows limit rows)[i]? = some x →
          ∀ buf : List F64, buf.length = w → (e.predict P (filled d x.2) req w).run buf = (.ok ⟨⟩, outs i) := by
  obtain ⟨M, h1, h2⟩ := C50_csv_partial P print delim d skip rows c limit t rest eof hd hc hrows hlead hl hrow hv hb
  refine ⟨M, h1, fun m m' req nt => ?_⟩
  rw [firstRows_map] at h2
  have hle := firstRows_length_le (limit := limit) (rows := rows)
  have hlen : ((firstRows limit rows).map fun x => filled d x.2).length = (firstRows limit rows).length := List.length_map _
  have hpos := firstRows_length_pos (limit := limit) hrows
  rw [dense_rows P e hf w hw _ c hc (fun row hm => by
      obtain ⟨x, hx, rfl⟩ := List.mem_map.1 hm
      unfold filled
      rw [List.length_map]
      exact hrow x (mem_firstRows hx)) (by rw [hlen]; exact lt_of_le_of_lt (Nat.mul_le_mul_left _ hle) hrange) (by omega) (by omega) M h2, hlen]
  refine exists_congr fun outs => and_congr_right fun _ => ⟨fun h i x hi => ?_, fun h i es hi => ?_⟩
  · exact h i (filled d x.2) (by rw [List.getElem?_map, hi]; rfl)
  · rw [List.getElem?_map] at hi
    cases hx : (firstRows limit rows)[i]? with
    | none => rw [hx] at hi; cases hi
    | some x =>
      rw [hx] at hi
      cases hi
      exact h i x hx

/-- C76 (partial: well-formed files) for full matrices in libsvm format. -/
theorem C76_libsvm_dense_partial (P : Platform) (print : F64 → Str) (rows : List (Str × List F64)) (c : Nat) (limit : Int) (t rest : Str) (eof : Bool)
    (hl : ∀ x ∈ rows, ' ' ∉ x.1) (hc : 1 ≤ c) (hc' : c ≤ 2 ^ 32) (hrow : ∀ x ∈ rows, x.2.length = c) (hrows : rows ≠ [])
    (hv : ∀ x ∈ rows, ∀ v ∈ x.2, PrintsBack P print ":".toList v)
    (hb : Block t (rows.map fun x => svmLine print x.1 (indexed x.2)) rest eof)
    (e : Ensemble) (hf : Fits e) (w : Nat) (hw : e.nOutputGroups = w) (hrange : w * rows.length < 2 ^ 63) (hr : rows.length ≤ 2 ^ 53) :
    ∃ M, denseMatFromLibsvm P ⟨t, false⟩ limit true = .ok M ∧ ∀ (m m' : List F64) (req nt : Int),
      e.PredictDense P M.values M.rows M.cols m req nt (.ok ⟨⟩, m') ↔
        ∃ outs, StoredRows m w (firstRows limit rows).length outs m' ∧ ∀ (i : Nat) (x : Str × List F64), (firstRows limit rows)[i]? = some x →
          ∀ buf : List F64, buf.length = w → (e.predict P x.2 req w).run buf = (.ok ⟨⟩, outs i) := by
  obtain ⟨M, h1, h2⟩ := C48_dense P print rows c limit t rest eof hl hc hc' hrow hrows hv hb
  refine ⟨M, h1, fun m m' req nt => ?_⟩
  rw [firstRows_map] at h2
  have hle := firstRows_length_le (limit := limit) (rows := rows)
  have hlen : ((firstRows limit rows).map Prod.snd).length = (firstRows limit rows).length := List.length_map _
  have hpos := firstRows_length_pos (limit := limit) hrows
  rw [dense_rows P e hf w hw _ c hc (fun row hm => by
      obtain ⟨x, hx, rfl⟩ := List.mem_map.1 hm
      exact hrow x (mem_firstRows hx)) (by rw [hlen]; exact lt_of_le_of_lt (Nat.mul_le_mul_left _ hle) hrange) (by omega) (by omega) M h2, hlen]
  refine exists_congr fun outs => and_congr_right fun _ => ⟨fun h i x hi => ?_, fun h i es hi => ?_⟩
  · exact h i x.2 (by rw [List.getElem?_map, hi]; rfl)
  · rw [List.getElem?_map] at hi
    cases hx : (firstRows limit rows)[i]? with
    | none => rw [hx] at hi; cases hi
    | some x =>
      rw [hx] at hi
      cases hi
      exact h i x hx

namespace SparseRowsExample

open PredictExample (lg lg_fits)

/-- two rows: 7 in column 0; 3 in column 1 and then 2 in column 0 -/
def rows : SRows := [[(0, F64.ofNat 7)], [(1, F64.ofNat 3), (0, F64.ofNat 2)]]

/-- their compressed form -/
def csr : CSRMat := ⟨[0, 1, 3], [0, 1, 0], [F64.ofNat 7, F64.ofNat 3, F64.ofNat 2]⟩

theorem csr_of : CsrOf rows csr := ⟨rfl, rfl, rfl, by decide⟩

/-- the same with the entries of the second row in order, an explicit zero and an entry for column 5, which the model does not have -/
def rows' : SRows := [[(0, F64.ofNat 7), (1, F64.zero), (5, F64.one)], [(0, F64.ofNat 2), (1, F64.ofNat 3)]]

/-- its compressed form -/
def csr' : CSRMat := ⟨[0, 3, 5], [0, 1, 5, 0, 1], [F64.ofNat 7, F64.zero, F64.one, F64.ofNat 2, F64.ofNat 3]⟩

theorem csr_of' : CsrOf rows' csr' := ⟨rfl, rfl, rfl, by decide⟩

theorem same : rows.map (written 2 (dflt lg.base)) = rows'.map (written 2 (dflt lg.base)) := by decide +kernel

/-- C75 applies: both forms give the values of the leaves of rows (7, 0) and (2, 3). -/
example (nt : Int) : lg.PredictCSR Platform.demo csr'.rowHeaders csr'.colIndexes csr'.values (List.replicate 4 F64.nan) 0 nt
    (.ok ⟨⟩, [F64.ofNat 202, F64.ofNat 2020, F64.ofNat 101, F64.ofNat 1010]) := by
  rw [← C75_same_values Platform.demo lg lg_fits 2 2 (by decide) (by decide) rows rows' (by decide) (by decide) (by decide) same csr csr' csr_of csr_of'
    _ _ 0 nt nt]
  refine C15_rowwise_is_csr Platform.demo lg lg_fits 2 2 2 (by decide) (by decide) (by decide) (by decide) (by decide) _ _ rfl _ _ _ 0 nt
    (fun i => if i = 0 then [F64.ofNat 202, F64.ofNat 2020] else [F64.ofNat 101, F64.ofNat 1010]) ?_ fun i hi => ?_
  · exact ⟨by decide, by decide, by decide, by decide +kernel, fun j hj => by simp [hj]⟩
  · refine ⟨_, [F64.zero, F64.zero], (sparse_of_csr csr_of (List.getElem?_eq_getElem (h := hi)) 2 _ _).2 rfl, rfl, ?_⟩
    revert i
    decide +kernel

end SparseRowsExample

end Leaves
