import Verif.Proofs.MatText
import Verif.Proofs.XgBin
import Verif.Props.Batch

/-!
# C46–C50: matrices

`PrintsBack` (a number is written without white space and read back) is the only assumption on number formatting; it is
about the Go standard library.
-/

namespace Leaves

open Spec Mat

/-! ### C46 -/

/-- C46 for non-negative dimensions whose product fits an int. What is missing: negative dimensions
(`MatExample.C46_negative_dimensions` shows that the claim is false for them). -/
theorem C46_csr_from_array_partial (P : Platform) (vals : List F64) (r c : Nat) (hb : r * c < 2 ^ 63)
    (ha : vals.length * 8 ≤ P.maxAlloc ∧ (r + 1) * 8 ≤ P.maxAlloc) :
    (vals.length = r * c → ∃ m, csrMatFromArray P vals r c = .ok m ∧ m.rows = r ∧ CsrValid m ∧ m.values = vals ∧
      ∀ i < r, ∀ row d, SparseRow m.rowHeaders m.colIndexes m.values c d i row ↔ DenseRow vals c i row) ∧
    (vals.length ≠ r * c → ∃ e, csrMatFromArray P vals r c = .err e) := by
  have hw : wrap64 ((c : Int) * r) = ((r * c : Nat) : Int) := by
    rw [show (c : Int) * r = ((r * c : Nat) : Int) by push_cast; ring]
    exact wrap64_id (by omega) (by omega)
  constructor
  · intro hl
    have hok : ∃ m, csrMatFromArray P vals r c = .ok m := by
      unfold csrMatFromArray
      rw [hw, if_neg (by omega), allocCheck_of rfl ha.1, Res.ok_bind, allocCheck_of (by push_cast; rfl) ha.2, Res.ok_bind]
      exact ⟨_, rfl⟩
    obtain ⟨m, hm⟩ := hok
    obtain ⟨h1, h2, h3, h4, -⟩ := csrMatFromArray_full hm
    have hmono : ∀ i j : Nat, i ≤ j → i * c ≤ j * c := fun i j h => Nat.mul_le_mul_right c h
    refine ⟨m, hm, by unfold CSRMat.rows; rw [if_neg (by omega), h3]; push_cast; ring, ⟨?_, ?_, ?_, ?_⟩, h2, fun i hi row d => ?_⟩
    · simpa using h4 0 (by omega)
    · intro i a b g1 g2
      have hir : i + 1 ≤ r := by
        have := (List.getElem?_eq_some_iff.1 g2).1
        omega
      rw [h4 i (by omega)] at g1
      rw [h4 (i + 1) hir] at g2
      cases g1
      cases g2
      exact_mod_cast hmono i (i + 1) (by omega)
    · rw [List.getLast?_eq_getElem?, h3, Nat.add_sub_cancel, h4 r le_rfl, h2, hl]
    · rw [h1.clen, h2, hl]
    · obtain ⟨row', hr'⟩ := dense_of_len (i := i) hl hi
      have key : ∀ row, DenseRow vals c i row → SparseRow m.rowHeaders m.colIndexes m.values c d i row := by
        intro row hd
        have := sparse_of_dense (d := d) hm le_rfl hi hd
        rwa [List.take_of_length_le (le_of_eq hd.1)] at this
      refine ⟨fun h => ?_, key row⟩
      rw [C15_row_unique _ _ _ _ _ _ _ _ h (key row' hr')]
      exact hr'
  · intro hl
    unfold csrMatFromArray
    rw [hw, if_pos (by omega)]
    exact ⟨_, rfl⟩

/-- C46 for DenseMatFromArray -/
theorem C46_dense_from_array_partial (vals : List F64) (r c : Nat) (hb : r * c < 2 ^ 63) :
    (vals.length = r * c → denseMatFromArray vals r c = .ok ⟨vals, c, r⟩) ∧
    (vals.length ≠ r * c → ∃ e, denseMatFromArray vals r c = .err e) := by
  have hw : wrap64 ((c : Int) * r) = ((r * c : Nat) : Int) := by
    rw [show (c : Int) * r = ((r * c : Nat) : Int) by push_cast; ring]
    exact wrap64_id (by omega) (by omega)
  unfold denseMatFromArray
  rw [hw]
  exact ⟨fun h => if_neg (by omega), fun h => ⟨_, if_pos (by omega)⟩⟩

/-! ### C47 -/

/-- C47 for sparse matrices -/
theorem C47_csr_valid (P : Platform) (r : Reader) (limit : Int) (skip : Bool) (m : CSRMat)
    (h : csrMatFromLibsvm P r limit skip = .ok m) :
    CsrValid m ∧ (0 < limit → m.rows ≤ limit) := by
  obtain ⟨rows', -, ⟨h1, h2⟩, h3⟩ := readRows_inv (fun rows m => CsrValid m ∧ (m.rowHeaders.length : Int) = rows + 1)
    (by
      rintro rows m m' s recs ⟨g1, g2⟩ - - - hm
      refine ⟨csrValid_step g1 hm, ?_⟩
      cases hm
      simp [g2]) _ _ _ _ _ ⟨csrValid_empty, by simp⟩ (fun h => h) h
  refine ⟨h1, fun hl => ?_⟩
  unfold CSRMat.rows
  have := h3 hl
  split <;> omega

/-- C47 for full matrices read with all columns -/
theorem C47_dense_libsvm_partial (P : Platform) (r : Reader) (limit : Int) (m : DenseMat)
    (h : denseMatFromLibsvm P r limit false = .ok m) :
    (m.values.length : Int) = m.rows * m.cols ∧ 0 ≤ m.rows ∧ 0 ≤ m.cols ∧ (0 < limit → m.rows ≤ limit) := by
  obtain ⟨rows', -, h1, h3⟩ := readRows_inv Full
    (fun rows m m' s recs g1 g2 g3 hp hm => g1.step (libsvmLine_ne_nil g2 g3 hp) hm) _ _ _ _ _ full_empty (fun h => h) h
  have := h1.nrows
  have hp := h1.pos
  refine ⟨h1.size, by omega, ?_, fun hl => by have := h3 hl; omega⟩
  rcases h1.cols with g | g <;> omega

/-- C47 for CSV read with all columns -/
theorem C47_dense_csv_partial (P : Platform) (r : Reader) (limit : Int) (delimiter : Str) (d : F64) (m : DenseMat)
    (h : denseMatFromCsv P r limit false delimiter d = .ok m) :
    (m.values.length : Int) = m.rows * m.cols ∧ 0 ≤ m.rows ∧ 0 ≤ m.cols ∧ (0 < limit → m.rows ≤ limit) := by
  obtain ⟨rows', -, h1, h3⟩ := readRows_inv Full
    (fun rows m m' s recs g1 g2 g3 hp hm => g1.step (csvLine_ne_nil g3 hp) hm) _ _ _ _ _ full_empty (fun h => h) h
  have := h1.nrows
  have hp := h1.pos
  refine ⟨h1.size, by omega, ?_, fun hl => by have := h3 hl; omega⟩
  rcases h1.cols with g | g <;> omega

theorem readRows_first {μ : Type} (parse : Str → Res (List Record)) (f : μ → List Record → Res μ) (limit : Int) {t : Str}
    {ss : List Str} {rest : Str} {e : Bool} (hb : Block t ss rest e) (m : μ) :
    readRows parse f limit (t.length + 1) 0 ⟨t, false⟩ m = runLines parse f (firstRows limit ss) m := by
  have := readRows_block parse f limit hb (t.length + 1) 0 m (by omega) (by omega)
  rw [this, Int.sub_zero]
  rfl

theorem mem_firstRows {α : Type} {limit : Int} {x : α} {xs : List α} (h : x ∈ firstRows limit xs) : x ∈ xs := by
  unfold firstRows at h
  split at h
  · exact h
  · exact List.mem_of_mem_take h

theorem firstRows_map {α β : Type} (limit : Int) (f : α → β) (xs : List α) : firstRows limit (xs.map f) = (firstRows limit xs).map f := by
  unfold firstRows
  split
  · rfl
  · rw [List.map_take]

theorem firstRows_ne_nil {α : Type} {limit : Int} {xs : List α} (h : xs ≠ []) : firstRows limit xs ≠ [] := by
  unfold firstRows
  split
  · exact h
  · rw [ne_eq, List.take_eq_nil_iff]
    push Not
    exact ⟨by omega, h⟩

/-- C47 for CSV whose first column is skipped, when every row has a second field. What is missing: rows without
(`MatExample.C47_empty_row_breaks_shape` shows that the claim is false for them). -/
theorem C47_dense_csv_skip_partial (P : Platform) (limit : Int) (delim : Char) (d : F64) (m : DenseMat) (t rest : Str) (ss : List Str) (e : Bool)
    (hb : Block t ss rest e) (hs : ∀ s ∈ ss, delim ∈ s) (h : denseMatFromCsv P ⟨t, false⟩ limit true [delim] d = .ok m) :
    (m.values.length : Int) = m.rows * m.cols := by
  unfold denseMatFromCsv at h
  rw [readRows_first _ _ _ hb] at h
  obtain ⟨rows, h1⟩ := runLines_inv (fun s => delim ∈ s) (fun m => ∃ rows, Full rows m) (by
    rintro m m' s recs hd ⟨rows, g⟩ hp hm
    refine ⟨_, g.step ?_ hm⟩
    unfold Mat.csvLine at hp
    have hl := csvTokens_length _ _ _ hp
    obtain ⟨toks, g1, g2, g3, g4⟩ := char_split delim s
    have : split s [delim] = toks := by rw [g3]; exact split_char g1 g2
    rw [this] at hl
    have := List.count_pos_iff.2 hd
    simp at hl
    exact List.ne_nil_of_length_pos (by omega)) _ _ _ (fun s hs' => hs s (mem_firstRows hs')) ⟨0, full_empty⟩ h
  exact h1.size

/-! ### C48 -/

/-- C48: Reading labelled rows with at least one entry each gives the sparse matrix. (What is missing: rows without entries,
`C48_empty_row_rejected`.) -/
theorem C48_csr_partial (P : Platform) (print : F64 → Str) (rows : List (Str × List (Nat × F64))) (limit : Int) (t rest : Str) (e : Bool)
    (hl : ∀ x ∈ rows, ' ' ∉ x.1) (hne : ∀ x ∈ rows, x.2 ≠ [])
    (hv : ∀ x ∈ rows, ∀ e ∈ x.2, e.1 < 2 ^ 32 ∧ PrintsBack P print ":".toList e.2)
    (hb : Block t (rows.map fun x => svmLine print x.1 x.2) rest e) :
    ∃ m, csrMatFromLibsvm P ⟨t, false⟩ limit true = .ok m ∧ CsrOf (firstRows limit (rows.map Prod.snd)) m := by
  unfold csrMatFromLibsvm
  rw [readRows_first _ _ _ hb, firstRows_map, firstRows_map]
  obtain ⟨m, h1, h2⟩ := runLines_csr (parse := libsvmLine P true) (fun x : Str × List (Nat × F64) => svmLine print x.1 x.2) Prod.snd (firstRows limit rows)
    (fun x hx => svmLine_parse (hl x (mem_firstRows hx)) (hne x (mem_firstRows hx)) (hv x (mem_firstRows hx))) [] _ csrOf_empty
  exact ⟨m, h1, by simpa using h2⟩

/-- C48 without labels, for rows with at least two entries -/
theorem C48_csr_bare_partial (P : Platform) (print : F64 → Str) (rows : SRows) (limit : Int) (t rest : Str) (e : Bool)
    (hne : ∀ x ∈ rows, 2 ≤ x.length) (hv : ∀ x ∈ rows, ∀ e ∈ x, e.1 < 2 ^ 32 ∧ PrintsBack P print ":".toList e.2)
    (hb : Block t (rows.map (svmBareLine print)) rest e) :
    ∃ m, csrMatFromLibsvm P ⟨t, false⟩ limit false = .ok m ∧ CsrOf (firstRows limit rows) m := by
  unfold csrMatFromLibsvm
  rw [readRows_first _ _ _ hb, firstRows_map]
  obtain ⟨m, h1, h2⟩ := runLines_csr (parse := libsvmLine P false) (svmBareLine print) id (firstRows limit rows)
    (fun x hx => svmBareLine_parse (hne x (mem_firstRows hx)) (hv x (mem_firstRows hx))) [] _ csrOf_empty
  exact ⟨m, h1, by simpa using h2⟩

/-- C48 for full matrices, labelled rows -/
theorem C48_dense (P : Platform) (print : F64 → Str) (rows : List (Str × List F64)) (c : Nat) (limit : Int) (t rest : Str) (e : Bool)
    (hl : ∀ x ∈ rows, ' ' ∉ x.1) (hc : 1 ≤ c) (hc' : c ≤ 2 ^ 32) (hrow : ∀ x ∈ rows, x.2.length = c) (hrows : rows ≠ [])
    (hv : ∀ x ∈ rows, ∀ v ∈ x.2, PrintsBack P print ":".toList v)
    (hb : Block t (rows.map fun x => svmLine print x.1 (indexed x.2)) rest e) :
    ∃ m, denseMatFromLibsvm P ⟨t, false⟩ limit true = .ok m ∧ DenseOf (firstRows limit (rows.map Prod.snd)) c m := by
  unfold denseMatFromLibsvm
  rw [readRows_first _ _ _ hb, firstRows_map, firstRows_map]
  obtain ⟨m, h1, h2⟩ := runLines_dense (parse := libsvmLine P true) (fun x : Str × List F64 => svmLine print x.1 (indexed x.2)) Prod.snd hc (firstRows limit rows)
    (fun x hx => by
      have hx' := mem_firstRows hx
      refine ⟨?_, hrow x hx'⟩
      rw [svmLine_parse (P := P) (hl x hx') ?_ ?_, indexed_recs]
      · unfold indexed
        rw [ne_eq, List.map_eq_nil_iff, List.zipIdx_eq_nil_iff]
        intro h0
        have := hrow x hx'
        rw [h0] at this
        simp at this
        omega
      · intro e he
        unfold indexed at he
        obtain ⟨⟨v, i⟩, hvi, rfl⟩ := List.mem_map.1 he
        have := List.mem_zipIdx hvi
        have hlen := hrow x hx'
        exact ⟨by simp only; omega, hv x hx' _ (List.fst_mem_of_mem_zipIdx hvi)⟩) [] _ (denseSoFar_empty c)
  refine ⟨m, h1, ?_⟩
  have h2 : DenseSoFar ((firstRows limit rows).map Prod.snd) c m := by simpa using h2
  exact h2.denseOf (by rw [ne_eq, List.map_eq_nil_iff]; exact firstRows_ne_nil hrows)

/-- C48: A row whose columns are not 0, 1, 2, … is rejected as part of a full matrix. -/
theorem C48_dense_rejects_gap (P : Platform) (print : F64 → Str) (label : Str) (row : List (Nat × F64)) (limit : Int) (t rest : Str) (ss : List Str)
    (e : Bool) (hl : ' ' ∉ label) (hne : row ≠ []) (hv : ∀ e ∈ row, e.1 < 2 ^ 32 ∧ PrintsBack P print ":".toList e.2)
    (hgap : ∃ (i : Nat) (x : Nat × F64), row[i]? = some x ∧ x.1 ≠ i)
    (hb : Block t (svmLine print label row :: ss) rest e) : ∃ tag, denseMatFromLibsvm P ⟨t, false⟩ limit true = .err tag := by
  unfold denseMatFromLibsvm
  rw [readRows_first _ _ _ hb]
  have hf : ∃ ss', firstRows limit (svmLine print label row :: ss) = svmLine print label row :: ss' := by
    unfold firstRows
    split
    · exact ⟨_, rfl⟩
    · rw [show limit.toNat = (limit.toNat - 1) + 1 by omega, List.take_succ_cons]
      exact ⟨_, rfl⟩
  obtain ⟨ss', hss⟩ := hf
  rw [hss, runLines, svmLine_parse hl hne hv, Res.ok_bind]
  have key : ∀ (row : List (Nat × F64)) (k : Nat), (∃ (i : Nat) (x : Nat × F64), row[i]? = some x ∧ x.1 ≠ k + i) →
      ∃ tag, denseRecords k (row.map toRec) = .err tag := by
    intro row
    induction row with
    | nil => rintro k ⟨i, x, h, -⟩; simp at h
    | cons x row ih =>
      rintro k ⟨i, y, h, hy⟩
      rw [List.map_cons, denseRecords]
      split
      · exact ⟨_, rfl⟩
      · rename_i hx
        cases i with
        | zero =>
          cases h
          exact absurd hx (by simp only [toRec, not_not]; omega)
        | succ i =>
          obtain ⟨tag, ht⟩ := ih (k + 1) ⟨i, y, h, by omega⟩
          rw [Nat.cast_succ] at ht
          rw [ht]
          exact ⟨tag, rfl⟩
  obtain ⟨tag, ht⟩ := key row 0 (by simpa using hgap)
  refine ⟨tag, ?_⟩
  unfold recordsToDenseMat
  rw [Nat.cast_zero] at ht
  rw [ht]
  rfl

/-- A row with a label but no entries, which libsvm files have for rows of zeros, is an error: the claim is false for
sparse matrices with empty rows. -/
theorem C48_empty_row_rejected (P : Platform) (label : Str) (limit : Int) (skip : Bool) (t rest : Str) (ss : List Str) (e : Bool) (hl : ' ' ∉ label)
    (hb : Block t (svmLine P.formatG19 label [] :: ss) rest e) :
    ∃ tag, csrMatFromLibsvm P ⟨t, false⟩ limit skip = .err tag := by
  unfold csrMatFromLibsvm
  rw [readRows_first _ _ _ hb]
  have hf : ∃ ss', firstRows limit (svmLine P.formatG19 label [] :: ss) = svmLine P.formatG19 label [] :: ss' := by
    unfold firstRows
    split
    · exact ⟨_, rfl⟩
    · rw [show limit.toNat = (limit.toNat - 1) + 1 by omega, List.take_succ_cons]
      exact ⟨_, rfl⟩
  obtain ⟨ss', hss⟩ := hf
  rw [hss, runLines]
  unfold libsvmLine svmLine
  rw [split_join (by simp) (by simp) (by
    intro t ht c hc hcs
    obtain rfl : c = ' ' := by simpa using hcs
    simp at ht
    exact hl (ht ▸ hc))]
  dsimp only
  rw [if_pos (by simp)]
  exact ⟨_, rfl⟩

/-! ### C50 -/

/-- C50: Fields that are empty become the default value in their own column; `lead` is the column to be skipped, if any.
The lines may have white space around them and end with a blank line or with the text; but the lines themselves must
neither be empty nor begin or end with white space (`MatExample.C50_leading_empty_lost`, `C50_blank_row_ends`). -/
theorem C50_csv_partial (P : Platform) (print : F64 → Str) (delim : Str) (d : F64) (skip : Bool) (rows : List (List Str × List (Option F64)))
    (c : Nat) (limit : Int) (t rest : Str) (e : Bool) (hd : delim ≠ []) (hc : 1 ≤ c) (hrows : rows ≠ [])
    (hlead : ∀ x ∈ rows, x.1.length = if skip then 1 else 0) (hl : ∀ x ∈ rows, ∀ s ∈ x.1, ∀ ch ∈ s, ch ∉ delim)
    (hrow : ∀ x ∈ rows, x.2.length = c) (hv : ∀ x ∈ rows, ∀ v, some v ∈ x.2 → PrintsBack P print delim v)
    (hb : Block t (rows.map fun x => Spec.csvLine print delim x.1 x.2) rest e) :
    ∃ m, denseMatFromCsv P ⟨t, false⟩ limit skip delim d = .ok m ∧ DenseOf (firstRows limit (rows.map fun x => filled d x.2)) c m := by
  unfold denseMatFromCsv
  rw [readRows_first _ _ _ hb, firstRows_map, firstRows_map]
  obtain ⟨m, h1, h2⟩ := runLines_dense (parse := Mat.csvLine P skip delim d) (fun x : List Str × List (Option F64) => Spec.csvLine print delim x.1 x.2)
    (fun x => filled d x.2) hc (firstRows limit rows)
    (fun x hx => by
      have hx' := mem_firstRows hx
      have hlen := hrow x hx'
      refine ⟨csvLine_parse hd (hlead x hx') (hl x hx') (by rintro h0; rw [h0] at hlen; simp at hlen; omega) (hv x hx'), ?_⟩
      unfold filled
      rw [List.length_map, hlen]) [] _ (denseSoFar_empty c)
  refine ⟨m, h1, ?_⟩
  have h2 : DenseSoFar ((firstRows limit rows).map fun x => filled d x.2) c m := by simpa using h2
  exact h2.denseOf (by rw [ne_eq, List.map_eq_nil_iff]; exact firstRows_ne_nil hrows)

theorem mem_join {sep : Str} {c : Char} : ∀ {toks : List Str}, c ∈ join sep toks → c ∈ sep ∨ ∃ t ∈ toks, c ∈ t
  | [], h => by simp [join] at h
  | [t], h => .inr ⟨t, by simp, by simpa [join] using h⟩
  | t :: u :: toks, h => by
    have e : join sep (t :: u :: toks) = t ++ sep ++ join sep (u :: toks) := by simp [join, List.intercalate]
    rw [e] at h
    rcases List.mem_append.1 h with h | h
    · rcases List.mem_append.1 h with h | h
      · exact .inr ⟨t, by simp, h⟩
      · exact .inl h
    · rcases mem_join h with h | ⟨v, hv, h⟩
      · exact .inl h
      · exact .inr ⟨v, by simp [hv], h⟩

theorem newline_white : whiteSpace '\n' := by unfold whiteSpace; decide

/-- C50 for the lines written one after the other, when the delimiter has no white space and no line is empty -/
theorem C50_csv_written_partial (P : Platform) (print : F64 → Str) (delim : Str) (d : F64) (skip : Bool) (rows : List (List Str × List (Option F64)))
    (c : Nat) (limit : Int) (hd : delim ≠ []) (hdw : ∀ ch ∈ delim, ¬ whiteSpace ch) (hc : 1 ≤ c) (hrows : rows ≠ [])
    (hlead : ∀ x ∈ rows, x.1.length = if skip then 1 else 0) (hl : ∀ x ∈ rows, ∀ s ∈ x.1, ∀ ch ∈ s, ch ∉ delim ∧ ¬ whiteSpace ch)
    (hrow : ∀ x ∈ rows, x.2.length = c) (hv : ∀ x ∈ rows, ∀ v, some v ∈ x.2 → PrintsBack P print delim v)
    (hne : ∀ x ∈ rows, Spec.csvLine print delim x.1 x.2 ≠ []) :
    ∃ m, denseMatFromCsv P ⟨linesText (rows.map fun x => Spec.csvLine print delim x.1 x.2), false⟩ limit skip delim d = .ok m ∧
      DenseOf (firstRows limit (rows.map fun x => filled d x.2)) c m := by
  refine C50_csv_partial P print delim d skip rows c limit _ [] true hd hc hrows hlead (fun x hx s hs ch hch => (hl x hx s hs ch hch).1) hrow hv
    (block_written _ fun s hs => ?_)
  obtain ⟨x, hx, rfl⟩ := List.mem_map.1 hs
  have hw : ∀ ch ∈ Spec.csvLine print delim x.1 x.2, ¬ whiteSpace ch := by
    intro ch hch
    rcases mem_join hch with h | ⟨t, ht, h⟩
    · exact hdw ch h
    · rcases List.mem_append.1 ht with ht | ht
      · exact (hl x hx t ht ch h).2
      · obtain ⟨v, hvx, rfl⟩ := List.mem_map.1 ht
        cases v with
        | none => cases h
        | some v => exact (hv x hx v hvx).white ch h
  exact ⟨hne x hx, fun h => hw _ h newline_white, isTrim_self hw⟩

/-! ### C49 -/

theorem writeFields_row {P : Platform} {m : DenseMat} {delim : Str} {i c : Nat} {row : List F64} (hc : m.cols = c)
    (hr : DenseRow m.values c i row) : ∀ (n j : Nat), j + n = c →
      writeFields P m delim i j n = .ok (join delim ((row.drop j).map P.formatG19))
  | 0, j, h => by
    rw [writeFields, List.drop_of_length_le (by rw [hr.1]; omega)]
    rfl
  | n + 1, j, h => by
    obtain ⟨x, h1, h2⟩ := hr.2 j (by omega)
    have hidx : Res.idxI m.values ((i : Int) * m.cols + j) = .ok x := by
      rw [hc, show (i : Int) * (c : Int) + j = ((i * c + j : Nat) : Int) by push_cast; ring]
      unfold Res.idxI
      rw [if_neg (by omega), Int.toNat_natCast]
      exact (Res.idx_eq_ok).2 h1
    have hdrop : row.drop j = x :: row.drop (j + 1) := by
      rw [List.drop_eq_getElem?_toList_append, h2]
      rfl
    rw [writeFields, hidx, Res.ok_bind, writeFields_row hc hr n (j + 1) (by omega), Res.ok_bind, hdrop]
    by_cases hn : n = 0
    · rw [if_neg (by rw [hc]; omega), List.drop_of_length_le (by rw [hr.1]; omega)]
      simp [join]
    · rw [if_pos (by rw [hc]; omega)]
      obtain ⟨y, ys, hys⟩ : ∃ y ys, row.drop (j + 1) = y :: ys :=
        List.exists_cons_of_ne_nil (by rw [ne_eq, List.drop_eq_nil_iff, hr.1]; omega)
      rw [hys]
      simp [join, List.intercalate]

theorem writeRows_rows {P : Platform} {m : DenseMat} {delim : Str} {c : Nat} (hc : m.cols = c) : ∀ (rows : List (List F64)) (i : Nat),
    (∀ (j : Nat) (row : List F64), rows[j]? = some row → DenseRow m.values c (i + j) row) →
    writeRows P m delim i rows.length = .ok (linesText (rows.map fun row => join delim (row.map P.formatG19)))
  | [], i, _ => rfl
  | row :: rows, i, h => by
    have h0 : DenseRow m.values c i row := h 0 row rfl
    rw [List.length_cons, writeRows, hc, Int.toNat_natCast, writeFields_row hc h0 c 0 (by omega), Res.ok_bind,
      writeRows_rows hc rows (i + 1) (fun j row hj => by
        have := h (j + 1) row hj
        rwa [show i + (j + 1) = i + 1 + j by omega] at this), Res.ok_bind]
    simp [linesText]

theorem rows_of (c : Nat) : ∀ (r : Nat) (vals : List F64), vals.length = r * c →
    ∃ rows : List (List F64), rows.length = r ∧ (∀ row ∈ rows, row.length = c) ∧ rows.flatten = vals
  | 0, vals, h => ⟨[], rfl, by simp, by
      have : vals = [] := List.eq_nil_of_length_eq_zero (by simpa using h)
      simp [this]⟩
  | r + 1, vals, h => by
    rw [Nat.succ_mul] at h
    obtain ⟨rows, h1, h2, h3⟩ := rows_of c r (vals.drop c) (by rw [List.length_drop]; omega)
    refine ⟨vals.take c :: rows, by simp [h1], fun row hr => ?_, by simp [h3]⟩
    rcases List.mem_cons.1 hr with rfl | hr
    · rw [List.length_take]; omega
    · exact h2 row hr

theorem flatten_row {c : Nat} : ∀ (rows : List (List F64)), (∀ row ∈ rows, row.length = c) → ∀ (i : Nat) (row : List F64),
    rows[i]? = some row → DenseRow rows.flatten c i row
  | [], _, i, row, h => by simp at h
  | r :: rows, hl, 0, row, h => by
    cases h
    have := hl r (by simp)
    refine ⟨this, fun j hj => ⟨r[j], ?_, by simp⟩⟩
    simp only [List.flatten_cons, Nat.zero_mul, Nat.zero_add]
    rw [List.getElem?_append_left (by omega)]
    simp
  | r :: rows, hl, i + 1, row, h => by
    obtain ⟨h1, h2⟩ := flatten_row rows (fun row hr => hl row (by simp [hr])) i row h
    refine ⟨h1, fun j hj => ?_⟩
    obtain ⟨x, g1, g2⟩ := h2 j hj
    refine ⟨x, ?_, g2⟩
    have := hl r (by simp)
    rw [List.flatten_cons, List.getElem?_append_right (by rw [this, Nat.succ_mul]; omega), ← g1]
    congr 1
    rw [this, Nat.succ_mul]
    omega

theorem trim_join {delim : Str} : ∀ (toks : List Str), toks ≠ [] → (∀ t ∈ toks, t ≠ [] ∧ ∀ c ∈ t, ¬ whiteSpace c) →
    join delim toks ≠ [] ∧ (∀ c, (join delim toks).head? = some c → ¬ whiteSpace c) ∧ (∀ c, (join delim toks).getLast? = some c → ¬ whiteSpace c)
  | [], h, _ => absurd rfl h
  | [t], _, h => by
    obtain ⟨h1, h2⟩ := h t (by simp)
    have e : join delim [t] = t := by simp [join]
    rw [e]
    exact ⟨h1, fun c hc => h2 c (List.mem_of_head? hc), fun c hc => h2 c (List.mem_of_getLast? hc)⟩
  | t :: u :: toks, _, h => by
    obtain ⟨h1, h2⟩ := h t (by simp)
    obtain ⟨g1, g2, g3⟩ := trim_join (delim := delim) (u :: toks) (by simp) fun t ht => h t (by simp [ht])
    have e : join delim (t :: u :: toks) = t ++ (delim ++ join delim (u :: toks)) := by simp [join, List.intercalate]
    rw [e]
    refine ⟨by simp [h1], fun c hc => ?_, fun c hc => ?_⟩
    · rw [List.head?_append_of_ne_nil _ h1] at hc
      exact h2 c (List.mem_of_head? hc)
    · rw [List.getLast?_append_of_ne_nil _ (by simp [g1]), List.getLast?_append_of_ne_nil _ g1] at hc
      exact g3 c hc

/-- C49: What WriteStr writes for a matrix with at least one row and column is read back as the same matrix, whatever the
default value. What is missing: matrices without rows or columns (`MatExample.C49_empty_shape_lost` shows that their
shape is lost). -/
theorem C49_csv_roundtrip_partial (P : Platform) (m : DenseMat) (delim : Str) (d : F64) (r c : Nat) (hr : m.rows = r) (hc : m.cols = c)
    (h1 : 1 ≤ r) (h2 : 1 ≤ c) (hm : m.values.length = r * c) (hb : r * c < 2 ^ 63) (hd : delim ≠ []) (hdn : '\n' ∉ delim)
    (hv : ∀ v ∈ m.values, PrintsBack P P.formatG19 delim v) :
    ∃ text, writeStr P m delim = .ok text ∧ denseMatFromCsv P ⟨text, false⟩ 0 false delim d = .ok m := by
  obtain ⟨rows, g1, g2, g3⟩ := rows_of c r m.values hm
  have hw : wrap64 (m.cols * m.rows) = (m.values.length : Int) := by
    rw [hr, hc, show (c : Int) * r = ((r * c : Nat) : Int) by push_cast; ring, hm]
    exact wrap64_id (by omega) (by omega)
  have hv' : ∀ row ∈ rows, ∀ v ∈ row, PrintsBack P P.formatG19 delim v := by
    intro row hrow v hvr
    refine hv v ?_
    rw [← g3]
    exact List.mem_flatten.2 ⟨row, hrow, hvr⟩
  refine ⟨linesText (rows.map fun row => join delim (row.map P.formatG19)), ?_, ?_⟩
  · unfold writeStr
    rw [hw, if_neg (by simp), if_neg (by omega), hr, Int.toNat_natCast, ← g1]
    refine writeRows_rows hc rows 0 fun j row hj => ?_
    rw [Nat.zero_add, ← g3]
    exact flatten_row rows g2 j row hj
  · have hlines : (rows.map fun row => join delim (row.map P.formatG19)) =
        (rows.map fun row => (([] : List Str), row.map some)).map fun x => Spec.csvLine P.formatG19 delim x.1 x.2 := by
      rw [List.map_map]
      refine List.map_congr_left fun row _ => ?_
      simp [Spec.csvLine, Function.comp_def]
    have hblock : Block (linesText (rows.map fun row => join delim (row.map P.formatG19)))
        ((rows.map fun row => (([] : List Str), row.map some)).map fun x => Spec.csvLine P.formatG19 delim x.1 x.2) [] true := by
      rw [← hlines]
      refine block_written _ fun s hs => ?_
      obtain ⟨row, hrow, rfl⟩ := List.mem_map.1 hs
      have hl := g2 row hrow
      obtain ⟨t1, t2, t3⟩ := trim_join (delim := delim) (row.map P.formatG19) (by
          rw [ne_eq, List.map_eq_nil_iff]; rintro rfl; simp at hl; omega) (by
          intro t ht
          obtain ⟨v, hvr, rfl⟩ := List.mem_map.1 ht
          exact ⟨(hv' row hrow v hvr).nonempty, (hv' row hrow v hvr).white⟩)
      refine ⟨t1, fun hn => ?_, ⟨[], [], by simp, by simp, by simp, t2, t3⟩⟩
      rcases mem_join hn with h | ⟨t, ht, h⟩
      · exact hdn h
      · obtain ⟨v, hvr, rfl⟩ := List.mem_map.1 ht
        exact (hv' row hrow v hvr).white _ h newline_white
    obtain ⟨m', hm', ho⟩ := C50_csv_partial P P.formatG19 delim d false (rows.map fun row => (([] : List Str), row.map some)) c 0 _ [] true hd h2
      (by rw [ne_eq, List.map_eq_nil_iff]; rintro rfl; simp at g1; omega)
      (by intro x hx; obtain ⟨row, -, rfl⟩ := List.mem_map.1 hx; rfl)
      (by intro x hx; obtain ⟨row, -, rfl⟩ := List.mem_map.1 hx; simp)
      (by intro x hx; obtain ⟨row, hrow, rfl⟩ := List.mem_map.1 hx; simpa using g2 row hrow)
      (by
        intro x hx v hvx
        obtain ⟨row, hrow, rfl⟩ := List.mem_map.1 hx
        exact hv' row hrow v (by simpa using hvx)) hblock
    rw [hm']
    congr 1
    have e1 : firstRows 0 ((rows.map fun row => (([] : List Str), row.map some)).map fun x => filled d x.2) = rows := by
      simp [firstRows, filled, Function.comp_def]
    rw [e1] at ho
    obtain ⟨vals, cols, nrows⟩ := m
    obtain ⟨vals', cols', nrows'⟩ := m'
    have a1 := ho.values
    have a2 := ho.rows
    have a3 := ho.cols
    simp only at a1 a2 a3 g3 hr hc
    rw [a1, a2, a3, g3, hr, hc, g1]

/-! ### concrete cases and counterexamples -/

namespace MatExample

/-- two rows of two numbers -/
def mat : DenseMat := ⟨[F64.ofNat 1, F64.ofNat 2, F64.ofNat 30, F64.ofNat 4], 2, 2⟩

theorem prints {avoid : Str} (ha : ∀ c ∈ avoid, c.isDigit = false) : ∀ v ∈ mat.values, PrintsBack Platform.demo Platform.demo.formatG19 avoid v := by
  intro v hv
  have key : Platform.demo.parseFloat (Platform.demo.formatG19 v) = some v ∧ Platform.demo.formatG19 v ≠ [] := by
    simp only [mat, List.mem_cons, List.not_mem_nil, or_false] at hv
    rcases hv with rfl | rfl | rfl | rfl <;> decide +kernel
  refine ⟨key.1, key.2, fun c hc => not_white_digit (decimal_isDigit hc), fun c hc hca => ?_⟩
  have := decimal_isDigit hc
  rw [ha c hca] at this
  cases this

/-- C49 applies, also with a tab as delimiter. -/
example : ∃ text, writeStr Platform.demo mat "\t".toList = .ok text ∧ denseMatFromCsv Platform.demo ⟨text, false⟩ 0 false "\t".toList F64.nan = .ok mat :=
  C49_csv_roundtrip_partial Platform.demo mat "\t".toList F64.nan 2 2 rfl rfl (by norm_num) (by norm_num) rfl (by norm_num) (by decide) (by decide)
    (prints (by decide))

/-- The text of C49 is the expected one. -/
example : writeStr Platform.demo mat ",".toList = .ok "1,2\n30,4\n".toList := by decide +kernel

/-- C48 applies: two rows, the second with column 7 only. -/
example : ∃ m, csrMatFromLibsvm Platform.demo ⟨"1 0:1 3:2\n0 7:30\n".toList, false⟩ 0 true = .ok m ∧
    CsrOf [[(0, F64.ofNat 1), (3, F64.ofNat 2)], [(7, F64.ofNat 30)]] m := by
  have hp : ∀ v ∈ mat.values, PrintsBack Platform.demo Platform.demo.formatG19 ":".toList v := prints (by decide)
  refine C48_csr_partial Platform.demo Platform.demo.formatG19 [("1".toList, [(0, F64.ofNat 1), (3, F64.ofNat 2)]), ("0".toList, [(7, F64.ofNat 30)])] 0 _ [] true
    (by decide) (by decide) ?_ ?_
  · intro x hx e he
    simp only [List.mem_cons, List.not_mem_nil, or_false] at hx
    rcases hx with rfl | rfl
    · simp only [List.mem_cons, List.not_mem_nil, or_false] at he
      rcases he with rfl | rfl
      · exact ⟨by norm_num, hp _ (by simp [mat])⟩
      · exact ⟨by norm_num, hp _ (by simp [mat])⟩
    · simp only [List.mem_cons, List.not_mem_nil, or_false] at he
      subst he
      exact ⟨by norm_num, hp _ (by simp [mat])⟩
  · have : (List.map (fun x : Str × List (Nat × F64) => svmLine Platform.demo.formatG19 x.1 x.2) [("1".toList, [(0, F64.ofNat 1), (3, F64.ofNat 2)]), ("0".toList, [(7, F64.ofNat 30)])]) =
        ["1 0:1 3:2".toList, "0 7:30".toList] := by decide +kernel
    rw [this]
    have ht : ∀ s ∈ ["1 0:1 3:2".toList, "0 7:30".toList], s ≠ [] ∧ '\n' ∉ s ∧ IsTrim s s := by
      intro s hs
      simp only [List.mem_cons, List.not_mem_nil, or_false] at hs
      rcases hs with rfl | rfl
      · exact ⟨by decide, by decide, [], [], by simp, by simp, by simp, by intro c hc; cases hc; unfold whiteSpace; decide, by intro c hc; cases hc; unfold whiteSpace; decide⟩
      · exact ⟨by decide, by decide, [], [], by simp, by simp, by simp, by intro c hc; cases hc; unfold whiteSpace; decide, by intro c hc; cases hc; unfold whiteSpace; decide⟩
    exact block_written _ ht

/-- C50 applies: the second field of the first row is absent. -/
example : ∃ m, denseMatFromCsv Platform.demo ⟨"1,\n30,4\n".toList, false⟩ 0 false ",".toList F64.nan = .ok m ∧
    DenseOf [[F64.ofNat 1, F64.nan], [F64.ofNat 30, F64.ofNat 4]] 2 m := by
  have hp : ∀ v ∈ mat.values, PrintsBack Platform.demo Platform.demo.formatG19 ",".toList v := prints (by decide)
  have h := C50_csv_written_partial Platform.demo Platform.demo.formatG19 ",".toList F64.nan false [([], [some (F64.ofNat 1), none]), ([], [some (F64.ofNat 30), some (F64.ofNat 4)])]
    2 0 (by decide) (by intro c hc; simp at hc; subst hc; unfold whiteSpace; decide) (by norm_num) (by simp) (by simp) (by simp) (by simp)
    (by
      intro x hx v hv
      simp only [List.mem_cons, List.not_mem_nil, or_false] at hx
      rcases hx with rfl | rfl
      · simp at hv
        subst hv
        exact hp _ (by simp [mat])
      · simp at hv
        rcases hv with rfl | rfl
        · exact hp _ (by simp [mat])
        · exact hp _ (by simp [mat])) (by decide +kernel)
  have ht : linesText (List.map (fun x : List Str × List (Option F64) => Spec.csvLine Platform.demo.formatG19 ",".toList x.1 x.2) [([], [some (F64.ofNat 1), none]), ([], [some (F64.ofNat 30), some (F64.ofNat 4)])]) =
      "1,\n30,4\n".toList := by decide +kernel
  rw [ht] at h
  exact h

/-- C46 is false for negative dimensions: a value is stored that belongs to no row. -/
theorem C46_negative_dimensions : csrMatFromArray Platform.demo [F64.one] (-1) (-1) = .ok ⟨[0], [], [F64.one]⟩ ∧ ¬ CsrValid ⟨[0], [], [F64.one]⟩ ∧
    denseMatFromArray [F64.one] (-1) (-1) = .ok ⟨[F64.one], -1, -1⟩ :=
  ⟨by decide +kernel, fun h => by have := h.columns; simp at this, by decide +kernel⟩

/-- C47 is false when the first column is skipped: a first row with nothing but the skipped column leaves the number of
columns open, and the next row sets it. The result has two rows and one column but a single value. -/
theorem C47_empty_row_breaks_shape :
    denseMatFromCsv Platform.demo ⟨"5\n5,6\n".toList, false⟩ 0 true ",".toList F64.zero = .ok ⟨[F64.ofNat 6], 1, 2⟩ ∧
    denseMatFromLibsvm Platform.demo ⟨"5  0:3\n5 0:6\n".toList, false⟩ 0 true = .ok ⟨[F64.ofNat 6], 1, 2⟩ :=
  ⟨by decide +kernel, by decide +kernel⟩

/-- C48: two spaces in a row end the line; the rest of the row is dropped without an error. -/
theorem C48_double_space_drops :
    csrMatFromLibsvm Platform.demo ⟨"1 0:3  1:4\n".toList, false⟩ 0 true = .ok ⟨[0, 1], [0], [F64.ofNat 3]⟩ := by decide +kernel

/-- C49 is false for matrices without columns: the number of rows is lost. -/
theorem C49_empty_shape_lost : writeStr Platform.demo ⟨[], 0, 3⟩ ",".toList = .ok "\n".toList ∧
    denseMatFromCsv Platform.demo ⟨"\n".toList, false⟩ 0 false ",".toList F64.zero = .ok ⟨[], 0, 0⟩ :=
  ⟨by decide +kernel, by decide +kernel⟩

/-- C50 is false for an empty field at the beginning of a line when the delimiter is white space: the field disappears
and the next value moves into its column. -/
theorem C50_leading_empty_lost :
    denseMatFromCsv Platform.demo ⟨"\t5\n".toList, false⟩ 0 false "\t".toList F64.nan = .ok ⟨[F64.ofNat 5], 1, 1⟩ := by decide +kernel

/-- C50 is false for a row whose only field is empty: it ends the matrix, and the rows after it are lost. -/
theorem C50_blank_row_ends :
    denseMatFromCsv Platform.demo ⟨"1\n\n2\n".toList, false⟩ 0 false ",".toList F64.nan = .ok ⟨[F64.ofNat 1], 1, 1⟩ := by decide +kernel

end MatExample

end Leaves
