import Verif.Proofs.Accept
import Verif.Props.Hex

/-! Property C135: which texts are numbers, and underscores in numbers. -/

namespace Leaves
open F64 Spec Mat

/-- C135: A number may have underscores, each between two digits or after the hexadecimal prefix, and they change nothing. -/
theorem C135_underscores (P : Platform) (hP : Strconv.Standard P) (s : Str) (hs : '_' ∈ s) (x : F64) :
    P.parseFloat s = some x ↔ UnderscoresOK s ∧ P.parseFloat (bare s) = some x := by
  rw [hP.parse]
  exact parse_underscored hs x

/-- C135: A text is read as a float64 if and only if it denotes this float64 in one of the notations (exponents of 10000 and more apart). -/
theorem C135_exactly (P : Platform) (hP : Strconv.Standard P) (s : Str) (hs : s ≠ []) (hh : ¬ HugeExponent s) (d x : F64) :
    P.parseFloat s = some x ↔ CellReads d s x := by
  rw [hP.parse]
  exact ⟨fun h => parse_inv h hh d, fun h => cell_parse h hs⟩

theorem csvTokens_total (P : Platform) (d : F64) : ∀ (i : Nat) (toks : List Str), (∃ rs, csvTokens P d i toks = .ok rs) ∨ ∃ msg, csvTokens P d i toks = .err msg
  | _, [] => .inl ⟨_, rfl⟩
  | i, tok :: toks => by
    rw [csvTokens]
    by_cases h : tok.length = 0
    · rw [if_pos h]
      rcases csvTokens_total P d (i + 1) toks with ⟨rs, h'⟩ | ⟨msg, h'⟩ <;> rw [h']
      · exact .inl ⟨_, rfl⟩
      · exact .inr ⟨_, rfl⟩
    · rw [if_neg h]
      cases P.parseFloat tok with
      | none => exact .inr ⟨_, rfl⟩
      | some x =>
        rcases csvTokens_total P d (i + 1) toks with ⟨rs, h'⟩ | ⟨msg, h'⟩ <;> rw [h']
        · exact .inl ⟨_, rfl⟩
        · exact .inr ⟨_, rfl⟩

theorem csvTokens_bad (P : Platform) (d : F64) {cell : Str} (h1 : cell ≠ []) (h2 : P.parseFloat cell = none) :
    ∀ (i : Nat) (toks : List Str), cell ∈ toks → ∃ msg, csvTokens P d i toks = .err msg
  | _, [], h => by cases h
  | i, tok :: toks, h => by
    rw [csvTokens]
    rcases List.mem_cons.1 h with rfl | h
    · rw [if_neg (by simpa using h1), h2]
      exact ⟨_, rfl⟩
    · obtain ⟨msg, h'⟩ := csvTokens_bad P d h1 h2 (i + 1) toks h
      by_cases ht : tok.length = 0
      · rw [if_pos ht, h']
        exact ⟨_, rfl⟩
      · rw [if_neg ht, h']
        cases P.parseFloat tok <;> exact ⟨_, rfl⟩

theorem denseRecords_total : ∀ (rs : List Record) (i : Int), (∃ vs, denseRecords i rs = .ok vs) ∨ ∃ msg, denseRecords i rs = .err msg
  | [], _ => .inl ⟨_, rfl⟩
  | r :: rs, i => by
    rw [denseRecords]
    split
    · exact .inr ⟨_, rfl⟩
    · rcases denseRecords_total rs (i + 1) with ⟨vs, h⟩ | ⟨msg, h⟩ <;> rw [h]
      · exact .inl ⟨_, rfl⟩
      · exact .inr ⟨_, rfl⟩

theorem recordsToDense_total (m : DenseMat) (rs : List Record) :
    (∃ m', recordsToDenseMat m rs = .ok m') ∨ ∃ msg, recordsToDenseMat m rs = .err msg := by
  unfold recordsToDenseMat
  rcases denseRecords_total rs 0 with ⟨vs, h⟩ | ⟨msg, h⟩ <;> rw [h]
  · simp only [Res.ok_bind]
    split
    · exact .inl ⟨_, rfl⟩
    · split
      · exact .inr ⟨_, rfl⟩
      · exact .inl ⟨_, rfl⟩
  · exact .inr ⟨_, rfl⟩

theorem runLines_bad {P : Platform} {b : Bool} {delim : Str} {d : F64} {line : Str} (hbad : ∃ msg, Mat.csvLine P b delim d line = .err msg) :
    ∀ (lines : List Str) (m : DenseMat), line ∈ lines → ∃ msg, runLines (Mat.csvLine P b delim d) recordsToDenseMat lines m = .err msg
  | [], _, h => by cases h
  | l :: lines, m, h => by
    rw [runLines]
    rcases List.mem_cons.1 h with rfl | h
    · obtain ⟨msg, e⟩ := hbad
      rw [e]
      exact ⟨_, rfl⟩
    · have : (∃ rs, Mat.csvLine P b delim d l = .ok rs) ∨ ∃ msg, Mat.csvLine P b delim d l = .err msg := csvTokens_total P d 0 _
      rcases this with ⟨rs, e⟩ | ⟨msg, e⟩ <;> rw [e]
      · simp only [Res.ok_bind]
        rcases recordsToDense_total m rs with ⟨m', e⟩ | ⟨msg, e⟩ <;> rw [e]
        · simpa only [Res.ok_bind] using runLines_bad hbad lines m' h
        · exact ⟨_, rfl⟩
      · exact ⟨_, rfl⟩

/-- C135: A CSV file that has a cell which denotes no number, wherever it is, is refused with an error. -/
theorem C135_refused (P : Platform) (hP : Strconv.Standard P) (rows : List (List Str)) (delim : Str) (d : F64) (t rest : Str) (e : Bool)
    (hd : delim ≠ []) (hclean : ∀ row ∈ rows, ∀ cell ∈ row, ∀ ch ∈ delim, ch ∉ cell) (row : List Str) (hr : row ∈ rows) (cell : Str) (hc : cell ∈ row)
    (hh : ¬ HugeExponent cell) (hbad : ∀ x, ¬ CellReads d cell x) (hb : Block t (rows.map (join delim)) rest e) :
    ∃ msg, denseMatFromCsv P ⟨t, false⟩ 0 false delim d = .err msg := by
  have h1 : cell ≠ [] := by
    rintro rfl
    exact hbad _ .empty
  have h2 : P.parseFloat cell = none := by
    cases h : P.parseFloat cell with
    | none => rfl
    | some x => exact absurd ((C135_exactly P hP cell h1 hh d x).1 h) (hbad x)
  unfold denseMatFromCsv
  rw [readRows_first _ _ _ hb]
  refine runLines_bad (line := join delim row) ?_ _ _ (List.mem_map_of_mem hr)
  unfold Mat.csvLine
  rw [split_join hd (List.ne_nil_of_mem hc) fun t ht c h1 h2 => hclean row hr t ht c h2 h1]
  exact csvTokens_bad P d h1 h2 0 _ (by simpa using hc)

/-- C135: A CSV file with the same number of cells in each line is either read as the matrix of the numbers its cells denote, or it is refused
because some cell denotes none; there is no third possibility. -/
theorem C135_csv (P : Platform) (hP : Strconv.Standard P) (rows : List (List Str)) (c : Nat) (delim : Str) (d : F64) (t rest : Str) (e : Bool)
    (hd : delim ≠ []) (hda : ∀ ch ∈ delim, ch ∉ cellChars) (hclean : ∀ row ∈ rows, ∀ cell ∈ row, ∀ ch ∈ delim, ch ∉ cell) (hc : 1 ≤ c) (hrows : rows ≠ [])
    (hrow : ∀ row ∈ rows, row.length = c) (hh : ∀ row ∈ rows, ∀ cell ∈ row, ¬ HugeExponent cell) (hb : Block t (rows.map (join delim)) rest e) :
    (∃ vss m, List.Forall₂ (List.Forall₂ (CellReads d)) rows vss ∧ denseMatFromCsv P ⟨t, false⟩ 0 false delim d = .ok m ∧ DenseOf vss c m) ∨
    ((∃ row ∈ rows, ∃ cell ∈ row, ∀ x, ¬ CellReads d cell x) ∧ ∃ msg, denseMatFromCsv P ⟨t, false⟩ 0 false delim d = .err msg) := by
  by_cases H : ∃ row ∈ rows, ∃ cell ∈ row, ∀ x, ¬ CellReads d cell x
  · right
    refine ⟨H, ?_⟩
    obtain ⟨row, hr, cell, hc, hbad⟩ := H
    exact C135_refused P hP rows delim d t rest e hd hclean row hr cell hc (hh row hr cell hc) hbad hb
  · left
    push Not at H
    have hrow' : ∀ row : List Str, (∀ cell ∈ row, ∃ x, CellReads d cell x) → ∃ vs, List.Forall₂ (CellReads d) row vs := by
      intro row
      induction row with
      | nil => exact fun _ => ⟨[], .nil⟩
      | cons a row ih =>
        intro h
        obtain ⟨x, hx⟩ := h a (by simp)
        obtain ⟨vs, hvs⟩ := ih fun c hc => h c (by simp [hc])
        exact ⟨x :: vs, .cons hx hvs⟩
    have hrows' : ∀ rows : List (List Str), (∀ row ∈ rows, ∀ cell ∈ row, ∃ x, CellReads d cell x) → ∃ vss, List.Forall₂ (List.Forall₂ (CellReads d)) rows vss := by
      intro rows
      induction rows with
      | nil => exact fun _ => ⟨[], .nil⟩
      | cons a rows ih =>
        intro h
        obtain ⟨x, hx⟩ := hrow' a (h a (by simp))
        obtain ⟨vs, hvs⟩ := ih fun c hc => h c (by simp [hc])
        exact ⟨x :: vs, .cons hx hvs⟩
    obtain ⟨vss, hv⟩ := hrows' rows H
    obtain ⟨m, h1, h2⟩ := C130_csv P hP rows vss c delim d t rest e hd hda hc hrows hrow hv hb
    exact ⟨vss, m, hv, h1, h2⟩

theorem libsvmTokens_total (P : Platform) : ∀ toks : List Str, (∃ rs, libsvmTokens P toks = .ok rs) ∨ ∃ msg, libsvmTokens P toks = .err msg
  | [] => .inl ⟨_, rfl⟩
  | tok :: toks => by
    rw [libsvmTokens]
    by_cases h : tok.length = 0
    · rw [if_pos h]
      exact .inl ⟨_, rfl⟩
    · rw [if_neg h]
      split
      · rename_i c v _
        cases parseUint 32 c with
        | none => exact .inr ⟨_, rfl⟩
        | some k =>
          cases P.parseFloat v with
          | none => exact .inr ⟨_, rfl⟩
          | some x =>
            rcases libsvmTokens_total P toks with ⟨rs, h'⟩ | ⟨msg, h'⟩ <;> rw [h']
            · exact .inl ⟨_, rfl⟩
            · exact .inr ⟨_, rfl⟩
      · exact .inr ⟨_, rfl⟩

/-- An entry without a number is found, unless an empty field comes before it. -/
theorem libsvmTokens_bad (P : Platform) {v : Str} (h2 : P.parseFloat v = none) {tok c : Str} (ht : tok = c ++ ':' :: v) (hc : ':' ∉ c) (hv : ':' ∉ v) :
    ∀ toks : List Str, tok ∈ toks → (∀ t ∈ toks, t ≠ []) → ∃ msg, libsvmTokens P toks = .err msg
  | [], h, _ => by cases h
  | tok' :: toks, h, hne => by
    rw [libsvmTokens, if_neg (by simpa using hne tok' (by simp))]
    rcases List.mem_cons.1 h with rfl | h
    · have hs : split tok ":".toList = [c, v] := (split_two ':' _ _ _).2 ⟨ht, hc, hv⟩
      rw [hs]
      dsimp only
      rw [h2]
      cases parseUint 32 c <;> exact ⟨_, rfl⟩
    · obtain ⟨msg, h'⟩ := libsvmTokens_bad P h2 ht hc hv toks h fun t ht => hne t (by simp [ht])
      split
      · rename_i c v _
        rw [h']
        cases parseUint 32 c with
        | none => exact ⟨_, rfl⟩
        | some k => cases P.parseFloat v <;> exact ⟨_, rfl⟩
      · exact ⟨_, rfl⟩

theorem runSvm_bad {P : Platform} {b : Bool} {line : Str} (hbad : ∃ msg, libsvmLine P b line = .err msg) :
    ∀ (lines : List Str) (m : CSRMat), line ∈ lines → ∃ msg, runLines (libsvmLine P b) recordsToCSRMat lines m = .err msg
  | [], _, h => by cases h
  | l :: lines, m, h => by
    rw [runLines]
    rcases List.mem_cons.1 h with rfl | h
    · obtain ⟨msg, e⟩ := hbad
      rw [e]
      exact ⟨_, rfl⟩
    · have : (∃ rs, libsvmLine P b l = .ok rs) ∨ ∃ msg, libsvmLine P b l = .err msg := by
        unfold libsvmLine
        dsimp only
        split
        · exact .inr ⟨_, rfl⟩
        · exact libsvmTokens_total P _
      rcases this with ⟨rs, e⟩ | ⟨msg, e⟩ <;> rw [e]
      · simp only [Res.ok_bind]
        exact runSvm_bad hbad lines _ h
      · exact ⟨_, rfl⟩

/-- C135: A libsvm file that has a value which denotes no number, wherever it is, is refused with an error. -/
theorem C135_libsvm_refused (P : Platform) (hP : Strconv.Standard P) (rows : List (Str × List (Nat × Str))) (t rest : Str) (e : Bool)
    (hl : ∀ x ∈ rows, ' ' ∉ x.1) (hclean : ∀ x ∈ rows, ∀ y ∈ x.2, ' ' ∉ y.2) (x : Str × List (Nat × Str)) (hx : x ∈ rows)
    (i : Nat) (v : Str) (hy : (i, v) ∈ x.2) (hv : ':' ∉ v) (hv0 : v ≠ []) (hh : ¬ HugeExponent v) (hbad : ∀ y, ¬ CellReads .nan v y)
    (hb : Block t (rows.map fun x => svmSpelled x.1 x.2) rest e) :
    ∃ msg, csrMatFromLibsvm P ⟨t, false⟩ 0 true = .err msg := by
  have h2 : P.parseFloat v = none := by
    cases h : P.parseFloat v with
    | none => rfl
    | some y => exact absurd ((C135_exactly P hP v hv0 hh .nan y).1 h) (hbad y)
  unfold csrMatFromLibsvm
  rw [readRows_first _ _ _ hb]
  refine runSvm_bad (line := svmSpelled x.1 x.2) ?_ _ _ (List.mem_map.2 ⟨x, hx, rfl⟩)
  unfold libsvmLine svmSpelled
  have hdig : ∀ (n : Nat) (c : Char), c.isDigit = false → c ∉ decimal n := fun n c hc hm => by
    have := decimal_isDigit hm
    rw [hc] at this
    cases this
  rw [split_join (by simp) (by simp) (by
    intro t ht
    rcases List.mem_cons.1 ht with rfl | ht
    · intro c hc hcs
      obtain rfl : c = ' ' := by simpa using hcs
      exact hl x hx hc
    · obtain ⟨e, he, rfl⟩ := List.mem_map.1 ht
      intro c hc hcs
      obtain rfl : c = ' ' := by simpa using hcs
      rcases List.mem_append.1 hc with hc | hc
      · exact hdig _ _ (by decide) hc
      · rcases List.mem_cons.1 hc with hc | hc
        · exact absurd hc (by decide)
        · exact hclean x hx e he hc)]
  have := List.length_pos_of_mem hy
  dsimp only
  rw [if_neg (by simp; omega)]
  refine libsvmTokens_bad P h2 (tok := decimal i ++ ':' :: v) rfl (hdig _ _ (by decide)) hv _ ?_ ?_
  · rw [if_pos rfl, List.drop_one, List.tail_cons]
    exact List.mem_map.2 ⟨(i, v), hy, rfl⟩
  · intro t ht
    rw [if_pos rfl, List.drop_one, List.tail_cons] at ht
    obtain ⟨y, -, rfl⟩ := List.mem_map.1 ht
    simp

namespace NotationExample
open DecimalExample

theorem small_of {s : Str} (h : ∀ c ∈ "eEpP".toList, c ∉ s) : ¬ HugeExponent s := by
  rintro ⟨a, c, sg, ds, e, hc, -⟩
  refine h c hc ?_
  have : c ∈ bare s := by
    rw [e]
    simp
  exact List.mem_of_mem_filter this

/-- `1_000.5` and `0x_1p4` have their underscores at the right places. -/
theorem right_places : UnderscoresOK "1_000.5".toList ∧ UnderscoresOK "0x_1p4".toList :=
  ⟨((C135_underscores platform standard "1_000.5".toList (by decide) (F64.const 2001 2)).1 (by decide +kernel)).1,
    ((C135_underscores platform standard "0x_1p4".toList (by decide) (F64.ofNat 16)).1 (by decide +kernel)).1⟩

/-- `1__5` has not. -/
theorem wrong_places : ¬ UnderscoresOK "1__5".toList := fun h => by
  have h' := (C135_underscores platform standard "1__5".toList (by decide) (F64.ofNat 15)).2 ⟨h, by decide +kernel⟩
  exact absurd h' (by decide +kernel)

theorem thousand : CellReads F64.nan "1_000.5".toList (F64.const 2001 2) :=
  (C135_exactly platform standard _ (by decide) (small_of (by decide)) _ _).1 (by decide +kernel)

/-- `1_000.5,NaN` is read as these two numbers. -/
theorem C135_example : ∃ m, denseMatFromCsv platform ⟨"1_000.5,NaN\n".toList, false⟩ 0 false ",".toList F64.nan = .ok m ∧ DenseOf [[F64.const 2001 2, F64.nan]] 2 m :=
  C130_csv platform standard [["1_000.5".toList, "NaN".toList]] _ 2 ",".toList F64.nan _ [] true
    (by decide) (by decide) (by norm_num) (by decide) (by decide)
    (.cons (.cons thousand (.cons (.nan _ (.cons (.inr rfl) (.cons (.inl rfl) (.cons (.inr rfl) .nil)))) .nil)) .nil)
    (block_written ["1_000.5,NaN".toList] (by
      intro s hs
      obtain rfl := List.mem_singleton.1 hs
      exact ⟨by decide, by decide, isTrim_self (by unfold whiteSpace; decide)⟩))

/-- A table whose last cell is `1__5` is refused. -/
theorem C135_refused_example : ∃ msg, denseMatFromCsv platform ⟨"1_000.5,NaN\n,1__5\n".toList, false⟩ 0 false ",".toList F64.nan = .err msg :=
  C135_refused platform standard [["1_000.5".toList, "NaN".toList], ["".toList, "1__5".toList]] ",".toList F64.nan _ [] true
    (by decide) (by decide) ["".toList, "1__5".toList] (by decide) "1__5".toList (by decide) (small_of (by decide))
    (fun x h => by
      have h1 := cell_parse h (by decide)
      have h2 : Strconv.parseFloat "1__5".toList = none := by decide +kernel
      rw [h2] at h1
      cases h1)
    (block_written ["1_000.5,NaN".toList, ",1__5".toList] (by
      intro s hs
      simp only [List.mem_cons, List.not_mem_nil, or_false] at hs
      rcases hs with rfl | rfl <;> exact ⟨by decide, by decide, isTrim_self (by unfold whiteSpace; decide)⟩))

/-- The hypotheses of `C135_csv` are met by this table, for which the second possibility holds. -/
example : ∃ msg, denseMatFromCsv platform ⟨"1_000.5,NaN\n,1__5\n".toList, false⟩ 0 false ",".toList F64.nan = .err msg := by
  rcases C135_csv platform standard [["1_000.5".toList, "NaN".toList], ["".toList, "1__5".toList]] 2 ",".toList F64.nan "1_000.5,NaN\n,1__5\n".toList [] true
    (by decide) (by decide) (by decide) (by norm_num) (by decide) (by decide)
    (by
      intro row hr cell hc
      simp only [List.mem_cons, List.not_mem_nil, or_false] at hr
      rcases hr with rfl | rfl <;> simp only [List.mem_cons, List.not_mem_nil, or_false] at hc <;> rcases hc with rfl | rfl <;> exact small_of (by decide))
    (block_written ["1_000.5,NaN".toList, ",1__5".toList] (by
      intro s hs
      simp only [List.mem_cons, List.not_mem_nil, or_false] at hs
      rcases hs with rfl | rfl <;> exact ⟨by decide, by decide, isTrim_self (by unfold whiteSpace; decide)⟩)) with ⟨vss, m, h, -⟩ | ⟨-, h⟩
  · cases h with
    | cons _ h =>
      cases h with
      | cons h _ =>
        cases h with
        | cons _ h =>
          cases h with
          | cons h _ =>
            have h1 := cell_parse h (by decide)
            have h2 : Strconv.parseFloat "1__5".toList = none := by decide +kernel
            rw [h2] at h1
            cases h1
  · exact h

/-- The same for a libsvm file: the value of feature 7 in the second line is no number. -/
theorem C135_libsvm_example : ∃ msg, csrMatFromLibsvm platform ⟨"1 0:1_000.5\n-1 3:NaN 7:1__5 8:1\n".toList, false⟩ 0 true = .err msg :=
  C135_libsvm_refused platform standard [("1".toList, [(0, "1_000.5".toList)]), ("-1".toList, [(3, "NaN".toList), (7, "1__5".toList), (8, "1".toList)])] _ [] true
    (by decide) (by decide) ("-1".toList, [(3, "NaN".toList), (7, "1__5".toList), (8, "1".toList)]) (by decide) 7 "1__5".toList (by decide) (by decide) (by decide)
    (small_of (by decide))
    (fun x h => by
      have h1 := cell_parse h (by decide)
      have h2 : Strconv.parseFloat "1__5".toList = none := by decide +kernel
      rw [h2] at h1
      cases h1)
    (block_written ["1 0:1_000.5".toList, "-1 3:NaN 7:1__5 8:1".toList] (by
      intro s hs
      simp only [List.mem_cons, List.not_mem_nil, or_false] at hs
      rcases hs with rfl | rfl
      · exact ⟨by decide, by decide, ⟨[], [], rfl, by simp, by simp, by unfold whiteSpace; decide, by unfold whiteSpace; decide⟩⟩
      · exact ⟨by decide, by decide, ⟨[], [], rfl, by simp, by simp, by unfold whiteSpace; decide, by unfold whiteSpace; decide⟩⟩))

end NotationExample

end Leaves
