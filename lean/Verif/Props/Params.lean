import Verif.Proofs.Params

/-!
# C35, C36, C37: parameter blocks and numeric fields

`Spec.Block` says where a block ends and what its trimmed lines are, `Spec.Bound` what they bind.
-/

namespace Leaves

open Spec

/-- C35: a block of non-blank lines with at most one `=` each, ended by a blank line, gives exactly the bindings of its
lines (the last one wins), and leaves the reader right after the blank line. -/
theorem C35_block_read_back (first s t rest : Str) (ss : List Str) (io : Bool) (hn : '\n' ∉ first) (hl : IsTrim first s)
    (hb : Block t ss rest false) (hr : Readable (s :: ss)) :
    ∃ p, readParamsUntilBlank ⟨first ++ '\n' :: t, io⟩ = .ok (p, ⟨rest, io⟩) ∧ ∀ k v, p k = some v ↔ Bound (s :: ss) k v := by
  rcases readParams_block io hn hl hb with ⟨-, -, h⟩ | ⟨h, -⟩
  · exact h
  · exact absurd ⟨hr, rfl⟩ h

/-- C35: the same for a block ended by the end of the text (whose last line needs no newline); nothing is left then. -/
theorem C35_block_at_end (first s t rest : Str) (ss : List Str) (e : Bool) (hn : '\n' ∉ first) (hl : IsTrim first s)
    (hb : Block t ss rest e) (hr : Readable (s :: ss)) :
    ∃ p, readParamsUntilBlank ⟨first ++ '\n' :: t, false⟩ = .ok (p, ⟨rest, false⟩) ∧
      ∀ k v, p k = some v ↔ Bound (s :: ss) k v := by
  rcases readParams_block false hn hl hb with ⟨-, -, h⟩ | ⟨h, -⟩
  · exact h
  · exact absurd ⟨hr, by simp⟩ h

/-- C35: one blank line before the block is skipped: it binds nothing but the empty key. -/
theorem C35_one_leading_blank (lines : List Str) (k v : Str) (hk : k ≠ []) : Bound ([] :: lines) k v ↔ Bound lines k v := by
  have h0 : ∀ v, ¬ LineBinds [] k v := by
    rintro v (⟨h, -⟩ | ⟨-, h, -⟩)
    · cases k <;> simp at h
    · exact hk h
  constructor
  · rintro ⟨i, s, h1, h2, h3⟩
    cases i with
    | zero => simp at h1; subst h1; exact absurd h2 (h0 v)
    | succ i => exact ⟨i, s, by simpa using h1, h2, fun j s' v' hj hs => h3 (j + 1) s' v' (by omega) (by simpa using hs)⟩
  · rintro ⟨i, s, h1, h2, h3⟩
    refine ⟨i + 1, s, by simpa using h1, h2, fun j s' v' hj hs => ?_⟩
    cases j with
    | zero => omega
    | succ j => exact h3 j s' v' (by omega) (by simpa using hs)

/-- C36: a block with a line of two or more `=` signs is rejected. -/
theorem C36_two_equals_rejected (first s t rest : Str) (ss : List Str) (io e : Bool) (hn : '\n' ∉ first) (hl : IsTrim first s)
    (hb : Block t ss rest e) {u : Str} (hu : u ∈ s :: ss) (h2 : 2 ≤ u.count '=') :
    ∃ m, readParamsUntilBlank ⟨first ++ '\n' :: t, io⟩ = .err m := by
  rcases readParams_block io hn hl hb with ⟨h, -⟩ | ⟨-, h⟩
  · have := h u hu; omega
  · exact h

/-- C36: an input that fails in the middle of the block is rejected. -/
theorem C36_io_error_rejected (first s t rest : Str) (ss : List Str) (hn : '\n' ∉ first) (hl : IsTrim first s)
    (hb : Block t ss rest true) : ∃ m, readParamsUntilBlank ⟨first ++ '\n' :: t, true⟩ = .err m := by
  rcases readParams_block true hn hl hb with ⟨-, h, -⟩ | ⟨-, h⟩
  · cases h
  · exact h

/-- C36: a text without a newline is rejected. -/
theorem C36_no_newline_rejected (t : Str) (io : Bool) (h : '\n' ∉ t) : ∃ m, readParamsUntilBlank ⟨t, io⟩ = .err m :=
  readParams_no_newline h io

/-- Every text is covered by the theorems above: it has no newline, or a first line and a block after it. -/
theorem C36_texts_covered (t : Str) : '\n' ∉ t ∨ ∃ first s u ss rest e, t = first ++ '\n' :: u ∧ '\n' ∉ first ∧ IsTrim first s ∧
    Block u ss rest e := by
  rcases line_cases t with h | ⟨l, u, rfl, h⟩
  · exact .inl h
  · obtain ⟨s, hs⟩ := isTrim_exists l
    obtain ⟨ss, rest, e, hb⟩ := block_exists (u.length + 1) u (by omega)
    exact .inr ⟨l, s, u, ss, rest, e, rfl, h, hs, hb⟩

/-- C36: `ReadParamsUntilBlank` always returns, with parameters or an error. -/
theorem C36_terminates (r : Reader) : (∃ p r', readParamsUntilBlank r = .ok (p, r')) ∨ ∃ m, readParamsUntilBlank r = .err m := by
  obtain ⟨t, io⟩ := r
  rcases C36_texts_covered t with h | ⟨first, s, u, ss, rest, e, rfl, hn, hl, hb⟩
  · exact .inr (readParams_no_newline h io)
  · rcases readParams_block io hn hl hb with ⟨-, -, p, h, -⟩ | ⟨-, h⟩
    · exact .inl ⟨_, _, h⟩
    · exact .inr h

/-- what a call to `ReadParamsUntilBlank` leaves is a proper suffix of what was there -/
theorem C36_consumes (r r' : Reader) (p : Params) (h : readParamsUntilBlank r = .ok (p, r')) :
    r'.rest <:+ r.rest ∧ r'.rest.length < r.rest.length ∧ r'.ioErr = r.ioErr := by
  have hsuf : ∀ {t : Str} {ss : List Str} {rest : Str} {e : Bool}, Block t ss rest e → rest <:+ t := by
    intro t ss rest e hb
    induction hb with
    | blank l rest => exact ⟨l ++ ['\n'], by simp⟩
    | stop l => exact List.nil_suffix
    | @line l s t rest ss e _ _ _ _ ih => exact ih.trans ⟨l ++ ['\n'], by simp⟩
    | last => exact List.nil_suffix
  obtain ⟨t, io⟩ := r
  rcases C36_texts_covered t with hn | ⟨first, s, u, ss, rest, e, rfl, hn, hl, hb⟩
  · obtain ⟨m, hm⟩ := readParams_no_newline hn io
    rw [hm] at h; cases h
  · rcases readParams_block io hn hl hb with ⟨-, -, p', h', -⟩ | ⟨-, m, h'⟩
    · rw [h'] at h
      cases h
      have h1 := hsuf hb
      refine ⟨h1.trans ⟨first ++ ['\n'], by simp⟩, ?_, rfl⟩
      have := h1.length_le
      simp only [List.length_append, List.length_cons]
      omega
    · rw [h'] at h; cases h

/-- C37: decimal `uint32` lists are read back; a number that does not fit is rejected. -/
theorem C37_uint32_slice (p : Params) (key : Str) (ns : List Nat) (hne : ns ≠ [])
    (hk : p key = some (join " ".toList (ns.map decimal))) :
    ((∀ n ∈ ns, n < 2 ^ 32) → p.toUint32Slice key = .ok ns) ∧
    ((∃ n ∈ ns, 2 ^ 32 ≤ n) → ∃ m, p.toUint32Slice key = .err m) := by
  unfold Params.toUint32Slice
  rw [hk]
  simp only
  rw [split_join (by decide) (by simpa using hne) (by
    intro t ht
    obtain ⟨n, -, rfl⟩ := List.mem_map.1 ht
    exact clean_decimal (by decide) n)]
  constructor
  · intro h
    have := convertAll_map (f := parseUint 32) (g := decimal) (k := id) ns
      (fun n hn => by rw [parseUint_decimal, if_pos (h n hn)]; rfl)
    simpa using this
  · rintro ⟨n, hn, h⟩
    exact convertAll_none (List.mem_map_of_mem hn) (by rw [parseUint_decimal, if_neg (by omega)])

/-- C37: decimal `int32` lists are read back; a number that does not fit is rejected. -/
theorem C37_int32_slice (p : Params) (key : Str) (ns : List Int) (hne : ns ≠ [])
    (hk : p key = some (join " ".toList (ns.map decimalI))) :
    ((∀ n ∈ ns, -2 ^ 31 ≤ n ∧ n < 2 ^ 31) → p.toInt32Slice key = .ok ns) ∧
    ((∃ n ∈ ns, ¬ (-2 ^ 31 ≤ n ∧ n < 2 ^ 31)) → ∃ m, p.toInt32Slice key = .err m) := by
  unfold Params.toInt32Slice
  rw [hk]
  simp only
  rw [split_join (by decide) (by simpa using hne) (by
    intro t ht
    obtain ⟨n, -, rfl⟩ := List.mem_map.1 ht
    exact clean_decimalI (by decide) (by decide) n)]
  constructor
  · intro h
    have := convertAll_map (f := parseInt 32) (g := decimalI) (k := id) ns
      (fun n hn => by rw [parseInt_decimalI, if_pos (h n hn)]; rfl)
    simpa using this
  · rintro ⟨n, hn, h⟩
    exact convertAll_none (List.mem_map_of_mem hn) (by rw [parseInt_decimalI, if_neg h])

/-- C37: a decimal `int` is read back; a number that does not fit is rejected. -/
theorem C37_int (p : Params) (key : Str) (n : Int) (hk : p key = some (decimalI n)) :
    ((-2 ^ 63 ≤ n ∧ n < 2 ^ 63) → p.toInt key = .ok n) ∧ (¬ (-2 ^ 63 ≤ n ∧ n < 2 ^ 63) → ∃ m, p.toInt key = .err m) := by
  unfold Params.toInt
  rw [hk]
  simp only
  unfold atoi
  rw [parseInt_decimalI]
  exact ⟨fun h => by rw [if_pos h]; rfl, fun h => by rw [if_neg h]; exact ⟨_, rfl⟩⟩

/-- C37: a list of floats is read back if the library's parsing inverts the printing used (blanks do not occur in
numbers). -/
theorem C37_float64_slice (P : Platform) (p : Params) (key : Str) (print : F64 → Str) (xs : List F64) (hne : xs ≠ [])
    (hp : ∀ x ∈ xs, P.parseFloat (print x) = some x) (hb : ∀ x ∈ xs, ' ' ∉ print x)
    (hk : p key = some (join " ".toList (xs.map print))) : p.toFloat64Slice P key = .ok xs := by
  unfold Params.toFloat64Slice
  rw [hk]
  simp only
  rw [split_join (by decide) (by simpa using hne) (by
    intro t ht c hc hcs
    obtain ⟨x, hx, rfl⟩ := List.mem_map.1 ht
    have : c = ' ' := by simpa using hcs
    exact hb x hx (this ▸ hc))]
  have := convertAll_map (f := P.parseFloat) (g := print) (k := id) xs hp
  simpa using this

/-- C37: a missing field is an error for every accessor. -/
theorem C37_missing_field (P : Platform) (p : Params) (key : Str) (hk : p key = none) :
    (∃ m, p.toInt key = .err m) ∧ (∃ m, p.toUint32Slice key = .err m) ∧ (∃ m, p.toInt32Slice key = .err m) ∧
    (∃ m, p.toFloat64Slice P key = .err m) ∧ (∃ m, p.toStrSlice key = .err m) ∧ ∃ m, p.toString key = .err m := by
  unfold Params.toInt Params.toUint32Slice Params.toInt32Slice Params.toFloat64Slice Params.toStrSlice Params.toString
  simp only [hk]
  exact ⟨⟨_, rfl⟩, ⟨_, rfl⟩, ⟨_, rfl⟩, ⟨_, rfl⟩, ⟨_, rfl⟩, _, rfl⟩

namespace ParamsExample

/-- the lines after the first one: a field with a carriage return, one without `=`, the first key again, a blank line -/
def text : Str := "b=2 3\r\n  flag\na=7\n \nrest".toList

theorem ws (a b s : Str) (h1 : ∀ c ∈ a, isSpace c = true) (h2 : ∀ c ∈ b, isSpace c = true)
    (h3 : ∀ c, s.head? = some c → isSpace c = false) (h4 : ∀ c, s.getLast? = some c → isSpace c = false) : IsTrim (a ++ s ++ b) s := by
  refine ⟨a, b, rfl, fun c hc => (isSpace_iff c).1 (h1 c hc), fun c hc => (isSpace_iff c).1 (h2 c hc), fun c hc hw => ?_, fun c hc hw => ?_⟩
  · rw [← isSpace_iff, h3 c hc] at hw; cases hw
  · rw [← isSpace_iff, h4 c hc] at hw; cases hw

theorem block : Block text ["b=2 3".toList, "flag".toList, "a=7".toList] "rest".toList false := by
  refine .line (l := "b=2 3\r".toList) (t := "  flag\na=7\n \nrest".toList) (by decide)
    (ws [] ['\r'] "b=2 3".toList (by simp) (by decide) (by decide) (by decide)) (by decide) ?_
  refine .line (l := "  flag".toList) (t := "a=7\n \nrest".toList) (by decide)
    (ws "  ".toList [] "flag".toList (by decide) (by simp) (by decide) (by decide)) (by decide) ?_
  refine .line (l := "a=7".toList) (t := " \nrest".toList) (by decide)
    (ws [] [] "a=7".toList (by simp) (by simp) (by decide) (by decide)) (by decide) ?_
  exact .blank [' '] "rest".toList (by decide) (ws [' '] [] [] (by decide) (by simp) (by simp) (by simp))

/-- The theorems apply: `a` is 7 (the last binding), `b` is the list 2, 3, `flag` is bound to nothing. -/
example : ∃ p, readParamsUntilBlank ⟨"a=1\n".toList ++ text, false⟩ = .ok (p, ⟨"rest".toList, false⟩) ∧
    p "a".toList = some "7".toList ∧ p.toUint32Slice "b".toList = .ok [2, 3] ∧ p "flag".toList = some [] ∧ p "c".toList = none := by
  obtain ⟨p, h1, h2⟩ := C35_block_read_back "a=1".toList "a=1".toList text "rest".toList _ false (by decide)
    (ws [] [] "a=1".toList (by simp) (by simp) (by decide) (by decide)) block (by unfold Readable; decide)
  refine ⟨p, h1, ?_⟩
  have hb : p "b".toList = some "2 3".toList := (h2 _ _).2
    ⟨1, "b=2 3".toList, rfl, .inl ⟨rfl, by decide, by decide⟩, by
      rintro j s' v' hj hs hl
      match j, hj, hs with
      | 2, _, hs => cases hs; exact absurd (lineBinds_unique hl (.inr ⟨by decide, rfl, rfl⟩)).1 (by decide)
      | 3, _, hs => cases hs; exact absurd (lineBinds_unique hl (k' := "a".toList) (v' := "7".toList) (.inl ⟨rfl, by decide, by decide⟩)).1 (by decide)
      | n + 4, _, hs => cases hs⟩
  refine ⟨?_, (C37_uint32_slice p "b".toList [2, 3] (by simp) (by rw [hb]; decide)).1 (by decide), ?_, ?_⟩
  · exact (h2 _ _).2 ⟨3, "a=7".toList, rfl, .inl ⟨rfl, by decide, by decide⟩, by
      rintro j s' v' hj hs
      match j, hj, hs with
      | n + 4, _, hs => cases hs⟩
  · exact (h2 _ _).2 ⟨2, "flag".toList, rfl, .inr ⟨by decide, rfl, rfl⟩, by
      rintro j s' v' hj hs hl
      match j, hj, hs with
      | 3, _, hs => cases hs; exact absurd (lineBinds_unique hl (k' := "a".toList) (v' := "7".toList) (.inl ⟨rfl, by decide, by decide⟩)).1 (by decide)
      | n + 4, _, hs => cases hs⟩
  · cases hc : p "c".toList with
    | none => rfl
    | some v =>
      obtain ⟨i, s, hi, hs, -⟩ := (h2 _ _).1 hc
      have key : ∀ (u k w : Str), LineBinds u k w → k ≠ "c".toList → ∀ v, ¬ LineBinds u "c".toList v := by
        intro u k w h hk v hv
        exact hk (lineBinds_unique h hv).1
      match i, hi with
      | 0, hi => cases hi; exact absurd hs (key _ "a".toList "1".toList (.inl ⟨rfl, by decide, by decide⟩) (by decide) _)
      | 1, hi => cases hi; exact absurd hs (key _ "b".toList "2 3".toList (.inl ⟨rfl, by decide, by decide⟩) (by decide) _)
      | 2, hi => cases hi; exact absurd hs (key _ "flag".toList [] (.inr ⟨by decide, rfl, rfl⟩) (by decide) _)
      | 3, hi => cases hi; exact absurd hs (key _ "a".toList "7".toList (.inl ⟨rfl, by decide, by decide⟩) (by decide) _)
      | n + 4, hi => cases hi

/-- numbers beyond the range are rejected -/
example : ∃ m, (Params.empty.set "k".toList "4294967296".toList).toUint32Slice "k".toList = .err m :=
  (C37_uint32_slice _ _ [4294967296] (by simp) (by decide)).2 ⟨_, List.mem_singleton_self _, by decide⟩

example : (Params.empty.set "k".toList "-5 2147483647".toList).toInt32Slice "k".toList = .ok [-5, 2147483647] :=
  (C37_int32_slice _ _ [-5, 2147483647] (by simp) (by decide)).1 (by decide)

/-- a second blank line before the block makes an empty block -/
example : readParamsUntilBlank ⟨"\n\na=1\n\n".toList, false⟩ = .ok (Params.empty.set [] [], ⟨"a=1\n\n".toList, false⟩) := rfl

end ParamsExample

end Leaves
