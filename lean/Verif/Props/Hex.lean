import Verif.Proofs.Hex
import Verif.Props.Decimal
import Verif.Props.Pickle

/-! # C130: every notation of a number in a CSV file is read as the number it denotes -/

namespace Leaves

open Spec Mat

/-- C130: If every cell of a CSV file denotes a float64, in decimal, in hexadecimal, by name or by being empty (then the default value), the
file is read as the matrix of exactly these float64. -/
theorem C130_csv (P : Platform) (hP : Strconv.Standard P) (rows : List (List Str)) (vss : List (List F64)) (c : Nat) (delim : Str) (d : F64)
    (t rest : Str) (e : Bool) (hd : delim ≠ []) (hda : ∀ ch ∈ delim, ch ∉ cellChars) (hc : 1 ≤ c) (hrows : rows ≠ [])
    (hrow : ∀ row ∈ rows, row.length = c) (hok : List.Forall₂ (List.Forall₂ (CellReads d)) rows vss)
    (hb : Block t (rows.map (join delim)) rest e) :
    ∃ m, denseMatFromCsv P ⟨t, false⟩ 0 false delim d = .ok m ∧ DenseOf vss c m := by
  have htok : ∀ (k : Nat) (row : List Str) (vs : List F64), List.Forall₂ (CellReads d) row vs → csvTokens P d k row = .ok (recsFrom k vs) := by
    intro k row vs h
    induction h generalizing k with
    | nil => rfl
    | @cons s x row vs hx h ih =>
      rw [csvTokens, ih (k + 1)]
      dsimp only
      by_cases hs : s = []
      · subst hs
        obtain rfl := cell_empty hx
        simp
        rfl
      · rw [if_neg (by simpa using hs), hP.parse, cell_parse hx hs]
        rfl
  -- pair the lines with their values
  have hz : ∀ p ∈ rows.zip vss, p.1.length = c ∧ List.Forall₂ (CellReads d) p.1 p.2 := by
    intro p hp
    exact ⟨hrow _ (List.of_mem_zip hp).1, (List.forall₂_iff_zip.1 hok).2 hp⟩
  have hlen : rows.length = vss.length := hok.length_eq
  have e1 : (rows.zip vss).map Prod.fst = rows := List.map_fst_zip (by omega)
  have e2 : (rows.zip vss).map Prod.snd = vss := List.map_snd_zip (by omega)
  have hline : ∀ p ∈ rows.zip vss, Mat.csvLine P false delim d (join delim p.1) = .ok (recsFrom 0 p.2) ∧ p.2.length = c := by
    intro p hp
    obtain ⟨g1, g2⟩ := hz p hp
    refine ⟨?_, by rw [← g2.length_eq, g1]⟩
    unfold Mat.csvLine
    rw [split_join hd (by intro h0; rw [h0] at g1; simp at g1; omega) (by
      intro t ht ch hch hcd
      obtain ⟨i, hi, rfl⟩ := List.mem_iff_getElem.1 ht
      have := (List.forall₂_iff_get.1 g2).2 i hi (by rw [← g2.length_eq]; exact hi)
      exact hda ch hcd (cell_chars this ch hch))]
    exact htok 0 p.1 p.2 g2
  obtain ⟨m, h1, h2⟩ := runLines_dense (parse := Mat.csvLine P false delim d) (fun p : List Str × List F64 => join delim p.1)
    Prod.snd hc (rows.zip vss) hline [] _ (denseSoFar_empty c)
  refine ⟨m, ?_, ?_⟩
  · unfold denseMatFromCsv
    rw [readRows_first _ _ _ hb]
    have e3 : (rows.zip vss).map (fun p => join delim p.1) = ((rows.zip vss).map Prod.fst).map (join delim) := by rw [List.map_map]; rfl
    rw [e1] at e3
    rw [e3] at h1
    exact h1
  · rw [List.nil_append, e2] at h2
    exact h2.denseOf (by rintro rfl; rw [List.length_nil] at hlen; exact hrows (List.length_eq_zero_iff.1 hlen))

/-- C130: A hexadecimal numeral whose number is a float64 denotes exactly this float64, however many digits it has: nothing is rounded. -/
theorem C130_hex_exact (w : HexNum) (m : Nat) (hm : Rep m) (hw : w.magnitude = m / unit) :
    w.Reads (.fin (decide (w.sign = ['-'])) m hm) := by
  have hu : (0 : ℚ) < unit := by exact_mod_cast unit_pos
  have hmag : (0 : ℚ) ≤ w.magnitude := by rw [hw]; positivity
  refine ⟨⟨?_, ?_, m, ?_, .inl ⟨hm.1, _, hm, rfl⟩⟩, m, hm, rfl⟩
  · intro h
    have : w.sign ≠ ['-'] := by
      intro hs
      rw [HexNum.value, if_pos hs] at h
      linarith
    rw [decide_eq_false this]
    exact .inl ⟨_, _, rfl⟩
  · intro h
    have : w.sign = ['-'] := by
      by_contra hs
      rw [HexNum.value, if_neg hs] at h
      linarith
    rw [decide_eq_true this]
    exact .inl ⟨_, _, rfl⟩
  · have habs : |w.value| = w.magnitude := by
      unfold HexNum.value
      split
      · rw [abs_neg, abs_of_nonneg hmag]
      · exact abs_of_nonneg hmag
    rw [habs, hw, div_mul_cancel₀ _ hu.ne']
    exact nearest_self hm

/-- C130: What a cell denotes is unique. -/
theorem C130_unique {d x y : F64} {s : Str} (hx : CellReads d s x) (hy : CellReads d s y) : x = y := by
  by_cases hs : s = []
  · subst hs; rw [cell_empty hx, cell_empty hy]
  · exact Option.some.inj ((cell_parse hx hs).symm.trans (cell_parse hy hs))

/-- C130: A hexadecimal numeral beyond the range of float64 is an error. -/
theorem C130_hex_overflow (P : Platform) (hP : Strconv.Standard P) (w : HexNum) (delim : Str) (d : F64) (t rest : Str) (ss : List Str) (e : Bool)
    (hd : delim ≠ []) (hda : ∀ ch ∈ delim, ch ∉ cellChars) (hw : w.OK) (s : Bool) (ho : Rounded w.value (.inf s)) (hb : Block t (w.text :: ss) rest e) :
    ∃ msg, denseMatFromCsv P ⟨t, false⟩ 0 false delim d = .err msg := by
  unfold denseMatFromCsv
  rw [readRows_first _ _ _ hb]
  have : firstRows 0 (w.text :: ss) = w.text :: ss := rfl
  rw [this, runLines]
  unfold Mat.csvLine
  have hs := split_join (sep := delim) (toks := [w.text]) hd (by simp) (by
    intro t ht ch hch hcd
    obtain rfl := List.mem_singleton.1 ht
    exact hda ch hcd (hexNumeral_sub ch (HexNum'.text_chars hw ch hch)).1)
  rw [show join delim [w.text] = w.text by simp [join]] at hs
  rw [hs]
  simp only [Bool.false_eq_true, if_false, List.drop_zero]
  rw [csvTokens]
  dsimp only
  have hne : w.text ≠ [] := by
    intro h0
    have := (List.append_eq_nil_iff.1 h0).2
    cases this
  have hp : Strconv.parseFloat w.text = none := by
    obtain ⟨y, ⟨-, -, k, hk, hy⟩, -, g3⟩ := parseFloat_hex hw
    obtain ⟨-, -, k', hk', h2⟩ := ho
    have := Nearest.unique hk hk'
    subst this
    rw [g3]
    rcases hy with ⟨hlt, -⟩ | ⟨-, t, rfl⟩
    · rcases h2 with ⟨_, _, _, e⟩ | ⟨hge, -⟩
      · cases e
      · omega
    · rfl
  rw [if_neg (by simpa using hne), hP.parse, hp]
  exact ⟨_, rfl⟩

theorem entries_parse {P : Platform} (hP : Strconv.Standard P) {row : List (Nat × Str)} {vals : List (Nat × F64)} (h : EntriesRead row vals) :
    libsvmTokens P (row.map fun e => decimal e.1 ++ ':' :: e.2) = .ok (vals.map toRec) := by
  induction h with
  | nil => rfl
  | @cons e v row vals he h ih =>
    obtain ⟨h1, h2, h3, h4⟩ := he
    rw [List.map_cons, libsvmTokens, if_neg (by simp)]
    have hs : split (decimal e.1 ++ ':' :: e.2) ":".toList = [decimal e.1, e.2] := (split_two ':' _ _ _).2
      ⟨rfl, fun hc => by have := decimal_isDigit hc; exact absurd this (by decide), fun hc => absurd (cell_chars h4 _ hc) (by decide)⟩
    rw [hs]
    dsimp only
    rw [parseUint_decimal, if_pos h2, hP.parse, cell_parse h4 h3, ih, h1]
    rfl

/-- C132: The same for the values of libsvm files: each is read as what it denotes, whatever notation is used. -/
theorem C132_libsvm (P : Platform) (hP : Strconv.Standard P) (rows : List (Str × List (Nat × Str) × List (Nat × F64))) (limit : Int) (t rest : Str) (e : Bool)
    (hl : ∀ x ∈ rows, ' ' ∉ x.1) (hne : ∀ x ∈ rows, x.2.1 ≠ []) (hv : ∀ x ∈ rows, EntriesRead x.2.1 x.2.2)
    (hb : Block t (rows.map fun x => svmSpelled x.1 x.2.1) rest e) :
    ∃ m, csrMatFromLibsvm P ⟨t, false⟩ limit true = .ok m ∧ CsrOf (firstRows limit (rows.map fun x => x.2.2)) m := by
  have key : ∀ x ∈ firstRows limit rows, libsvmLine P true (svmSpelled x.1 x.2.1) = .ok (x.2.2.map toRec) := by
    intro x hx
    have hx := mem_firstRows hx
    unfold libsvmLine svmSpelled
    rw [split_join (by simp) (by simp) (by
      intro t ht
      rcases List.mem_cons.1 ht with rfl | ht
      · intro c hc hcs
        obtain rfl : c = ' ' := by simpa using hcs
        exact hl x hx hc
      · obtain ⟨e, he, rfl⟩ := List.mem_map.1 ht
        intro c hc hcs
        obtain rfl : c = ' ' := by simpa using hcs
        rcases List.mem_append.1 hc with hc | hc
        · have := decimal_isDigit hc; exact absurd this (by decide)
        · rcases List.mem_cons.1 hc with hc | hc
          · exact absurd hc (by decide)
          · obtain ⟨i, hi, rfl⟩ := List.mem_iff_getElem.1 he
            have hr := (List.forall₂_iff_get.1 (hv x hx)).2 i hi (by rw [← (hv x hx).length_eq]; exact hi)
            exact absurd (cell_chars hr.2.2.2 _ hc) (by decide))]
    have := List.length_pos_of_ne_nil (hne x hx)
    dsimp only
    rw [if_neg (by simp; omega)]
    simpa using entries_parse hP (hv x hx)
  unfold csrMatFromLibsvm
  rw [readRows_first _ _ _ hb, firstRows_map, firstRows_map]
  obtain ⟨m, h1, h2⟩ := runLines_csr (parse := libsvmLine P true) (fun x : Str × List (Nat × Str) × List (Nat × F64) => svmSpelled x.1 x.2.1)
    (fun x => x.2.2) (firstRows limit rows) key [] _ csrOf_empty
  exact ⟨m, h1, by simpa using h2⟩

open Pickle in
/-- C132: A Python float arrives in Go bit by bit, if its text in the pickle (for Python the shortest numeral nearest to it) denotes it. -/
theorem C132_pickle (P : Platform) (hP : Strconv.Standard P) (x : F64) (text : Str) (rest : Pickle.Bytes) (ht : text ≠ []) (h : CellReads .nan text x) :
    ∃ y m, decode P (octet 'F' :: (octets text ++ [nl]) ++ octet '.' :: rest) = .ok (y, m) ∧ Denotes m.arrays m.dicts y (.float x) := by
  refine C51_decode P (.float x) trivial _ rest noMemo (.float _ x text (fun c hc => ?_) (by rw [hP.parse]; exact cell_parse h ht))
  have key : ∀ c ∈ cellChars, c.toNat < 128 ∧ c ≠ '\n' := by decide
  exact key c (cell_chars h c hc)

namespace HexExample
open DecimalExample

/-- `-0X1.8p-3`, `0xFp1023` -/
def h1 : HexNum := ⟨"-".toList, 'X', "1".toList, some "8".toList, 'p', "-".toList, "3".toList⟩
def h2 : HexNum := ⟨[], 'x', "F".toList, none, 'p', [], "1023".toList⟩

theorem h1_ok : h1.OK := ⟨.inr (.inr rfl), .inr rfl, by decide, by decide, by decide, .inl rfl, .inr (.inr rfl), by decide, by decide, by decide⟩
theorem h2_ok : h2.OK := ⟨.inl rfl, .inl rfl, by decide, by decide, by decide, .inl rfl, .inl rfl, by decide, by decide, by decide⟩

/-- -3/16 -/
theorem h1_value : h1.value = -3 / 16 := by
  have e1 : hexNumber (h1.whole ++ h1.frac) = 24 := by decide
  have e2 : h1.exponent - 4 * h1.frac.length = -7 := by decide
  unfold HexNum.value HexNum.magnitude
  rw [if_pos (show h1.sign = ['-'] from rfl), e1, e2]
  norm_num

theorem h1_rep : Rep (3 * 2 ^ 1070) := ⟨by decide +kernel, by decide +kernel⟩

theorem h1_reads : h1.Reads (F64.neg (F64.const 3 16)) := by
  have h := C130_hex_exact h1 (3 * 2 ^ 1070) h1_rep (by
    have := h1_value
    rw [HexNum.value, if_pos (show h1.sign = ['-'] from rfl)] at this
    rw [show h1.magnitude = 3 / 16 by linarith]
    unfold unit
    push_cast
    rw [show (1074 : Nat) = 4 + 1070 from rfl, pow_add]
    field_simp
    norm_num)
  have e : F64.neg (F64.const 3 16) = .fin (decide (h1.sign = ['-'])) (3 * 2 ^ 1070) h1_rep := by decide +kernel
  rw [e]
  exact h

theorem w1_reads : ReadsAs w1 (F64.const 5 2) := by
  obtain ⟨x, h1, h2⟩ := parse_reads w1_ok w1_fits
  have h3 : Strconv.parseFloat w1.text = some (F64.const 5 2) := by decide +kernel
  rw [h3] at h2
  obtain rfl := Option.some.inj h2
  exact h1

/-- A table with a cell of every kind: `-0X1.8p-3,2.50` and `,NaN` and `+Inf,-iNFINITy`; the default value is 7. -/
theorem C130_example : ∃ m, denseMatFromCsv platform ⟨"-0X1.8p-3,2.50\n,NaN\n+Inf,-iNFINITy\n".toList, false⟩ 0 false ",".toList (F64.ofNat 7) = .ok m ∧
    DenseOf [[F64.neg (F64.const 3 16), F64.const 5 2], [F64.ofNat 7, .nan], [.inf false, .inf true]] 2 m :=
  C130_csv platform standard [["-0X1.8p-3".toList, "2.50".toList], ["".toList, "NaN".toList], ["+Inf".toList, "-iNFINITy".toList]] _ 2 ",".toList (F64.ofNat 7) _ [] true
    (by decide) (by decide) (by norm_num) (by decide) (by decide)
    (.cons (.cons (.hexadecimal h1 _ h1_ok h1_reads) (.cons (.decimal w1 _ w1_ok w1_reads) .nil))
      (.cons (.cons .empty (.cons (.nan _ (.cons (.inr rfl) (.cons (.inl rfl) (.cons (.inr rfl) .nil)))) .nil))
        (.cons (.cons (.inf "+".toList "Inf".toList (.inr (.inl rfl)) (.inl (.cons (.inr rfl) (.cons (.inl rfl) (.cons (.inl rfl) .nil)))))
          (.cons (.inf "-".toList "iNFINITy".toList (.inr (.inr rfl)) (.inr (.cons (.inl rfl) (.cons (.inr rfl) (.cons (.inr rfl) (.cons (.inr rfl) (.cons (.inr rfl)
            (.cons (.inr rfl) (.cons (.inr rfl) (.cons (.inl rfl) .nil)))))))))) .nil)) .nil)))
    (block_written ["-0X1.8p-3,2.50".toList, ",NaN".toList, "+Inf,-iNFINITy".toList] (by
      intro s hs
      simp only [List.mem_cons, List.not_mem_nil, or_false] at hs
      rcases hs with rfl | rfl | rfl <;> exact ⟨by decide, by decide, isTrim_self (by unfold whiteSpace; decide)⟩))

/-- two libsvm rows; the value 2.5 and a hexadecimal one -/
theorem C132_libsvm_example : ∃ m, csrMatFromLibsvm platform ⟨"1 0:2.50 7:-0X1.8p-3\n-1 3:NaN\n".toList, false⟩ 0 true = .ok m ∧
    CsrOf [[(0, F64.const 5 2), (7, F64.neg (F64.const 3 16))], [(3, .nan)]] m :=
  C132_libsvm platform standard [("1".toList, [(0, "2.50".toList), (7, "-0X1.8p-3".toList)], [(0, F64.const 5 2), (7, F64.neg (F64.const 3 16))]),
      ("-1".toList, [(3, "NaN".toList)], [(3, .nan)])] 0 _ [] true (by decide) (by decide)
    (by
      intro x hx
      simp only [List.mem_cons, List.not_mem_nil, or_false] at hx
      rcases hx with rfl | rfl
      · exact .cons ⟨rfl, by norm_num, by decide, .decimal w1 _ w1_ok w1_reads⟩ (.cons ⟨rfl, by norm_num, by decide, .hexadecimal h1 _ h1_ok h1_reads⟩ .nil)
      · exact .cons ⟨rfl, by norm_num, by decide, .nan _ (.cons (.inr rfl) (.cons (.inl rfl) (.cons (.inr rfl) .nil)))⟩ .nil)
    (block_written ["1 0:2.50 7:-0X1.8p-3".toList, "-1 3:NaN".toList] (by
      intro s hs
      simp only [List.mem_cons, List.not_mem_nil, or_false] at hs
      rcases hs with rfl | rfl
      · exact ⟨by decide, by decide, ⟨[], [], rfl, by simp, by simp, by unfold whiteSpace; decide, by unfold whiteSpace; decide⟩⟩
      · exact ⟨by decide, by decide, ⟨[], [], rfl, by simp, by simp, by unfold whiteSpace; decide, by unfold whiteSpace; decide⟩⟩))

/-- the Python float 2.5 -/
theorem C132_pickle_example : ∃ y m, Pickle.decode platform (octet 'F' :: (octets "2.50".toList ++ [nl]) ++ octet '.' :: []) = .ok (y, m) ∧ Denotes m.arrays m.dicts y (.float (F64.const 5 2)) :=
  C132_pickle platform standard _ _ _ (by decide) (.decimal w1 _ w1_ok w1_reads)

/-- `0xFp1023` is too large. -/
example : ∃ msg, denseMatFromCsv platform ⟨"0xFp1023\n".toList, false⟩ 0 false ",".toList F64.nan = .err msg := by
  obtain ⟨y, g1, g2, g3⟩ := parseFloat_hex h2_ok
  have h : Strconv.parseFloat h2.text = none := by decide +kernel
  rw [h] at g3
  rcases g2 with ⟨m, hm, rfl⟩ | rfl
  · cases g3
  · exact C130_hex_overflow platform standard h2 ",".toList F64.nan _ [] [] true (by decide) (by decide) h2_ok _ g1
      (block_written [h2.text] (by
        intro s hs
        obtain rfl := List.mem_singleton.1 hs
        exact ⟨by decide, by decide, isTrim_self (by unfold whiteSpace; decide)⟩))

/-- Hexadecimal digits without an exponent are an error, as are names with a sign before NaN and underscores that do not stand between digits;
an underscore between digits is passed over. -/
theorem C130_not_numbers : Strconv.parseFloat "0x1.8".toList = none ∧ Strconv.parseFloat "-nan".toList = none ∧
    Strconv.parseFloat "1__5".toList = none ∧ Strconv.parseFloat "1_.5".toList = none ∧ Strconv.parseFloat "1_5".toList = some (F64.ofNat 15) ∧
    denseMatFromCsv platform ⟨"0x1.8\n".toList, false⟩ 0 false ",".toList F64.nan ≠ .ok ⟨[F64.const 3 2], 1, 1⟩ ∧
    denseMatFromCsv platform ⟨"1_5\n".toList, false⟩ 0 false ",".toList F64.nan = .ok ⟨[F64.ofNat 15], 1, 1⟩ := by
  decide +kernel

end HexExample

end Leaves
