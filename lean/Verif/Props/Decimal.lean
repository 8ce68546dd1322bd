import Verif.Proofs.Format
import Verif.Props.Mat
import Verif.Props.LgLoad

/-! # C83: numbers in text are read as the nearest float64, and 17 significant digits are enough -/

namespace Leaves

open Spec Mat

theorem numberChars_white {c : Char} (h : c ∈ numberChars) : ¬ whiteSpace c := by
  have : ∀ c ∈ numberChars, c ∉ ['\t', '\n', '\x0b', '\x0c', '\r', ' ', '\u0085', ' ', ' ', ' ', ' ', ' ', ' ',
    ' ', ' ', ' ', ' ', ' ', ' ', ' ', ' ', ' ', ' ', ' ', '　'] := by decide
  exact this c h

theorem isDigit_mem {c : Char} (h : c.isDigit = true) : c ∈ "0123456789".toList := by
  simp only [Char.isDigit, Bool.and_eq_true, decide_eq_true_eq] at h
  obtain ⟨h1, h2⟩ := h
  have h1 : 48 ≤ c.toNat := by have := UInt32.le_iff_toNat_le.1 h1; exact this
  have h2 : c.toNat ≤ 57 := by have := UInt32.le_iff_toNat_le.1 h2; exact this
  have : c = Char.ofNat c.toNat := (Char.ofNat_toNat c).symm
  rw [this]
  generalize c.toNat = n at *
  interval_cases n <;> decide

theorem numChar_mem {c : Char} (h : numChar c) : c ∈ numberChars := by
  rcases h with h | rfl | rfl | rfl | rfl | rfl
  · have : c ∈ "0123456789".toList ++ "+-.eENaIinf".toList := List.mem_append_left _ (isDigit_mem h)
    exact this
  all_goals decide

theorem numeral_ne_nil {w : DecNum} (h : w.OK) : w.text ≠ [] := by
  intro h0
  have hd := h.digit
  rw [DecNum'.text_eq, List.append_eq_nil_iff] at h0
  have h1 := h0.2
  unfold DecNum'.body at h1
  rw [List.append_eq_nil_iff, List.append_eq_nil_iff] at h1
  obtain ⟨e1, e2, -⟩ := h1
  refine hd ?_
  rw [e1, DecNum.frac]
  cases hp : w.point with
  | none => rfl
  | some ds => rw [hp] at e2; cases e2

/-- what is printed with 17 digits consists of the characters of numbers -/
theorem prints17_chars {print : F64 → Str} (h : Prints17 print) (x : F64) : print x ≠ [] ∧ ∀ c ∈ print x, c ∈ numberChars := by
  cases x with
  | nan => rcases h.nan with h | h <;> rw [h] <;> decide
  | inf s => cases s <;> rcases h.inf _ with h | h <;> rw [h] <;> decide
  | fin s m hm =>
    obtain ⟨w, h1, h2, -⟩ := h.finite s m hm
    rw [h2]
    exact ⟨numeral_ne_nil h1, fun c hc => numChar_mem (DecNum'.text_chars h1 c hc)⟩

theorem printsBack_of_prints17 {P : Platform} (hP : P.parseFloat = Strconv.parseFloat) {print : F64 → Str} (h : Prints17 print) {avoid : Str}
    (ha : ∀ c ∈ avoid, c ∉ numberChars) (x : F64) : PrintsBack P print avoid x :=
  ⟨by rw [hP]; exact parse_prints17 h x, (prints17_chars h x).1, fun c hc => numberChars_white ((prints17_chars h x).2 c hc),
    fun c hc hca => ha c hca ((prints17_chars h x).2 c hc)⟩

theorem parse_reads {w : DecNum} (h : w.OK) (ho : ¬ Overflows w) : ∃ x, ReadsAs w x ∧ Strconv.parseFloat w.text = some x := by
  obtain ⟨x, g1, g2, g3⟩ := parseFloat_text h
  rcases g2 with ⟨m, hm, rfl⟩ | rfl
  · exact ⟨_, ⟨g1, m, hm, rfl⟩, g3⟩
  · exact absurd ⟨_, g1⟩ ho

theorem parse_overflows {w : DecNum} (h : w.OK) (ho : Overflows w) : Strconv.parseFloat w.text = none := by
  obtain ⟨x, g1, g2, g3⟩ := parseFloat_text h
  obtain ⟨s, hs⟩ := ho
  rcases g2 with ⟨m, hm, rfl⟩ | rfl
  · obtain ⟨-, -, k, hk, h1⟩ := g1
    obtain ⟨-, -, k', hk', h2⟩ := hs
    have := Nearest.unique hk hk'
    subst this
    rcases h1 with ⟨hlt, -⟩ | ⟨-, t, e⟩
    · rcases h2 with ⟨_, _, _, e⟩ | ⟨hge, -⟩
      · cases e
      · omega
    · cases e
  · exact g3

/-- C83: Each number of a CSV file, written in decimal in whatever way, becomes the float64 nearest to it (ties to the even one), with the
sign that is written. -/
theorem C83_csv_nearest (P : Platform) (hP : Strconv.Standard P) (rows : List (List DecNum)) (c : Nat) (delim : Str) (d : F64) (t rest : Str) (e : Bool)
    (hd : delim ≠ []) (hda : ∀ ch ∈ delim, ch ∉ numberChars) (hc : 1 ≤ c) (hrows : rows ≠ []) (hrow : ∀ row ∈ rows, row.length = c)
    (hok : ∀ row ∈ rows, ∀ w ∈ row, w.OK ∧ ¬ Overflows w) (hb : Block t (rows.map fun row => join delim (row.map DecNum.text)) rest e) :
    ∃ m vss, denseMatFromCsv P ⟨t, false⟩ 0 false delim d = .ok m ∧ DenseOf vss c m ∧ List.Forall₂ (List.Forall₂ ReadsAs) rows vss := by
  have hread : ∀ w : DecNum, ∃ x, w.OK ∧ ¬ Overflows w → ReadsAs w x ∧ P.parseFloat w.text = some x := by
    intro w
    by_cases h : w.OK ∧ ¬ Overflows w
    · obtain ⟨x, h1, h2⟩ := parse_reads h.1 h.2
      exact ⟨x, fun _ => ⟨h1, by rw [hP.parse]; exact h2⟩⟩
    · exact ⟨F64.nan, fun h' => absurd h' h⟩
  choose f hf using hread
  have htok : ∀ (k : Nat) (row : List DecNum), (∀ w ∈ row, w.OK ∧ ¬ Overflows w) →
      csvTokens P d k (row.map DecNum.text) = .ok (recsFrom k (row.map f)) := by
    intro k row
    induction row generalizing k with
    | nil => intro _; rfl
    | cons w row ih =>
      intro h
      have hw := h w (by simp)
      rw [List.map_cons, csvTokens, ih (k + 1) fun w hw => h w (by simp [hw])]
      dsimp only
      rw [if_neg (by simpa using numeral_ne_nil hw.1), (hf w hw).2]
      rfl
  have hline : ∀ row ∈ rows, Mat.csvLine P false delim d (join delim (row.map DecNum.text)) = .ok (recsFrom 0 (row.map f)) ∧ (row.map f).length = c := by
    intro row hr
    have hlen := hrow row hr
    refine ⟨?_, by rw [List.length_map, hlen]⟩
    unfold Mat.csvLine
    rw [split_join hd (by rw [ne_eq, List.map_eq_nil_iff]; rintro rfl; simp at hlen; omega) (by
      intro t ht ch hch hcd
      obtain ⟨w, hw, rfl⟩ := List.mem_map.1 ht
      exact hda ch hcd (numChar_mem (DecNum'.text_chars (hok row hr w hw).1 ch hch)))]
    exact htok 0 row (hok row hr)
  obtain ⟨m, h1, h2⟩ := runLines_dense (parse := Mat.csvLine P false delim d) (fun row : List DecNum => join delim (row.map DecNum.text))
    (fun row => row.map f) hc rows hline [] _ (denseSoFar_empty c)
  refine ⟨m, rows.map fun row => row.map f, ?_, ?_, ?_⟩
  · unfold denseMatFromCsv
    rw [readRows_first _ _ _ hb]
    exact h1
  · have h2 : DenseSoFar (rows.map fun row => row.map f) c m := by simpa using h2
    exact h2.denseOf (by rw [ne_eq, List.map_eq_nil_iff]; exact hrows)
  · rw [List.forall₂_map_right_iff, List.forall₂_same]
    intro row hr
    rw [List.forall₂_map_right_iff, List.forall₂_same]
    exact fun w hw => (hf w (hok row hr w hw)).1

/-- C83: A number that is too large makes the CSV reader return an error, as the last number of the first line. -/
theorem C83_csv_overflow (P : Platform) (hP : Strconv.Standard P) (w : DecNum) (delim : Str) (d : F64) (t rest : Str) (ss : List Str) (e : Bool)
    (hd : delim ≠ []) (hda : ∀ ch ∈ delim, ch ∉ numberChars) (hw : w.OK) (ho : Overflows w) (hb : Block t (w.text :: ss) rest e) :
    ∃ msg, denseMatFromCsv P ⟨t, false⟩ 0 false delim d = .err msg := by
  unfold denseMatFromCsv
  rw [readRows_first _ _ _ hb]
  have : firstRows 0 (w.text :: ss) = w.text :: ss := rfl
  rw [this, runLines]
  unfold Mat.csvLine
  have hs := split_join (sep := delim) (toks := [w.text]) hd (by simp) (by
    intro t ht ch hch hcd
    obtain rfl := List.mem_singleton.1 ht
    exact hda ch hcd (numChar_mem (DecNum'.text_chars hw ch hch)))
  rw [show join delim [w.text] = w.text by simp [join]] at hs
  rw [hs]
  simp only [Bool.false_eq_true, if_false, List.drop_zero]
  rw [csvTokens]
  dsimp only
  rw [if_neg (by simpa using numeral_ne_nil hw), hP.parse, parse_overflows hw ho]
  exact ⟨_, rfl⟩

/-- C83: What WriteStr writes for a matrix with at least one row and column is read back as exactly the same matrix, bit for bit (also
negative zeros, subnormal numbers and infinities), if the delimiter has none of the characters of numbers. -/
theorem C83_csv_roundtrip (P : Platform) (hP : Strconv.Standard P) (m : DenseMat) (delim : Str) (d : F64) (r c : Nat) (hr : m.rows = r) (hc : m.cols = c)
    (h1 : 1 ≤ r) (h2 : 1 ≤ c) (hm : m.values.length = r * c) (hb : r * c < 2 ^ 63) (hd : delim ≠ []) (hdn : '\n' ∉ delim)
    (hda : ∀ ch ∈ delim, ch ∉ numberChars) :
    ∃ text, writeStr P m delim = .ok text ∧ denseMatFromCsv P ⟨text, false⟩ 0 false delim d = .ok m :=
  C49_csv_roundtrip_partial P m delim d r c hr hc h1 h2 hm hb hd hdn fun v _ =>
    printsBack_of_prints17 hP.parse (by rw [hP.format]; exact formatG19_prints) hda v

theorem good_ok {P : Platform} (hP : P.parseFloat = Strconv.parseFloat) {print : F64 → Str} (h : Prints17 print) {d : TreeDesc} (hd : d.Good) :
    d.OK P.parseFloat print ∧ PlainFloats print d := by
  have hb : ∀ x, P.parseFloat (print x) = some x ∧ ' ' ∉ print x := by
    intro x
    have := printsBack_of_prints17 hP h (avoid := [' ', '=']) (by decide) x
    exact ⟨this.parse, fun hs => this.avoids _ hs (by simp)⟩
  have hp : ∀ x, Plain (print x) := by
    intro x
    have := printsBack_of_prints17 hP h (avoid := [' ', '=']) (by decide) x
    exact ⟨this.nonempty, fun c hc => ⟨this.white c hc, fun he => this.avoids c hc (by simp [he])⟩⟩
  exact ⟨⟨hd.numCat, hd.leafValues, fun x _ => hb x, hd.tree, hd.left, hd.right, hd.decision, hd.feature, fun h0 => ⟨hd.threshold h0, fun x _ => hb x⟩, hd.cats⟩,
    fun x _ => hp x, fun _ x _ => hp x⟩

/-- C83: A LightGBM model written with 17 significant digits (as LightGBM does) loses nothing: the loaded model predicts with exactly the
thresholds and leaf values that were written. -/
theorem C83_lightgbm_exact (P : Platform) (hP : P.parseFloat = Strconv.parseFloat) (print : F64 → Str) (h17 : Prints17 print) (tail : Str)
    (ds : List TreeDesc) (K N : Nat) (M : Int) (avg : Bool) (hK : 1 ≤ K ∧ K < 2 ^ 63) (hN : 1 ≤ N) (hlen : ds.length = N * K)
    (hM : -2 ^ 63 ≤ M ∧ M < 2 ^ 63 - 1) (hok : ∀ d ∈ ds, d.Good ∧ d.inner * 24 ≤ P.maxAlloc) :
    ∃ ens, lgEnsembleFromReader P ⟨modelText print ds K M avg ++ tail, false⟩ false = .ok (ens, ⟨tail, false⟩) ∧
      ∀ fvals req m m', ((ens.predict P fvals req m.length).run m = (.ok ⟨⟩, m') ↔
        (K ≤ m.length ∧ ens.nFeatures ≤ fvals.length ∧ ∃ n w, Used req N n ∧ RefRaw P P.out ds K avg fvals n w ∧ Stored m 0 w m')) := by
  obtain ⟨ens, h1, -, -, -, -, -, -, h2⟩ := C39_written_model P print tail ds K N M avg hK hN hlen hM fun d hd =>
    ⟨(good_ok hP h17 (hok d hd).1).1, (good_ok hP h17 (hok d hd).1).2, (hok d hd).2⟩
  exact ⟨ens, h1, h2⟩

/-! ### concrete cases -/

namespace DecimalExample

/-- a platform with the documented number formats -/
def platform : Platform := { Platform.demo with parseFloat := Strconv.parseFloat, formatG19 := Strconv.formatG19 }

theorem standard : Strconv.Standard platform := ⟨rfl, rfl⟩

/-- the float64 nearest to a tenth; minus zero; the smallest number; an infinity -/
def mat : DenseMat := ⟨[F64.const 1 10, F64.neg F64.zero, F64.ofBits 1, F64.inf true], 2, 2⟩

/-- The round trip applies to these values. -/
example : ∃ text, writeStr platform mat ";".toList = .ok text ∧ denseMatFromCsv platform ⟨text, false⟩ 0 false ";".toList F64.nan = .ok mat :=
  C83_csv_roundtrip platform standard mat ";".toList F64.nan 2 2 rfl rfl (by norm_num) (by norm_num) rfl (by norm_num) (by decide) (by decide) (by decide)

/-- what is written -/
example : mat.values.map Strconv.formatG19 =
    ["0.1000000000000000056".toList, "-0".toList, "4.940656458412465442e-324".toList, "-Inf".toList] := by decide +kernel

/-- A delimiter that is a character of numbers does not work: with `.` between them, 1.5 and 2 are read as three numbers. -/
theorem C83_needs_delimiter : writeStr platform ⟨[F64.const 3 2, F64.ofNat 2], 2, 1⟩ ".".toList = .ok "1.5.2\n".toList ∧
    denseMatFromCsv platform ⟨"1.5.2\n".toList, false⟩ 0 false ".".toList F64.nan = .ok ⟨[F64.ofNat 1, F64.ofNat 5, F64.ofNat 2], 3, 1⟩ := by
  decide +kernel

/-- `2.50`, `-1e400` -/
def w1 : DecNum := ⟨[], "2".toList, some "50".toList, none⟩
def w2 : DecNum := ⟨"-".toList, "1".toList, none, some ('e', [], "400".toList)⟩

theorem w1_ok : w1.OK := ⟨.inl rfl, by decide, by decide, by decide, by intro c s ds h; cases h⟩
theorem w2_ok : w2.OK := ⟨.inr (.inr rfl), by decide, by decide, by decide, by intro c s ds h; cases h; exact ⟨.inl rfl, .inl rfl, by decide, by decide, by decide⟩⟩

theorem w1_fits : ¬ Overflows w1 := by
  intro h
  have h1 := parse_overflows w1_ok h
  have h2 : Strconv.parseFloat w1.text = some (F64.const 5 2) := by decide +kernel
  rw [h2] at h1
  cases h1

theorem w2_overflows : Overflows w2 := by
  obtain ⟨x, g1, g2, g3⟩ := parseFloat_text w2_ok
  have h2 : Strconv.parseFloat w2.text = none := by decide +kernel
  rw [h2] at g3
  rcases g2 with ⟨m, hm, rfl⟩ | rfl
  · cases g3
  · exact ⟨_, g1⟩

/-- Reading `2.50,2.50` gives the nearest float64 twice. -/
example : ∃ m vss, denseMatFromCsv platform ⟨"2.50,2.50\n".toList, false⟩ 0 false ",".toList F64.nan = .ok m ∧ DenseOf vss 2 m ∧
    List.Forall₂ (List.Forall₂ ReadsAs) [[w1, w1]] vss :=
  C83_csv_nearest platform standard [[w1, w1]] 2 ",".toList F64.nan _ [] true (by decide) (by decide) (by norm_num) (by decide) (by simp)
    (by simpa using ⟨w1_ok, w1_fits⟩)
    (block_written ["2.50,2.50".toList] (by
      intro s hs
      obtain rfl := List.mem_singleton.1 hs
      exact ⟨by decide, by decide, isTrim_self (by unfold whiteSpace; decide)⟩))

/-- Reading `-1e400` is an error. -/
example : ∃ msg, denseMatFromCsv platform ⟨"-1e400\n".toList, false⟩ 0 false ",".toList F64.nan = .err msg :=
  C83_csv_overflow platform standard w2 ",".toList F64.nan _ [] [] true (by decide) (by decide) w2_ok w2_overflows
    (block_written [w2.text] (by
      intro s hs
      obtain rfl := List.mem_singleton.1 hs
      exact ⟨by decide, by decide, isTrim_self fun c hc => numberChars_white (numChar_mem (DecNum'.text_chars w2_ok c hc))⟩))

theorem good_of_ok {parse : Str → Option F64} {print : F64 → Str} {d : TreeDesc} (h : d.OK parse print) : d.Good :=
  ⟨h.numCat, h.leafValues, h.tree, h.left, h.right, h.decision, h.feature, fun h0 => (h.threshold h0).1, h.cats⟩

/-- A model of two trees, one with numerical and categorical splits, written with `%.19g`, is loaded as it was. -/
example (tail : Str) : ∃ ens, lgEnsembleFromReader platform ⟨modelText Strconv.formatG19 [LgLoadExample.d1, LgLoadExample.d2] 2 1 false ++ tail, false⟩ false =
    .ok (ens, ⟨tail, false⟩) := by
  obtain ⟨ens, h, -⟩ := C83_lightgbm_exact platform rfl Strconv.formatG19 formatG19_prints tail [LgLoadExample.d1, LgLoadExample.d2] 2 1 1 false (by norm_num) le_rfl rfl
    (by norm_num) (by
      intro d hd
      rcases List.mem_cons.1 hd with rfl | hd
      · exact ⟨good_of_ok LgLoadExample.d1_ok, by decide⟩
      · obtain rfl := List.mem_singleton.1 hd
        exact ⟨good_of_ok LgLoadExample.d2_ok, by decide⟩)
  exact ⟨ens, h⟩

/-- 16 significant digits are not enough: two numbers with the same 16 digits. -/
theorem C83_sixteen_digits_lose : Strconv.parseFloat "0.3".toList ≠ Strconv.parseFloat "0.30000000000000004".toList ∧
    (Strconv.parseFloat "0.30000000000000004".toList).map Strconv.formatG19 = some "0.3000000000000000444".toList ∧
    (Strconv.parseFloat "0.3".toList).map Strconv.formatG19 = some "0.2999999999999999889".toList := by
  decide +kernel

end DecimalExample

end Leaves
