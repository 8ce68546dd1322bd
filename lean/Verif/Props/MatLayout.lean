import Verif.Proofs.TextLayout
import Verif.Props.Mat

/-!
# C95: matrix files mean the same however they are laid out, and `limit` gives the first rows

`SameLines` and `windows` are from Spec/TextLayout; `Block t ss rest e` says that `ss` are the trimmed lines of the text `t` up to its
end or its first blank line.
-/

namespace Leaves
open Spec
open Mat (DenseMat CSRMat Record readRows runLines denseMatFromLibsvm csrMatFromLibsvm denseMatFromCsv recordsToDenseMat recordsToCSRMat)

/-- C95: only the lines before the first blank line matter, and of these only the first `limit`. -/
theorem C95_first_lines (P : Platform) (t t' rest rest' : Str) (ss ss' : List Str) (e e' : Bool) (hb : Block t ss rest e)
    (hb' : Block t' ss' rest' e') (limit limit' : Int) (hs : firstRows limit ss = firstRows limit' ss') (skip : Bool) :
    denseMatFromLibsvm P ⟨t, false⟩ limit skip = denseMatFromLibsvm P ⟨t', false⟩ limit' skip ∧
    csrMatFromLibsvm P ⟨t, false⟩ limit skip = csrMatFromLibsvm P ⟨t', false⟩ limit' skip ∧
    ∀ delim d, denseMatFromCsv P ⟨t, false⟩ limit skip delim d = denseMatFromCsv P ⟨t', false⟩ limit' skip delim d := by
  unfold denseMatFromLibsvm csrMatFromLibsvm denseMatFromCsv
  refine ⟨?_, ?_, fun delim d => ?_⟩
  all_goals rw [readRows_first _ _ _ hb, readRows_first _ _ _ hb', hs]

/-- C95: white space at the beginning and at the end of lines does not matter. -/
theorem C95_lines (P : Platform) (t t' : Str) (h : SameLines t t') (limit : Int) (skip : Bool) :
    denseMatFromLibsvm P ⟨t, false⟩ limit skip = denseMatFromLibsvm P ⟨t', false⟩ limit skip ∧
    csrMatFromLibsvm P ⟨t, false⟩ limit skip = csrMatFromLibsvm P ⟨t', false⟩ limit skip ∧
    ∀ delim d, denseMatFromCsv P ⟨t, false⟩ limit skip delim d = denseMatFromCsv P ⟨t', false⟩ limit skip delim d := by
  obtain ⟨ss, rest, rest', e, h1, h2, -⟩ := block_sameLines h
  exact C95_first_lines P t t' rest rest' ss ss e e h1 h2 limit limit rfl skip

/-- C95: Windows line ends do not matter. -/
theorem C95_windows (P : Platform) (t : Str) (limit : Int) (skip : Bool) :
    denseMatFromLibsvm P ⟨t, false⟩ limit skip = denseMatFromLibsvm P ⟨windows t, false⟩ limit skip ∧
    csrMatFromLibsvm P ⟨t, false⟩ limit skip = csrMatFromLibsvm P ⟨windows t, false⟩ limit skip ∧
    ∀ delim d, denseMatFromCsv P ⟨t, false⟩ limit skip delim d = denseMatFromCsv P ⟨windows t, false⟩ limit skip delim d :=
  C95_lines P t _ (sameLines_windows _ t (Nat.lt_succ_self _)) limit skip

theorem block_newline {t rest : Str} {ss : List Str} {e : Bool} (h : Block t ss rest e) : ∃ rest' e', Block (t ++ ['\n']) ss rest' e' := by
  induction h with
  | blank l rest hn hl => exact ⟨rest ++ ['\n'], false, by simpa using Block.blank l (rest ++ ['\n']) hn hl⟩
  | stop l hn hl => exact ⟨[], false, Block.blank l [] hn hl⟩
  | line hn hl hs hb ih =>
    obtain ⟨rest', e', h⟩ := ih
    exact ⟨rest', e', by simpa using Block.line hn hl hs h⟩
  | last hn hl hs =>
    exact ⟨[], true, Block.line hn hl hs (Block.stop [] (by simp) ⟨[], [], rfl, by simp, by simp, by simp, by simp⟩)⟩

/-- C95: whether the last line ends with a newline does not matter. -/
theorem C95_final_newline (P : Platform) (t : Str) (limit : Int) (skip : Bool) :
    denseMatFromLibsvm P ⟨t, false⟩ limit skip = denseMatFromLibsvm P ⟨t ++ ['\n'], false⟩ limit skip ∧
    csrMatFromLibsvm P ⟨t, false⟩ limit skip = csrMatFromLibsvm P ⟨t ++ ['\n'], false⟩ limit skip ∧
    ∀ delim d, denseMatFromCsv P ⟨t, false⟩ limit skip delim d = denseMatFromCsv P ⟨t ++ ['\n'], false⟩ limit skip delim d := by
  obtain ⟨ss, rest, e, h1⟩ := block_exists (t.length + 1) t (by omega)
  obtain ⟨rest', e', h2⟩ := block_newline h1
  exact C95_first_lines P t _ rest rest' ss ss e e' h1 h2 limit limit rfl skip

/-! ### `limit` -/

theorem runLines_append {μ : Type} (parse : Str → Res (List Record)) (f : μ → List Record → Res μ) (a b : List Str) (m : μ) :
    runLines parse f (a ++ b) m = runLines parse f a m >>= runLines parse f b := by
  induction a generalizing m with
  | nil => rfl
  | cons s a ih =>
    rw [List.cons_append, runLines, runLines]
    cases parse s with
    | ok recs =>
      rw [Res.ok_bind, Res.ok_bind]
      cases f m recs with
      | ok m' => rw [Res.ok_bind, Res.ok_bind]; exact ih m'
      | err e => rfl
      | panic => rfl
      | hang => rfl
    | err e => rfl
    | panic => rfl
    | hang => rfl

theorem runLines_grows {μ : Type} {parse : Str → Res (List Record)} {f : μ → List Record → Res μ} (R : Nat → μ → μ → Prop)
    (h0 : ∀ m, R 0 m m) (hstep : ∀ n a b c recs, R n a b → f b recs = .ok c → R (n + 1) a c) :
    ∀ (b : List Str) {n : Nat} {m0 m m' : μ}, R n m0 m → runLines parse f b m = .ok m' → R (n + b.length) m0 m'
  | [], n, m0, m, m', hr, h => by cases h; exact hr
  | s :: b, n, m0, m, m', hr, h => by
    rw [runLines] at h
    obtain ⟨recs, -, h⟩ := Res.bind_eq_ok.1 h
    obtain ⟨c, hc, h⟩ := Res.bind_eq_ok.1 h
    have := runLines_grows R h0 hstep b (hstep n m0 m c recs hr hc) h
    rw [List.length_cons, show n + (b.length + 1) = n + 1 + b.length by omega]
    exact this

theorem firstRows_split (n : Nat) (hn : 0 < n) (ss : List Str) : firstRows (n : Int) ss = ss.take n ∧ firstRows 0 ss = ss := by
  unfold firstRows
  constructor
  · rw [if_neg (by omega), Int.toNat_natCast]
  · rw [if_pos (le_refl _)]

/-- C95: when the whole file can be read, `limit = n` gives the first `n` rows of the sparse matrix: its row pointers are the first
`n + 1`, and its entries are the entries they point to (`C47_csr_valid`). -/
theorem C95_limit_csr (P : Platform) (t : Str) (n : Nat) (hn : 0 < n) (skip : Bool) (m : CSRMat)
    (h : csrMatFromLibsvm P ⟨t, false⟩ 0 skip = .ok m) :
    ∃ m', csrMatFromLibsvm P ⟨t, false⟩ n skip = .ok m' ∧ m'.rowHeaders = m.rowHeaders.take (n + 1) ∧ m'.values <+: m.values ∧
      m'.colIndexes <+: m.colIndexes := by
  obtain ⟨ss, rest, e, hb⟩ := block_exists (t.length + 1) t (by omega)
  unfold csrMatFromLibsvm at h ⊢
  rw [readRows_first _ _ _ hb, (firstRows_split n hn ss).2] at h
  rw [readRows_first _ _ _ hb, (firstRows_split n hn ss).1]
  rw [← List.take_append_drop n ss, runLines_append] at h
  obtain ⟨m', h1, h2⟩ := Res.bind_eq_ok.1 h
  have hlen : m'.rowHeaders.length = (ss.take n).length + 1 := by
    have := runLines_grows (fun k (a b : CSRMat) => b.rowHeaders.length = a.rowHeaders.length + k) (fun _ => rfl)
      (by intro k a b c recs hr hc; cases hc; simp [hr, Nat.add_assoc]) (ss.take n) (n := 0) (m0 := { rowHeaders := [0], colIndexes := [], values := [] }) rfl h1
    rw [this]; simp; omega
  have hext := runLines_grows (fun _ (a b : CSRMat) => a.rowHeaders <+: b.rowHeaders ∧ a.values <+: b.values ∧ a.colIndexes <+: b.colIndexes)
    (fun _ => ⟨List.prefix_rfl, List.prefix_rfl, List.prefix_rfl⟩)
    (by
      intro k a b c recs hr hc
      cases hc
      exact ⟨hr.1.trans (List.prefix_append _ _), hr.2.1.trans (List.prefix_append _ _), hr.2.2.trans (List.prefix_append _ _)⟩)
    (ss.drop n) (n := 0) ⟨List.prefix_rfl, List.prefix_rfl, List.prefix_rfl⟩ h2
  refine ⟨m', h1, ?_, hext.2.1, hext.2.2⟩
  by_cases hle : n ≤ ss.length
  · have : m'.rowHeaders.length = n + 1 := by rw [hlen, List.length_take, Nat.min_eq_left hle]
    rw [← this]
    exact List.prefix_iff_eq_take.1 hext.1
  · rw [List.drop_eq_nil_of_le (by omega)] at h2
    cases h2
    rw [List.take_of_length_le]
    rw [hlen, List.length_take]
    omega

/-- the relation between a full matrix read up to some row and the one read further, `k` rows later -/
theorem dense_grows {parse : Str → Res (List Record)} (b : List Str) {m m' : DenseMat}
    (h : runLines parse recordsToDenseMat b m = .ok m') :
    m'.rows = m.rows + b.length ∧ m.values <+: m'.values ∧ (m.cols ≠ 0 → m'.cols = m.cols) := by
  have := runLines_grows (parse := parse) (f := recordsToDenseMat) (fun k (a b : DenseMat) => b.rows = a.rows + k ∧ a.values <+: b.values ∧ (a.cols ≠ 0 → b.cols = a.cols))
    (fun _ => ⟨by simp, List.prefix_rfl, fun _ => rfl⟩)
    (by
      rintro k a b c recs ⟨h1, h2, h3⟩ hc
      unfold recordsToDenseMat at hc
      obtain ⟨vs, -, hc⟩ := Res.bind_eq_ok.1 hc
      dsimp only at hc
      split at hc
      · rename_i h0
        cases hc
        exact ⟨by simp [h1]; omega, h2.trans (List.prefix_append _ _), fun h => absurd h0 (by rw [h3 h]; exact h)⟩
      · split at hc
        · cases hc
        · cases hc
          exact ⟨by simp [h1]; omega, h2.trans (List.prefix_append _ _), fun h => h3 h⟩)
    b (n := 0) ⟨by simp, List.prefix_rfl, fun _ => rfl⟩ h
  simpa using this

theorem limit_dense {parse : Str → Res (List Record)} {t : Str} {n : Nat} (hn : 0 < n) {m : DenseMat}
    (h : readRows parse recordsToDenseMat 0 (t.length + 1) 0 ⟨t, false⟩ { values := [], cols := 0, rows := 0 } = .ok m) :
    ∃ m', readRows parse recordsToDenseMat n (t.length + 1) 0 ⟨t, false⟩ { values := [], cols := 0, rows := 0 } = .ok m' ∧
      m'.rows = min (n : Int) m.rows ∧ m'.values <+: m.values ∧ (m'.cols ≠ 0 → m'.cols = m.cols) := by
  obtain ⟨ss, rest, e, hb⟩ := block_exists (t.length + 1) t (by omega)
  rw [readRows_first _ _ _ hb, (firstRows_split n hn ss).2] at h
  rw [readRows_first _ _ _ hb, (firstRows_split n hn ss).1]
  rw [← List.take_append_drop n ss, runLines_append] at h
  obtain ⟨m', h1, h2⟩ := Res.bind_eq_ok.1 h
  obtain ⟨g1, -, -⟩ := dense_grows _ h1
  obtain ⟨g2, g3, g4⟩ := dense_grows _ h2
  refine ⟨m', h1, ?_, g3, fun h => (g4 h).symm⟩
  rw [g2, g1, List.length_take, List.length_drop]
  dsimp only
  omega

/-- C95: when the whole file can be read, `limit = n` gives the first `n` rows of the full matrix. -/
theorem C95_limit_dense (P : Platform) (t : Str) (n : Nat) (hn : 0 < n) (skip : Bool) (m : DenseMat) :
    (denseMatFromLibsvm P ⟨t, false⟩ 0 skip = .ok m → ∃ m', denseMatFromLibsvm P ⟨t, false⟩ n skip = .ok m' ∧
      m'.rows = min (n : Int) m.rows ∧ m'.values <+: m.values ∧ (m'.cols ≠ 0 → m'.cols = m.cols)) ∧
    ∀ delim d, denseMatFromCsv P ⟨t, false⟩ 0 skip delim d = .ok m → ∃ m', denseMatFromCsv P ⟨t, false⟩ n skip delim d = .ok m' ∧
      m'.rows = min (n : Int) m.rows ∧ m'.values <+: m.values ∧ (m'.cols ≠ 0 → m'.cols = m.cols) :=
  ⟨fun h => limit_dense hn h, fun _ _ h => limit_dense hn h⟩

/-- C95: a limit that is not positive is no limit. -/
theorem C95_no_limit (P : Platform) (t : Str) (limit : Int) (hl : limit ≤ 0) (skip : Bool) :
    denseMatFromLibsvm P ⟨t, false⟩ limit skip = denseMatFromLibsvm P ⟨t, false⟩ 0 skip ∧
    csrMatFromLibsvm P ⟨t, false⟩ limit skip = csrMatFromLibsvm P ⟨t, false⟩ 0 skip ∧
    ∀ delim d, denseMatFromCsv P ⟨t, false⟩ limit skip delim d = denseMatFromCsv P ⟨t, false⟩ 0 skip delim d := by
  obtain ⟨ss, rest, e, hb⟩ := block_exists (t.length + 1) t (by omega)
  refine C95_first_lines P t t rest rest ss ss e e hb hb limit 0 ?_ skip
  unfold firstRows
  rw [if_pos hl, if_pos (le_refl _)]

/-! ### examples -/

namespace MatLayoutExample
open LgExample (platform)

def text : Str := "1 0:5 1:7\n0 0:6 1:8\n".toList

/-- the hypotheses are met: the text can be read, with Windows line ends, without the last newline, and with a limit -/
example : csrMatFromLibsvm platform ⟨text, false⟩ 0 true = .ok ⟨[0, 2, 4], [0, 1, 0, 1], [F64.ofNat 5, F64.ofNat 7, F64.ofNat 6, F64.ofNat 8]⟩ ∧
    csrMatFromLibsvm platform ⟨windows text, false⟩ 0 true = .ok ⟨[0, 2, 4], [0, 1, 0, 1], [F64.ofNat 5, F64.ofNat 7, F64.ofNat 6, F64.ofNat 8]⟩ ∧
    csrMatFromLibsvm platform ⟨text, false⟩ 1 true = .ok ⟨[0, 2], [0, 1], [F64.ofNat 5, F64.ofNat 7]⟩ ∧
    denseMatFromLibsvm platform ⟨text, false⟩ (-1) true = .ok ⟨[F64.ofNat 5, F64.ofNat 7, F64.ofNat 6, F64.ofNat 8], 2, 2⟩ ∧
    denseMatFromLibsvm platform ⟨text.dropLast, false⟩ 1 true = .ok ⟨[F64.ofNat 5, F64.ofNat 7], 2, 1⟩ := by
  decide +kernel

/-- the layout inside a line does matter: the two texts differ in white space between fields only -/
example : denseMatFromCsv platform ⟨"1,2".toList, false⟩ 0 false ",".toList F64.zero = .ok ⟨[F64.ofNat 1, F64.ofNat 2], 2, 1⟩ ∧
    denseMatFromCsv platform ⟨"1, 2".toList, false⟩ 0 false ",".toList F64.zero = .err "can't convert to float" := by
  decide +kernel

end MatLayoutExample

end Leaves
