import Verif.Props.Bytes
import Verif.Props.Mat

/-!
# C97: files that begin with a byte order mark
-/

namespace Leaves
open Spec

/-- U+FEFF, the character that a byte order mark holds -/
def bom : Char := Char.ofNat 0xFEFF

theorem chars_bom {bs : List UInt8} {t : Str} (h : Chars bs t) : Chars (0xEF :: 0xBB :: 0xBF :: bs) (bom :: t) :=
  Chars.char bom h

namespace Mat

theorem trimSpace_bom (l : Str) : ∃ u, trimSpace (bom :: l) = bom :: u := by
  obtain ⟨s, hs⟩ := isTrim_exists (bom :: l)
  rw [trimSpace_of hs]
  obtain ⟨a, b, e, ha, hb, -⟩ := hs
  have hw : ¬ whiteSpace bom := by unfold whiteSpace; decide
  cases a with
  | cons x a =>
    rw [List.cons_append, List.cons_append] at e
    exact absurd (ha x (by simp)) ((List.cons.inj e).1 ▸ hw)
  | nil =>
    cases s with
    | cons x s =>
      rw [List.nil_append, List.cons_append] at e
      exact ⟨s, by rw [(List.cons.inj e).1]⟩
    | nil =>
      rw [List.nil_append, List.nil_append] at e
      exact absurd (hb bom (e ▸ by simp)) hw

theorem readString_bom (t : Str) (io : Bool) :
    ∃ l e r, (⟨bom :: t, io⟩ : Reader).readString = (bom :: l, e, r) := by
  unfold Reader.readString
  have h : Leaves.splitLine (bom :: t) = (bom :: (Leaves.splitLine t).1, (Leaves.splitLine t).2.1, (Leaves.splitLine t).2.2) := by
    rw [Leaves.splitLine, if_neg (by decide)]
  rw [h]
  obtain ⟨a, b, c⟩ := Leaves.splitLine t
  cases c <;> exact ⟨_, _, _, rfl⟩

/-- the first line with the mark is rejected, so the file is -/
theorem readRows_bom {μ : Type} {parse : Str → Res (List Record)} (hp : ∀ u, ∃ e, parse (bom :: u) = .err e)
    (f : μ → List Record → Res μ) (limit : Int) (n : Nat) (rows : Int) (t : Str) (io : Bool) (m : μ) :
    ∃ e, Mat.readRows parse f limit (n + 1) rows ⟨bom :: t, io⟩ m = .err e := by
  obtain ⟨l, e, r, h⟩ := readString_bom t io
  obtain ⟨u, hu⟩ := trimSpace_bom l
  obtain ⟨x, hx⟩ := hp u
  unfold Mat.readRows
  rw [h]
  dsimp only
  split
  · exact ⟨_, rfl⟩
  · rw [hu, if_neg (by simp), hx]
    exact ⟨_, rfl⟩

theorem splitGo_snoc (sep : Str) (x : Char) : ∀ (s : Str) (k : Nat) (cur : Str),
    ∃ p ps, splitGo sep k cur s = p :: ps ∧ splitGo sep k (cur ++ [x]) s = (x :: p) :: ps
  | [], _, cur => ⟨cur.reverse, [], by unfold splitGo; rfl, by unfold splitGo; rw [List.reverse_append]; rfl⟩
  | c :: s, 0, cur => by
    unfold splitGo
    split
    · exact ⟨cur.reverse, _, rfl, by rw [List.reverse_append]; rfl⟩
    · exact splitGo_snoc sep x s 0 (c :: cur)
  | c :: s, k + 1, cur => by
    unfold splitGo
    exact splitGo_snoc sep x s k cur

theorem split_bom {sep : Str} (h : sep ≠ []) (hb : bom ∉ sep) (s : Str) :
    ∃ p ps, split s sep = p :: ps ∧ split (bom :: s) sep = (bom :: p) :: ps := by
  unfold split
  rw [if_neg h, if_neg h, splitGo, if_neg]
  · exact splitGo_snoc sep bom s 0 []
  · cases sep with
    | nil => exact absurd rfl h
    | cons d sep =>
      rw [List.isPrefixOf_cons_cons]
      intro hx
      rw [Bool.and_eq_true] at hx
      exact hb (by rw [← beq_iff_eq.1 hx.1]; simp)

theorem libsvmTokens_bom (P : Platform) (p : Str) (ps : List Str) : ∃ e, libsvmTokens P ((bom :: p) :: ps) = .err e := by
  unfold libsvmTokens
  rw [if_neg (by simp)]
  split
  · next c v h =>
    obtain ⟨h, -, -⟩ := (split_two ':' _ c v).1 h
    cases c with
    | nil => exact absurd (List.cons.inj h).1 (by decide)
    | cons x c =>
      rw [List.cons_append] at h
      rw [← (List.cons.inj h).1]
      have : parseUint 32 (bom :: c) = none := by
        unfold parseUint parseDigits
        rw [if_pos]
        right
        rw [List.all_cons, show bom.isDigit = false from by decide]
        rfl
      rw [this]
      exact ⟨_, rfl⟩
  · exact ⟨_, rfl⟩

theorem libsvmLine_bom (P : Platform) (u : Str) : ∃ e, libsvmLine P false (bom :: u) = .err e := by
  obtain ⟨p, ps, -, h⟩ := split_bom (sep := " ".toList) (by decide) (by decide) u
  unfold libsvmLine
  dsimp only
  split
  · exact ⟨_, rfl⟩
  · rw [h]
    exact libsvmTokens_bom P p ps

theorem csvTokens_bom {P : Platform} (hP : Oct.AsciiFloats P) (d : F64) (i : Nat) (p : Str) (ps : List Str) :
    ∃ e, csvTokens P d i ((bom :: p) :: ps) = .err e := by
  unfold csvTokens
  rw [if_neg (by simp), hP (bom :: p) ⟨bom, by simp, by decide⟩]
  exact ⟨_, rfl⟩

theorem csvLine_bom {P : Platform} (hP : Oct.AsciiFloats P) {sep : Str} (hb : bom ∉ sep) (d : F64) (u : Str) :
    ∃ e, Mat.csvLine P false sep d (bom :: u) = .err e := by
  unfold Mat.csvLine
  by_cases hs : sep = []
  · subst hs
    exact csvTokens_bom hP d 0 [] _
  · obtain ⟨p, ps, -, h⟩ := split_bom hs hb u
    rw [h]
    exact csvTokens_bom hP d 0 p ps

theorem libsvmLine_skip (P : Platform) (u : Str) : libsvmLine P true (bom :: u) = libsvmLine P true u := by
  obtain ⟨p, ps, h0, h⟩ := split_bom (sep := " ".toList) (by decide) (by decide) u
  unfold libsvmLine
  rw [h0, h]
  rfl

theorem csvLine_skip (P : Platform) {sep : Str} (hs : sep ≠ []) (hb : bom ∉ sep) (d : F64) (u : Str) :
    Mat.csvLine P true sep d (bom :: u) = Mat.csvLine P true sep d u := by
  obtain ⟨p, ps, h0, h⟩ := split_bom hs hb u
  unfold Mat.csvLine
  rw [h0, h]
  rfl

theorem isTrim_bom {l s : Str} {c : Char} (hc : l.head? = some c) (hw : ¬ whiteSpace c) (h : IsTrim l s) :
    s ≠ [] ∧ IsTrim (bom :: l) (bom :: s) := by
  obtain ⟨a, b, rfl, ha, hb, h1, h2⟩ := h
  cases a with
  | cons x a =>
    rw [List.cons_append, List.cons_append, List.head?_cons] at hc
    exact absurd (ha x (by simp)) (Option.some.inj hc ▸ hw)
  | nil =>
    cases s with
    | nil =>
      cases b with
      | nil => cases hc
      | cons x b =>
        exact absurd (hb x (by simp)) (Option.some.inj hc ▸ hw)
    | cons x s =>
      refine ⟨by simp, [], b, rfl, by simp, hb, ?_, ?_⟩
      · intro y hy
        rw [← Option.some.inj hy]
        unfold whiteSpace; decide
      · intro y hy
        rw [List.getLast?_cons_cons] at hy
        exact h2 y hy

theorem block_bom {t rest : Str} {ss : List Str} {e : Bool} {c : Char} (hc : t.head? = some c) (hw : ¬ whiteSpace c)
    (h : Block t ss rest e) : ∃ s ss', ss = s :: ss' ∧ Block (bom :: t) ((bom :: s) :: ss') rest e := by
  have hd : ∀ {l u : Str}, (l ++ '\n' :: u).head? = some c → l.head? = some c := by
    intro l u h
    cases l with
    | nil => exact absurd (by unfold whiteSpace; decide) (Option.some.inj h ▸ hw : ¬ whiteSpace '\n')
    | cons x l => exact h
  have hn' : ∀ {l : Str}, '\n' ∉ l → '\n' ∉ bom :: l := by
    intro l h h'
    rcases List.mem_cons.1 h' with h' | h'
    · exact absurd h' (by decide)
    · exact h h'
  cases h with
  | blank l rest hn hl => exact absurd rfl (isTrim_bom (hd hc) hw hl).1
  | stop l hn hl => exact absurd rfl (isTrim_bom hc hw hl).1
  | line hn hl hs hb => exact ⟨_, _, rfl, .line (hn' hn) (isTrim_bom (hd hc) hw hl).2 (by simp) hb⟩
  | last hn hl hs => exact ⟨_, _, rfl, .last (hn' hn) (isTrim_bom hc hw hl).2 (by simp)⟩

theorem readRows_skip {μ : Type} {parse : Str → Res (List Record)} (hp : ∀ u, parse (bom :: u) = parse u)
    (f : μ → List Record → Res μ) (limit : Int) {t : Str} {c : Char} (hc : t.head? = some c) (hw : ¬ whiteSpace c) (m : μ) :
    Mat.readRows parse f limit ((bom :: t).length + 1) 0 ⟨bom :: t, false⟩ m = Mat.readRows parse f limit (t.length + 1) 0 ⟨t, false⟩ m := by
  obtain ⟨ss, rest, e, hb⟩ := block_exists _ t (Nat.lt_succ_self _)
  obtain ⟨s, ss', rfl, hb'⟩ := block_bom hc hw hb
  rw [readRows_first parse f limit hb', readRows_first parse f limit hb]
  have key : ∀ ss : List Str, runLines parse f ((bom :: s) :: ss) m = runLines parse f (s :: ss) m := by
    intro ss
    unfold runLines
    rw [hp]
  unfold firstRows
  split
  · exact key ss'
  · next hl =>
    obtain ⟨n, hn⟩ : ∃ n, limit.toNat = n + 1 := ⟨limit.toNat - 1, by omega⟩
    rw [hn, List.take_succ_cons, List.take_succ_cons]
    exact key _

end Mat

/-- C97: a libsvm or CSV file that begins with a byte order mark is rejected if its first column is data, whatever follows. -/
theorem C97_data (P : Platform) (hP : Oct.AsciiFloats P) {k : Nat} {b : Bufio UInt8} {bs : List UInt8} {fin : Fault} (hk : k ≤ 99)
    (h : Arrives k b (0xEF :: 0xBB :: 0xBF :: bs) fin) (limit : Int) (delimiter : Str)
    (hd : Char.ofNat 0xFFFD ∉ delimiter) (hd' : Char.ofNat 0xFEFF ∉ delimiter) (d : F64) :
    (∃ e, Oct.denseMatFromLibsvm P b limit false = .err e) ∧ (∃ e, Oct.csrMatFromLibsvm P b limit false = .err e) ∧
    (∃ e, Oct.denseMatFromCsv P b limit false (delimiter.flatMap String.utf8EncodeChar) d = .err e) := by
  obtain ⟨t, hc⟩ := Oct.chars_exists bs
  obtain ⟨h1, h2, h3⟩ := C96_matrix P hP hk h (chars_bom hc) limit false delimiter hd d
  rw [h1, h2, h3]
  exact ⟨Mat.readRows_bom (Mat.libsvmLine_bom P) _ limit _ 0 t _ _, Mat.readRows_bom (Mat.libsvmLine_bom P) _ limit _ 0 t _ _,
    Mat.readRows_bom (Mat.csvLine_bom hP hd' d) _ limit _ 0 t _ _⟩

/-- C97: if its first column is skipped, and the file without the mark does not begin with white space, the mark makes no difference. -/
theorem C97_label (P : Platform) (hP : Oct.AsciiFloats P) {k k' : Nat} {b b' : Bufio UInt8} {bs : List UInt8} {c : Char} {t : Str}
    (hk : k ≤ 99) (hk' : k' ≤ 99) (h : Arrives k b (0xEF :: 0xBB :: 0xBF :: bs) .eof) (h' : Arrives k' b' bs .eof)
    (hc : Chars bs (c :: t)) (hw : ¬ whiteSpace c) (limit : Int) (delimiter : Str) (hn : delimiter ≠ [])
    (hd : Char.ofNat 0xFFFD ∉ delimiter) (hd' : Char.ofNat 0xFEFF ∉ delimiter) (d : F64) :
    Oct.denseMatFromLibsvm P b limit true = Oct.denseMatFromLibsvm P b' limit true ∧
    Oct.csrMatFromLibsvm P b limit true = Oct.csrMatFromLibsvm P b' limit true ∧
    Oct.denseMatFromCsv P b limit true (delimiter.flatMap String.utf8EncodeChar) d
      = Oct.denseMatFromCsv P b' limit true (delimiter.flatMap String.utf8EncodeChar) d := by
  obtain ⟨h1, h2, h3⟩ := C96_matrix P hP hk h (chars_bom hc) limit true delimiter hd d
  obtain ⟨g1, g2, g3⟩ := C96_matrix P hP hk' h' hc limit true delimiter hd d
  rw [h1, h2, h3, g1, g2, g3]
  exact ⟨Mat.readRows_skip (Mat.libsvmLine_skip P) _ limit rfl hw _, Mat.readRows_skip (Mat.libsvmLine_skip P) _ limit rfl hw _,
    Mat.readRows_skip (Mat.csvLine_skip P hn hd' d) _ limit rfl hw _⟩

/-- C97: a LightGBM model file that begins with the line `tree`, as all that LightGBM writes do, loads alike with a mark. -/
theorem C97_lightgbm (P : Platform) (hP : Oct.AsciiFloats P) {k k' : Nat} {b b' : Bufio UInt8} {bs : List UInt8} {t : Str}
    (hk : k ≤ 99) (hk' : k' ≤ 99) (h : Arrives k b (0xEF :: 0xBB :: 0xBF :: bs) .eof) (h' : Arrives k' b' bs .eof)
    (hc : Chars bs ("tree\n".toList ++ t)) (lt : Bool) :
    SameEnsemble (loaderOf (fun b => Oct.lgEnsembleFromReader P b lt) b) (loaderOf (fun b => Oct.lgEnsembleFromReader P b lt) b') := by
  refine C96_encoding P hP hk hk' h h' (chars_bom hc) hc ?_ lt
  obtain ⟨ss, rest, e, hb⟩ := block_exists _ t (Nat.lt_succ_self _)
  refine .block (lines := (bom :: "tree".toList) :: ss) (lines' := "tree".toList :: ss) (rest := rest) (rest' := rest)
    ⟨bom :: "tree".toList, _, t, ss, e, rfl, by decide, ?_, hb, rfl⟩ ⟨"tree".toList, _, t, ss, e, rfl, by decide, ?_, hb, rfl⟩ ?_ (.same rest)
  · refine ⟨[], [], by decide, by simp, by simp, fun c h => ?_, fun c h => ?_⟩ <;> (rw [← Option.some.inj h]; unfold whiteSpace; decide)
  · refine ⟨[], [], by decide, by simp, by simp, fun c h => ?_, fun c h => ?_⟩ <;> (rw [← Option.some.inj h]; unfold whiteSpace; decide)
  · have h1 := C94_unknown_partial [] ss (bom :: "tree".toList) (by decide) (by
      rintro k hk v (⟨e, -, -⟩ | ⟨-, e, -⟩)
      · exact absurd (e ▸ List.mem_append_right _ List.mem_cons_self : '=' ∈ bom :: "tree".toList) (by decide)
      · revert k; decide)
    have h2 := C94_unknown_partial [] ss "tree".toList (by decide) (by
      rintro k hk v (⟨e, -, -⟩ | ⟨-, e, -⟩)
      · exact absurd (e ▸ List.mem_append_right _ List.mem_cons_self : '=' ∈ "tree".toList) (by decide)
      · revert k; decide)
    exact ⟨h1.1.symm.trans h2.1, fun k hk v => (h1.2 k hk v).symm.trans (h2.2 k hk v)⟩

open BytesExample in
/-- Non-vacuity: the same matrix with and without the mark, and a model. -/
theorem C97_example :
    Oct.denseMatFromCsv LgExample.platform (feed (Oct.lit "1,2\n3,4\n")) 0 true (Oct.lit ",") F64.zero
      = .ok { values := [F64.ofNat 2, F64.ofNat 4], cols := 1, rows := 2 } ∧
    Oct.denseMatFromCsv LgExample.platform (feed ([0xEF, 0xBB, 0xBF] ++ Oct.lit "1,2\n3,4\n")) 0 true (Oct.lit ",") F64.zero
      = .ok { values := [F64.ofNat 2, F64.ofNat 4], cols := 1, rows := 2 } ∧
    Oct.denseMatFromCsv LgExample.platform (feed (Oct.lit "1,2\n3,4\n")) 0 false (Oct.lit ",") F64.zero
      = .ok { values := [F64.ofNat 1, F64.ofNat 2, F64.ofNat 3, F64.ofNat 4], cols := 2, rows := 2 } ∧
    loaded ([0xEF, 0xBB, 0xBF] ++ Oct.lit "tree\n" ++ body) = .ok ⟨⟩ := by
  refine ⟨?_, ?_, ?_, ?_⟩ <;> decide +kernel

end Leaves
