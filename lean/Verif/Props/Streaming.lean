import Verif.Proofs.BufioPickle
import Verif.Props.Robust
import Verif.Props.MatTotal
import Verif.Props.SkAccept
import Verif.Props.XgFile
import Verif.Props.Evaluate

/-!
# C90: loading does not depend on how the bytes arrive

`Arrives k b input fin` says that the buffered reader `b` gets exactly `input` and then `fin` from its source: in pieces of any size,
with at most `k` empty reads in a row, the final error alone or together with the last bytes, and with a buffer of any size.
-/

namespace Leaves
open Spec

/-! ## LightGBM text -/

theorem reads_of_delivers {k : Nat} {b : Bufio Char} {input : Str} {fin : Fault} (hk : k ≤ 99) (h : Arrives k b input fin) :
    Reads k b ⟨input, fin == .fail⟩ := by
  have := h.represents hk
  rw [Reads]
  cases fin <;> exact this

/-- C90: reading a LightGBM text model piece by piece gives what reading the whole text gives. -/
theorem C90_text_whole (P : Platform) {k : Nat} {b : Bufio Char} {input : Str} {fin : Fault} (hk : k ≤ 99) (h : Arrives k b input fin)
    (loadTransformation : Bool) :
    loaderOf (fun b => lgEnsembleFromReaderS P b loadTransformation) b
      = (do let (e, _) ← lgEnsembleFromReader P ⟨input, fin == .fail⟩ loadTransformation; return e) :=
  (lgEnsembleFromReaderS_follows P (reads_of_delivers hk h) loadTransformation).value

/-- C90: two readers that deliver the same text, however they split it, give the same model or the same failure. -/
theorem C90_text (P : Platform) {k k' : Nat} {b b' : Bufio Char} {input : Str} {fin : Fault} (hk : k ≤ 99) (hk' : k' ≤ 99)
    (h : Arrives k b input fin) (h' : Arrives k' b' input fin) (loadTransformation : Bool) :
    loaderOf (fun b => lgEnsembleFromReaderS P b loadTransformation) b
      = loaderOf (fun b => lgEnsembleFromReaderS P b loadTransformation) b' := by
  rw [C90_text_whole P hk h, C90_text_whole P hk' h']

/-! ## Matrices -/

open Mat in
/-- C90: matrices are read piece by piece as from the whole text. -/
theorem C90_matrix_whole (P : Platform) {k : Nat} {b : Bufio Char} {input : Str} {fin : Fault} (hk : k ≤ 99) (h : Arrives k b input fin)
    (limit : Int) (skip : Bool) (delimiter : Str) (d : F64) :
    denseMatFromLibsvmS P b limit skip = denseMatFromLibsvm P ⟨input, fin == .fail⟩ limit skip ∧
    csrMatFromLibsvmS P b limit skip = csrMatFromLibsvm P ⟨input, fin == .fail⟩ limit skip ∧
    denseMatFromCsvS P b limit skip delimiter d = denseMatFromCsv P ⟨input, fin == .fail⟩ limit skip delimiter d := by
  have hr := reads_of_delivers hk h
  have hs := hr.size_eq
  refine ⟨?_, ?_, ?_⟩
  · rw [denseMatFromLibsvmS, denseMatFromLibsvm, hs]
    exact readRowsS_eq k _ _ limit _ 0 b _ _ hr
  · rw [csrMatFromLibsvmS, csrMatFromLibsvm, hs]
    exact readRowsS_eq k _ _ limit _ 0 b _ _ hr
  · rw [denseMatFromCsvS, denseMatFromCsv, hs]
    exact readRowsS_eq k _ _ limit _ 0 b _ _ hr

open Mat in
/-- C90: two readers that deliver the same text give the same matrix or the same failure. -/
theorem C90_matrix (P : Platform) {k k' : Nat} {b b' : Bufio Char} {input : Str} {fin : Fault} (hk : k ≤ 99) (hk' : k' ≤ 99)
    (h : Arrives k b input fin) (h' : Arrives k' b' input fin) (limit : Int) (skip : Bool) (delimiter : Str) (d : F64) :
    denseMatFromLibsvmS P b limit skip = denseMatFromLibsvmS P b' limit skip ∧
    csrMatFromLibsvmS P b limit skip = csrMatFromLibsvmS P b' limit skip ∧
    denseMatFromCsvS P b limit skip delimiter d = denseMatFromCsvS P b' limit skip delimiter d := by
  obtain ⟨h1, h2, h3⟩ := C90_matrix_whole P hk h limit skip delimiter d
  obtain ⟨h4, h5, h6⟩ := C90_matrix_whole P hk' h' limit skip delimiter d
  exact ⟨h1.trans h4.symm, h2.trans h5.symm, h3.trans h6.symm⟩

/-! ## XGBoost -/

/-- the value of an outcome of a reading function on the whole input -/
def wholeValue {β : Type} (r : Res (β × List (BitVec 8))) : Res β := do let (a, _) ← r; return a

/-- C90: XGBoost tree and linear models are read piece by piece as from the whole file. -/
theorem C90_xgboost_whole (P : Platform) {k : Nat} {b : Bufio (BitVec 8)} {input : List (BitVec 8)} {fin : Fault} (hk : k ≤ 99)
    (h : Arrives k b input fin) (lt : Bool) :
    loaderOf (xgEnsembleFromReaderS P lt) b = wholeValue (xgEnsembleFromReader P lt input) ∧
    loaderOf (xgbLinearFromReaderS P lt) b = wholeValue (xgbLinearFromReader P lt input) :=
  ⟨(xgEnsembleFromReaderS_follows k P lt b input ⟨fin, h.represents hk⟩).value,
   (xgbLinearFromReaderS_follows k P lt b input ⟨fin, h.represents hk⟩).value⟩

/-- C90: two readers that deliver the same XGBoost file give the same model or the same failure; whether the file ends with io.EOF or
with another error does not matter either. -/
theorem C90_xgboost (P : Platform) {k k' : Nat} {b b' : Bufio (BitVec 8)} {input : List (BitVec 8)} {fin fin' : Fault} (hk : k ≤ 99)
    (hk' : k' ≤ 99) (h : Arrives k b input fin) (h' : Arrives k' b' input fin') (lt : Bool) :
    loaderOf (xgEnsembleFromReaderS P lt) b = loaderOf (xgEnsembleFromReaderS P lt) b' ∧
    loaderOf (xgbLinearFromReaderS P lt) b = loaderOf (xgbLinearFromReaderS P lt) b' := by
  obtain ⟨h1, h2⟩ := C90_xgboost_whole P hk h lt
  obtain ⟨h3, h4⟩ := C90_xgboost_whole P hk' h' lt
  exact ⟨h1.trans h3.symm, h2.trans h4.symm⟩

/-! ## scikit-learn -/

/-- C90: a scikit-learn pickle is read piece by piece as from the whole file, when no read is empty. -/
theorem C90_sklearn_whole (P : Platform) {b : Bufio (BitVec 8)} {input : List (BitVec 8)} {fin : Fault}
    (h : Arrives 0 b input fin) (lt : Bool) :
    loaderOf (skEnsembleFromReaderS P lt) b = skEnsembleFromReader P input lt := by
  have := Pickle.skEnsembleFromReaderS_follows P lt ⟨fin, h.represents (Nat.zero_le _)⟩
  unfold loaderOf
  revert this
  generalize skEnsembleFromReaderS P lt b = u
  generalize skEnsembleFromReader P input lt = v
  intro h
  cases h <;> rfl

/-- C90, scikit-learn: two readers that deliver the same pickle give the same outcome, when no read of either is empty. The full
property, with empty reads as for the other formats, is false: `C90_sklearn_empty_read`. -/
theorem C90_sklearn_partial (P : Platform) {b b' : Bufio (BitVec 8)} {input : List (BitVec 8)} {fin fin' : Fault}
    (h : Arrives 0 b input fin) (h' : Arrives 0 b' input fin') (lt : Bool) :
    loaderOf (skEnsembleFromReaderS P lt) b = loaderOf (skEnsembleFromReaderS P lt) b' := by
  rw [C90_sklearn_whole P h, C90_sklearn_whole P h']

/-- The negation for scikit-learn: when the first read is empty (which `io.Reader` permits), every pickle is rejected. -/
theorem C90_sklearn_empty_read (P : Platform) {k : Nat} {b : Bufio (BitVec 8)} {input : List (BitVec 8)} {fin : Fault}
    (h : Arrives k b input fin) (h0 : b.feed.lim 0 = 0) (lt : Bool) :
    loaderOf (skEnsembleFromReaderS P lt) b = .err "unexpected read" := by
  have hroom := h.room
  have hf : b.feed.read b.cap = ([], none, { b.feed with rest := b.feed.rest.drop (min b.cap (b.feed.lim 0)), lim := fun i => b.feed.lim (i + 1) }) := by
    rw [Feed.read]
    exact if_pos h0
  have hr : Pickle.readByteS b = .err "unexpected read" := by
    rw [Pickle.readByteS, Bufio.read, if_neg (by omega), if_pos (by rw [h.fresh]; rfl), h.noError]
    dsimp only
    rw [if_neg (by omega), hf]
    rfl
  unfold loaderOf
  rw [skEnsembleFromReaderS, RdS.bind_apply, Pickle.decodeS, RdS.bind_apply, Pickle.decodeLoopS, RdS.bind_apply, hr]
  rfl

/-! ## Files -/

theorem fromFile_some {α β : Type} {load : Bufio α → Res β} {f : Feed α} {r : Res β} (h : load (Bufio.new f) = r) (hr : r ≠ .hang)
    (handles : Nat) : fromFile load (some f) handles = (r, handles) := by
  rw [fromFile, h]
  cases r with
  | hang => exact absurd rfl hr
  | _ => rfl

theorem delivers_new {α : Type} {k : Nat} (f : Feed α) (h : Patient k f.lim) : Arrives k (Bufio.new f) f.rest f.fin :=
  ⟨rfl, rfl, by show 16 ≤ 4096; omega, rfl, rfl, h⟩

/-- C90: a file that cannot be opened gives an error, and no file is left open. -/
theorem C90_no_file (P : Platform) (lt : Bool) (limit : Int) (skip : Bool) (delimiter : Str) (d : F64) (handles : Nat) :
    (∃ e, lgEnsembleFromFile P none lt handles = (.err e, handles)) ∧ (∃ e, xgEnsembleFromFile P none lt handles = (.err e, handles)) ∧
    (∃ e, xgbLinearFromFile P none lt handles = (.err e, handles)) ∧ (∃ e, skEnsembleFromFile P none lt handles = (.err e, handles)) ∧
    (∃ e, Mat.denseMatFromLibsvmFile P none limit skip handles = (.err e, handles)) ∧
    (∃ e, Mat.csrMatFromLibsvmFile P none limit skip handles = (.err e, handles)) ∧
    ∃ e, Mat.denseMatFromCsvFile P none limit skip delimiter d handles = (.err e, handles) :=
  ⟨⟨_, rfl⟩, ⟨_, rfl⟩, ⟨_, rfl⟩, ⟨_, rfl⟩, ⟨_, rfl⟩, ⟨_, rfl⟩, ⟨_, rfl⟩⟩

/-- C90: the functions that take the name of a model file do with the contents of the file what the functions that take a reader do
with the whole input, and leave no file open, also when loading fails or panics. (Reads of a file are never empty: `Patient 0`.) -/
theorem C90_model_files (P : Platform) (lt : Bool) (handles : Nat) :
    (∀ f : Feed Char, Patient 99 f.lim → lgEnsembleFromFile P (some f) lt handles =
      (do let (e, _) ← lgEnsembleFromReader P ⟨f.rest, f.fin == .fail⟩ lt; return e, handles)) ∧
    (∀ f : Feed (BitVec 8), Patient 99 f.lim → xgEnsembleFromFile P (some f) lt handles =
      (wholeValue (xgEnsembleFromReader P lt f.rest), handles)) ∧
    (∀ f : Feed (BitVec 8), Patient 99 f.lim → xgbLinearFromFile P (some f) lt handles =
      (wholeValue (xgbLinearFromReader P lt f.rest), handles)) ∧
    ∀ f : Feed (BitVec 8), Patient 0 f.lim → skEnsembleFromFile P (some f) lt handles =
      (skEnsembleFromReader P f.rest lt, handles) := by
  refine ⟨fun f hf => ?_, fun f hf => ?_, fun f hf => ?_, fun f hf => ?_⟩
  · refine fromFile_some (C90_text_whole P (le_refl _) (delivers_new f hf) lt) ?_ handles
    have := C65_lg_text P ⟨f.rest, f.fin == .fail⟩ lt
    revert this
    generalize lgEnsembleFromReader P _ lt = x
    intro h
    cases x <;> simp_all
  · refine fromFile_some (C90_xgboost_whole P (le_refl _) (delivers_new f hf) lt).1 ?_ handles
    have := C65_xg P f.rest lt
    rw [wholeValue]
    revert this
    generalize xgEnsembleFromReader P lt _ = x
    intro h
    cases x <;> simp_all
  · refine fromFile_some (C90_xgboost_whole P (le_refl _) (delivers_new f hf) lt).2 ?_ handles
    have := C65_xg_linear P f.rest lt
    rw [wholeValue]
    revert this
    generalize xgbLinearFromReader P lt _ = x
    intro h
    cases x <;> simp_all
  · exact fromFile_some (C90_sklearn_whole P (delivers_new f hf) lt) (C65_sklearn P f.rest lt) handles

open Mat in
/-- C90: the same for the functions that read a matrix from a file. -/
theorem C90_matrix_files (P : Platform) (f : Feed Char) (hf : Patient 99 f.lim) (limit : Int) (skip : Bool) (delimiter : Str) (d : F64)
    (handles : Nat) :
    denseMatFromLibsvmFile P (some f) limit skip handles = (denseMatFromLibsvm P ⟨f.rest, f.fin == .fail⟩ limit skip, handles) ∧
    csrMatFromLibsvmFile P (some f) limit skip handles = (csrMatFromLibsvm P ⟨f.rest, f.fin == .fail⟩ limit skip, handles) ∧
    denseMatFromCsvFile P (some f) limit skip delimiter d handles =
      (denseMatFromCsv P ⟨f.rest, f.fin == .fail⟩ limit skip delimiter d, handles) := by
  obtain ⟨h1, h2, h3⟩ := C90_matrix_whole P (le_refl _) (delivers_new f hf) limit skip delimiter d
  have hne : ∀ {α : Type} {x : Res α}, ((∃ m, x = .ok m) ∨ ∃ e, x = .err e) → x ≠ .hang := by
    rintro α x (⟨m, rfl⟩ | ⟨e, rfl⟩) <;> simp
  exact ⟨fromFile_some h1 (hne (C91_libsvm_dense P _ limit skip)) handles, fromFile_some h2 (hne (C91_libsvm_csr P _ limit skip)) handles,
    fromFile_some h3 (hne (C91_csv P _ limit skip delimiter d)) handles⟩

/-! ## Examples -/

namespace StreamExample

/-- byte by byte with an empty read before each byte, the end together with the last byte; a buffer of 16 -/
def slow {α : Type} (input : List α) : Bufio α :=
  { cap := 16, feed := { rest := input, eager := true, lim := fun i => i % 2 } }

theorem slow_delivers {α : Type} (input : List α) : Arrives 1 (slow input) input .eof := by
  refine ⟨rfl, rfl, Nat.le_refl _, rfl, rfl, fun i => ?_⟩
  by_cases h : i % 2 = 0
  · refine ⟨1, Nat.le_refl _, ?_⟩
    show (i + 1) % 2 ≠ 0
    omega
  · exact ⟨0, Nat.zero_le _, h⟩

/-- everything at once -/
def fast {α : Type} (input : List α) : Bufio α := { cap := 4096, feed := { rest := input, lim := fun _ => input.length + 1 } }

theorem fast_delivers {α : Type} (input : List α) : Arrives 0 (fast input) input .eof :=
  ⟨rfl, rfl, by show 16 ≤ 4096; omega, rfl, rfl, fun i => ⟨0, Nat.le_refl _, Nat.succ_ne_zero _⟩⟩

/-- C90 applies to a matrix whose lines are longer than the buffer and arrive byte by byte. -/
example : Mat.denseMatFromCsvS Platform.demo (slow "1,2,3,4,5,6,7,8,9,10\n11,12,13,14,15,16,17,18,19,20\n".toList) 0 false
      ",".toList F64.zero = .ok ⟨(List.range 20).map fun i => F64.ofInt (i + 1), 10, 2⟩ := by
  decide +kernel

/-- A LightGBM text model of two trees loads byte by byte. -/
example : ∃ ens, loaderOf (fun b => lgEnsembleFromReaderS LgExample.platform b false)
    (slow (modelText LgLoadExample.print [LgLoadExample.d1, LgLoadExample.d2] 2 1 false)) = .ok ens := by
  obtain ⟨⟨ens, r⟩, h, -⟩ := SkModelExample.of_check (r := lgEnsembleFromReader LgExample.platform
    ⟨modelText LgLoadExample.print [LgLoadExample.d1, LgLoadExample.d2] 2 1 false, false⟩ false) (fun _ => True) (by decide +kernel)
  refine ⟨ens, ?_⟩
  rw [C90_text_whole _ (by norm_num) (slow_delivers _)]
  exact congrArg (fun x => x >>= fun y : Ensemble × Reader => Res.ok y.1) h

/-- An XGBoost file loads byte by byte, from a file that is closed afterwards. -/
example : ∃ ens, xgEnsembleFromFile Platform.demo (some { rest := (XgFileExample.file 1#32).image ++ [], lim := fun _ => 1 }) false 3 = (.ok ens, 3) := by
  obtain ⟨ens, h1, -⟩ := C62_xgboost_file_le Platform.demo (XgFileExample.file 1#32) 1 2 XgFileExample.file_ok false (.raw 1) .raw (by intro h; cases h)
  refine ⟨ens, ?_⟩
  rw [(C90_model_files Platform.demo false 3).2.1 _ (fun i => ⟨0, Nat.zero_le _, Nat.one_ne_zero⟩), wholeValue, h1 []]
  rfl

/-- The pickle of a classifier loads when it is delivered at once and is rejected when the first read is empty. -/
theorem C90_sklearn_differs :
    ∃ ens, loaderOf (skEnsembleFromReaderS Platform.demo false) (fast ((SkModelExample.value 2).dump SkModelExample.print ++ [octet '.'])) = .ok ens ∧
      loaderOf (skEnsembleFromReaderS Platform.demo false) (slow ((SkModelExample.value 2).dump SkModelExample.print ++ [octet '.']))
        = .err "unexpected read" := by
  obtain ⟨ens, h, -⟩ := SkModelExample.of_check (r := skEnsembleFromReader Platform.demo
    ((SkModelExample.value 2).dump SkModelExample.print ++ [octet '.']) false) (fun _ => True) (by decide +kernel)
  exact ⟨ens, (C90_sklearn_whole _ (fast_delivers _) false).trans h, C90_sklearn_empty_read _ (slow_delivers _) rfl false⟩

end StreamExample

end Leaves
