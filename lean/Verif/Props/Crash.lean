import Verif.Proofs.TextPanic
import Verif.Proofs.XgPanic
import Verif.Proofs.PicklePanic
import Verif.Proofs.SkPanic
import Verif.Props.Robust

/-!
# C57: what is wrong with input that crashes the loaders

The full statement (C57) is that no input crashes a loader: `lgEnsembleFromReader P r b ≠ .panic` for all `r`, and likewise
for the other formats. It is false (`RobustExample`). The theorems here say what is wrong with the input whenever a loader
crashes; all other malformed input yields an error or a model.
-/

namespace Leaves

open Spec

/-- C57, LightGBM text: if loading crashes, then somewhere in the text there is a block that announces inner nodes, and its
arrays do not fit together or it announces more nodes than fit into memory. Missing for the full property: such blocks crash
the program, see `RobustExample.C57_text_short_arrays` and `RobustExample.C57_text_many_leaves`. -/
theorem C57_lg_text_partial (P : Platform) (text : Str) (io loadTransformation : Bool)
    (h : lgEnsembleFromReader P ⟨text, io⟩ loadTransformation = .panic) :
    ∃ before block rest lines e n a, text = before ++ block ∧ FileBlock block lines rest e ∧ InnerLines P lines n a ∧
      ¬ (LgArraysFit a n ∧ n < 2 ^ 32 ∧ n * 24 ≤ P.maxAlloc) := by
  obtain ⟨r', r'', p, n, a, ⟨t, ht⟩, hr, hb, hn⟩ := lgEnsembleFromReader_panic P _ _ h
  obtain ⟨lines, e, hf, hh⟩ := readParams_inv hr
  exact ⟨t, r'.rest, r''.rest, lines, e, n, a, ht.symm, hf, innerLines_of hh hb, hn⟩

/-- C57, LightGBM JSON: a dump does not crash the loader if no category list has a numeral that is negative or very large,
and no tree announces more leaves than fit into memory. Missing for the full property: other dumps may crash the program,
see `RobustExample.C57_json_negative_category`. -/
theorem C57_json_partial (P : Platform) (d : JEnsemble)
    (h : ∀ t, some t ∈ d.trees → JCategoriesFit P t.root ∧ (t.numLeaves - 1) * 24 ≤ P.maxAlloc) (loadTransformation : Bool) :
    lgEnsembleFromJSON P (some d) loadTransformation ≠ .panic :=
  lgEnsembleFromJSON_ne_panic P d h loadTransformation

/-- C57, XGBoost files of trees: if loading crashes, then the file announces something that does not fit into memory or a
negative number of nodes or trees, or a child lies beyond the end of its tree's nodes. Missing for the full property: such
files crash the program, see `RobustExample.C57_xg_long_string`. -/
theorem C57_xg_partial (P : Platform) (bytes : List (BitVec 8)) (loadTransformation : Bool)
    (h : xgEnsembleFromReader P loadTransformation bytes = .panic) : XgMisfit P.maxAlloc bytes :=
  xgEnsemble_panic h

/-- C57, XGBoost linear files: if loading crashes, then the file announces a string or weights that do not fit into memory.
Missing for the full property: such files crash the program. -/
theorem C57_xg_linear_partial (P : Platform) (bytes : List (BitVec 8)) (loadTransformation : Bool)
    (h : xgbLinearFromReader P loadTransformation bytes = .panic) : XgLinMisfit P.maxAlloc bytes :=
  xgbLinear_panic h

/-- C57, pickles: if decoding crashes, then some opcode lacks the mark or the values it takes. Missing for the full property:
such pickles crash the program, see `RobustExample.C57_pickle_opcode`. -/
theorem C57_pickle_partial (P : Platform) (bytes : List (BitVec 8)) (h : Pickle.decode P bytes = .panic) : Underflow bytes [0] :=
  decode_panic P bytes h

/-- C57, scikit-learn: a model whose description fits together does not crash the loader. Missing for the full property:
other descriptions may crash the program, see `CrashExample.C57_sk_child_out_of_range`. -/
theorem C57_sk_model_partial (P : Platform) (g : Pickle.SkBoosting) (h : SkFit P g) : skAssemble P g ≠ .panic :=
  skAssemble_ne_panic P g h

namespace CrashExample

open RobustExample

/-! ### examples -/

/-- the crashing text of `C57_text_short_arrays` has such a block -/
example : ∃ before block rest lines e n a, text (header ++ shortTree) = before ++ block ∧ FileBlock block lines rest e ∧
    InnerLines Platform.demo lines n a ∧ ¬ (LgArraysFit a n ∧ n < 2 ^ 32 ∧ n * 24 ≤ Platform.demo.maxAlloc) :=
  C57_lg_text_partial Platform.demo _ _ _ C57_text_short_arrays

/-- arrays that fit together without describing a tree: the split is its own left child (`C66_cyclic_tree`) -/
example : LgArraysFit ⟨[0], [-1], [0], [0], [F64.one], [], []⟩ 1 := by
  refine ⟨by decide, by decide, by decide, by decide, by decide, ?_, ?_, ?_⟩
  · intro i hi c hc
    obtain rfl : i = 0 := by omega
    cases hc; decide
  · intro i hi c hc
    obtain rfl : i = 0 := by omega
    cases hc; decide
  · intro i hi d thr hd h1
    obtain rfl : i = 0 := by omega
    cases hd; cases h1

theorem categories_of {P : Platform} {s : Str} (h : ∀ tok ∈ s.tails.flatMap List.inits, ∀ v, atoi tok = some v →
    0 ≤ v ∧ v < 2 ^ 63 - 1 ∧ (v / 32 + 1) * 4 ≤ P.maxAlloc) :
    ∀ tok, tok <:+: s → ∀ v, Numeral tok v → 0 ≤ v ∧ v < 2 ^ 63 - 1 ∧ (v / 32 + 1) * 4 ≤ P.maxAlloc := by
  rintro tok ⟨a, b, rfl⟩ v hv
  refine h tok ?_ v ((atoi_iff _ _).2 hv)
  rw [List.mem_flatMap]
  exact ⟨tok ++ b, (List.mem_tails _ _).2 ⟨a, by simp⟩, (List.mem_inits _ _).2 ⟨b, rfl⟩⟩

/-- a dump whose category list is not well-formed -/
def oddDump : JEnsemble := ⟨"tree".toList, "v2".toList, 1, 1, 1,
  [some ⟨2, 1, .split 0 (.str "40|||x5".toList) "==".toList false 'N' "one".toList (.leafLike (some F64.one)) (.leafLike none)⟩, none]⟩

/-- it does not crash the loader -/
example (b : Bool) : lgEnsembleFromJSON Platform.demo (some oddDump) b ≠ .panic := by
  refine C57_json_partial _ _ (fun t ht => ?_) b
  have ht : t = ⟨2, 1, .split 0 (.str "40|||x5".toList) "==".toList false 'N' "one".toList (.leafLike (some F64.one)) (.leafLike none)⟩ := by
    simpa [oddDump] using ht
  subst ht
  refine ⟨⟨?_, trivial, trivial⟩, by decide⟩
  rintro s hs
  cases hs
  refine categories_of fun tok ht v hv => ?_
  have hall : ∀ tok ∈ "40|||x5".toList.tails.flatMap List.inits, atoi tok = none ∨ atoi tok = some 40 ∨ atoi tok = some 4 ∨ atoi tok = some 0 ∨
      atoi tok = some 5 := by decide
  have hd : (2 : Nat) ≤ Platform.demo.maxAlloc ∧ (8 : Nat) ≤ Platform.demo.maxAlloc := by decide
  rcases hall tok ht with h | h | h | h | h <;> rw [h] at hv <;> cases hv <;> omega

/-- the crashing file of `C57_xg_long_string` -/
example : XgMisfit Platform.demo.maxAlloc (List.replicate 136 0#8 ++ List.replicate 8 255#8) :=
  C57_xg_partial Platform.demo _ false (C57_xg_long_string _ (by decide) _)

/-- the crashing pickle of `C57_pickle_opcode` -/
example (P : Platform) : Underflow (octets "t".toList) [0] := C57_pickle_partial P _ rfl

/-- a pickle that ends without opcode `.` does not crash the decoder: nothing is missing -/
example (P : Platform) : Pickle.decode P (octets "N".toList) ≠ .panic := by
  intro h
  have hu := C57_pickle_partial P _ h
  generalize hb : octets "N".toList = bs at hu
  cases hu with
  | mark op bs h ho => cases ho <;> cases hb
  | value op bs k h hs ho hk => cases ho <;> cases hb
  | later bs hs bs' hs' ho hu =>
    cases ho with
    | none => cases hb; cases hu with
      | later _ _ _ _ ho _ => cases ho
    | line _ _ _ _ _ ho => cases ho <;> cases hb
    | _ => cases hb

/-- a model of one tree -/
def model (e : Pickle.SkRegressor) : Pickle.SkBoosting where
  nClasses := 2
  nEstimators := 1
  estimators := [e]
  learningRate := F64.one
  initEstimator := { name := Pickle.str "LogOddsEstimator", prior := [F64.zero] }

/-- a regressor whose root has the child 7 -/
def wild : Pickle.SkRegressor :=
  { tree := { nNodes := 3, nodes := [⟨1, 7, 0, F64.one, F64.zero, 3, F64.one⟩, ⟨-1, -1, -2, F64.zero, F64.zero, 1, F64.one⟩,
      ⟨-1, -1, -2, F64.zero, F64.zero, 2, F64.one⟩], values := [F64.zero, F64.one, F64.one] } }

/-- C57 is false for scikit-learn models: a child beyond the end of the nodes crashes the program. -/
theorem C57_sk_child_out_of_range :
    skAssemble Platform.demo (model wild) = .panic := by decide +kernel

/-- a regressor whose root is its own right child -/
def cyclic : Pickle.SkRegressor :=
  { tree := { nNodes := 3, nodes := [⟨1, 0, 0, F64.one, F64.zero, 3, F64.one⟩, ⟨-1, -1, -2, F64.zero, F64.zero, 1, F64.one⟩,
      ⟨-1, -1, -2, F64.zero, F64.zero, 2, F64.one⟩], values := [F64.zero, F64.one] } }

/-- it fits together, with fewer values than nodes -/
example : SkFit Platform.demo (model cyclic) := by
  refine ⟨by decide, by simp [model], by decide, by decide, ?_⟩
  intro e he
  obtain rfl : e = cyclic := by simpa [model] using he
  refine ⟨rfl, by decide, by simp [cyclic], ?_, ?_, ?_⟩
  · intro n hn h0
    exact ⟨_, rfl, by decide⟩
  · intro n hn h0
    have : n = ⟨1, 0, 0, F64.one, F64.zero, 3, F64.one⟩ := by
      simp [cyclic] at hn
      rcases hn with rfl | rfl | rfl
      · rfl
      · exact absurd h0 (by decide)
      · exact absurd h0 (by decide)
    subst this
    exact ⟨1, rfl, _, rfl, fun _ => by decide⟩
  · intro n hn h0
    have : n = ⟨1, 0, 0, F64.one, F64.zero, 3, F64.one⟩ := by
      simp [cyclic] at hn
      rcases hn with rfl | rfl | rfl
      · rfl
      · exact absurd h0 (by decide)
      · exact absurd h0 (by decide)
    subst this
    exact ⟨0, rfl, _, rfl, fun h => absurd h (by decide)⟩

end CrashExample

end Leaves
