import Verif.Proofs.SkParsePanic

/-!
# C57: what is wrong with scikit-learn files that crash the loader

Together with `C57_pickle_partial` (decoding) and `C57_sk_model_partial` (assembling the model) this covers the whole
way from the bytes of a file to the model.
-/

namespace Leaves

open Spec

/-- C57, scikit-learn: if loading a file crashes, then an opcode lacks the values it takes, or the decoded object contains a
count that does not fit into memory, a number of fewer than 8 bytes or an array of classes without a dimension, or the model
described by the object does not fit together. Missing for the full property: such files crash the program, see the
examples. -/
theorem C57_sklearn_partial (P : Platform) (bytes : List (BitVec 8)) (loadTransformation : Bool)
    (h : skEnsembleFromReader P bytes loadTransformation = .panic) :
    Underflow bytes [0] ∨ ∃ x m, Pickle.decode P bytes = .ok (x, m) ∧
      (¬ SkSound P m.arrays m.dicts x ∨ ∃ g, Pickle.parseSkBoosting P m x = .ok g ∧ ¬ SkFit P g) := by
  by_contra hn
  rw [not_or, not_exists] at hn
  refine skReader_ne_panic P bytes loadTransformation hn.1 (fun x m hx => ?_) (fun x m g hx hg => ?_) h
  · by_contra hs
    exact hn.2 x ⟨m, hx, .inl hs⟩
  · by_contra hs
    exact hn.2 x ⟨m, hx, .inr ⟨g, hg, hs⟩⟩

namespace SkCrashExample

/-! ### files that crash the loader -/

/-- calling the reconstructor for a class of that module -/
def instanceOf (name : String) : String := "ccopy_reg\n_reconstructor\n(csklearn.ensemble.gradient_boosting\n" ++ name ++ "\nNNtR"

/-- an array of 8-byte integers with that shape and no bytes -/
def array (shape : String) : String := "cnumpy.core.multiarray\n_reconstruct\n(cnumpy\nndarray\nNNtR(I1\n" ++ shape ++
  "cnumpy\ndtype\n(Vi8\nNNtRI0\nc_codecs\nencode\n(V\nNtRtb"

/-- the pickle of a model with the given number of classes and array of classes, the other attributes missing -/
def file (count classes : String) : List (BitVec 8) := octets (instanceOf "GradientBoostingClassifier" ++ "(dVn_classes_\nI" ++ count ++
  "\nsVlearning_rate\nF1\nsVloss\nVdeviance\nsVinit_\n" ++ instanceOf "Start" ++ "sVclasses_\n" ++ classes ++ "sb.").toList

/-- C57 is false for scikit-learn files: a negative number of classes crashes the program. -/
theorem C57_sk_negative_classes : skEnsembleFromReader Platform.demo (file "-1" (array "(I0\nt")) false = .panic := by decide +kernel

/-- C57 is false for scikit-learn files: an array of classes without dimensions crashes the program. -/
theorem C57_sk_no_dimension : skEnsembleFromReader Platform.demo (file "1" (array "(t")) false = .panic := by decide +kernel

/-- a model of one regression tree whose number of classes has the given bytes, the other attributes of the tree missing -/
def treeFile (bytes : String) : List (BitVec 8) := octets (instanceOf "GradientBoostingClassifier" ++
  "(dVn_classes_\nI1\nsVlearning_rate\nF1\nsVloss\nVdeviance\nsVinit_\n" ++ instanceOf "Start" ++ "sVclasses_\n" ++ array "(I0\nt" ++
  "sVmax_features_\nI1\nsVn_estimators\nI1\nsVestimators_\n" ++
  "cnumpy.core.multiarray\n_reconstruct\n(cnumpy\nndarray\nNNtR(I1\n(I1\nI1\ntcnumpy\ndtype\n(VO8\nNNtRI0\n(l" ++
  "ccopy_reg\n_reconstructor\n(csklearn.tree.tree\nDecisionTreeRegressor\nNNtR(dVn_classes_\n" ++
  "cnumpy.core.multiarray\nscalar\n(cnumpy\ndtype\n(Vi8\nNNtRc_codecs\nencode\n(V" ++ bytes ++ "\nNtRtRsbatbsb.").toList

/-- C57 is false for scikit-learn files: a number of only 7 bytes crashes the program. -/
theorem C57_sk_short_number : skEnsembleFromReader Platform.demo (treeFile "1234567") false = .panic := by decide +kernel

/-- with 8 bytes the loader reports the missing attributes -/
example : skEnsembleFromReader Platform.demo (treeFile "12345678") false = .err "key not found" := by decide +kernel

/-- with one class and one dimension the loader reports the missing attributes -/
example : skEnsembleFromReader Platform.demo (file "1" (array "(I0\nt")) false = .err "key not found" := by decide +kernel

/-- what `C57_sklearn_partial` says of the first file: the second and third explanation are left, opcodes have their values -/
example : Underflow (file "-1" (array "(I0\nt")) [0] ∨ ∃ x m, Pickle.decode Platform.demo (file "-1" (array "(I0\nt")) = .ok (x, m) ∧
    (¬ SkSound Platform.demo m.arrays m.dicts x ∨ ∃ g, Pickle.parseSkBoosting Platform.demo m x = .ok g ∧ ¬ SkFit Platform.demo g) :=
  C57_sklearn_partial _ _ _ C57_sk_negative_classes

/-! ### an object that can be taken apart -/

/-- the call that makes the model -/
def call : Pickle.PVal := .reduce (.global (octets "copy_reg".toList) (octets "_reconstructor".toList))
  [.global (octets "sklearn.ensemble.gradient_boosting".toList) (octets "GradientBoostingClassifier".toList), .none, .none]

/-- a model whose only attribute is the number of classes -/
def root : Pickle.PVal := .build call (.dict 0)

/-- its attributes -/
def cells : Pickle.DictCells := [(octets "n_classes_".toList, .int 2)]

theorem occurs_root {v : Pickle.PVal} (h : Occurs [] [cells] root v) : v = root ∨ v = call ∨ v = .dict 0 ∨ v = .int 2 ∨ v = .none ∨
    ∃ a b, v = .global a b := by
  induction h with
  | self => exact .inl rfl
  | object o s _ ih =>
    rcases ih with h | h | h | h | h | ⟨a, b, h⟩ <;> cases h
    exact .inr (.inl rfl)
  | state o s _ ih =>
    rcases ih with h | h | h | h | h | ⟨a, b, h⟩ <;> cases h
    exact .inr (.inr (.inl rfl))
  | callable f args _ ih =>
    rcases ih with h | h | h | h | h | ⟨a, b, h⟩ <;> cases h
    exact .inr (.inr (.inr (.inr (.inr ⟨_, _, rfl⟩))))
  | arg f args x _ hx ih =>
    rcases ih with h | h | h | h | h | ⟨a, b, h⟩ <;> cases h
    simp only [List.mem_cons, List.not_mem_nil, or_false] at hx
    rcases hx with rfl | rfl | rfl
    · exact .inr (.inr (.inr (.inr (.inr ⟨_, _, rfl⟩))))
    · exact .inr (.inr (.inr (.inr (.inl rfl))))
    · exact .inr (.inr (.inr (.inr (.inl rfl))))
  | part xs x _ hx ih => rcases ih with h | h | h | h | h | ⟨a, b, h⟩ <;> cases h
  | elem r len a x _ ha hx ih => cases ha
  | value r c key x _ hd hx ih =>
    rcases ih with h | h | h | h | h | ⟨a, b, h⟩ <;> cases h
    cases hd
    simp only [cells, List.mem_singleton, Prod.mk.injEq] at hx
    exact .inr (.inr (.inr (.inl hx.2)))

theorem entry_root {k : String} {x : Pickle.PVal} (h : Entry [] [cells] root k x) : x = .int 2 := by
  obtain ⟨r, c, h1, h2, h3⟩ := h
  rcases occurs_root h1 with h | h | h | h | h | ⟨a, b, h⟩ <;> cases h
  cases h2
  simp only [cells, List.mem_singleton, Prod.mk.injEq] at h3
  exact h3.2

/-- it can be taken apart -/
example : SkSound Platform.demo [] [cells] root where
  classCount i h := by
    cases entry_root h
    exact ⟨by decide, by decide⟩
  classCounts x b h hb := by
    rw [entry_root h] at hb
    cases hb
  prior x b h hb := by
    rw [entry_root h] at hb
    cases hb
  classes x h hd := by
    rw [entry_root h] at hd
    cases hd
  outputs f a b i h hf := by
    rcases occurs_root h with h | h | h | h | h | ⟨a, b, h⟩ <;> cases h
  lists r len h := by
    rcases occurs_root h with h | h | h | h | h | ⟨a, b, h⟩ <;> cases h

/-- with -2 classes it cannot -/
example : ¬ SkSound Platform.demo [] [[(octets "n_classes_".toList, .int (-2))]] root := by
  intro h
  have := (h.classCount (-2) ⟨0, _, .state _ _ .self, rfl, by simp⟩).1
  omega

end SkCrashExample

end Leaves
