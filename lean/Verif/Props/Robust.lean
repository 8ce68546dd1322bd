import Verif.Proofs.NoHang
import Verif.Proofs.MatText
import Verif.Proofs.Adequate

/-!
# C57, C65, C66: what loading does to arbitrary input
-/

namespace Leaves

/-! ## C65: loading ends

`Res.hang` is the outcome of a loop that does not end. -/

/-- C65: reading a LightGBM text model ends, whatever the text. -/
theorem C65_lg_text (P : Platform) (r : Reader) (loadTransformation : Bool) : lgEnsembleFromReader P r loadTransformation ≠ .hang :=
  lgEnsembleFromReader_ne_hang P r loadTransformation

/-- C65: loading a LightGBM JSON dump ends, whatever the document. -/
theorem C65_lg_json (P : Platform) (d : Option JEnsemble) (loadTransformation : Bool) : lgEnsembleFromJSON P d loadTransformation ≠ .hang :=
  lgEnsembleFromJSON_ne_hang P d loadTransformation

/-- C65: reading an XGBoost tree model ends, whatever the bytes. -/
theorem C65_xg (P : Platform) (bytes : List (BitVec 8)) (loadTransformation : Bool) :
    xgEnsembleFromReader P loadTransformation bytes ≠ .hang :=
  xgEnsembleFromReader_noHang P loadTransformation bytes

/-- C65: reading an XGBoost linear model ends, whatever the bytes. -/
theorem C65_xg_linear (P : Platform) (bytes : List (BitVec 8)) (loadTransformation : Bool) :
    xgbLinearFromReader P loadTransformation bytes ≠ .hang :=
  xgbLinearFromReader_noHang P loadTransformation bytes

/-- C65: reading a scikit-learn pickle ends, whatever the bytes. -/
theorem C65_sklearn (P : Platform) (bytes : List (BitVec 8)) (loadTransformation : Bool) :
    skEnsembleFromReader P bytes loadTransformation ≠ .hang :=
  skEnsembleFromReader_ne_hang P bytes loadTransformation

/-! ## C57: input that crashes the loaders -/

theorem rd_run_ok {α β : Type} {x : XgBin.Rd α} {f : α → XgBin.Rd β} {bs bs' : List (BitVec 8)} {a : α} (h : x bs = .ok (a, bs')) :
    (x >>= f) bs = f a bs' := by
  show (match x bs with | .ok (a, bs) => f a bs | .err t => .err t | .panic => .panic | .hang => .hang) = _
  rw [h]

theorem rd_run_panic {α β : Type} {x : XgBin.Rd α} {f : α → XgBin.Rd β} {bs : List (BitVec 8)} (h : x bs = .panic) :
    (x >>= f) bs = .panic := by
  show (match x bs with | .ok (a, bs) => f a bs | .err t => .err t | .panic => .panic | .hang => .hang) = _
  rw [h]

namespace RobustExample

/-- lines of a text -/
def text (lines : List String) : Str := (String.join (lines.map (· ++ "\n"))).toList

/-- a header for one tree on two features -/
def header : List String :=
  ["tree", "version=v2", "num_class=1", "num_tree_per_iteration=1", "max_feature_idx=1", "objective=regression", "tree_sizes=100", ""]

/-- a tree block that announces three leaves but gives only one split -/
def shortTree : List String :=
  ["Tree=0", "num_leaves=3", "num_cat=0", "leaf_value=1 2 3", "left_child=1", "right_child=-1", "decision_type=0", "split_feature=0",
    "threshold=5", ""]

/-- a tree block whose only split has itself as its left child -/
def cyclicTree : List String :=
  ["Tree=0", "num_leaves=2", "num_cat=0", "leaf_value=1 2", "left_child=0", "right_child=-1", "decision_type=0", "split_feature=0",
    "threshold=5", ""]

/-- C57 is false for LightGBM text: arrays shorter than `num_leaves` announces crash the program. -/
theorem C57_text_short_arrays : lgEnsembleFromReader Platform.demo ⟨text (header ++ shortTree), false⟩ false = .panic := by
  decide +kernel

/-- C57 is false for LightGBM text: a large `num_leaves` crashes the program (nothing else in the tree matters). -/
theorem C57_text_many_leaves :
    lgEnsembleFromReader Platform.demo ⟨text (header ++ ["Tree=0", "num_leaves=1000000000000"] ++ shortTree.drop 2), false⟩ false = .panic := by
  decide +kernel

/-- C57 is false for LightGBM JSON: a category set with a negative member crashes the program. -/
theorem C57_json_negative_category :
    lgEnsembleFromJSON Platform.demo (some ⟨"tree".toList, "v2".toList, 1, 1, 1,
      [some ⟨2, 1, .split 0 (.str "-40||5".toList) "==".toList false 'N' "one".toList (.leafLike (some F64.one)) (.leafLike (some F64.zero))⟩]⟩)
      false = .panic := by
  decide +kernel

theorem xg_header_bytes : XgBin.readLearnerModelParam (List.replicate 136 0#8 ++ List.replicate 8 255#8) =
    .ok (⟨0, 0, 0, 0, 0, List.replicate 29 0⟩, List.replicate 8 255#8) := by decide +kernel

theorem xg_size_bytes : XgBin.readWord64 (List.replicate 8 255#8) = .ok (BitVec.ofNat 64 18446744073709551615, []) := by decide +kernel

theorem xg_long_string {P : Platform} (h : P.maxAlloc < 18446744073709551615) : XgBin.readString P (List.replicate 8 255#8) = .panic := by
  unfold XgBin.readString
  rw [rd_run_ok xg_size_bytes]
  have e : (BitVec.ofNat 64 18446744073709551615).toNat = 18446744073709551615 := by decide
  rw [e, if_neg (by omega)]
  refine rd_run_panic ?_
  have : allocCheck P ((18446744073709551615 : Nat) : Int) 1 = .panic := by
    unfold allocCheck
    rw [if_pos (.inr (by omega))]
  rw [this]
  rfl

theorem xg_header_panic {P : Platform} {bytes rest : List (BitVec 8)} {param : XgBin.LearnerModelParam}
    (h1 : XgBin.readLearnerModelParam bytes = .ok (param, rest)) (h2 : XgBin.readString P rest = .panic) (b : Bool) :
    xgEnsembleFromReader P b bytes = .panic := by
  unfold xgEnsembleFromReader
  refine rd_run_panic ?_
  unfold XgBin.readModelHeader
  rw [rd_run_ok h1]
  exact rd_run_panic h2

/-- C57 is false for XGBoost files: the length of the first string, 2^64-1, is not checked. Nothing but a limit on allocations is
assumed. -/
theorem C57_xg_long_string (P : Platform) (h : P.maxAlloc < 18446744073709551615) (b : Bool) :
    xgEnsembleFromReader P b (List.replicate 136 0#8 ++ List.replicate 8 255#8) = .panic :=
  xg_header_panic xg_header_bytes (xg_long_string h) b

/-- C57 is false for scikit-learn files: an opcode without the values it needs crashes the program. -/
theorem C57_pickle_opcode (P : Platform) (b : Bool) : skEnsembleFromReader P ("t".toList.map Pickle.byte) b = .panic := by
  rfl

/-! ## C66: a model that loads but whose prediction does not end -/

/-- what `C66_cyclic_tree` needs of the loaded model -/
def cyclicLoaded (ens : Ensemble) : Bool :=
  match ens.base with
  | .lg g => match g.trees with
    | [t] => decide (t.predictLoop Platform.demo [F64.one, F64.zero] (t.nodes.length + 1) 0 = .hang ∧
        ens.predictSingle Platform.demo [F64.one, F64.zero] 0 = .hang)
    | _ => false
  | _ => false

/-- C66 is false for LightGBM text: a split that is its own left child is accepted, and no number of iterations suffices for a
row that goes left; the prediction does not end. -/
theorem C66_cyclic_tree : ∃ ens g t rest, lgEnsembleFromReader Platform.demo ⟨text (header ++ cyclicTree), false⟩ false = .ok (ens, rest) ∧
    ens.base = .lg g ∧ g.trees = [t] ∧ (∀ fuel, t.predictLoop Platform.demo [F64.one, F64.zero] fuel 0 = .hang) ∧
    ens.predictSingle Platform.demo [F64.one, F64.zero] 0 = .hang := by
  have h : (match lgEnsembleFromReader Platform.demo ⟨text (header ++ cyclicTree), false⟩ false with
      | .ok (ens, _) => cyclicLoaded ens | _ => false) = true := by decide +kernel
  cases hr : lgEnsembleFromReader Platform.demo ⟨text (header ++ cyclicTree), false⟩ false with
  | ok x =>
    obtain ⟨ens, rest⟩ := x
    rw [hr] at h
    dsimp only at h
    unfold cyclicLoaded at h
    split at h
    · rename_i g hg
      split at h
      · rename_i t ht
        obtain ⟨h1, h2⟩ := of_decide_eq_true h
        refine ⟨ens, g, t, rest, rfl, hg, ht, fun fuel => ?_, h2⟩
        by_contra hne
        have := LgTree.predict_adequate Platform.demo t [F64.one, F64.zero] fuel 0 hne
        exact hne (this ▸ h1)
      · cases h
    · cases h
  | _ => rw [hr] at h; cases h

end RobustExample

end Leaves
