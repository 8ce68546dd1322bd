import Verif.Props.JsonDoc

/-!
# Findings about JSON dumps: their version (C68), and splits that are read as leaves (C69)
-/

namespace Leaves
open Spec

/-- The JSON loader accepts dumps of version `v2` only, whatever they contain. -/
theorem C68_json_version (P : Platform) (doc : JEnsemble) (ens : Ensemble) (lt : Bool) (h : lgEnsembleFromJSON P (some doc) lt = .ok ens) :
    doc.version = "v2".toList := by
  unfold lgEnsembleFromJSON at h
  cases lt
  · simp only [Bool.false_eq_true, if_false] at h
    by_contra hv
    split at h
    · cases h
    · cases h
  · cases h

namespace JsonDocExample

open LgLoadExample (d1 d2 print ds_ok)
open LgExample (platform)

/-- C68 is false for models of version `v3`: the text file (`LgLoadExample`, with `version=v3`) loads, and no dump of that version does. -/
theorem C68_version_fails : (∃ ens r, lgEnsembleFromReader platform ⟨modelText print [d1, d2] 2 1 false, false⟩ false = .ok (ens, r)) ∧
    (∃ rest, modelText print [d1, d2] 2 1 false = "tree\nversion=v3\n".toList ++ rest) ∧
    ∀ (P : Platform) (doc : JEnsemble) (lt : Bool), doc.version = "v3".toList → ∀ ens, lgEnsembleFromJSON P (some doc) lt ≠ .ok ens := by
  refine ⟨?_, ⟨_, List.prefix_iff_eq_append.1 (by decide +kernel : "tree\nversion=v3\n".toList <+: modelText print [d1, d2] 2 1 false) |>.symm⟩, ?_⟩
  · obtain ⟨ens, h, -⟩ := C39_written_model platform print [] [d1, d2] 2 1 1 false (by norm_num) le_rfl rfl (by norm_num) ds_ok
    rw [List.append_nil] at h
    exact ⟨ens, _, h⟩
  · intro P doc lt hv ens h
    have := C68_json_version P doc ens lt h
    rw [hv] at this
    exact absurd this (by decide)

/-- a split with two children and, besides, a `leaf_value`; its missing type is as given -/
def oddSplit (missing : String) : Json := object [("split_feature", number "0"), ("threshold", number "5"), ("decision_type", text "<="),
  ("default_left", .bool true), ("missing_type", text missing), ("left_child", object [("leaf_value", number "1")]),
  ("right_child", object [("leaf_value", number "2")]), ("leaf_value", number "7")]

/-- What a node is gets decided by its missing type alone: with an empty one a split that also has a `leaf_value` is loaded as that leaf,
without an error; with a missing type it is a split, and the `leaf_value` is ignored. -/
theorem C69_split_as_leaf :
    (∃ ens, lgEnsembleFromDocument platform (some (tiny (tinyTree "2" (oddSplit "")))) false = .ok ens ∧
      ens.predictSingle platform [F64.ofNat 3, F64.zero] 0 = .ok (F64.ofNat 7)) ∧
    ∃ ens, lgEnsembleFromDocument platform (some (tiny (tinyTree "2" (oddSplit "None")))) false = .ok ens ∧
      ens.predictSingle platform [F64.ofNat 3, F64.zero] 0 = .ok (F64.ofNat 1) :=
  ⟨SkModelExample.of_check (r := lgEnsembleFromDocument platform (some (tiny (tinyTree "2" (oddSplit "")))) false)
      (fun ens => ens.predictSingle platform [F64.ofNat 3, F64.zero] 0 = .ok (F64.ofNat 7)) (by decide +kernel),
    SkModelExample.of_check (r := lgEnsembleFromDocument platform (some (tiny (tinyTree "2" (oddSplit "None")))) false)
      (fun ens => ens.predictSingle platform [F64.ofNat 3, F64.zero] 0 = .ok (F64.ofNat 1)) (by decide +kernel)⟩

end JsonDocExample

end Leaves
