import Verif.Props.LgLoad
import Verif.Props.XgFile
import Verif.Props.SkModel
import Verif.Props.JsonModel

/-!
# C80: what a loaded model calls itself
-/

namespace Leaves

open Spec GoM XgBin

theorem rd_bind_of_ok {α β : Type} {r : Rd α} {f : α → Rd β} {bs bs' : Bytes} {a : α} (h : r bs = .ok (a, bs')) : (r >>= f) bs = f a bs' := by
  show (match r bs with | .ok (a, bs) => f a bs | .err t => .err t | .panic => .panic | .hang => .hang) = _
  rw [h]

/-- **C80, LightGBM text files.** The model calls itself a random forest exactly if the header has an 'average_output' line, and a
boosted model otherwise. -/
theorem C80_text (P : Platform) (text rest0 : Str) (header : List Str) (e0 lt : Bool) (hh : FileBlock text header rest0 e0) (ens : Ensemble)
    (r : Reader) (h : lgEnsembleFromReader P ⟨text, false⟩ lt = .ok (ens, r)) :
    ((∃ v, Bound header "average_output".toList v) → ens.name = "lightgbm.rf") ∧
    ((¬ ∃ v, Bound header "average_output".toList v) → ens.name = "lightgbm.gbdt") := by
  obtain ⟨first, s, t, ss, rfl, hn, hl, hb, rfl, hr⟩ := hh
  obtain ⟨p, hp, hp2⟩ := C35_block_at_end first s t rest0 ss e0 hn hl hb hr
  obtain ⟨p', r1, K, M, toks, ts, tr, h1, -, -, -, -, -, -, -, -, rfl⟩ := lgEnsemble_inv h
  rw [hp] at h1
  cases h1
  have hc : p.contains "average_output".toList = true ↔ ∃ v, Bound (s :: ss) "average_output".toList v := by
    unfold Params.contains
    rw [Option.isSome_iff_exists]
    exact exists_congr fun v => hp2 _ _
  exact ⟨fun h => if_pos (hc.2 h), fun h => if_neg fun h' => h (hc.1 h')⟩

/-- **C80, JSON dumps.** Always a boosted model: the dump of a random forest, too, as it does not say that it is one. -/
theorem C80_json (P : Platform) (data : Option JEnsemble) (lt : Bool) (ens : Ensemble) (h : lgEnsembleFromJSON P data lt = .ok ens) :
    ens.name = "lightgbm.gbdt" := by
  obtain ⟨d, ts, -, -, -, -, -, -, rfl⟩ := jEnsemble_inv h
  rfl

/-- **C80, XGBoost files.** The name is 'xgboost.' and the booster named in the file's header. -/
theorem C80_xgboost (P : Platform) (lt : Bool) (header : ModelHeader) (hok : HeaderOK P.maxAlloc header) (bs rest : Bytes) (ens : Ensemble)
    (h : xgEnsembleFromReader P lt (headerImage header ++ bs) = .ok (ens, rest)) :
    (header.nameGbm = asciiBytes "gbtree" ∧ ens.name = "xgboost.gbtree") ∨ (header.nameGbm = asciiBytes "dart" ∧ ens.name = "xgboost.dart") := by
  obtain ⟨header', b1, hh, h⟩ := rd_bind_ok h
  rw [C41_header P header hok] at hh
  cases hh
  split at h
  · cases h
  rename_i hname
  simp only at h
  split at h
  · cases h
  obtain ⟨m, b2, hm, h⟩ := rd_bind_ok h
  split at h
  · cases h
  obtain ⟨wd, b3, hwd, h⟩ := rd_bind_ok h
  obtain ⟨h, -⟩ := rd_lift_ok h
  have hn : ens.name = if header.nameGbm = ascii "gbtree" then "xgboost.gbtree" else "xgboost.dart" := by
    unfold xgAssemble at h
    simp only at h
    split at h
    · cases h
    split at h
    · cases h
    split at h
    · cases h
    obtain ⟨tr, htr, h⟩ := Res.bind_eq_ok.1 h
    split at h
    · cases h
    obtain ⟨-, -, h⟩ := Res.bind_eq_ok.1 h
    obtain ⟨ts, -, h⟩ := Res.bind_eq_ok.1 h
    cases h
    rfl
  by_cases hg : header.nameGbm = ascii "gbtree"
  · exact .inl ⟨hg.trans (by decide), by rw [hn, if_pos hg]⟩
  · have hd : header.nameGbm = ascii "dart" := by
      by_contra hd
      exact hname ⟨hg, hd⟩
    exact .inr ⟨hd.trans (by decide), by rw [hn, if_neg hg]⟩

/-- **C80, linear XGBoost files.** -/
theorem C80_linear (P : Platform) (lt : Bool) (header : ModelHeader) (hok : HeaderOK P.maxAlloc header) (bs rest : Bytes) (ens : Ensemble)
    (h : xgbLinearFromReader P lt (headerImage header ++ bs) = .ok (ens, rest)) :
    ens.name = "xgboost.gblinear" ∧ header.nameGbm = asciiBytes "gblinear" := by
  obtain ⟨header', b1, hh, h⟩ := rd_bind_ok h
  rw [C41_header P header hok] at hh
  cases hh
  split at h
  · cases h
  rename_i hname
  split at h
  · cases h
  obtain ⟨m, b2, hm, h⟩ := rd_bind_ok h
  simp only at h
  obtain ⟨tr, b3, -, h⟩ := rd_bind_ok h
  cases h
  exact ⟨rfl, (not_not.1 hname).trans (by decide)⟩

/-- **C80.** No input is both a tree model and a linear model: what one XGBoost loader accepts, the other rejects with an error. -/
theorem C80_exclusive (P : Platform) (lt lt' : Bool) (bs rest : Bytes) (ens : Ensemble) :
    (xgEnsembleFromReader P lt bs = .ok (ens, rest) → ∃ m, xgbLinearFromReader P lt' bs = .err m) ∧
    (xgbLinearFromReader P lt bs = .ok (ens, rest) → ∃ m, xgEnsembleFromReader P lt' bs = .err m) := by
  constructor
  · intro h
    obtain ⟨header, b1, hh, h'⟩ := rd_bind_ok h
    obtain ⟨hok, rfl⟩ := readModelHeader_inv hh
    have hn := C80_xgboost P lt header hok b1 rest ens h
    refine ⟨"only gblinear is supported", ?_⟩
    unfold xgbLinearFromReader
    rw [rd_bind_of_ok hh, if_pos (by rcases hn with ⟨hn, -⟩ | ⟨hn, -⟩ <;> rw [hn] <;> decide)]
    rfl
  · intro h
    obtain ⟨header, b1, hh, h'⟩ := rd_bind_ok h
    obtain ⟨hok, rfl⟩ := readModelHeader_inv hh
    obtain ⟨-, hn⟩ := C80_linear P lt header hok b1 rest ens h
    refine ⟨"only 'gbtree' or 'dart' is supported", ?_⟩
    unfold xgEnsembleFromReader
    rw [rd_bind_of_ok hh, if_pos (by rw [hn]; decide)]
    rfl

/-- **C80, scikit-learn pickles.** -/
theorem C80_sklearn (P : Platform) (input : Pickle.Bytes) (lt : Bool) (ens : Ensemble) (h : skEnsembleFromReader P input lt = .ok ens) :
    ens.name = "sklearn.ensemble.GradientBoostingClassifier" := by
  unfold skEnsembleFromReader at h
  obtain ⟨⟨res, m⟩, -, h⟩ := Res.bind_eq_ok.1 h
  obtain ⟨g, -, h⟩ := Res.bind_eq_ok.1 h
  obtain ⟨K, bases, ts, -, -, -, -, -, rfl⟩ := skAssemble_inv h
  rfl

/-! ### concrete cases -/

/-- the text file of `LgLoadExample` -/
example : ∃ ens r, lgEnsembleFromReader LgExample.platform ⟨LgLoadExample.binaryText, false⟩ true = .ok (ens, r) ∧ ens.name = "lightgbm.gbdt" :=
  ⟨⟨.lg { trees := [{ leafValues := [F64.ofNat 9] }, { leafValues := [F64.ofNat 7] }], maxFeatureIdx := 1, nRawOutputGroups := 2, name := "lightgbm.gbdt" }, .logistic⟩,
    ⟨[], false⟩, by decide +kernel, rfl⟩

/-- the 'dart' file of `XgFileExample`, which is no linear model -/
example : (∃ ens, xgEnsembleFromReader Platform.demo false (XgFileExample.file 1#32).image = .ok (ens, []) ∧ ens.name = "xgboost.dart") ∧
    ∃ m, xgbLinearFromReader Platform.demo false (XgFileExample.file 1#32).image = .err m := by
  obtain ⟨ens, h, -⟩ := C62_xgboost_file_le Platform.demo (XgFileExample.file 1#32) 1 2 XgFileExample.file_ok false (.raw 1) .raw (fun h => by cases h)
  have h := h []
  rw [List.append_nil] at h
  refine ⟨⟨ens, h, ?_⟩, (C80_exclusive Platform.demo false false _ [] ens).1 h⟩
  rcases C80_xgboost Platform.demo false (XgFileExample.file 1#32).header XgFileExample.file_ok.header _ [] ens h with ⟨h, -⟩ | ⟨-, h⟩
  · exact absurd h (by decide)
  · exact h

end Leaves
