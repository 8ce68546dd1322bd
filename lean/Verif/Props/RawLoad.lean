import Verif.Spec.RawForm
import Verif.Props.LgLoad
import Verif.Props.Bytes
import Verif.Props.XgFile
import Verif.Model.SkLoad
import Verif.Props.JsonBytes

/-! # C112: loadTransformation decides the transformation and nothing else -/

namespace Leaves
open Spec

theorem rawForm_of (e : Ensemble) : RawForm ⟨e.base, .raw e.nRawOutputGroups⟩ e where
  name := rfl
  features := rfl
  estimators := rfl
  groups := rfl
  leaves := rfl
  width := rfl
  transform := rfl
  predict := fun _ _ _ _ => rfl
  single := fun _ _ _ => rfl
  dense := fun _ _ _ _ _ _ _ _ => Iff.rfl
  csr := fun _ _ _ _ _ _ _ _ => Iff.rfl
  leafView := by
    intro v v' h h'
    unfold Ensemble.withLeafPredictions at h h'
    obtain ⟨n, h1, h2⟩ := Res.bind_eq_ok.1 h
    obtain ⟨n', h1', h2'⟩ := Res.bind_eq_ok.1 h'
    have : n = n' := by
      have : (Res.ok n) = .ok n' := h1.symm.trans h1'
      cases this; rfl
    subst this
    cases h2
    cases h2'
    exact ⟨rfl, fun _ _ _ _ => rfl, fun _ _ _ _ _ _ _ _ => Iff.rfl, fun _ _ _ _ _ _ _ _ => Iff.rfl⟩

theorem lgTransform_raw (p : Params) (K : Int) (avg : Bool) : lgTransform p K avg false = .ok (.raw K) := rfl

/-- C112, LightGBM text: what loads with its transformation loads without it, and is the same model but for the transformation; the
input is read as far. -/
theorem C112_text (P : Platform) (r r' : Reader) (e : Ensemble) (h : lgEnsembleFromReader P r true = .ok (e, r')) :
    ∃ raw, lgEnsembleFromReader P r false = .ok (raw, r') ∧ RawForm raw e := by
  refine ⟨⟨e.base, .raw e.nRawOutputGroups⟩, ?_, rawForm_of e⟩
  unfold lgEnsembleFromReader at h ⊢
  obtain ⟨⟨p, r1⟩, hp, h⟩ := Res.bind_eq_ok.1 h
  dsimp only at h
  obtain ⟨u, hv, h⟩ := Res.bind_eq_ok.1 h
  obtain ⟨K, hK, h⟩ := Res.bind_eq_ok.1 h
  obtain ⟨K', hK', h⟩ := Res.bind_eq_ok.1 h
  simp only [hp, hv, hK, hK', Res.ok_bind]
  split at h
  · cases h
  rename_i h1
  split at h
  · cases h
  rename_i h2
  split at h
  · cases h
  rename_i h3
  obtain ⟨M, hM, h⟩ := Res.bind_eq_ok.1 h
  obtain ⟨toks, htok, h⟩ := Res.bind_eq_ok.1 h
  split at h
  · cases h
  rename_i h4
  split at h
  · cases h
  rename_i h5
  obtain ⟨tr0, htr0, h⟩ := Res.bind_eq_ok.1 h
  obtain ⟨⟨ts, r2⟩, hts, h⟩ := Res.bind_eq_ok.1 h
  cases h
  rw [if_neg h1, if_neg h2, if_neg h3]
  simp only [hM, htok, Res.ok_bind]
  rw [if_neg h4, if_neg h5, lgTransform_raw]
  simp only [Res.ok_bind, hts]
  rfl

/-- C112, the same for the bytes of a text file, valid UTF-8 or not, however they are delivered -/
theorem C112_text_bytes (P : Platform) (b b' : Bufio UInt8) (e : Ensemble) (h : Oct.lgEnsembleFromReader P b true = .ok (e, b')) :
    ∃ raw, Oct.lgEnsembleFromReader P b false = .ok (raw, b') ∧ RawForm raw e := by
  refine ⟨⟨e.base, .raw e.nRawOutputGroups⟩, ?_, rawForm_of e⟩
  unfold Oct.lgEnsembleFromReader at h ⊢
  obtain ⟨⟨p, r1⟩, hp, h⟩ := Res.bind_eq_ok.1 h
  dsimp only at h
  obtain ⟨u, hv, h⟩ := Res.bind_eq_ok.1 h
  obtain ⟨K, hK, h⟩ := Res.bind_eq_ok.1 h
  obtain ⟨K', hK', h⟩ := Res.bind_eq_ok.1 h
  simp only [hp, hv, hK, hK', Res.ok_bind]
  split at h
  · cases h
  rename_i h1
  split at h
  · cases h
  rename_i h2
  split at h
  · cases h
  rename_i h3
  obtain ⟨M, hM, h⟩ := Res.bind_eq_ok.1 h
  obtain ⟨toks, htok, h⟩ := Res.bind_eq_ok.1 h
  split at h
  · cases h
  rename_i h4
  split at h
  · cases h
  rename_i h5
  obtain ⟨tr0, htr0, h⟩ := Res.bind_eq_ok.1 h
  obtain ⟨⟨ts, r2⟩, hts, h⟩ := Res.bind_eq_ok.1 h
  cases h
  rw [if_neg h1, if_neg h2, if_neg h3]
  simp only [hM, htok, Res.ok_bind]
  rw [if_neg h4, if_neg h5, show Oct.lgTransform p K (p.contains "average_output") false = .ok (.raw K) from rfl]
  simp only [Res.ok_bind, hts]
  rfl

theorem rd_bind_of {α β : Type} {r : XgBin.Rd α} {f : α → XgBin.Rd β} {bs bs' : XgBin.Bytes} {a : α} (h : r bs = .ok (a, bs')) :
    (r >>= f) bs = f a bs' := by
  show (match r bs with | .ok (a, bs) => f a bs | .err t => .err t | .panic => .panic | .hang => .hang) = _
  rw [h]

/-- C112, XGBoost trees (gbtree and dart) -/
theorem C112_xgboost (P : Platform) (bs rest : XgBin.Bytes) (e : Ensemble) (h : xgEnsembleFromReader P true bs = .ok (e, rest)) :
    ∃ raw, xgEnsembleFromReader P false bs = .ok (raw, rest) ∧ RawForm raw e := by
  refine ⟨⟨e.base, .raw e.nRawOutputGroups⟩, ?_, rawForm_of e⟩
  unfold xgEnsembleFromReader at h ⊢
  obtain ⟨hd, b1, h1, h⟩ := rd_bind_ok h
  rw [rd_bind_of h1]
  split at h
  · cases h
  rename_i c1
  rw [if_neg c1]
  dsimp only at h ⊢
  split at h
  · cases h
  rename_i c2
  rw [if_neg c2]
  obtain ⟨m, b2, h2, h⟩ := rd_bind_ok h
  rw [rd_bind_of h2]
  split at h
  · cases h
  rename_i c3
  rw [if_neg c3]
  obtain ⟨wd, b3, h3, h⟩ := rd_bind_ok h
  rw [rd_bind_of h3]
  obtain ⟨h4, h5⟩ := rd_lift_ok h
  dsimp only at h4 h5
  subst h5
  have : xgAssemble P hd m wd (if hd.nameGbm = ascii "gbtree" then "xgboost.gbtree" else "xgboost.dart") false
      = .ok ⟨e.base, .raw e.nRawOutputGroups⟩ := by
    unfold xgAssemble at h4 ⊢
    dsimp only at h4 ⊢
    split at h4
    · cases h4
    rename_i d1
    split at h4
    · cases h4
    rename_i d2
    split at h4
    · cases h4
    rename_i d3
    obtain ⟨tr, -, h4⟩ := Res.bind_eq_ok.1 h4
    split at h4
    · cases h4
    rename_i d4
    obtain ⟨u, h6, h4⟩ := Res.bind_eq_ok.1 h4
    obtain ⟨ts, h7, h4⟩ := Res.bind_eq_ok.1 h4
    cases h4
    rw [if_neg d1, if_neg d2, if_neg d3, show xgTransform hd.nameObj m.param.numOutputGroup.toInt false = .ok (.raw _) from rfl]
    simp only [Res.ok_bind]
    rw [if_neg d4, h6, h7]
    rfl
  rw [this]
  rfl

/-- C112, XGBoost linear models -/
theorem C112_linear (P : Platform) (bs rest : XgBin.Bytes) (e : Ensemble) (h : xgbLinearFromReader P true bs = .ok (e, rest)) :
    ∃ raw, xgbLinearFromReader P false bs = .ok (raw, rest) ∧ RawForm raw e := by
  refine ⟨⟨e.base, .raw e.nRawOutputGroups⟩, ?_, rawForm_of e⟩
  unfold xgbLinearFromReader at h ⊢
  obtain ⟨hd, b1, h1, h⟩ := rd_bind_ok h
  rw [rd_bind_of h1]
  split at h
  · cases h
  rename_i c1
  rw [if_neg c1]
  split at h
  · cases h
  rename_i c2
  rw [if_neg c2]
  obtain ⟨m, b2, h2, h⟩ := rd_bind_ok h
  rw [rd_bind_of h2]
  dsimp only at h ⊢
  obtain ⟨tr, b3, h3, h6⟩ := rd_bind_ok h
  obtain ⟨-, h5⟩ := rd_lift_ok h3
  dsimp only at h5
  subst h5
  cases h6
  rfl

/-- C112, scikit-learn pickles: `loadTransformation` makes no difference at all; the model is always the one without transformation. -/
theorem C112_sklearn (P : Platform) (input : Pickle.Bytes) :
    skEnsembleFromReader P input true = skEnsembleFromReader P input false ∧
      ∀ e, skEnsembleFromReader P input true = .ok e → RawForm e e := by
  refine ⟨rfl, fun e h => ?_⟩
  have ht : e = ⟨e.base, .raw e.nRawOutputGroups⟩ := by
    unfold skEnsembleFromReader at h
    obtain ⟨⟨res, m⟩, -, h⟩ := Res.bind_eq_ok.1 h
    obtain ⟨g, -, h⟩ := Res.bind_eq_ok.1 h
    unfold skAssemble at h
    dsimp only at h
    generalize (if g.nClasses = 2 then (1 : Int) else g.nClasses) = G at h
    split at h
    · cases h
    split at h
    · cases h
    obtain ⟨bases, -, h⟩ := Res.bind_eq_ok.1 h
    obtain ⟨_, -, h⟩ := Res.bind_eq_ok.1 h
    obtain ⟨ts, -, h⟩ := Res.bind_eq_ok.1 h
    cases h
    rfl
  have := rawForm_of e
  rw [← ht] at this
  exact this

/-- C112, LightGBM JSON dumps are always loaded without transformation: asking for it is an error, whatever the input -/
theorem C112_json (P : Platform) (fuel : Nat) (feed : Feed UInt8) :
    ∃ m, JsonBytes.lgEnsembleFromJSON P fuel feed true = .err m := ⟨_, rfl⟩

namespace RawLoadExample
open LgLoadExample XgFileExample XgBin

/-- the file of `XgFileExample` with another objective -/
def regression : XgModel := { file 1#32 with header := { header "dart" with nameObj := asciiBytes "reg:linear" } }

/-- C112: the converse fails, an objective that is not supported is only an error when the transformation is asked for. The file of
`LgLoadExample` has no objective; the second file is an XGBoost file for regression. -/
theorem C112_not_supported :
    (∃ e, lgEnsembleFromReader LgExample.platform ⟨modelText print [d1, d2] 2 1 false, false⟩ false = .ok (e, ⟨[], false⟩)) ∧
    (∃ m, lgEnsembleFromReader LgExample.platform ⟨modelText print [d1, d2] 2 1 false, false⟩ true = .err m) ∧
    (∃ e, xgEnsembleFromReader Platform.demo false regression.image = .ok (e, [])) ∧
    (∃ m, xgEnsembleFromReader Platform.demo true regression.image = .err m) := by
  refine ⟨?_, ?_, ?_, ?_⟩
  · obtain ⟨e, h, -⟩ := C39_written_model LgExample.platform print [] [d1, d2] 2 1 1 false (by norm_num) le_rfl rfl (by norm_num) ds_ok
    rw [List.append_nil] at h
    exact ⟨e, h⟩
  · exact ⟨"no field", by decide +kernel⟩
  · exact ⟨loadedFile 1, by decide +kernel⟩
  · exact ⟨"unknown transformation function", by decide +kernel⟩

/-- the theorems apply: files that load with their transformation -/
example : (∃ e r, lgEnsembleFromReader LgExample.platform ⟨binaryText, false⟩ true = .ok (e, r)) ∧
    ∃ e, xgEnsembleFromReader Platform.demo true (file 1#32).image = .ok (e, []) ∧ e.transform = .logistic := by
  obtain ⟨e, h1, -, ht, -⟩ := C62_xgboost_file_le Platform.demo (file 1#32) 1 2 file_ok true .logistic (.logistic rfl) (fun _ => rfl)
  have := h1 []
  rw [List.append_nil] at this
  obtain ⟨e', h', -⟩ := C28_loaded_model_stores_nothing F64.zero
  exact ⟨⟨e', _, h'⟩, e, this, ht⟩

end RawLoadExample
end Leaves
