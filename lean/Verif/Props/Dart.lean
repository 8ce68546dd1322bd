import Verif.Props.XgFile
import Verif.Props.RawLoad
import Verif.Spec.Machines

/-! # C44: a 'dart' file whose weights are all 1 is the 'gbtree' file with the same trees -/

namespace Leaves
open Spec XgBin

namespace Spec

/-- the file with the same trees and no weights -/
def XgModel.boosted (m : XgModel) : XgModel where
  header := { m.header with nameGbm := asciiBytes "gbtree" }
  gbtree := m.gbtree
  leafVectors := m.leafVectors
  dart := false
  weights := []
  shapes := m.shapes

/-- To the user the ensembles differ in their name only. -/
structure SameButName (e e' : Ensemble) : Prop where
  features : e.nFeatures = e'.nFeatures
  estimators : e.nEstimators = e'.nEstimators
  groups : e.nRawOutputGroups = e'.nRawOutputGroups
  leaves : e.nLeaves = e'.nLeaves
  transform : e.transform = e'.transform
  predict : ∀ P row req len, e.predict P row req len = e'.predict P row req len
  single : ∀ P row req, e.predictSingle P row req = e'.predictSingle P row req
  dense : ∀ P vals nrows ncols m req nt out, e.PredictDense P vals nrows ncols m req nt out ↔ e'.PredictDense P vals nrows ncols m req nt out
  csr : ∀ P indptr cols vals m req nt out, e.PredictCSR P indptr cols vals m req nt out ↔ e'.PredictCSR P indptr cols vals m req nt out

end Spec

theorem sameButName_of (e : XgEnsemble) (name : String) (tr : Transform) : SameButName ⟨.xg e, tr⟩ ⟨.xg { e with name := name }, tr⟩ where
  features := rfl
  estimators := rfl
  groups := rfl
  leaves := rfl
  transform := rfl
  predict := fun _ _ _ _ => rfl
  single := fun _ _ _ => rfl
  dense := fun _ _ _ _ _ _ _ _ => Iff.rfl
  csr := fun _ _ _ _ _ _ _ _ => Iff.rfl

/-- what is done with the parts of the file: everything but the weights and the name -/
theorem xg_assemble_name (P : Platform) (h : ModelHeader) (g : Bytes) (m : GBTreeModel) (wd : List F64) (n n' : String) (lt : Bool) (e : Ensemble)
    (he : xgAssemble P h m wd n lt = .ok e) :
    ∃ x, e.base = .xg x ∧ x.name = n ∧ xgAssemble P { h with nameGbm := g } m wd n' lt = .ok ⟨.xg { x with name := n' }, e.transform⟩ := by
  unfold xgAssemble at he ⊢
  dsimp only at he ⊢
  split at he
  · cases he
  rename_i c1
  split at he
  · cases he
  rename_i c2
  split at he
  · cases he
  rename_i c3
  obtain ⟨tr, h1, he⟩ := Res.bind_eq_ok.1 he
  split at he
  · cases he
  rename_i c4
  obtain ⟨u, h2, he⟩ := Res.bind_eq_ok.1 he
  obtain ⟨ts, h3, he⟩ := Res.bind_eq_ok.1 he
  cases he
  refine ⟨_, rfl, rfl, ?_⟩
  rw [if_neg c1, if_neg c2, if_neg c3, h1]
  simp only [Res.ok_bind]
  rw [if_neg c4, h2, h3]
  rfl

/-- how a file of trees is loaded, from its parts -/
theorem xg_parts (P : Platform) (h : ModelHeader) (m : GBTreeModel) (vs : List (List (BitVec 32))) (hh : HeaderOK P.maxAlloc h)
    (hg : GBTreeOK P.maxAlloc m vs) (wimg : Bytes) (wd : List F64) (hw : Codec (xgWeightDrop P h.nameGbm m.param.numTrees.toInt) wimg wd)
    (hn : h.nameGbm = ascii "gbtree" ∨ h.nameGbm = ascii "dart") (lt : Bool) (rest : Bytes) :
    xgEnsembleFromReader P lt (headerImage h ++ (gbtreeImage m vs ++ wimg) ++ rest) =
      if h.param.numFeatures.toNat = 0 then .err "zero number of features"
      else if m.param.numFeature.toInt > h.param.numFeatures.toInt then .err "gbtree number of features"
      else lift (xgAssemble P h m wd (if h.nameGbm = ascii "gbtree" then "xgboost.gbtree" else "xgboost.dart") lt) rest := by
  unfold xgEnsembleFromReader
  have e1 := (Codec.header P hh).decode ((gbtreeImage m vs ++ wimg) ++ rest)
  have e2 := (Codec.gbtree P hg).decode (wimg ++ rest)
  rw [List.append_assoc, rd_bind_of e1, if_neg (by rcases hn with h | h <;> simp [h])]
  by_cases c1 : h.param.numFeatures.toNat = 0
  · rw [if_pos c1, if_pos c1]; rfl
  rw [if_neg c1, if_neg c1, List.append_assoc, rd_bind_of e2]
  by_cases c2 : m.param.numFeature.toInt > h.param.numFeatures.toInt
  · rw [if_pos c2, if_pos c2]; rfl
  rw [if_neg c2, if_neg c2]
  rw [rd_bind_of (hw.decode rest)]

/-- C44: a 'dart' file whose weights are all 1 and the 'gbtree' file with the same trees load alike, and the ensembles differ in their
names only. -/
theorem C44_unit_dart_file (P : Platform) (m : XgModel) (hh : HeaderOK P.maxAlloc m.header) (h6 : 6 ≤ P.maxAlloc)
    (hg : GBTreeOK P.maxAlloc m.gbtree m.leafVectors) (hd : m.dart = true) (hn : m.header.nameGbm = asciiBytes "dart")
    (hl : m.weights.length = m.gbtree.trees.length) (h8 : m.gbtree.trees.length * 8 ≤ P.maxAlloc)
    (hw : ∀ b ∈ m.weights, b = 0x3f800000#32) (lt : Bool) (rest : Bytes) :
    (∀ e r, xgEnsembleFromReader P lt (m.image ++ rest) = .ok (e, r) → ∃ e', xgEnsembleFromReader P lt (m.boosted.image ++ rest) = .ok (e', r) ∧
      SameButName e e' ∧ e.name = "xgboost.dart" ∧ e'.name = "xgboost.gbtree") ∧
    (∀ e' r, xgEnsembleFromReader P lt (m.boosted.image ++ rest) = .ok (e', r) → ∃ e, xgEnsembleFromReader P lt (m.image ++ rest) = .ok (e, r) ∧
      SameButName e e' ∧ e.name = "xgboost.dart" ∧ e'.name = "xgboost.gbtree") := by
  have hn' : m.header.nameGbm = ascii "dart" := hn
  have hone : F64.ofBits32 0x3f800000#32 = F64.one := by decide +kernel
  have hmap : m.weights.map F64.ofBits32 = List.replicate m.gbtree.trees.length F64.one := by
    rw [← hl]
    refine List.eq_replicate_iff.2 ⟨by simp, fun x hx => ?_⟩
    obtain ⟨b, hb, rfl⟩ := List.mem_map.1 hx
    rw [hw b hb, hone]
  have hal : allocCheck P m.gbtree.param.numTrees.toInt 8 = .ok ⟨⟩ := allocCheck_of hg.trees h8
  have hwd : Codec (xgWeightDrop P m.header.nameGbm m.gbtree.param.numTrees.toInt) (sliceImage m.weights)
      (List.replicate m.gbtree.trees.length F64.one) := by
    unfold xgWeightDrop
    refine Codec.lift hal ?_
    rw [if_pos hn']
    have h64 : m.weights.length < 2 ^ 64 := by
      have h1 : m.gbtree.param.numTrees.toInt < 2 ^ 31 := by have := BitVec.toInt_lt (x := m.gbtree.param.numTrees); simpa using this
      rw [hg.trees] at h1
      omega
    have hs := Codec.slice P (ws := m.weights) ⟨h64, by omega⟩
    have := hs.bind (f := fun weightDrop => if (weightDrop.length : Int) ≠ m.gbtree.param.numTrees.toInt then lift (.err "unexpected len(weightDrop)")
      else Pure.pure (weightDrop.map F64.ofBits32)) (img' := []) (b := List.replicate m.gbtree.trees.length F64.one) (by
        rw [if_neg (by rw [hl, hg.trees]; simp), hmap]
        exact Codec.pure _)
    rwa [List.append_nil] at this
  have hwg : Codec (xgWeightDrop P (ascii "gbtree") m.gbtree.param.numTrees.toInt) [] (List.replicate m.gbtree.trees.length F64.one) := by
    unfold xgWeightDrop
    refine Codec.lift hal ?_
    rw [if_neg (by decide), if_pos rfl, hg.trees, Int.toNat_natCast]
    exact Codec.pure _
  have hhb : HeaderOK P.maxAlloc m.boosted.header := ⟨hh.reserved, hh.nameObj, by
    show (asciiBytes "gbtree").length < _
    decide, by
    show (asciiBytes "gbtree").length ≤ _
    exact h6⟩
  have q1 : m.image = headerImage m.header ++ (gbtreeImage m.gbtree m.leafVectors ++ sliceImage m.weights) := by
    unfold XgModel.image; rw [if_pos hd]
  have q2 : m.boosted.image = headerImage m.boosted.header ++ (gbtreeImage m.gbtree m.leafVectors ++ []) := rfl
  have e1 := xg_parts P m.header m.gbtree m.leafVectors hh hg _ _ hwd (.inr hn') lt rest
  have e2 := xg_parts P m.boosted.header m.gbtree m.leafVectors hhb hg _ _ hwg (.inl rfl) lt rest
  rw [← q1, if_neg (show ¬ m.header.nameGbm = ascii "gbtree" by rw [hn']; decide)] at e1
  rw [← q2, if_pos (show m.boosted.header.nameGbm = ascii "gbtree" from rfl)] at e2
  rw [e1, e2]
  show (∀ e r, (if m.header.param.numFeatures.toNat = 0 then _ else _) = _ → ∃ e', (if m.header.param.numFeatures.toNat = 0 then _ else _) = _ ∧ _) ∧
    (∀ e r, (if m.header.param.numFeatures.toNat = 0 then _ else _) = _ → ∃ e', (if m.header.param.numFeatures.toNat = 0 then _ else _) = _ ∧ _)
  by_cases c1 : m.header.param.numFeatures.toNat = 0
  · simp only [if_pos c1]
    exact ⟨fun e r h => (nomatch h), fun e r h => (nomatch h)⟩
  simp only [if_neg c1]
  by_cases c2 : m.gbtree.param.numFeature.toInt > m.header.param.numFeatures.toInt
  · have c2' : m.gbtree.param.numFeature.toInt > m.boosted.header.param.numFeatures.toInt := c2
    simp only [if_pos c2, if_pos c2']
    exact ⟨fun e r h => (nomatch h), fun e r h => (nomatch h)⟩
  have c2' : ¬ m.gbtree.param.numFeature.toInt > m.boosted.header.param.numFeatures.toInt := c2
  simp only [if_neg c2, if_neg c2']
  constructor
  · intro e r h
    obtain ⟨ha, hr⟩ := rd_lift_ok h
    obtain ⟨x, hx, hxn, hb⟩ := xg_assemble_name P m.header (asciiBytes "gbtree") m.gbtree _ _ "xgboost.gbtree" lt e ha
    have hee : e = ⟨.xg x, e.transform⟩ := by rw [← hx]
    refine ⟨⟨.xg { x with name := "xgboost.gbtree" }, e.transform⟩, ?_, ?_, ?_, rfl⟩
    · show lift (xgAssemble P { m.header with nameGbm := asciiBytes "gbtree" } _ _ _ _) rest = _
      rw [hb, ← show r = rest from hr]
      rfl
    · have := sameButName_of x "xgboost.gbtree" e.transform
      rwa [← hee] at this
    · rw [hee]
      exact hxn
  · intro e r h
    obtain ⟨ha, hr⟩ := rd_lift_ok h
    obtain ⟨x, hx, hxn, hb⟩ := xg_assemble_name P m.boosted.header m.header.nameGbm m.gbtree _ _ "xgboost.dart" lt e ha
    have hee : e = ⟨.xg x, e.transform⟩ := by rw [← hx]
    refine ⟨⟨.xg { x with name := "xgboost.dart" }, e.transform⟩, ?_, ?_, rfl, ?_⟩
    · show lift (xgAssemble P { m.boosted.header with nameGbm := m.header.nameGbm } _ _ _ _) rest = _
      rw [hb, ← show r = rest from hr]
      rfl
    · have := sameButName_of { x with name := "xgboost.dart" } x.name e.transform
      rwa [show ({ ({ x with name := "xgboost.dart" } : XgEnsemble) with name := x.name } : XgEnsemble) = x from rfl, ← hee] at this
    · rw [hee]
      exact hxn

namespace DartExample
open XgFileExample

/-- the file of `XgFileExample` with unit weights -/
def unitFile : XgModel := { file 1#32 with weights := [0x3f800000#32, 0x3f800000#32] }

/-- what it loads as -/
def unitLoaded : XgEnsemble where
  trees := [XgExample.loaded, { leafValues := [F64.ofBits32 0x40000000#32] }]
  maxFeatureIdx := 1
  nRawOutputGroups := 1
  baseScore := F64.ofBits32 0x3f000000#32
  weightDrop := [F64.one, F64.one]
  name := "xgboost.dart"

/-- The theorem applies, and the file loads; with the weights 1 and 0.5 instead, its predictions are different: 4.5 and not 5.5. -/
theorem C44_unit_dart_example : ∃ e e' : Ensemble, xgEnsembleFromReader Platform.demo false unitFile.image = .ok (e, []) ∧
    xgEnsembleFromReader Platform.demo false unitFile.boosted.image = .ok (e', []) ∧ SameButName e e' ∧
    e'.predictSingle Platform.demo [F64.zero, F64.const 3 4] 0 = .ok (F64.const 11 2) ∧
    (loadedFile 1).predictSingle Platform.demo [F64.zero, F64.const 3 4] 0 = .ok (F64.const 9 2) := by
  have hw : ∀ b ∈ unitFile.weights, b = 0x3f800000#32 := by
    intro b hb
    rcases (show b = 0x3f800000#32 ∨ b = 0x3f800000#32 by simpa [unitFile] using hb) with h | h <;> exact h
  obtain ⟨h1, -⟩ := C44_unit_dart_file Platform.demo unitFile file_ok.header (by decide) file_ok.gbtree rfl rfl rfl (by decide) hw false []
  rw [List.append_nil, List.append_nil] at h1
  have hx : xgEnsembleFromReader Platform.demo false unitFile.image = .ok (⟨.xg unitLoaded, .raw 1⟩, []) := by decide +kernel
  obtain ⟨e', h2, h3, -⟩ := h1 _ _ hx
  refine ⟨_, e', hx, h2, h3, ?_, by decide +kernel⟩
  rw [← h3.single]
  decide +kernel

end DartExample
end Leaves
