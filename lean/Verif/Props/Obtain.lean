import Verif.Spec.Obtain
import Verif.Props.Names
import Verif.Props.SkModel

/-! # C119: the reported transformation tells the number of outputs -/

namespace Leaves
open Spec XgBin

/-- what holds of every ensemble that can be had -/
structure Sound (e : Ensemble) : Prop where
  width : match e.transform with
    | .raw n => n = e.nRawOutputGroups
    | .softmax n => n = e.nRawOutputGroups
    | .leafIndex n => ∃ N, e.nEstimators = .ok N ∧ n = e.nRawOutputGroups * N
    | _ => True
  linear : e.name = "xgboost.gblinear" ↔ ∃ l, core e.base = .lin l

theorem obtained_sound {P : Platform} {e : Ensemble} (h : Obtained P e) : Sound e := by
  induction h with
  | text r r' lt e h =>
    obtain ⟨p, r1, K, M, toks, ts, tr, -, -, -, -, -, -, -, h8, -, rfl⟩ := lgEnsemble_inv h
    have key : tr = .raw K ∨ tr = .softmax K ∨ tr = .logistic ∨ tr = .exponential := by
      unfold lgTransform at h8
      split at h8
      · have h8' : lgTransform p K false true = .ok tr := by
          unfold lgTransform
          rw [if_pos (by rfl)]
          exact h8
        obtain ⟨s, -, ho⟩ := (lgTransform_iff p K tr).1 h8'
        cases ho <;> simp
      · cases h8; exact .inl rfl
    constructor
    · rcases key with rfl | rfl | rfl | rfl <;> first | rfl | trivial
    · constructor
      · intro h
        have : (if p.contains "average_output".toList then "lightgbm.rf" else "lightgbm.gbdt") = "xgboost.gblinear" := h
        split at this <;> exact absurd this (by decide)
      · rintro ⟨l, h⟩; cases h
  | json r lt e h =>
    obtain ⟨d, ts, -, -, -, -, -, -, rfl⟩ := jEnsemble_inv h
    exact ⟨rfl, fun h => absurd (show "lightgbm.gbdt" = "xgboost.gblinear" from h) (by decide), by rintro ⟨l, h⟩; cases h⟩
  | trees lt bs rest e h =>
    obtain ⟨header, b1, hh, -⟩ := rd_bind_ok h
    obtain ⟨hok, rfl⟩ := readModelHeader_inv hh
    have hn := C80_xgboost P lt header hok b1 rest e h
    obtain ⟨header', m, b1', b2, x, -, -, hb, -, -, -, -, hg, ho, -⟩ := C43_loaded_partial P lt _ rest e h
    constructor
    · rw [hg]
      generalize e.transform = t at ho
      cases ho <;> first | rfl | trivial
    · constructor
      · intro h
        rcases hn with ⟨-, hn⟩ | ⟨-, hn⟩ <;> rw [hn] at h <;> exact absurd h (by decide)
      · rintro ⟨l, h⟩; rw [hb] at h; cases h
  | linear lt bs rest e h =>
    unfold xgbLinearFromReader at h
    obtain ⟨hd, b1, h1, h⟩ := rd_bind_ok h
    split at h
    · cases h
    split at h
    · cases h
    obtain ⟨m, b2, h2, h⟩ := rd_bind_ok h
    dsimp only at h
    obtain ⟨tr, b3, h3, h6⟩ := rd_bind_ok h
    obtain ⟨h3, -⟩ := rd_lift_ok h3
    cases h6
    refine ⟨?_, fun _ => ⟨_, rfl⟩, fun _ => rfl⟩
    have ho := (xgTransform_iff _ _ _ _).1 h3
    cases ho <;> first | rfl | trivial
  | sklearn bs lt e h =>
    unfold skEnsembleFromReader at h
    obtain ⟨⟨res, m⟩, -, h⟩ := Res.bind_eq_ok.1 h
    obtain ⟨g, -, h⟩ := Res.bind_eq_ok.1 h
    obtain ⟨K, bases, ts, -, -, -, -, -, rfl⟩ := skAssemble_inv h
    exact ⟨rfl, fun h => absurd (show "sklearn.ensemble.GradientBoostingClassifier" = "xgboost.gblinear" from h) (by decide), by rintro ⟨l, h⟩; cases h⟩
  | rawView e _ ih => exact ⟨rfl, ih.linear⟩
  | leafView e e' _ h ih =>
    unfold Ensemble.withLeafPredictions at h
    obtain ⟨n, h1, h2⟩ := Res.bind_eq_ok.1 h
    cases h2
    exact ⟨⟨n, h1, rfl⟩, ih.linear⟩

/-- **C119.** For every ensemble that can be had, the name of the transformation tells how many outputs a row has: as many as raw scores
for "raw" and "softmax", one for "logistic", one for each tree for "leaf_index". There are no other names. -/
theorem C119_width (P : Platform) (e : Ensemble) (h : Obtained P e) :
    (e.transform.name = .ok "raw" ∧ e.nOutputGroups = e.nRawOutputGroups) ∨
    (e.transform.name = .ok "softmax" ∧ e.nOutputGroups = e.nRawOutputGroups) ∨
    (e.transform.name = .ok "logistic" ∧ e.nOutputGroups = 1) ∨
    (e.transform.name = .ok "leaf_index" ∧ ∃ N, e.nEstimators = .ok N ∧ e.nOutputGroups = e.nRawOutputGroups * N) := by
  have hs := (obtained_sound h).width
  obtain ⟨b, t⟩ := e
  cases t with
  | raw n => exact .inl ⟨rfl, hs⟩
  | softmax n => exact .inr (.inl ⟨rfl, hs⟩)
  | logistic => exact .inr (.inr (.inl ⟨rfl, rfl⟩))
  | exponential => exact .inr (.inr (.inl ⟨rfl, rfl⟩))
  | leafIndex n => exact .inr (.inr (.inr ⟨rfl, hs⟩))

theorem core_isTotal (b : Base) (G : Nat) (h : b.nRawOutputGroups = G) (h0 : 0 < G) : ∃ total, IsTotal b total := by
  induction b with
  | lg e => exact ⟨_, G, h, h0, rfl⟩
  | xg e => exact ⟨_, G, h, h0, rfl⟩
  | lin e => exact ⟨1, rfl⟩
  | wrap b t ih => exact ih h

/-- **C119.** An ensemble that can be had meets the hypothesis of the theorems about prediction (C10 to C30 and those that build on
them) exactly if it has a group, a transformation to one number has one raw score to transform, and it is not the leaf view of a linear
model. -/
theorem C119_fits (P : Platform) (e : Ensemble) (h : Obtained P e) : Fits e ↔
    1 ≤ e.nRawOutputGroups ∧ (e.transform.name = .ok "logistic" → e.nRawOutputGroups = 1) ∧
      (e.transform.name = .ok "leaf_index" → e.name ≠ "xgboost.gblinear") := by
  obtain ⟨hs, hl⟩ := obtained_sound h
  obtain ⟨b, t⟩ := e
  have hlin : (∀ l, core b ≠ .lin l) ↔ (Ensemble.mk b t).name ≠ "xgboost.gblinear" := by
    rw [Ne, hl]
    exact not_exists.symm
  constructor
  · rintro ⟨G, total, hG, h0, ht, hw⟩
    have hG' : (Ensemble.mk b t).nRawOutputGroups = G := hG
    refine ⟨by omega, fun hn => ?_, fun hn => ?_⟩
    · cases t with
      | logistic => have : G = 1 := hw; omega
      | exponential => have : G = 1 := hw; omega
      | raw n => exact absurd (show (Res.ok "raw" : Res String) = .ok "logistic" from hn) (by decide)
      | softmax n => exact absurd (show (Res.ok "softmax" : Res String) = .ok "logistic" from hn) (by decide)
      | leafIndex n => exact absurd (show (Res.ok "leaf_index" : Res String) = .ok "logistic" from hn) (by decide)
    · cases t with
      | leafIndex n => exact hlin.1 hw.2
      | raw n => exact absurd (show (Res.ok "raw" : Res String) = .ok "leaf_index" from hn) (by decide)
      | softmax n => exact absurd (show (Res.ok "softmax" : Res String) = .ok "leaf_index" from hn) (by decide)
      | logistic => exact absurd (show (Res.ok "logistic" : Res String) = .ok "leaf_index" from hn) (by decide)
      | exponential => exact absurd (show (Res.ok "logistic" : Res String) = .ok "leaf_index" from hn) (by decide)
  · rintro ⟨h1, h2, h3⟩
    obtain ⟨G, hG⟩ := Int.eq_ofNat_of_zero_le (show 0 ≤ (Ensemble.mk b t).nRawOutputGroups by omega)
    have h0 : 0 < G := by omega
    obtain ⟨total, ht⟩ := core_isTotal b G hG h0
    refine ⟨G, total, hG, h0, ht, ?_⟩
    cases t with
    | raw n => exact hs.trans hG
    | softmax n => exact hs.trans hG
    | logistic => have := h2 rfl; show G = 1; omega
    | exponential => have := h2 rfl; show G = 1; omega
    | leafIndex n =>
      refine ⟨?_, hlin.2 (h3 rfl)⟩
      obtain ⟨N, hN, hn⟩ := hs
      have : (Res.ok (total : Int)) = .ok N := (nEstimators_of ht).symm.trans hN
      cases this
      rw [hn, hG]

namespace ObtainExample
open LgLoadExample XgFileExample

/-- A loaded ensemble that fits, its two views, and one that does not: two raw scores and a transformation that takes one (C28). -/
example : (∃ e v, Obtained Platform.demo e ∧ e.transform = .logistic ∧ Fits e ∧ e.withLeafPredictions = .ok v ∧ Obtained Platform.demo v ∧
      Fits v ∧ v.nOutputGroups = 2) ∧
    ∃ e, Obtained LgExample.platform e ∧ e.transform.name = .ok "logistic" ∧ e.nRawOutputGroups = 2 ∧ ¬ Fits e := by
  constructor
  · obtain ⟨e, h1, hf, ht, hg, hN, -⟩ := C62_xgboost_file_le Platform.demo (file 1#32) 1 2 file_ok true .logistic (.logistic rfl) (fun _ => rfl)
    have ho : Obtained Platform.demo e := .trees true _ _ e (h1 [])
    have hv : e.withLeafPredictions = .ok ⟨.wrap e.base e.transform, .leafIndex (e.nRawOutputGroups * 2)⟩ := by
      unfold Ensemble.withLeafPredictions
      rw [hN]
      rfl
    have hov := Obtained.leafView e _ ho hv
    refine ⟨e, _, ho, ht, hf, hv, hov, (C119_fits _ _ hov).2 ⟨?_, fun h => ?_, fun _ hn => ?_⟩, ?_⟩
    · show 1 ≤ e.nRawOutputGroups; rw [hg]; decide
    · exact absurd (show (Res.ok "leaf_index" : Res String) = .ok "logistic" from h) (by decide)
    · obtain ⟨_, _, _, _, x, -, -, hb, -⟩ := C43_loaded_partial _ _ _ _ e (h1 [])
      obtain ⟨l, hl⟩ := (obtained_sound ho).linear.1 hn
      rw [hb] at hl
      cases hl
    · show e.nRawOutputGroups * 2 = 2; rw [hg]; rfl
  · have ho : Obtained LgExample.platform ⟨.lg { trees := [{ leafValues := [F64.ofNat 9] }, { leafValues := [F64.ofNat 7] }], maxFeatureIdx := 1, nRawOutputGroups := 2, name := "lightgbm.gbdt" }, .logistic⟩ :=
      .text ⟨binaryText, false⟩ ⟨[], false⟩ true _ (by decide +kernel)
    refine ⟨_, ho, rfl, rfl, fun hf => ?_⟩
    have := ((C119_fits _ _ ho).1 hf).2.1 rfl
    exact absurd (show (2 : Int) = 1 from this) (by decide)

end ObtainExample
end Leaves
