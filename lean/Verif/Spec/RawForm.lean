import Verif.Spec.Machines

/-! # The same model without its transformation -/

namespace Leaves.Spec

/-- To the user, `raw` is the model `e` without its transformation: it reports the same about the model, it predicts on every machine
what EnsembleWithRawPredictions of `e` predicts (one row, the simplified call, and matrices with every number of threads under every
schedule; also the same errors and panics), and its leaf view predicts what the leaf view of `e` predicts. -/
structure RawForm (raw e : Ensemble) : Prop where
  name : raw.name = e.name
  features : raw.nFeatures = e.nFeatures
  estimators : raw.nEstimators = e.nEstimators
  groups : raw.nRawOutputGroups = e.nRawOutputGroups
  leaves : raw.nLeaves = e.nLeaves
  width : raw.nOutputGroups = e.nRawOutputGroups
  transform : raw.transform = .raw e.nRawOutputGroups
  predict : ∀ P row req len, raw.predict P row req len = e.withRawPredictions.predict P row req len
  single : ∀ P row req, raw.predictSingle P row req = e.withRawPredictions.predictSingle P row req
  dense : ∀ P vals nrows ncols m req nt out, raw.PredictDense P vals nrows ncols m req nt out ↔
    e.withRawPredictions.PredictDense P vals nrows ncols m req nt out
  csr : ∀ P indptr cols vals m req nt out, raw.PredictCSR P indptr cols vals m req nt out ↔
    e.withRawPredictions.PredictCSR P indptr cols vals m req nt out
  leafView : ∀ v v', raw.withLeafPredictions = .ok v → e.withLeafPredictions = .ok v' →
    v.nOutputGroups = v'.nOutputGroups ∧ (∀ P row req len, v.predict P row req len = v'.predict P row req len) ∧
    (∀ P vals nrows ncols m req nt out, v.PredictDense P vals nrows ncols m req nt out ↔ v'.PredictDense P vals nrows ncols m req nt out) ∧
    (∀ P indptr cols vals m req nt out, v.PredictCSR P indptr cols vals m req nt out ↔ v'.PredictCSR P indptr cols vals m req nt out)

end Leaves.Spec
