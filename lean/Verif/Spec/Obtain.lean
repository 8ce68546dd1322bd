import Verif.Spec.Output
import Verif.Model.LgText
import Verif.Model.JsonText
import Verif.Model.XgLoad
import Verif.Model.SkLoad

/-! # The ensembles that a user can get hold of -/

namespace Leaves.Spec

/-- An ensemble that a program can have: it was returned by one of the loaders without an error, for any input whatever, or it is the raw
or the leaf view of such an ensemble. (The fields of an ensemble are not accessible, so there are no others but the empty
`leaves.Ensemble{}`.) -/
inductive Obtained (P : Platform) : Ensemble → Prop
  | text (r r' : Reader) (lt : Bool) (e : Ensemble) : lgEnsembleFromReader P r lt = .ok (e, r') → Obtained P e
  | json (r : Reader) (lt : Bool) (e : Ensemble) : lgEnsembleFromJSONText P r lt = .ok e → Obtained P e
  | trees (lt : Bool) (bs rest : XgBin.Bytes) (e : Ensemble) : xgEnsembleFromReader P lt bs = .ok (e, rest) → Obtained P e
  | linear (lt : Bool) (bs rest : XgBin.Bytes) (e : Ensemble) : xgbLinearFromReader P lt bs = .ok (e, rest) → Obtained P e
  | sklearn (bs : Pickle.Bytes) (lt : Bool) (e : Ensemble) : skEnsembleFromReader P bs lt = .ok e → Obtained P e
  | rawView (e : Ensemble) : Obtained P e → Obtained P e.withRawPredictions
  | leafView (e e' : Ensemble) : Obtained P e → e.withLeafPredictions = .ok e' → Obtained P e'

end Leaves.Spec
