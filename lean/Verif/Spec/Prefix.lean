import Verif.Spec.Matrix
import Verif.Spec.Machines
import Verif.Spec.SkModel
import Verif.Spec.XgModel

/-! # Vocabulary of C103: models that predict alike, and files cut down to their first rounds -/

namespace Leaves.Spec

/-- The model `e`, asked for `req` estimators, predicts exactly what `e'` predicts when asked for `req'`: one row at a time, and for whole
matrices with any numbers of threads. -/
structure SameFor (P : Platform) (e : Ensemble) (req : Int) (e' : Ensemble) (req' : Int) : Prop where
  row : ∀ row m m', (e.predict P row req m.length).run m = (.ok ⟨⟩, m') ↔ (e'.predict P row req' m.length).run m = (.ok ⟨⟩, m')
  dense : ∀ (vals m m' : List F64) (r ncols : Nat) (nt nt' : Int), 0 < r → e.nOutputGroups * r < 2 ^ 63 → r ≤ 2 ^ 53 →
    (e.PredictDense P vals r ncols m req nt (.ok ⟨⟩, m') ↔ e'.PredictDense P vals r ncols m req' nt' (.ok ⟨⟩, m'))
  csr : ∀ (indptr cols : List Int) (vals m m' : List F64) (r nf : Nat) (nt nt' : Int), 0 < r → e.nOutputGroups * r < 2 ^ 63 →
    r ≤ 2 ^ 53 → indptr.length = r + 1 → e.nFeatures = nf → nf * 8 ≤ P.maxAlloc →
    (e.PredictCSR P indptr cols vals m req nt (.ok ⟨⟩, m') ↔ e'.PredictCSR P indptr cols vals m req' nt' (.ok ⟨⟩, m'))

/-- the second XGBoost file has the first `n` trees of each of the `K` groups of the first one -/
structure XgModel.Shortened (m m' : XgModel) (K n : Nat) : Prop where
  features : m'.header.param.numFeatures = m.header.param.numFeatures
  score : m'.header.param.baseScore = m.header.param.baseScore
  objective : m'.header.nameObj = m.header.nameObj
  booster : m'.dart = m.dart
  trees : m'.gbtree.trees = m.gbtree.trees.take (n * K)
  shapes : m'.shapes = m.shapes.take (n * K)
  weights : m'.weights = m.weights.take (n * K)

/-- the classifier stopped after `n` estimators -/
def SkModel.shortened (m : SkModel) (n : Nat) : SkModel :=
  { m with estimators := n, trees := m.trees.take (n * m.groups), shapes := m.shapes.take (n * m.groups) }

end Leaves.Spec
