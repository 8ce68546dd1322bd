import Verif.Spec.Matrix
import Verif.Spec.Machines
import Verif.Spec.XgModel

/-! # Vocabulary of C109: the classes of a model one by one -/

namespace Leaves.Spec

/-- `l` holds things of `K` classes in turns, and `l'` has those of class `j` -/
def OfClass {α : Type} (K j : Nat) (l l' : List α) : Prop :=
  l.length = l'.length * K ∧ ∀ i < l'.length, l'[i]? = l[i * K + j]?

/-- The model `e` of `K` classes predicts for class `j` what the model `es j`, which has one class, predicts: for single rows, and for
whole matrices with any numbers of threads. -/
structure ByClass (P : Platform) (e : Ensemble) (K : Nat) (es : Nat → Ensemble) : Prop where
  row : ∀ (row : List F64) (req : Int) (m m' : List F64), (e.predict P row req m.length).run m = (.ok ⟨⟩, m') ↔
    ∃ w, w.length = K ∧ Stored m 0 w m' ∧ ∀ j < K, ∃ x, w[j]? = some x ∧ ((es j).predict P row req 1).run [F64.zero] = (.ok ⟨⟩, [x])
  dense : ∀ (vals m m' : List F64) (r ncols : Nat) (req nt : Int) (nts : Nat → Int), 0 < r → K * r < 2 ^ 63 → r ≤ 2 ^ 53 →
    (e.PredictDense P vals r ncols m req nt (.ok ⟨⟩, m') ↔ ∃ outs, StoredRows m K r outs m' ∧ ∀ j < K, ∃ s,
      (es j).PredictDense P vals r ncols (List.replicate r F64.zero) req (nts j) (.ok ⟨⟩, s) ∧ ∀ i < r, s[i]? = (outs i)[j]?)
  csr : ∀ (indptr cols : List Int) (vals m m' : List F64) (r nf : Nat) (req nt : Int) (nts : Nat → Int), 0 < r → K * r < 2 ^ 63 →
    r ≤ 2 ^ 53 → indptr.length = r + 1 → e.nFeatures = nf → nf * 8 ≤ P.maxAlloc →
    (e.PredictCSR P indptr cols vals m req nt (.ok ⟨⟩, m') ↔ ∃ outs, StoredRows m K r outs m' ∧ ∀ j < K, ∃ s,
      (es j).PredictCSR P indptr cols vals (List.replicate r F64.zero) req (nts j) (.ok ⟨⟩, s) ∧ ∀ i < r, s[i]? = (outs i)[j]?)

/-- the second XGBoost file has the trees of class `j` of the first one, which has `K` classes -/
structure XgModel.ClassOf (m m' : XgModel) (K j : Nat) : Prop where
  features : m'.header.param.numFeatures = m.header.param.numFeatures
  score : m'.header.param.baseScore = m.header.param.baseScore
  booster : m'.dart = m.dart
  trees : OfClass K j m.gbtree.trees m'.gbtree.trees
  shapes : OfClass K j m.shapes m'.shapes
  weights : m.dart = true → OfClass K j m.weights m'.weights

/-- the second linear XGBoost file has the weights and the bias of class `j` of the first one, which has `K` classes -/
structure XgLinFile.ClassOf (m m' : XgLinFile) (K j : Nat) : Prop where
  score : m'.header.param.baseScore = m.header.param.baseScore
  weights : OfClass K j m.linear.weights m'.linear.weights

end Leaves.Spec
