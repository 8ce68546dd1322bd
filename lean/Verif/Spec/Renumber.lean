import Verif.Spec.Machines
import Verif.Spec.LgModel
import Verif.Spec.XgModel

/-! # Vocabulary of C122: classes that have been renumbered -/

namespace Leaves.Spec

/-- `σ` gives the classes `0 … K-1` new numbers, and `τ` tells the old ones -/
def Renumbering (K : Nat) (σ τ : Nat → Nat) : Prop :=
  ∀ k < K, σ k < K ∧ τ k < K ∧ τ (σ k) = k ∧ σ (τ k) = k

/-- in `l'` the things of class `k` of `l`, which holds things of `K` classes in turns, are those of class `σ k` -/
def ClassesMoved {α : Type} (K : Nat) (σ : Nat → Nat) (l l' : List α) : Prop :=
  l'.length = l.length ∧ ∀ i, ∀ k < K, l'[i * K + σ k]? = l[i * K + k]?

/-- the second XGBoost file has the trees of class `k` of the first one as those of class `σ k` -/
structure XgModel.ClassesMoved (m m' : XgModel) (K : Nat) (σ : Nat → Nat) : Prop where
  features : m'.header.param.numFeatures = m.header.param.numFeatures
  score : m'.header.param.baseScore = m.header.param.baseScore
  booster : m'.dart = m.dart
  trees : Spec.ClassesMoved K σ m.gbtree.trees m'.gbtree.trees
  shapes : Spec.ClassesMoved K σ m.shapes m'.shapes
  weights : m.dart = true → Spec.ClassesMoved K σ m.weights m'.weights

/-- the second linear XGBoost file has the weights of class `k` of the first one as those of class `σ k` -/
structure XgLinFile.ClassesMoved (m m' : XgLinFile) (K : Nat) (σ : Nat → Nat) : Prop where
  score : m'.header.param.baseScore = m.header.param.baseScore
  weights : Spec.ClassesMoved K σ m.linear.weights m'.linear.weights

/-- Whenever the first model predicts, so does the second; the score of class `k` of the first model, bit by bit, is the one of class `σ k`
of the second; nothing else is written. -/
def MovedScores (P : Platform) (e e' : Ensemble) (K : Nat) (σ : Nat → Nat) : Prop :=
  ∀ (row : List F64) (req : Int) (m m1 : List F64), (e.predict P row req m.length).run m = (.ok ⟨⟩, m1) →
    ∃ m2, (e'.predict P row req m.length).run m = (.ok ⟨⟩, m2) ∧ m2.length = m1.length ∧
      (∀ k < K, ∃ x, m1[k]? = some x ∧ m2[σ k]? = some x) ∧ ∀ k, K ≤ k → m2[k]? = m1[k]?

end Leaves.Spec
