import Verif.Spec.LgModel
import Verif.Spec.XgModel
import Verif.Spec.Accuracy

/-! # Vocabulary of C113: the same trees in another order -/

namespace Leaves.Spec

/-- `l` and `l'` hold things of `K` classes in turns, `N` of each class, and each class has the same things in both, in any order -/
def SamePerClass {α : Type} (K N : Nat) (l l' : List α) : Prop :=
  ∀ k < K, ((List.range N).map fun i => l[i * K + k]?).Perm ((List.range N).map fun i => l'[i * K + k]?)

/-- the trees of an XGBoost file with what belongs to them: shape, and weight for 'dart' -/
def XgModel.parts (m : XgModel) : List (XgBin.TreeModel × BTree × Option (BitVec 32)) :=
  m.gbtree.trees.zip (m.shapes.zip (if m.dart then m.weights.map some else List.replicate m.shapes.length none))

end Leaves.Spec
