import Verif.Spec.Prefix
import Verif.Spec.Num
import Verif.Spec.LgModel
import Verif.Spec.JsonModel

/-! # Vocabulary of C115: an iteration whose trees contribute nothing, and the file without it -/

namespace Leaves.Spec

/-- the list of trees, `K` per iteration, without iteration `r` -/
def withoutIteration {α : Type} (K r : Nat) (l : List α) : List α := l.take (r * K) ++ l.drop ((r + 1) * K)

/-- all the leaves of the tree are (positive or negative) zeros -/
def TreeDesc.Zero (d : TreeDesc) : Prop := ∀ v ∈ d.leafValues, IsVal v 0

/-- all the leaves of the nested objects are zeros -/
def ZeroNode (root : JRaw) : Prop := ∀ out fvals p v, JWalk out fvals root p v → IsVal v 0

/-- all the leaves of the node array are zeros -/
def ZeroTree (t : XgBin.TreeModel) (T : BTree) : Prop := ∀ leaf ∈ T.leaves, ∀ v, XgVal t.nodes leaf v → IsVal v 0

/-- a tree that adds nothing: zeros with a finite weight, or finite numbers with the weight 0 -/
def AddsNothing (t : XgBin.TreeModel) (T : BTree) (c : F64) : Prop :=
  (ZeroTree t T ∧ ∃ q, IsVal c q) ∨ (IsVal c 0 ∧ ∀ leaf ∈ T.leaves, ∀ v, XgVal t.nodes leaf v → ∃ q, IsVal v q)

/-- the second XGBoost file is the first one without iteration `r` -/
structure XgModel.Without (m m' : XgModel) (K r : Nat) : Prop where
  features : m'.header.param.numFeatures = m.header.param.numFeatures
  score : m'.header.param.baseScore = m.header.param.baseScore
  objective : m'.header.nameObj = m.header.nameObj
  booster : m'.dart = m.dart
  trees : m'.gbtree.trees = withoutIteration K r m.gbtree.trees
  shapes : m'.shapes = withoutIteration K r m.shapes
  weights : m'.weights = withoutIteration K r m.weights

end Leaves.Spec
