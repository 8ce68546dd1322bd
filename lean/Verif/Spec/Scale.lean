import Verif.Spec.Num
import Verif.Spec.LgModel
import Verif.Spec.XgModel

/-! # Vocabulary of C125: numbers, trees and outputs multiplied by a power of two -/

namespace Leaves.Spec

/-- if the second datum is a number, then so is the first, and the second is `2 ^ k` times the first, exactly -/
def TimesPow (k : Nat) (x y : F64) : Prop := ∀ q, IsVal y q → ∃ p, IsVal x p ∧ q = 2 ^ k * p

/-- the trees have the same splits; the leaf values of the second are `2 ^ k` times those of the first -/
structure TreeDesc.TimesPow (k : Nat) (d d' : TreeDesc) : Prop where
  inner : d'.inner = d.inner
  arrays : d'.arrays = d.arrays
  tree : d'.tree = d.tree
  values : List.Forall₂ (Spec.TimesPow k) d.leafValues d'.leafValues

/-- the XGBoost trees, of shape `T`, have the same splits; the leaf values of the second are `2 ^ k` times those of the first -/
def NodesTimesPow (k : Nat) (T : BTree) (ns ns' : List XgBin.Node) : Prop :=
  (∀ i ∈ T.inner, ns'[i]? = ns[i]?) ∧
  ∀ i ∈ T.leaves, ∀ v, XgVal ns i v → ∃ v', XgVal ns' i v' ∧ TimesPow k v v'

/-- the second XGBoost file has the leaf values and the base score of the first, times `2 ^ k` -/
structure XgModel.TimesPow (k : Nat) (m m' : XgModel) : Prop where
  features : m'.header.param.numFeatures = m.header.param.numFeatures
  score : Spec.TimesPow k (F64.ofBits32 m.header.param.baseScore) (F64.ofBits32 m'.header.param.baseScore)
  booster : m'.dart = m.dart
  count : m'.gbtree.trees.length = m.gbtree.trees.length
  trees : ∀ (i : Nat) (t t' : XgBin.TreeModel) (T : BTree), m.gbtree.trees[i]? = some t → m'.gbtree.trees[i]? = some t' → m.shapes[i]? = some T →
    NodesTimesPow k T t.nodes t'.nodes
  shapes : m'.shapes = m.shapes
  weights : m'.weights = m.weights

end Leaves.Spec
