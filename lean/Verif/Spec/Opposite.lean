import Verif.Spec.Num
import Verif.Spec.LgModel
import Verif.Spec.XgModel

/-! # Vocabulary of C121: numbers, trees and outputs of opposite sign -/

namespace Leaves.Spec

/-- the data denote opposite numbers, opposite infinities or no number (zeros of either sign are opposite to each other) -/
def Opposite (x y : F64) : Prop :=
  (x = .nan ∧ y = .nan) ∨ (∃ s, x = .inf s ∧ y = .inf (!s)) ∨ ∃ q, IsVal x q ∧ IsVal y (-q)

/-- the trees differ in the signs of the leaf values only -/
structure TreeDesc.Opposite (d d' : TreeDesc) : Prop where
  inner : d'.inner = d.inner
  arrays : d'.arrays = d.arrays
  tree : d'.tree = d.tree
  values : List.Forall₂ Spec.Opposite d.leafValues d'.leafValues

/-- the XGBoost trees, of shape `T`, have the same splits, and opposite numbers in their leaves -/
def NodesOpposite (T : BTree) (ns ns' : List XgBin.Node) : Prop :=
  (∀ i ∈ T.inner, ns'[i]? = ns[i]?) ∧
  ∀ i ∈ T.leaves, ∀ v, XgVal ns i v → ∃ v', XgVal ns' i v' ∧ Opposite v v'

/-- the two XGBoost files differ in the signs of the leaf values and of the base score only -/
structure XgModel.Opposite (m m' : XgModel) : Prop where
  features : m'.header.param.numFeatures = m.header.param.numFeatures
  score : Spec.Opposite (F64.ofBits32 m.header.param.baseScore) (F64.ofBits32 m'.header.param.baseScore)
  booster : m'.dart = m.dart
  count : m'.gbtree.trees.length = m.gbtree.trees.length
  trees : ∀ (k : Nat) (t t' : XgBin.TreeModel) (T : BTree), m.gbtree.trees[k]? = some t → m'.gbtree.trees[k]? = some t' → m.shapes[k]? = some T →
    NodesOpposite T t.nodes t'.nodes
  shapes : m'.shapes = m.shapes
  weights : m'.weights = m.weights

/-- products and sums are rounded in the same way everywhere: always twice or always once -/
def OneRounding (P : Platform) : Prop :=
  (∀ x y z, P.mulAdd x y z = F64.add (F64.mul x y) z) ∨ ∀ x y z, P.mulAdd x y z = F64.fma x y z

end Leaves.Spec
