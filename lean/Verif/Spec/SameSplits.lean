import Verif.Spec.LgModel
import Verif.Spec.XgModel
import Verif.Spec.SkModel

/-! # Vocabulary of C134: trees with the same splits -/

namespace Leaves.Spec

/-- Two trees of LightGBM files that differ in the values of their leaves only. -/
structure TreeDesc.SameSplits (d d' : TreeDesc) : Prop where
  inner : d'.inner = d.inner
  arrays : d'.arrays = d.arrays
  tree : d'.tree = d.tree
  leaves : d'.leafValues.length = d.leafValues.length

/-- Two XGBoost files for the same features, whose trees have the same shapes and the same records for all inner nodes. The records of the leaves, the
statistics, the base score, the objective, the booster and the weights of trees are arbitrary. -/
structure XgModel.SameSplits (m m' : XgModel) : Prop where
  features : m'.header.param.numFeatures = m.header.param.numFeatures
  shapes : m'.shapes = m.shapes
  nodes : ∀ (i : Nat) (t t' : XgBin.TreeModel) (T : BTree), m.gbtree.trees[i]? = some t → m'.gbtree.trees[i]? = some t' → m.shapes[i]? = some T →
    ∀ n ∈ T.inner, t'.nodes[n]? = t.nodes[n]?

/-- Two scikit-learn classifiers with the same numbers of classes, estimators and features, whose trees have the same shapes and the same records for all
inner nodes. The values, the records of the leaves, the learning rate and the initial estimator are arbitrary. -/
structure SkModel.SameSplits (m m' : SkModel) : Prop where
  groups : m'.groups = m.groups
  estimators : m'.estimators = m.estimators
  features : m'.maxFeatures = m.maxFeatures
  shapes : m'.shapes = m.shapes
  nodes : ∀ (i : Nat) (t t' : Pickle.SkTree) (T : BTree), m.trees[i]? = some t → m'.trees[i]? = some t' → m.shapes[i]? = some T →
    ∀ n ∈ T.inner, t'.nodes[n]? = t.nodes[n]?

end Leaves.Spec
