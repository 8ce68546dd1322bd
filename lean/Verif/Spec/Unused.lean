import Verif.Spec.XgImage

/-!
# Vocabulary of C123: XGBoost files that differ in fields without a meaning for predictions

Each relation lists the fields that have to agree; all other fields of the records are free.
-/

namespace Leaves.Spec

open XgBin

/-- agree in base score, number of features and the two names; number of classes, flags and reserved words are free -/
structure SameHeader (h h' : ModelHeader) : Prop where
  baseScore : h'.param.baseScore = h.param.baseScore
  numFeatures : h'.param.numFeatures = h.param.numFeatures
  objective : h'.nameObj = h.nameObj
  booster : h'.nameGbm = h.nameGbm

/-- agree in the children and the threshold or leaf value, and for a split in the feature; the parent is free, and a leaf's feature -/
structure SameNodeUse (n n' : Node) : Prop where
  left : n'.cLeft = n.cLeft
  right : n'.cRight = n.cRight
  info : n'.info = n.info
  feature : 0 ≤ n.cLeft.toInt → n'.sIndex = n.sIndex

/-- agree in the numbers of roots, nodes and features and in the nodes; statistics, numbers of deleted nodes, depth, leaf vectors and reserved
words are free -/
structure SameTreeUse (t t' : TreeModel) : Prop where
  numRoots : t'.param.numRoots = t.param.numRoots
  numNodes : t'.param.numNodes = t.param.numNodes
  numFeature : t'.param.numFeature = t.param.numFeature
  nodes : List.Forall₂ SameNodeUse t.nodes t'.nodes

/-- agree in the numbers of trees, roots, features and groups, in the trees and in their groups; padding, the old buffer size, the size of leaf
vectors and reserved words are free -/
structure SameModelUse (m m' : GBTreeModel) : Prop where
  numTrees : m'.param.numTrees = m.param.numTrees
  numRoots : m'.param.numRoots = m.param.numRoots
  numFeature : m'.param.numFeature = m.param.numFeature
  groups : m'.param.numOutputGroup = m.param.numOutputGroup
  trees : List.Forall₂ SameTreeUse m.trees m'.trees
  info : m'.treeInfo = m.treeInfo

/-- agree in the numbers of features and groups and in the weights; reserved words are free -/
structure SameLinearUse (m m' : GBLinearModel) : Prop where
  numFeature : m'.param.numFeature = m.param.numFeature
  groups : m'.param.numOutputGroup = m.param.numOutputGroup
  weights : m'.weights = m.weights

end Leaves.Spec
