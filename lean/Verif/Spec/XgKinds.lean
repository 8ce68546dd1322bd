import Verif.Spec.XgModel

/-! # Spec: XGBoost files of the kinds the library computes -/

namespace Leaves.Spec
open XgBin

/-- Groups 0 … K-1 in turn: the trees of an iteration are one for each group, in order. A model trained with several parallel trees per
iteration and several classes is not like this. -/
def InTurn (K : Int) (info : List (BitVec 32)) : Prop :=
  ∀ (i : Nat) (b : BitVec 32), info[i]? = some b → b.toInt = if 1 ≤ K then (i : Int) % K else 0

/-- a model of trees of a kind the library computes: one of the two boosters, a weight per tree, one root, groups in turn; the objective
matters if the transformation is wanted -/
structure XgModel.Kind (m : XgModel) (load : Bool) : Prop where
  booster : m.header.nameGbm = if m.dart then asciiBytes "dart" else asciiBytes "gbtree"
  features : m.header.param.numFeatures.toNat ≠ 0 ∧ m.gbtree.param.numFeature.toInt ≤ m.header.param.numFeatures.toInt
  weights : m.dart = true → m.weights.length = m.gbtree.trees.length
  roots : m.gbtree.param.numRoots.toInt = 1
  turns : InTurn m.gbtree.param.numOutputGroup.toInt m.gbtree.treeInfo
  objective : load = true → m.header.nameObj = asciiBytes "binary:logistic"
  trees : m.gbtree.trees ≠ []

/-- and every tree has one root, some nodes, and features of the model -/
structure XgModel.Supported (m : XgModel) (load : Bool) : Prop where
  kind : m.Kind load
  each : ∀ t ∈ m.gbtree.trees, t.param.numRoots.toInt = 1 ∧ t.nodes ≠ [] ∧ t.param.numFeature.toInt ≤ m.header.param.numFeatures.toInt

/-- the records of the file can be read: their counts are right and they fit in memory -/
structure XgModel.Readable (m : XgModel) (maxAlloc : Nat) : Prop where
  header : HeaderOK maxAlloc m.header
  gbtree : GBTreeOK maxAlloc m.gbtree m.leafVectors
  weights : m.dart = true → m.weights.length < 2 ^ 64 ∧ m.weights.length * 4 ≤ maxAlloc
  alloc : m.gbtree.trees.length * 8 ≤ maxAlloc

/-- the same for a linear model -/
structure XgLinFile.Supported (m : XgLinFile) (load : Bool) : Prop where
  booster : m.header.nameGbm = asciiBytes "gblinear"
  features : m.header.param.numFeatures.toNat ≠ 0
  objective : load = true → m.header.nameObj = asciiBytes "binary:logistic"

end Leaves.Spec
