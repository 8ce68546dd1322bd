import Verif.Model.XgBin

/-!
# Byte images of the XGBoost binary records

The layout of XGBoost's own structs: fields in order, little-endian, no padding; strings and vectors are preceded by their
length in 8 bytes.
-/

namespace Leaves.Spec

open XgBin

/-- the `k` low bytes of `n`, lowest first -/
def bytesLE (k n : Nat) : Bytes := (List.range k).map fun i => BitVec.ofNat 8 (n / 256 ^ i)

/-- a 32-bit field -/
def word (w : BitVec 32) : Bytes := bytesLE 4 w.toNat

/-- several 32-bit fields -/
def words (ws : List (BitVec 32)) : Bytes := ws.flatMap word

/-- a string with its length -/
def stringImage (s : Bytes) : Bytes := bytesLE 8 s.length ++ s

/-- a vector of 32-bit values with its length -/
def sliceImage (ws : List (BitVec 32)) : Bytes := bytesLE 8 ws.length ++ words ws

/-- struct LearnerModelParam, 136 bytes -/
def learnerImage (p : LearnerModelParam) : Bytes :=
  words ([p.baseScore, p.numFeatures, p.numClass, p.containExtraAttrs, p.containEvalMetrics] ++ p.reserved)

/-- struct GBTreeModelParam, 160 bytes -/
def gbtreeParamImage (p : GBTreeModelParam) : Bytes :=
  words [p.numTrees, p.numRoots, p.numFeature, p.pad32bit] ++ bytesLE 8 p.numPbufferDeprecated.toNat ++
    words ([p.numOutputGroup, p.sizeLeafVector] ++ p.reserved)

/-- struct TreeParam, 148 bytes -/
def treeParamImage (p : TreeParam) : Bytes :=
  words ([p.numRoots, p.numNodes, p.numDeleted, p.maxDepth, p.numFeature, p.sizeLeafVector] ++ p.reserved)

/-- struct Node, 20 bytes -/
def nodeImage (n : Node) : Bytes := words [n.parent, n.cLeft, n.cRight, n.sIndex, n.info]

/-- struct RTreeNodeStat, 16 bytes -/
def statImage (s : RTreeNodeStat) : Bytes := words [s.lossChg, s.sumHess, s.baseWeight, s.leafChildCnt]

/-- struct GBLinearModelParam, 136 bytes -/
def linearParamImage (p : GBLinearModelParam) : Bytes := words ([p.numFeature, p.numOutputGroup] ++ p.reserved)

/-- header -/
def headerImage (h : ModelHeader) : Bytes := learnerImage h.param ++ stringImage h.nameObj ++ stringImage h.nameGbm

/-- tree; `leafVector` is written only if the tree says so -/
def treeImage (t : TreeModel) (leafVector : List (BitVec 32)) : Bytes :=
  treeParamImage t.param ++ t.nodes.flatMap nodeImage ++ t.stats.flatMap statImage ++
    if 0 < t.param.sizeLeafVector.toInt then sliceImage leafVector else []

/-- model of trees; each tree with its leaf vector -/
def gbtreeImage (m : GBTreeModel) (leafVectors : List (List (BitVec 32))) : Bytes :=
  gbtreeParamImage m.param ++ (m.trees.zip leafVectors).flatMap (fun t => treeImage t.1 t.2) ++ words m.treeInfo

/-- linear model -/
def linearImage (m : GBLinearModel) : Bytes := linearParamImage m.param ++ sliceImage m.weights

/-- the numbers of reserved words, and the counts, are those of the format -/
structure HeaderOK (maxAlloc : Nat) (h : ModelHeader) : Prop where
  reserved : h.param.reserved.length = 29
  nameObj : h.nameObj.length < 2 ^ 64 ∧ h.nameObj.length ≤ maxAlloc
  nameGbm : h.nameGbm.length < 2 ^ 64 ∧ h.nameGbm.length ≤ maxAlloc

/-- the same for a tree -/
structure TreeImageOK (maxAlloc : Nat) (t : TreeModel) (leafVector : List (BitVec 32)) : Prop where
  reserved : t.param.reserved.length = 31
  nodes : t.param.numNodes.toInt = t.nodes.length
  stats : t.param.numNodes.toInt = t.stats.length
  alloc : t.nodes.length * 20 ≤ maxAlloc
  leafVector : leafVector.length < 2 ^ 64 ∧ leafVector.length * 4 ≤ maxAlloc

/-- the same for a model of trees -/
structure GBTreeOK (maxAlloc : Nat) (m : GBTreeModel) (leafVectors : List (List (BitVec 32))) : Prop where
  reserved : m.param.reserved.length = 32
  trees : m.param.numTrees.toInt = m.trees.length
  vectors : leafVectors.length = m.trees.length
  each : ∀ t ∈ m.trees.zip leafVectors, TreeImageOK maxAlloc t.1 t.2
  info : m.treeInfo.length = m.trees.length
  alloc : m.trees.length * 4 ≤ maxAlloc

/-- the same for a linear model -/
structure LinearOK (maxAlloc : Nat) (m : GBLinearModel) : Prop where
  reserved : m.param.reserved.length = 32
  weights : m.weights.length < 2 ^ 64 ∧ m.weights.length * 4 ≤ maxAlloc

end Leaves.Spec
