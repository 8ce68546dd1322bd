import Verif.Spec.XgImage
import Verif.Spec.XgFile
import Verif.Spec.Output

/-!
# What an XGBoost binary file means

A file is the image of a header, of a model, and for 'dart' of the tree weights. The node array of a tree means a tree by
`Spec.XgTreeOK`.
-/

namespace Leaves.Spec

open XgBin

/-- the bytes of an ASCII string -/
def asciiBytes (s : String) : Bytes := s.toList.map fun c => BitVec.ofNat 8 c.toNat

/-- a file of trees with what its trees mean -/
structure XgModel where
  header : ModelHeader
  gbtree : GBTreeModel
  leafVectors : List (List (BitVec 32))
  dart : Bool
  /-- tree weights, written for 'dart' only -/
  weights : List (BitVec 32)
  shapes : List BTree

/-- the file -/
def XgModel.image (m : XgModel) : Bytes :=
  headerImage m.header ++ (gbtreeImage m.gbtree m.leafVectors ++ if m.dart then sliceImage m.weights else [])

/-- the node array is a single leaf, or describes a tree with splits -/
def XgMeans (t : TreeModel) (T : BTree) : Prop :=
  XgTreeOK t T ∨ ((∃ n, t.nodes = [n]) ∧ t.param.numRoots.toInt = 1 ∧ T = .leaf 0)

/-- The file is well-formed: `K` groups, `N` trees per group, trees in the order of their groups. -/
structure XgModel.OK (m : XgModel) (maxAlloc K N : Nat) : Prop where
  header : HeaderOK maxAlloc m.header
  gbtree : GBTreeOK maxAlloc m.gbtree m.leafVectors
  name : m.header.nameGbm = if m.dart then asciiBytes "dart" else asciiBytes "gbtree"
  features : 0 < m.header.param.numFeatures.toInt ∧ m.gbtree.param.numFeature.toInt ≤ m.header.param.numFeatures.toInt
  roots : m.gbtree.param.numRoots.toInt = 1
  groups : m.gbtree.param.numOutputGroup.toInt = K
  counts : 1 ≤ K ∧ 1 ≤ N ∧ m.gbtree.trees.length = N * K
  info : ∀ i < N, ∀ k < K, ∃ b, m.gbtree.treeInfo[i * K + k]? = some b ∧ b.toInt = k
  weights : m.dart = true → m.weights.length = N * K
  alloc : N * K * 104 ≤ maxAlloc
  trees : List.Forall₂ XgMeans m.gbtree.trees m.shapes
  treeFeatures : ∀ t ∈ m.gbtree.trees, t.param.numFeature.toInt ≤ m.header.param.numFeatures.toInt ∧ t.nodes.length * 24 ≤ maxAlloc

/-- the weight of tree `i` -/
def XgModel.Weight (m : XgModel) (i : Nat) (c : F64) : Prop :=
  if m.dart then ∃ b, m.weights[i]? = some b ∧ c = F64.ofBits32 b else c = F64.one

/-- Raw scores with `n` trees per group: base score plus weighted tree values. `goes` is the rule at a split. -/
def XgRefRaw (P : Platform) (goes : List Node → List F64 → Nat → Bool → Prop) (m : XgModel) (K : Nat) (fvals : List F64) (n : Nat)
    (w : List F64) : Prop :=
  ∃ v c : Nat → Nat → F64,
    (∀ i < n, ∀ k < K, ∃ t T leaf, m.gbtree.trees[i * K + k]? = some t ∧ m.shapes[i * K + k]? = some T ∧
      Walk (goes t.nodes fvals) T leaf ∧ XgVal t.nodes leaf (v i k)) ∧
    (∀ i < n, ∀ k < K, m.Weight (i * K + k) (c i k)) ∧
    w = (List.range K).map fun k => accumulate (fun i acc => P.mulAdd (v i k) (c i k) acc) n (F64.ofBits32 m.header.param.baseScore)

/-- the row has a value equal to a split condition of some tree -/
def XgModel.Tie (m : XgModel) (fvals : List F64) : Prop :=
  ∃ (i : Nat) (t : TreeModel) (T : BTree), m.gbtree.trees[i]? = some t ∧ m.shapes[i]? = some T ∧ XgTie t.nodes T fvals

/-- a linear file -/
structure XgLinFile where
  header : ModelHeader
  linear : GBLinearModel

/-- the file -/
def XgLinFile.image (m : XgLinFile) : Bytes := headerImage m.header ++ linearImage m.linear

/-- The file is well-formed: `K` groups, `F` features, a weight per feature and group and a bias per group. -/
structure XgLinFile.OK (m : XgLinFile) (maxAlloc K F : Nat) : Prop where
  header : HeaderOK maxAlloc m.header
  linear : LinearOK maxAlloc m.linear
  name : m.header.nameGbm = asciiBytes "gblinear"
  features : m.header.param.numFeatures.toNat ≠ 0
  numFeature : m.linear.param.numFeature.toNat = F
  groups : m.linear.param.numOutputGroup.toInt = K ∧ 1 ≤ K
  weights : m.linear.weights.length = (F + 1) * K

/-- Raw scores: base score plus bias plus weighted features. -/
def XgLinRaw (P : Platform) (m : XgLinFile) (K F : Nat) (fvals : List F64) (w : List F64) : Prop :=
  ∃ (x : Nat → F64) (c : Nat → Nat → F64), (∀ i < F, fvals[i]? = some (x i)) ∧
    (∀ i ≤ F, ∀ k < K, ∃ b, m.linear.weights[i * K + k]? = some b ∧ c i k = F64.ofBits32 b) ∧
    w = (List.range K).map fun k => accumulate (fun i acc => P.mulAdd (x i) (c i k) acc) F
      (F64.add (F64.ofBits32 m.header.param.baseScore) (c F k))

/-- the transformation installed for a file with this objective -/
inductive XgObjective (K : Int) (objective : Bytes) : (load : Bool) → Transform → Prop
  | raw : XgObjective K objective false (.raw K)
  | logistic (h : objective = asciiBytes "binary:logistic") : XgObjective K objective true .logistic

/-- The rest of a file starts with a length of which `size`-byte elements do not fit into memory. -/
def HugeLength (maxAlloc size : Nat) (bytes : Bytes) : Prop := ∃ n < 2 ^ 64, maxAlloc < n * size ∧ bytesLE 8 n <+: bytes

/-- the header announces a string that does not fit -/
inductive HeaderHuge (maxAlloc : Nat) (bytes : Bytes) : Prop
  | objective (p : LearnerModelParam) (rest : Bytes) (hp : p.reserved.length = 29) (hb : bytes = learnerImage p ++ rest)
      (huge : HugeLength maxAlloc 1 rest)
  | booster (p : LearnerModelParam) (o rest : Bytes) (hp : p.reserved.length = 29) (hb : bytes = learnerImage p ++ stringImage o ++ rest)
      (huge : HugeLength maxAlloc 1 rest)

/-- the tree at this place announces a negative number of nodes, or nodes or a leaf vector that do not fit -/
inductive TreeHuge (maxAlloc : Nat) (bytes : Bytes) : Prop
  | nodes (p : TreeParam) (rest : Bytes) (hp : p.reserved.length = 31) (hb : bytes = treeParamImage p ++ rest)
      (huge : p.numNodes.toInt < 0 ∨ maxAlloc < p.numNodes.toInt * 20)
  | leafVector (p : TreeParam) (nodes : List Node) (stats : List RTreeNodeStat) (rest : Bytes) (hp : p.reserved.length = 31)
      (hn : p.numNodes.toInt = nodes.length) (hs : p.numNodes.toInt = stats.length) (hv : 0 < p.sizeLeafVector.toInt)
      (hb : bytes = treeParamImage p ++ nodes.flatMap nodeImage ++ stats.flatMap statImage ++ rest) (huge : HugeLength maxAlloc 4 rest)

/-- a child of some node lies beyond the end of the node array, or the nodes do not fit into memory once converted -/
def NodesMisfit (maxAlloc : Nat) (t : TreeModel) : Prop :=
  maxAlloc < t.nodes.length * 24 ∨ ∃ n ∈ t.nodes, (t.nodes.length : Int) ≤ n.cLeft.toInt ∨ (t.nodes.length : Int) ≤ n.cRight.toInt

/-- What is wrong with a file of trees that crashes the program. -/
inductive XgMisfit (maxAlloc : Nat) (bytes : Bytes) : Prop
  | header (h : HeaderHuge maxAlloc bytes)
  | count (h : ModelHeader) (p : GBTreeModelParam) (rest : Bytes) (hp : p.reserved.length = 32)
      (hb : bytes = headerImage h ++ gbtreeParamImage p ++ rest) (huge : p.numTrees.toInt < 0 ∨ maxAlloc < p.numTrees.toInt * 104)
  | tree (h : ModelHeader) (p : GBTreeModelParam) (ts : List TreeModel) (vs : List (List (BitVec 32))) (rest : Bytes)
      (hp : p.reserved.length = 32) (hv : vs.length = ts.length) (hts : ∀ t ∈ ts.zip vs, TreeImageOK maxAlloc t.1 t.2)
      (ht : ts.length < p.numTrees.toInt)
      (hb : bytes = headerImage h ++ gbtreeParamImage p ++ (ts.zip vs).flatMap (fun t => treeImage t.1 t.2) ++ rest)
      (huge : TreeHuge maxAlloc rest)
  | weights (h : ModelHeader) (m : GBTreeModel) (vs : List (List (BitVec 32))) (rest : Bytes) (ok : GBTreeOK maxAlloc m vs)
      (hd : h.nameGbm = asciiBytes "dart") (hb : bytes = headerImage h ++ gbtreeImage m vs ++ rest) (huge : HugeLength maxAlloc 4 rest)
  | child (h : ModelHeader) (m : GBTreeModel) (vs : List (List (BitVec 32))) (rest : Bytes) (ok : GBTreeOK maxAlloc m vs)
      (hb : bytes = headerImage h ++ gbtreeImage m vs ++ rest) (t : TreeModel) (ht : t ∈ m.trees) (bad : NodesMisfit maxAlloc t)

/-- What is wrong with a linear file that crashes the program. -/
inductive XgLinMisfit (maxAlloc : Nat) (bytes : Bytes) : Prop
  | header (h : HeaderHuge maxAlloc bytes)
  | weights (h : ModelHeader) (p : GBLinearModelParam) (rest : Bytes) (hp : p.reserved.length = 32)
      (hb : bytes = headerImage h ++ linearParamImage p ++ rest) (huge : HugeLength maxAlloc 4 rest)

end Leaves.Spec
