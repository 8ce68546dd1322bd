import Verif.Model.Util

/-!
# internal/xgbin/xgbin_io.go: XGBoost binary format

A `*bufio.Reader` over a finite file is the list of bytes not read yet. `binary.Read` of a fixed-size value
fails (io.EOF or io.ErrUnexpectedEOF) when fewer bytes are left. 32-bit fields are kept as bit vectors;
int32 fields are interpreted with `toInt`, float32 fields with `F64.ofBits32`.
-/

namespace Leaves.XgBin

abbrev Bytes := List (BitVec 8)

/-- A reading function. -/
def Rd (α : Type) := Bytes → Res (α × Bytes)

instance : Monad Rd where
  pure a := fun bs => .ok (a, bs)
  bind x f := fun bs => match x bs with
    | .ok (a, bs) => f a bs
    | .err t => .err t
    | .panic => .panic
    | .hang => .hang

/-- lift an outcome -/
def lift {α : Type} (r : Res α) : Rd α := fun bs => match r with
  | .ok a => .ok (a, bs)
  | .err t => .err t
  | .panic => .panic
  | .hang => .hang

/-- read exactly `n` bytes (`io.ReadFull` inside `binary.Read`) -/
def readBytes (n : Nat) : Rd Bytes := fun bs =>
  if bs.length < n then .err "EOF" else .ok (bs.take n, bs.drop n)

/-- a little-endian 32-bit word -/
def readWord : Rd (BitVec 32) := do
  let b ← readBytes 4
  return BitVec.ofNat 32 (Util.leNat b)

/-- a little-endian 64-bit word -/
def readWord64 : Rd (BitVec 64) := do
  let b ← readBytes 8
  return BitVec.ofNat 64 (Util.leNat b)

/-- repeat `n` times -/
def readMany {α : Type} (r : Rd α) : Nat → Rd (List α)
  | 0 => return []
  | n + 1 => do
    let x ← r
    let xs ← readMany r n
    return x :: xs

/-- xgbin_io.go 16-29 `LearnerModelParam` -/
structure LearnerModelParam where
  baseScore : BitVec 32
  numFeatures : BitVec 32
  numClass : BitVec 32
  containExtraAttrs : BitVec 32
  containEvalMetrics : BitVec 32
  reserved : List (BitVec 32)
deriving DecidableEq

/-- xgbin_io.go 157-163 `ReadStruct` for LearnerModelParam -/
def readLearnerModelParam : Rd LearnerModelParam := do
  let baseScore ← readWord
  let numFeatures ← readWord
  let numClass ← readWord
  let containExtraAttrs ← readWord
  let containEvalMetrics ← readWord
  let reserved ← readMany readWord 29
  return ⟨baseScore, numFeatures, numClass, containExtraAttrs, containEvalMetrics, reserved⟩

/-- xgbin_io.go 33-52 `GBTreeModelParam` -/
structure GBTreeModelParam where
  numTrees : BitVec 32
  numRoots : BitVec 32
  numFeature : BitVec 32
  pad32bit : BitVec 32
  numPbufferDeprecated : BitVec 64
  numOutputGroup : BitVec 32
  sizeLeafVector : BitVec 32
  reserved : List (BitVec 32)
deriving DecidableEq

/-- xgbin_io.go 157-163 `ReadStruct` for GBTreeModelParam -/
def readGBTreeModelParam : Rd GBTreeModelParam := do
  let numTrees ← readWord
  let numRoots ← readWord
  let numFeature ← readWord
  let pad32bit ← readWord
  let numPbufferDeprecated ← readWord64
  let numOutputGroup ← readWord
  let sizeLeafVector ← readWord
  let reserved ← readMany readWord 32
  return ⟨numTrees, numRoots, numFeature, pad32bit, numPbufferDeprecated, numOutputGroup, sizeLeafVector, reserved⟩

/-- xgbin_io.go 56-72 `TreeParam` -/
structure TreeParam where
  numRoots : BitVec 32
  numNodes : BitVec 32
  numDeleted : BitVec 32
  maxDepth : BitVec 32
  numFeature : BitVec 32
  sizeLeafVector : BitVec 32
  reserved : List (BitVec 32)
deriving DecidableEq

/-- xgbin_io.go 157-163 `ReadStruct` for TreeParam -/
def readTreeParam : Rd TreeParam := do
  let numRoots ← readWord
  let numNodes ← readWord
  let numDeleted ← readWord
  let maxDepth ← readWord
  let numFeature ← readWord
  let sizeLeafVector ← readWord
  let reserved ← readMany readWord 31
  return ⟨numRoots, numNodes, numDeleted, maxDepth, numFeature, sizeLeafVector, reserved⟩

/-- xgbin_io.go 76-92 `Node` -/
structure Node where
  parent : BitVec 32
  cLeft : BitVec 32
  cRight : BitVec 32
  sIndex : BitVec 32
  info : BitVec 32
deriving DecidableEq

/-- xgbin_io.go 157-163 `ReadStruct` for Node -/
def readNode : Rd Node := do
  let parent ← readWord
  let cLeft ← readWord
  let cRight ← readWord
  let sIndex ← readWord
  let info ← readWord
  return ⟨parent, cLeft, cRight, sIndex, info⟩

/-- xgbin_io.go 96-105 `RTreeNodeStat` -/
structure RTreeNodeStat where
  lossChg : BitVec 32
  sumHess : BitVec 32
  baseWeight : BitVec 32
  leafChildCnt : BitVec 32
deriving DecidableEq

/-- xgbin_io.go 157-163 `ReadStruct` for RTreeNodeStat -/
def readStat : Rd RTreeNodeStat := do
  let lossChg ← readWord
  let sumHess ← readWord
  let baseWeight ← readWord
  let leafChildCnt ← readWord
  return ⟨lossChg, sumHess, baseWeight, leafChildCnt⟩

/-- xgbin_io.go 109-116 `GBLinearModelParam` -/
structure GBLinearModelParam where
  numFeature : BitVec 32
  numOutputGroup : BitVec 32
  reserved : List (BitVec 32)
deriving DecidableEq

/-- xgbin_io.go 157-163 `ReadStruct` for GBLinearModelParam -/
def readGBLinearModelParam : Rd GBLinearModelParam := do
  let numFeature ← readWord
  let numOutputGroup ← readWord
  let reserved ← readMany readWord 32
  return ⟨numFeature, numOutputGroup, reserved⟩

/-- xgbin_io.go 121-127 `TreeModel` (the leaf vector is read and dropped) -/
structure TreeModel where
  nodes : List Node
  stats : List RTreeNodeStat
  param : TreeParam
deriving DecidableEq

/-- xgbin_io.go 132-137 `GBTreeModel` -/
structure GBTreeModel where
  param : GBTreeModelParam
  trees : List TreeModel
  treeInfo : List (BitVec 32)
deriving DecidableEq

/-- xgbin_io.go 142-146 `ModelHeader` -/
structure ModelHeader where
  param : LearnerModelParam
  nameObj : Bytes
  nameGbm : Bytes
deriving DecidableEq

/-- xgbin_io.go 151-154 `GBLinearModel` -/
structure GBLinearModel where
  param : GBLinearModelParam
  weights : List (BitVec 32)
deriving DecidableEq

/-- xgbin_io.go 167-182 `ReadString` -/
def readString (P : Platform) : Rd Bytes := do
  let size ← readWord64
  if size.toNat = 0 then return []
  else
    lift (allocCheck P size.toNat 1)
    readBytes size.toNat

/-- xgbin_io.go 186-201 `ReadFloat32Slice` and 205-220 `ReadInt32Slice` (same code for 32-bit elements) -/
def readWordSlice (P : Platform) : Rd (List (BitVec 32)) := do
  let size ← readWord64
  if size.toNat = 0 then return []
  else
    lift (allocCheck P size.toNat 4)
    readMany readWord size.toNat

/-- xgbin_io.go 223-242 `ReadModelHeader` -/
def readModelHeader (P : Platform) : Rd ModelHeader := do
  let param ← readLearnerModelParam
  let nameObj ← readString P
  let nameGbm ← readString P
  return ⟨param, nameObj, nameGbm⟩

/-- xgbin_io.go 273-306 `ReadTreeModel` -/
def readTreeModel (P : Platform) : Rd TreeModel := do
  let param ← readTreeParam
  lift (allocCheck P param.numNodes.toInt 20)
  lift (allocCheck P param.numNodes.toInt 16)
  let nodes ← readMany readNode param.numNodes.toInt.toNat
  let stats ← readMany readStat param.numNodes.toInt.toNat
  if param.sizeLeafVector.toInt > 0 then
    let _ ← readWordSlice P
    return ⟨nodes, stats, param⟩
  else return ⟨nodes, stats, param⟩

/-- xgbin_io.go 245-270 `ReadGBTreeModel` -/
def readGBTreeModel (P : Platform) : Rd GBTreeModel := do
  let param ← readGBTreeModelParam
  let trees ← readMany (readTreeModel P) param.numTrees.toInt.toNat
  if param.numTrees.toInt > 0 then
    lift (allocCheck P param.numTrees.toInt 4)
    let treeInfo ← readMany readWord param.numTrees.toInt.toNat
    return ⟨param, trees, treeInfo⟩
  else return ⟨param, trees, []⟩

/-- xgbin_io.go 309-320 `ReadGBLinearModel` -/
def readGBLinearModel (P : Platform) : Rd GBLinearModel := do
  let param ← readGBLinearModelParam
  let weights ← readWordSlice P
  return ⟨param, weights⟩

end Leaves.XgBin
