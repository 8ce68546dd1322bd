import Verif.Model.XgBin
import Verif.Model.Convert
import Verif.Model.Predict

/-! # xgensemble_io.go and xgblinear_io.go: loading XGBoost models -/

namespace Leaves

open XgBin

/-- xgensemble_io.go 12-14 `xgSplitIndex` -/
def xgSplitIndex (n : Node) : Nat := (n.sIndex &&& (BitVec.ofNat 32 (2 ^ 31 - 1))).toNat

/-- xgensemble_io.go 16-18 `xgDefaultLeft` -/
def xgDefaultLeft (n : Node) : Bool := decide ((n.sIndex >>> 31).toNat ≠ 0)

/-- xgensemble_io.go 20-22 `xgIsLeaf` -/
def xgIsLeaf (n : Node) : Bool := decide (n.cLeft.toInt = -1)

/-- xgensemble_io.go 53-82 `createNode`; the aux state is `t.leafValues` -/
def xgCreateNode (nodes : List Node) (origIdx : Int) (leafValues : List F64) : Res (LgNode × List F64) := do
  let origNode ← Res.idxI nodes origIdx
  let defaultType := if xgDefaultLeft origNode then Flag.defaultLeft else 0
  let node := numericalNode (xgSplitIndex origNode) Flag.missingNan (F64.ofBits32 origNode.info) defaultType
  if origNode.cLeft.toInt < 0 then .err "logic error: CLeft < 0"
  else if origNode.cRight.toInt < 0 then .err "logic error: CRight < 0"
  else
    let l ← Res.idxI nodes origNode.cLeft.toInt
    let (node, leafValues) := if xgIsLeaf l then
        ({ node with flags := node.flags ||| Flag.leftLeaf, left := u32 leafValues.length },
         leafValues ++ [F64.ofBits32 l.info])
      else (node, leafValues)
    let r ← Res.idxI nodes origNode.cRight.toInt
    let (node, leafValues) := if xgIsLeaf r then
        ({ node with flags := node.flags ||| Flag.rightLeaf, right := u32 leafValues.length },
         leafValues ++ [F64.ofBits32 r.info])
      else (node, leafValues)
    return (node, leafValues)

/-- the instance of the conversion loop in xgensemble_io.go 84-132 -/
def xgSource (nodes : List Node) : Source (List F64) where
  createNode := xgCreateNode nodes
  rightChild := fun i => do return (← Res.idx nodes i).cRight.toInt
  leftChild := fun i => do return (← Res.idx nodes i).cLeft.toInt

/-- xgensemble_io.go 24-133 `xgTreeFromTreeModel` -/
def xgTreeFromTreeModel (P : Platform) (origTree : TreeModel) (numFeatures : BitVec 32) : Res LgTree :=
  if origTree.param.numFeature.toInt > numFeatures.toInt then .err "tree number of features"
  else if origTree.param.numRoots.toInt ≠ 1 then .err "support only trees with 1 root"
  else if origTree.param.numNodes.toInt = 0 then .err "tree with zero number of nodes"
  else
    let numNodes := origTree.param.numNodes.toInt
    if numNodes = 1 then do
      let n ← Res.idx origTree.nodes 0
      return { leafValues := [F64.ofBits32 n.info] }
    else do
      let (nodes, leafValues) ← convert P (xgSource origTree.nodes) numNodes numNodes []
      return { nodes := nodes, leafValues := leafValues }

/-- xgensemble_io.go 212-221: `TreeInfo` must repeat 0 … nRawOutputGroups-1 -/
def xgCheckTreeInfo (nRawOutputGroups : Int) : (curID : Int) → List (BitVec 32) → Bool
  | _, [] => true
  | curID, x :: xs =>
    if x.toInt ≠ curID then false
    else
      let curID := curID + 1
      let curID := if curID ≥ nRawOutputGroups then 0 else curID
      xgCheckTreeInfo nRawOutputGroups curID xs

/-- ASCII bytes of a Go string literal -/
def ascii (s : String) : Bytes := s.toList.map fun c => BitVec.ofNat 8 c.toNat

/-- xgensemble_io.go 225-232, xgblinear_io.go 39-46: the transformation -/
def xgTransform (nameObj : Bytes) (nRawOutputGroups : Int) (loadTransformation : Bool) : Res Transform :=
  if loadTransformation then
    if nameObj = ascii "binary:logistic" then .ok .logistic else .err "unknown transformation function"
  else .ok (.raw nRawOutputGroups)

/-- xgensemble_io.go 241-247: converting the trees (`origModel.Trees[i]` for i < nTrees) -/
def xgConvertTrees (P : Platform) (numFeatures : BitVec 32) : List TreeModel → Res (List LgTree)
  | [] => .ok []
  | t :: ts => do
    let t ← xgTreeFromTreeModel P t numFeatures
    let ts ← xgConvertTrees P numFeatures ts
    return t :: ts

/-- xgensemble_io.go 171-195: the drop weights (reads them for 'dart') -/
def xgWeightDrop (P : Platform) (nameGbm : Bytes) (numTrees : Int) : Rd (List F64) := do
  lift (allocCheck P numTrees 8)
  if nameGbm = ascii "dart" then
    let weightDrop ← readWordSlice P
    if (weightDrop.length : Int) ≠ numTrees then lift (.err "unexpected len(weightDrop)")
    else return weightDrop.map F64.ofBits32
  else if nameGbm = ascii "gbtree" then return List.replicate numTrees.toNat F64.one
  else lift (.err "unsupported model type")

/-- xgensemble_io.go 201-248: everything after reading -/
def xgAssemble (P : Platform) (header : ModelHeader) (m : GBTreeModel) (weightDrop : List F64)
    (name : String) (loadTransformation : Bool) : Res Ensemble :=
  let nRawOutputGroups := m.param.numOutputGroup.toInt
  if m.param.numRoots.toInt ≠ 1 then .err "support only trees with 1 root"
  else if (m.treeInfo.length : Int) ≠ m.param.numTrees.toInt then .err "TreeInfo size"
  else if !xgCheckTreeInfo nRawOutputGroups 0 m.treeInfo then .err "TreeInfo pattern"
  else do
    let transform ← xgTransform header.nameObj nRawOutputGroups loadTransformation
    if m.param.numTrees.toInt = 0 then .err "no trees in model"
    else
      allocCheck P m.param.numTrees.toInt 104
      let trees ← xgConvertTrees P header.param.numFeatures m.trees
      return { base := .xg { trees := trees, maxFeatureIdx := (header.param.numFeatures.toNat : Int) - 1,
                             nRawOutputGroups := nRawOutputGroups,
                             baseScore := F64.ofBits32 header.param.baseScore,
                             weightDrop := weightDrop, name := name },
               transform := transform }

/-- xgensemble_io.go 136-249 `XGEnsembleFromReader`. The reader delivers the bytes after the header read so
far; `m.trees` has exactly `NumTrees` entries when `NumTrees ≥ 0` (readGBTreeModel). -/
def xgEnsembleFromReader (P : Platform) (loadTransformation : Bool) : Rd Ensemble := do
  let header ← readModelHeader P
  if header.nameGbm ≠ ascii "gbtree" ∧ header.nameGbm ≠ ascii "dart" then
    lift (.err "only 'gbtree' or 'dart' is supported")
  else
    let name := if header.nameGbm = ascii "gbtree" then "xgboost.gbtree" else "xgboost.dart"
    if header.param.numFeatures.toNat = 0 then lift (.err "zero number of features")
    else
      let m ← readGBTreeModel P
      if m.param.numFeature.toInt > header.param.numFeatures.toInt then lift (.err "gbtree number of features")
      else
        let weightDrop ← xgWeightDrop P header.nameGbm m.param.numTrees.toInt
        lift (xgAssemble P header m weightDrop name loadTransformation)

/-- xgblinear_io.go 13-48 `XGBLinearFromReader` -/
def xgbLinearFromReader (P : Platform) (loadTransformation : Bool) : Rd Ensemble := do
  let header ← readModelHeader P
  if header.nameGbm ≠ ascii "gblinear" then lift (.err "only gblinear is supported")
  else if header.param.numFeatures.toNat = 0 then lift (.err "zero number of features")
  else
    let m ← readGBLinearModel P
    let nRawOutputGroups := m.param.numOutputGroup.toInt
    let transform ← lift (xgTransform header.nameObj nRawOutputGroups loadTransformation)
    return { base := .lin { numFeature := m.param.numFeature.toNat, nRawOutputGroups := nRawOutputGroups,
                            baseScore := F64.ofBits32 header.param.baseScore,
                            weights := m.weights.map F64.ofBits32 },
             transform := transform }

end Leaves
