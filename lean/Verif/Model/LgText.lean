import Verif.Model.Text
import Verif.Model.Convert
import Verif.Model.Predict

/-! # lgensemble_io.go: LightGBM text format -/

namespace Leaves

/-- lgensemble_io.go 82-95 `convertMissingType` -/
def convertMissingType (decisionType : Nat) : Res Flags :=
  let missingTypeOrig := (decisionType >>> 2) &&& 3
  if missingTypeOrig = 0 then .ok 0
  else if missingTypeOrig = 1 then .ok Flag.missingZero
  else if missingTypeOrig = 2 then .ok Flag.missingNan
  else .err "unknown missing type"

/-- The arrays of one tree block, lgensemble_io.go 135-169 -/
structure LgArrays where
  leftChilds : List Int
  rightChilds : List Int
  decisionTypes : List Nat
  splitFeatures : List Nat
  thresholds : List F64
  catThresholds : List (BitVec 32)
  catBoundaries : List Nat
deriving DecidableEq

/-- the categorical tables of the tree under construction: `t.catBoundaries`, `t.catThresholds` -/
structure CatTables where
  boundaries : List Nat
  thresholds : List (BitVec 32)
deriving DecidableEq

namespace LgArrays

/-- lgensemble_io.go 182-189 and 225-232: leaf children -/
def withLeaves (a : LgArrays) (idx : Int) (node : LgNode) : Res LgNode := do
  let l ← Res.idxI a.leftChilds idx
  let node := if l < 0 then
    { node with flags := node.flags ||| Flag.leftLeaf, left := u32I (-l - 1) } else node
  let r ← Res.idxI a.rightChilds idx
  let node := if r < 0 then
    { node with flags := node.flags ||| Flag.rightLeaf, right := u32I (-r - 1) } else node
  return node

/-- lgensemble_io.go 171-191 `createNumericalNode` -/
def createNumericalNode (a : LgArrays) (idx : Int) : Res LgNode := do
  let d ← Res.idxI a.decisionTypes idx
  let missingType ← convertMissingType d
  let defaultType := if d &&& (1 <<< 1) > 0 then Flag.defaultLeft else 0
  let f ← Res.idxI a.splitFeatures idx
  let t ← Res.idxI a.thresholds idx
  a.withLeaves idx (numericalNode f missingType t defaultType)

/-- Go `s[lo:hi]` on a slice with `cap = len` -/
def slice {α : Type} (s : List α) (lo hi : Nat) : Res (List α) :=
  if hi < lo ∨ s.length < hi then .panic else .ok ((s.drop lo).take (hi - lo))

/-- lgensemble_io.go 208-222: the choice among the three encodings of a category set; the category index
(or word), the flag and the updated tables -/
def catSlot (a : LgArrays) (nBits bitsetSize bS : Nat) (thresholdSlice : List (BitVec 32)) (t : CatTables) :
    Res (Nat × Flags × CatTables) :=
  if nBits = 1 then do
    let i ← Util.firstNonZeroBit thresholdSlice
    return (i, Flag.catOneHot, t)
  else if bitsetSize = 1 then do
    let w ← Res.idx a.catThresholds bS
    return (w.toNat, Flag.catSmall, t)
  else
    let catIdx := u32I ((t.boundaries.length : Int) - 1)
    let ths := t.thresholds ++ thresholdSlice
    return (catIdx, 0, { thresholds := ths, boundaries := t.boundaries ++ [u32 ths.length] })

/-- lgensemble_io.go 193-234 `createCategoricalNode` -/
def createCategoricalNode (P : Platform) (a : LgArrays) (idx : Int) (t : CatTables) :
    Res (LgNode × CatTables) := do
  let d ← Res.idxI a.decisionTypes idx
  let missingType ← convertMissingType d
  let th ← Res.idxI a.thresholds idx
  let catIdx := P.toUint32 th
  let bE ← Res.idx a.catBoundaries (u32 (catIdx + 1))
  let bS ← Res.idx a.catBoundaries catIdx
  let bitsetSize := u32 (bE + 2 ^ 32 - bS)
  let thresholdSlice ← slice a.catThresholds bS bE
  let nBits := (Util.numberOfSetBits thresholdSlice).toNat
  if nBits = 0 then .err "no bits set"
  else
    let (catIdx, catType, t) ← a.catSlot nBits bitsetSize bS thresholdSlice t
    let f ← Res.idxI a.splitFeatures idx
    let node ← a.withLeaves idx (categoricalNode f missingType catIdx catType)
    return (node, t)

/-- lgensemble_io.go 235-240 `createNode` -/
def createNode (P : Platform) (a : LgArrays) (idx : Int) (t : CatTables) : Res (LgNode × CatTables) := do
  let d ← Res.idxI a.decisionTypes idx
  if d &&& 1 > 0 then a.createCategoricalNode P idx t
  else
    let node ← a.createNumericalNode idx
    return (node, t)

/-- the instance of the conversion loop in lgensemble_io.go 241-289 -/
def source (P : Platform) (a : LgArrays) : Source CatTables where
  createNode := a.createNode P
  rightChild := fun i => Res.idx a.rightChilds i
  leftChild := fun i => Res.idx a.leftChilds i

end LgArrays

/-- lgensemble_io.go 109-290: `lgTreeFromReader` after the parameter block was read -/
def lgTreeFromParams (P : Platform) (params : Params) : Res LgTree := do
  let numCategorical ← params.toInt "num_cat".toList
  let nCategorical := u32I numCategorical
  let numLeaves ← params.toInt "num_leaves".toList
  if numLeaves < 1 then .err "num_leaves < 1"
  else
    let numNodes := numLeaves - 1
    let leafValues ← params.toFloat64Slice P "leaf_value".toList
    if numLeaves = 1 then
      return { leafValues := leafValues, nCategorical := nCategorical }
    else
      let leftChilds ← params.toInt32Slice "left_child".toList
      let rightChilds ← params.toInt32Slice "right_child".toList
      let decisionTypes ← params.toUint32Slice "decision_type".toList
      let splitFeatures ← params.toUint32Slice "split_feature".toList
      let thresholds ← params.toFloat64Slice P "threshold".toList
      let (catThresholds, catBoundaries, boundaries) ←
        if numCategorical > 0 then do
          let ct ← params.toUint32Slice "cat_threshold".toList
          let cb ← params.toUint32Slice "cat_boundaries".toList
          pure (ct, cb, [0])
        else pure ([], [], [])
      let a : LgArrays :=
        { leftChilds := leftChilds, rightChilds := rightChilds, decisionTypes := decisionTypes,
          splitFeatures := splitFeatures, thresholds := thresholds,
          catThresholds := catThresholds.map (BitVec.ofNat 32), catBoundaries := catBoundaries }
      let (nodes, cats) ← convert P (a.source P) numNodes numNodes { boundaries := boundaries, thresholds := [] }
      return { nodes := nodes, leafValues := leafValues, catBoundaries := cats.boundaries,
               catThresholds := cats.thresholds, nCategorical := nCategorical }

/-- lgensemble_io.go 103-290 `lgTreeFromReader` -/
def lgTreeFromReader (P : Platform) (r : Reader) : Res (LgTree × Reader) := do
  let (params, r) ← readParamsUntilBlank r
  let t ← lgTreeFromParams P params
  return (t, r)

/-- lgensemble_io.go 55-59 `lgObjective` -/
structure LgObjective where
  name : Str
  param : Str
  value : Int
deriving DecidableEq

/-- lgensemble_io.go 61-80 `lgObjectiveParse` -/
def lgObjectiveParse (objective : Str) : Res LgObjective :=
  match split objective " ".toList with
  | [name, p] =>
    match split p ":".toList with
    | [param, v] =>
      match atoi v with
      | some value => .ok { name, param, value }
      | none => .err "unexpected objective field"
    | _ => .err "unexpected objective field"
  | _ => .err "unexpected objective field"

/-- lgensemble_io.go 348-380: the transformation -/
def lgTransform (params : Params) (nRawOutputGroups : Int) (averageOutput loadTransformation : Bool) :
    Res Transform :=
  if loadTransformation && !averageOutput then do
    let objectiveStr ← params.toString "objective".toList
    if objectiveStr = "poisson".toList ∨ objectiveStr = "gamma".toList ∨ objectiveStr = "tweedie".toList then
      return .exponential
    else if !hasPrefix objectiveStr "regression".toList then do
      let o ← lgObjectiveParse objectiveStr
      if o.name = "binary".toList ∧ o.param = "sigmoid".toList then
        if o.value ≠ 1 then .err "got sigmoid with value != 1" else return .logistic
      else if o.name = "multiclass".toList ∧ o.param = "num_class".toList then
        if o.value ≠ nRawOutputGroups then .err "got wrong multiclass num_class" else return .softmax o.value
      else .err "unknown transformation function"
    else return .raw nRawOutputGroups
  else return .raw nRawOutputGroups

/-- lgensemble_io.go 383-389: reading the trees -/
def lgReadTrees (P : Platform) : (n : Nat) → Reader → Res (List LgTree × Reader)
  | 0, r => .ok ([], r)
  | n + 1, r => do
    let (t, r) ← lgTreeFromReader P r
    let (ts, r) ← lgReadTrees P n r
    return (t :: ts, r)

/-- lgensemble_io.go 301-305: `version` must be v2 or v3 -/
def lgCheckVersion (params : Params) : Res Unit :=
  match params.compare "version".toList "v2".toList with
  | .ok _ => .ok ⟨⟩
  | _ => params.compare "version".toList "v3".toList

/-- lgensemble_io.go 293-391 `LGEnsembleFromReader`; also returns the reader after the call -/
def lgEnsembleFromReader (P : Platform) (r : Reader) (loadTransformation : Bool) :
    Res (Ensemble × Reader) := do
  let (params, r) ← readParamsUntilBlank r
  lgCheckVersion params
  let nClasses ← params.toInt "num_class".toList
  let nTreePerIteration ← params.toInt "num_tree_per_iteration".toList
  if nClasses ≠ nTreePerIteration then .err "num_class != num_tree_per_iteration"
  else if nClasses < 1 then .err "num_class should be > 0"
  else if nTreePerIteration < 1 then .err "num_tree_per_iteration should be > 0"
  else
    let maxFeatureIdx ← params.toInt "max_feature_idx".toList
    let averageOutput := params.contains "average_output".toList
    let name := if averageOutput then "lightgbm.rf" else "lightgbm.gbdt"
    let treeSizes ← params.toStrSlice "tree_sizes".toList
    let nTrees := treeSizes.length
    if nTrees = 0 then .err "no trees in file"
    else if (nTrees : Int).tmod nClasses ≠ 0 then .err "wrong number of trees"
    else
      let transform ← lgTransform params nClasses averageOutput loadTransformation
      let (trees, r) ← lgReadTrees P nTrees r
      let e : LgEnsemble := { trees := trees, maxFeatureIdx := maxFeatureIdx, nRawOutputGroups := nClasses,
                              name := name, averageOutput := averageOutput }
      return ({ base := .lg e, transform := transform }, r)

end Leaves
