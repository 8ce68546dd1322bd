import Verif.Model.PickleClass
import Verif.Model.Convert
import Verif.Model.Predict

/-! # skensemble_io.go: loading scikit-learn gradient boosting models -/

namespace Leaves

open Pickle

/-- skensemble_io.go 41, 55, 60: `Values[i]*scale + base` -/
def skLeaf (P : Platform) (values : List F64) (scale base : F64) (i : Int) : Res F64 := do
  let v ← Res.idxI values i
  return P.mulAdd v scale base

/-- skensemble_io.go 46-63 `createNode`; the aux state is `t.leafValues` -/
def skCreateNode (P : Platform) (tree : SkTree) (scale base : F64) (idx : Int) (leafValues : List F64) :
    Res (LgNode × List F64) := do
  let ref ← Res.idxI tree.nodes idx
  let node := numericalNode (u32I ref.feature) 0 ref.threshold 0
  let l ← Res.idxI tree.nodes ref.leftChild
  let (node, leafValues) ← if l.leftChild < 0 then do
      let v ← skLeaf P tree.values scale base ref.leftChild
      pure ({ node with flags := node.flags ||| Flag.leftLeaf, left := u32 leafValues.length }, leafValues ++ [v])
    else pure (node, leafValues)
  let r ← Res.idxI tree.nodes ref.rightChild
  let (node, leafValues) ← if r.leftChild < 0 then do
      let v ← skLeaf P tree.values scale base ref.rightChild
      pure ({ node with flags := node.flags ||| Flag.rightLeaf, right := u32 leafValues.length }, leafValues ++ [v])
    else pure (node, leafValues)
  return (node, leafValues)

/-- the instance of the conversion loop in skensemble_io.go 65-113 -/
def skSource (P : Platform) (tree : SkTree) (scale base : F64) : Source (List F64) where
  createNode := skCreateNode P tree scale base
  rightChild := fun i => do return (← Res.idx tree.nodes i).rightChild
  leftChild := fun i => do return (← Res.idx tree.nodes i).leftChild

/-- skensemble_io.go 12-114 `lgTreeFromSklearnDecisionTreeRegressor` -/
def lgTreeFromSklearn (P : Platform) (tree : SkTree) (scale base : F64) : Res LgTree :=
  let numLeaves := tree.nodes.countP fun n => decide (n.leftChild < 0)
  let numNodes := tree.nodes.countP fun n => !decide (n.leftChild < 0)
  if (numLeaves : Int) - 1 ≠ numNodes then .err "unexpected number of leaves and nodes"
  else if numNodes = 0 then do
    let node := numericalNode 0 0 F64.zero 0
    let node := { node with flags := node.flags ||| Flag.leftLeaf ||| Flag.rightLeaf, left := 0, right := 0 }
    let v ← skLeaf P tree.values scale base 0
    return { nodes := [node], leafValues := [v] }
  else do
    let (nodes, leafValues) ← convert P (skSource P tree scale base) numNodes tree.nNodes []
    return { nodes := nodes, leafValues := leafValues }

/-- skensemble_io.go 163-170: the trees of one iteration, for `j = j0, j0 + 1, …` -/
def skIteration (P : Platform) (estimators : List SkRegressor) (scale : F64) (first : Int) :
    (bases : List F64) → Res (List LgTree)
  | [] => .ok []
  | base :: bases => do
    let est ← Res.idxI estimators first
    let t ← lgTreeFromSklearn P est.tree scale base
    let ts ← skIteration P estimators scale (first + 1) bases
    return t :: ts

/-- skensemble_io.go 162-174: the iterations from `i`; the bases are zero after the first one -/
def skIterations (P : Platform) (estimators : List SkRegressor) (scale : F64) :
    (n : Nat) → (i : Nat) → (bases : List F64) → Res (List LgTree)
  | 0, _, _ => .ok []
  | n + 1, i, bases => do
    let ts ← skIteration P estimators scale (i * bases.length) bases
    let rest ← skIterations P estimators scale n (i + 1) (List.replicate bases.length F64.zero)
    return ts ++ rest

/-- skensemble_io.go 146-159: the base values -/
def skBases (P : Platform) (e : SkInit) (nRawOutputGroups : Int) : Res (List F64) := do
  allocCheck P nRawOutputGroups 8
  if e.name = str "LogOddsEstimator" then
    if nRawOutputGroups.toNat = 0 then return []
    else
      let p ← Res.idx e.prior 0
      return List.replicate nRawOutputGroups.toNat p
  else if e.name = str "PriorProbabilityEstimator" then
    if (e.prior.length : Int) ≠ nRawOutputGroups then .err "len(gbdt.InitEstimator.Prior) != len(base)"
    else return e.prior
  else .err "unknown initial estimator"

/-- skensemble_io.go 130-175: from the parsed object to the ensemble -/
def skAssemble (P : Platform) (g : SkBoosting) : Res Ensemble :=
  let nRawOutputGroups := if g.nClasses = 2 then 1 else g.nClasses
  if g.nEstimators = 0 then .err "no trees in file"
  else if wrap64 (g.nEstimators * nRawOutputGroups) ≠ g.estimators.length then .err "unexpected number of trees"
  else do
    let bases ← skBases P g.initEstimator nRawOutputGroups
    allocCheck P (wrap64 (g.nEstimators * g.nClasses)) 104
    let trees ← skIterations P g.estimators g.learningRate g.nEstimators.toNat 0 bases
    return { base := .lg { trees := trees, maxFeatureIdx := wrap64 (g.maxFeatures - 1),
                           nRawOutputGroups := nRawOutputGroups,
                           name := "sklearn.ensemble.GradientBoostingClassifier", averageOutput := false },
             transform := .raw nRawOutputGroups }

/-- skensemble_io.go 117-176 `SKEnsembleFromReader` (`loadTransformation` is ignored by the code) -/
def skEnsembleFromReader (P : Platform) (input : Bytes) (_loadTransformation : Bool) : Res Ensemble := do
  let (res, m) ← decode P input
  let g ← parseSkBoosting P m res
  skAssemble P g

end Leaves
