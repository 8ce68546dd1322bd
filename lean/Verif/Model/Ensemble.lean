import Verif.Model.Transform

/-! # lgensemble.go, xgensemble.go, xgblinear.go and the metadata part of leaves.go -/

namespace Leaves

open GoM

/-- Go `len(trees) / groups` on ints: panics when `groups` is zero (lgensemble.go 22, xgensemble.go 21) -/
def goDiv (a b : Int) : Res Int := if b = 0 then .panic else .ok (a.tdiv b)

/-- lgensemble.go 83-90 and xgensemble.go 49-56 `adjustNEstimators`, given `NEstimators()` -/
def adjustN (nEstimators total : Int) : Int :=
  if nEstimators > 0 then Util.minInt nEstimators total else total

/-- `for k := lo; k < n; k++ { a = f(k, a) }` with outcomes -/
def loopRes {α : Type u} (f : Nat → α → Res α) : (start count : Nat) → α → Res α
  | _, 0, a => .ok a
  | s, n + 1, a => do loopRes f (s + 1) n (← f s a)

/-- Go `make([]T, n)` for an int `n`: panics when negative -/
def makeSlice {α : Type u} (n : Int) (a : α) : Res (List α) :=
  if n < 0 then .panic else .ok (List.replicate n.toNat a)

/-- Go `s[i] = v` on a local slice -/
def setI {α : Type u} (l : List α) (i : Int) (v : α) : Res (List α) :=
  if i < 0 ∨ l.length ≤ i then .panic else .ok (l.set i.toNat v)

/-- lgensemble.go 36-44 and xgensemble.go 35-43 `NLeaves` -/
def nLeavesOf (trees : List LgTree) (nEst nRaw : Int) : Res (List Nat) := do
  let nleaves ← makeSlice (nEst * nRaw) 0
  loopRes (fun estimatorID nleaves =>
    loopRes (fun groupID nleaves => do
      let t ← Res.idxI trees (estimatorID * nRaw + groupID)
      setI nleaves (groupID * nEst + estimatorID) t.nLeaves) 0 nRaw.toNat nleaves) 0 nEst.toNat nleaves

/-- lgensemble.go 68-81 and xgensemble.go 72-85 `predictLeafIndicesInner` (identical in both files) -/
def leafIndicesInner (P : Platform) (trees : List LgTree) (nRaw : Int) (fvals : List F64)
    (nEstimators : Int) (startIndex : Int) : GoM Unit := do
  let nResults := nRaw * nEstimators
  forRange (fun k => set (startIndex + k) F64.zero) 0 nResults.toNat
  forRange (fun i => forRange (fun k => do
    let t ← ofRes (Res.idxI trees (i * nRaw + k))
    let (_, idx) ← ofRes (t.predict P fvals)
    set (startIndex + k * nEstimators + i) (F64.ofNat idx)) 0 nRaw.toNat) 0 nEstimators.toNat

/-- lgensemble.go 8-19 `lgEnsemble` (LightGBM and scikit-learn models) -/
structure LgEnsemble where
  trees : List LgTree
  maxFeatureIdx : Int
  nRawOutputGroups : Int
  name : String
  averageOutput : Bool := false
deriving DecidableEq

namespace LgEnsemble

/-- lgensemble.go 21-23 `NEstimators` -/
def nEstimators (e : LgEnsemble) : Res Int := goDiv e.trees.length e.nRawOutputGroups

/-- lgensemble.go 29-34 `NFeatures` -/
def nFeatures (e : LgEnsemble) : Int := if e.maxFeatureIdx > 0 then wrap64 (e.maxFeatureIdx + 1) else 0

/-- lgensemble.go 50-66 `predictInner` -/
def predictInner (P : Platform) (e : LgEnsemble) (fvals : List F64) (nEstimators : Int)
    (startIndex : Int) : GoM Unit := do
  forRange (fun k => set (startIndex + k) F64.zero) 0 e.nRawOutputGroups.toNat
  let coef := if e.averageOutput then F64.div F64.one (F64.ofInt nEstimators) else F64.one
  forRange (fun i => forRange (fun k => do
    let t ← ofRes (Res.idxI e.trees (i * e.nRawOutputGroups + k))
    let (pred, _) ← ofRes (t.predict P fvals)
    let old ← get (startIndex + k)
    set (startIndex + k) (P.mulAdd pred coef old)) 0 e.nRawOutputGroups.toNat) 0 nEstimators.toNat

/-- lgensemble.go 92-96 `resetFVals` -/
def resetFVals (fvals : List F64) : List F64 := fvals.map (fun _ => F64.zero)

end LgEnsemble

/-- xgensemble.go 10-18 `xgEnsemble` -/
structure XgEnsemble where
  trees : List LgTree
  maxFeatureIdx : Int
  nRawOutputGroups : Int
  baseScore : F64
  weightDrop : List F64
  name : String
deriving DecidableEq

namespace XgEnsemble

/-- xgensemble.go 20-22 `NEstimators` -/
def nEstimators (e : XgEnsemble) : Res Int := goDiv e.trees.length e.nRawOutputGroups

/-- xgensemble.go 28-33 `NFeatures` -/
def nFeatures (e : XgEnsemble) : Int := if e.maxFeatureIdx > 0 then wrap64 (e.maxFeatureIdx + 1) else 0

/-- xgensemble.go 58-70 `predictInner` -/
def predictInner (P : Platform) (e : XgEnsemble) (fvals : List F64) (nEstimators : Int)
    (startIndex : Int) : GoM Unit := do
  forRange (fun k => set (startIndex + k) e.baseScore) 0 e.nRawOutputGroups.toNat
  forRange (fun i => forRange (fun k => do
    let id := i * e.nRawOutputGroups + k
    let t ← ofRes (Res.idxI e.trees id)
    let (pred, _) ← ofRes (t.predict P fvals)
    let old ← get (startIndex + k)
    let w ← ofRes (Res.idxI e.weightDrop id)
    set (startIndex + k) (P.mulAdd pred w old)) 0 e.nRawOutputGroups.toNat) 0 nEstimators.toNat

/-- xgensemble.go 87-91 `resetFVals` -/
def resetFVals (fvals : List F64) : List F64 := fvals.map (fun _ => F64.nan)

end XgEnsemble

/-- xgblinear.go 4-9 `xgLinear`; weights are float32 values widened to float64 on use -/
structure XgLinear where
  numFeature : Int
  nRawOutputGroups : Int
  baseScore : F64
  weights : List F64
deriving DecidableEq

namespace XgLinear

/-- xgblinear.go 36-43 `predictInner` -/
def predictInner (P : Platform) (e : XgLinear) (fvals : List F64) (_nIterations : Int)
    (startIndex : Int) : GoM Unit :=
  forRange (fun k => do
    let w ← ofRes (Res.idxI e.weights (e.nRawOutputGroups * e.numFeature + k))
    set (startIndex + k) (F64.add e.baseScore w)
    forRange (fun i => do
      let old ← get (startIndex + k)
      let x ← ofRes (Res.idx fvals i)
      let w ← ofRes (Res.idxI e.weights (e.nRawOutputGroups * i + k))
      set (startIndex + k) (P.mulAdd x w old)) 0 e.numFeature.toNat) 0 e.nRawOutputGroups.toNat

/-- xgblinear.go 45-47 `predictLeafIndicesInner`: does nothing -/
def predictLeafIndicesInner : GoM Unit := pure ⟨⟩

/-- xgblinear.go 49-53 `resetFVals` -/
def resetFVals (fvals : List F64) : List F64 := fvals.map (fun _ => F64.zero)

end XgLinear

/-- leaves.go 15-25 `ensembleBaseInterface`: the three model kinds, and an `*Ensemble` used as the
embedded value of another `Ensemble` (leaves.go 299, 306). -/
inductive Base where
  | lg (e : LgEnsemble)
  | xg (e : XgEnsemble)
  | lin (e : XgLinear)
  | wrap (inner : Base) (transform : Transform)
deriving DecidableEq

namespace Base

/-- `NEstimators`: lgensemble.go 21, xgensemble.go 20, xgblinear.go 11, leaves.go 252 -/
def nEstimators : Base → Res Int
  | lg e => e.nEstimators
  | xg e => e.nEstimators
  | lin _ => .ok 1
  | wrap b _ => b.nEstimators

/-- `NRawOutputGroups`: lgensemble.go 25, xgensemble.go 24, xgblinear.go 15, leaves.go 259 -/
def nRawOutputGroups : Base → Int
  | lg e => e.nRawOutputGroups
  | xg e => e.nRawOutputGroups
  | lin e => e.nRawOutputGroups
  | wrap b _ => b.nRawOutputGroups

/-- `NFeatures`: lgensemble.go 29, xgensemble.go 28, xgblinear.go 24, leaves.go 272 -/
def nFeatures : Base → Int
  | lg e => e.nFeatures
  | xg e => e.nFeatures
  | lin e => e.numFeature
  | wrap b _ => b.nFeatures

/-- `Name`: lgensemble.go 46, xgensemble.go 45, xgblinear.go 28, leaves.go 287 -/
def name : Base → String
  | lg e => e.name
  | xg e => e.name
  | lin _ => "xgboost.gblinear"
  | wrap b _ => b.name

/-- `NLeaves`: lgensemble.go 36, xgensemble.go 35, xgblinear.go 32, leaves.go 282 -/
def nLeaves : Base → Res (List Nat)
  | lg e => do nLeavesOf e.trees (← e.nEstimators) e.nRawOutputGroups
  | xg e => do nLeavesOf e.trees (← e.nEstimators) e.nRawOutputGroups
  | lin _ => .ok []
  | wrap b _ => b.nLeaves

/-- `adjustNEstimators`: lgensemble.go 83-90, xgensemble.go 49-56, xgblinear.go 19-22, promoted through the
embedded interface for a wrapped ensemble -/
def adjustNEstimators : Base → Int → Res Int
  | lg e, n => do return adjustN n (← e.nEstimators)
  | xg e, n => do return adjustN n (← e.nEstimators)
  | lin _, _ => .ok 1
  | wrap b _, n => b.adjustNEstimators n

/-- `predictInner`, promoted through the embedded interface for a wrapped ensemble -/
def predictInner (P : Platform) : Base → List F64 → Int → Int → GoM Unit
  | lg e => e.predictInner P
  | xg e => e.predictInner P
  | lin e => e.predictInner P
  | wrap b _ => b.predictInner P

/-- `predictLeafIndicesInner`, promoted through the embedded interface for a wrapped ensemble -/
def predictLeafIndicesInner (P : Platform) : Base → List F64 → Int → Int → GoM Unit
  | lg e => leafIndicesInner P e.trees e.nRawOutputGroups
  | xg e => leafIndicesInner P e.trees e.nRawOutputGroups
  | lin _ => fun _ _ _ => XgLinear.predictLeafIndicesInner
  | wrap b _ => b.predictLeafIndicesInner P

/-- `resetFVals`, promoted through the embedded interface for a wrapped ensemble -/
def resetFVals : Base → List F64 → List F64
  | lg _ => LgEnsemble.resetFVals
  | xg _ => XgEnsemble.resetFVals
  | lin _ => XgLinear.resetFVals
  | wrap b _ => b.resetFVals

end Base

/-- leaves.go 28-31 `Ensemble` -/
structure Ensemble where
  base : Base
  transform : Transform
deriving DecidableEq

namespace Ensemble

/-- leaves.go 267-269 `NOutputGroups` -/
def nOutputGroups (e : Ensemble) : Int := e.transform.nOutputGroups

/-- leaves.go 252-254 `NEstimators` -/
def nEstimators (e : Ensemble) : Res Int := e.base.nEstimators
/-- leaves.go 259-261 `NRawOutputGroups` -/
def nRawOutputGroups (e : Ensemble) : Int := e.base.nRawOutputGroups
/-- leaves.go 272-274 `NFeatures` -/
def nFeatures (e : Ensemble) : Int := e.base.nFeatures
/-- leaves.go 282-284 `NLeaves` -/
def nLeaves (e : Ensemble) : Res (List Nat) := e.base.nLeaves
/-- leaves.go 287-289 `Name` -/
def name (e : Ensemble) : String := e.base.name

/-- leaves.go 298-300 `EnsembleWithRawPredictions` -/
def withRawPredictions (e : Ensemble) : Ensemble :=
  { base := .wrap e.base e.transform, transform := .raw e.nRawOutputGroups }

/-- leaves.go 304-307 `EnsembleWithLeafPredictions` -/
def withLeafPredictions (e : Ensemble) : Res Ensemble := do
  let n ← e.nEstimators
  return { base := .wrap e.base e.transform, transform := .leafIndex (e.nRawOutputGroups * n) }

end Ensemble
end Leaves
