import Verif.Model.Ensemble

/-! # leaves.go: Predict, PredictSingle and the row loops of PredictDense / PredictCSR -/

namespace Leaves

open GoM

/-- leaves.go 13 `BatchSize` -/
def batchSize : Nat := 16

namespace Ensemble

/-- leaves.go 33-44 `predictInnerAndTransform`. The error returned by `Transform` is ignored (line 42). That the slice of line 40 may be
too large to allocate is left out: it is as long as the part of `predictions` that is written. -/
def predictInnerAndTransform (P : Platform) (e : Ensemble) (fvals : List F64) (nEstimators : Int)
    (startIndex : Int) : GoM Unit :=
  if e.transform.type = TransformType.raw then
    e.base.predictInner P fvals nEstimators startIndex
  else if e.transform.type = TransformType.leafIndex then
    e.base.predictLeafIndicesInner P fvals nEstimators startIndex
  else do
    let init ← ofRes (makeSlice e.nRawOutputGroups F64.zero)
    let rawPredictions ← ofRes ((e.base.predictInner P fvals nEstimators 0).runLocal init)
    let _ ← e.transform.apply P rawPredictions startIndex
    return ⟨⟩

/-- leaves.go 46-52 `checkNEstimators`. Go evaluates `e.NEstimators()` only when the transformation is
LeafIndex (short-circuit `&&`). -/
def checkNEstimators (e : Ensemble) (nEstimators : Int) : Res Unit :=
  if e.transform.type = TransformType.leafIndex then do
    let n ← e.nEstimators
    if nEstimators ≠ n then .err "while predicting leaf indices all estimators should be used" else .ok ⟨⟩
  else .ok ⟨⟩

/-- leaves.go 59-75 `PredictSingle` -/
def predictSingle (P : Platform) (e : Ensemble) (fvals : List F64) (nEstimators : Int) : Res F64 :=
  if e.nOutputGroups ≠ 1 then .ok F64.zero
  else if e.nFeatures > fvals.length then .ok F64.zero
  else do
    let nEstimators ← e.base.adjustNEstimators nEstimators
    match e.checkNEstimators nEstimators with
    | .err _ => .ok F64.zero
    | .panic => .panic
    | .hang => .hang
    | .ok _ =>
      let ret ← (e.predictInnerAndTransform P fvals nEstimators 0).runLocal [F64.zero]
      Res.idx ret 0

/-- leaves.go 80-96 `Predict`; `lenPredictions` is `len(predictions)` -/
def predict (P : Platform) (e : Ensemble) (fvals : List F64) (nEstimators : Int)
    (lenPredictions : Nat) : GoM Unit :=
  if (lenPredictions : Int) < wrap64 (e.nOutputGroups * 1) then .stop (.err "predictions slice too short")
  else if e.nFeatures > fvals.length then .stop (.err "incorrect number of features")
  else do
    let nEstimators ← ofRes (e.base.adjustNEstimators nEstimators)
    let _ ← ofRes (e.checkNEstimators nEstimators)
    e.predictInnerAndTransform P fvals nEstimators 0

/-- leaves.go 171-175: copy one sparse row into the dense row buffer -/
def fillRow (cols : List Int) (vals : List F64) : (j : Int) → (count : Nat) → List F64 → Res (List F64)
  | _, 0, fvals => .ok fvals
  | j, n + 1, fvals => do
    let c ← Res.idxI cols j
    if c < fvals.length then
      let v ← Res.idxI vals j
      if c < 0 then .panic
      else fillRow cols vals (j + 1) n (fvals.set c.toNat v)
    else fillRow cols vals (j + 1) n fvals

/-- leaves.go 168-179: body of the loop of `predictCSRInner` for row `i`; returns the row buffer -/
def csrRow (P : Platform) (e : Ensemble) (indptr cols : List Int) (vals : List F64) (nEstimators : Int)
    (i : Nat) (fvals : List F64) : GoM (List F64) := do
  let start ← ofRes (Res.idx indptr i)
  let end_ ← ofRes (Res.idx indptr (i + 1))
  let fvals ← ofRes (fillRow cols vals start (end_ - start).toNat fvals)
  e.predictInnerAndTransform P fvals nEstimators (i * e.nOutputGroups)
  return e.base.resetFVals fvals

/-- leaves.go 158-180 `predictCSRInner` on rows `[startIndex, endIndex)`; returns the row buffer -/
def predictCSRInner (P : Platform) (e : Ensemble) (indptr cols : List Int) (vals : List F64)
    (startIndex endIndex : Nat) (nEstimators : Int) (fvals : List F64) : GoM (List F64) :=
  forState (csrRow P e indptr cols vals nEstimators) startIndex (endIndex - startIndex) fvals

/-- `vals[i*ncols : (i+1)*ncols]` (leaves.go 211, 236). `cap(vals) = len(vals)` here; spare capacity is in Model/DenseCap. -/
def denseRowSlice (vals : List F64) (ncols : Int) (i : Nat) : Res (List F64) :=
  let lo := i * ncols
  let hi := (i + 1) * ncols
  if lo < 0 ∨ hi < lo ∨ vals.length < hi then .panic
  else .ok ((vals.drop lo.toNat).take (hi.toNat - lo.toNat))

/-- leaves.go 210-213 and 235-237: one row of PredictDense -/
def denseRow (P : Platform) (e : Ensemble) (vals : List F64) (ncols : Int) (nEstimators : Int)
    (i : Nat) : GoM Unit := do
  let fvals ← ofRes (denseRowSlice vals ncols i)
  e.predictInnerAndTransform P fvals nEstimators (i * e.nOutputGroups)

/-- leaves.go 210-213: the sequential loop of PredictDense on rows `[startIndex, endIndex)` -/
def denseRows (P : Platform) (e : Ensemble) (vals : List F64) (ncols : Int) (nEstimators : Int)
    (startIndex endIndex : Nat) : GoM Unit :=
  forRange (denseRow P e vals ncols nEstimators) startIndex (endIndex - startIndex)

/-- leaves.go 195-206: argument checks of PredictDense; the adjusted number of estimators -/
def denseChecks (e : Ensemble) (nRows ncols : Int) (nEstimators : Int) (lenPredictions : Nat) : Res Int :=
  if (lenPredictions : Int) < wrap64 (e.nOutputGroups * nRows) then .err "predictions slice too short"
  else if ncols = 0 ∨ e.nFeatures > ncols then .err "incorrect number of columns"
  else do
    let nEstimators ← e.base.adjustNEstimators nEstimators
    let _ ← e.checkNEstimators nEstimators
    return nEstimators

/-- leaves.go 105-113: argument checks of PredictCSR; the adjusted number of estimators -/
def csrChecks (e : Ensemble) (nRows : Int) (nEstimators : Int) (lenPredictions : Nat) : Res Int :=
  if (lenPredictions : Int) < wrap64 (e.nOutputGroups * nRows) then .err "predictions slice too short"
  else do
    let nEstimators ← e.base.adjustNEstimators nEstimators
    let _ ← e.checkNEstimators nEstimators
    return nEstimators

/-- leaves.go 117-118, 136-137: the row buffer, allocated and reset -/
def newFVals (P : Platform) (e : Ensemble) : Res (List F64) := do
  allocCheck P e.nFeatures 8
  return e.base.resetFVals (List.replicate e.nFeatures.toNat F64.zero)

end Ensemble

/-- How a batch prediction is executed: leaves.go 115-128 and 208-222. -/
inductive Plan where
  | sequential
  | parallel (nThreads nBatches : Int)
deriving DecidableEq, Repr

/-- `int(math.Ceil(float64(nRows) / BatchSize))` (leaves.go 125, 219) -/
def nBatchesOf (P : Platform) (nRows : Int) : Int :=
  let q := F64.div (F64.ofInt nRows) (F64.ofNat batchSize)
  match q.ceilToInt with
  | some n => n
  | none => P.i64Out q

/-- leaves.go 115-128 and 208-222: sequential or parallel, and with how many threads and batches -/
def plan (P : Platform) (nRows nThreads : Int) : Plan :=
  if nRows ≤ batchSize ∨ nThreads = 0 ∨ nThreads = 1 then .sequential
  else
    let nThreads := if nThreads > P.gomaxprocs ∨ nThreads < 1 then (P.gomaxprocs : Int) else nThreads
    let nBatches := nBatchesOf P nRows
    let nThreads := if nThreads > nBatches then nBatches else nThreads
    .parallel nThreads nBatches

end Leaves
