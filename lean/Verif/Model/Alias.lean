import Verif.Model.Parallel

/-!
# leaves.go 33-249: predictions when the input and `predictions` are slices of one array

The models in `Model/Predict.lean` and `Model/Parallel.lean` take the input as a value: they assume that it does not change during the call. Here
it is read from the memory that the call writes to, element by element and at the moment the code reads it. The two slices may
overlap.
-/

namespace Leaves

open GoM

/-- A slice of the memory: offset and length. Simplification: the capacity does not matter, because neither slice is resliced. -/
structure Win where
  off : Nat
  len : Nat

namespace Win

/-- `s[i]` -/
def get (s : Win) (i : Int) : GoM F64 := if inRange i s.len then GoM.get (s.off + i) else .stop .panic

/-- `s[i] = v` -/
def set (s : Win) (i : Int) (v : F64) : GoM Unit := if inRange i s.len then GoM.set (s.off + i) v else .stop .panic

end Win

namespace LgTree

/-- lgtree.go 79-93: the loop of `predict` at node index `idx`; as `predictLoop`, with the row in the memory -/
def predictLoopM (P : Platform) (t : LgTree) (fvals : Win) : (fuel : Nat) → (idx : Nat) → GoM (F64 × Nat)
  | 0, _ => .stop .hang
  | fuel + 1, idx => do
    let node ← ofRes (Res.idx t.nodes idx)
    let fval ← fvals.get node.feature
    let left ← ofRes (t.decision P node fval)
    if left then
      if hasFlag node.flags Flag.leftLeaf then do
        let v ← ofRes (Res.idx t.leafValues node.left)
        return (v, node.left)
      else predictLoopM P t fvals fuel node.left
    else
      if hasFlag node.flags Flag.rightLeaf then do
        let v ← ofRes (Res.idx t.leafValues node.right)
        return (v, node.right)
      else predictLoopM P t fvals fuel (u32 (idx + 1))

/-- lgtree.go 74-94 `predict`, with the row in the memory. One walk stores nothing, so the conclusion about endless loops remains valid. -/
def predictM (P : Platform) (t : LgTree) (fvals : Win) : GoM (F64 × Nat) :=
  if t.nodes.length = 0 then do
    let v ← ofRes (Res.idx t.leafValues 0)
    return (v, 0)
  else predictLoopM P t fvals (t.nodes.length + 1) 0

end LgTree

/-- lgensemble.go 68-81 and xgensemble.go 72-85 `predictLeafIndicesInner` -/
def leafIndicesInnerM (P : Platform) (trees : List LgTree) (nRaw : Int) (fvals : Win) (nEstimators : Int) (predictions : Win)
    (startIndex : Int) : GoM Unit := do
  let nResults := nRaw * nEstimators
  forRange (fun k => predictions.set (startIndex + k) F64.zero) 0 nResults.toNat
  forRange (fun i => forRange (fun k => do
    let t ← ofRes (Res.idxI trees (i * nRaw + k))
    let (_, idx) ← t.predictM P fvals
    predictions.set (startIndex + k * nEstimators + i) (F64.ofNat idx)) 0 nRaw.toNat) 0 nEstimators.toNat

/-- lgensemble.go 50-66 `predictInner` -/
def LgEnsemble.predictInnerM (P : Platform) (e : LgEnsemble) (fvals : Win) (nEstimators : Int) (predictions : Win) (startIndex : Int) : GoM Unit := do
  forRange (fun k => predictions.set (startIndex + k) F64.zero) 0 e.nRawOutputGroups.toNat
  let coef := if e.averageOutput then F64.div F64.one (F64.ofInt nEstimators) else F64.one
  forRange (fun i => forRange (fun k => do
    let t ← ofRes (Res.idxI e.trees (i * e.nRawOutputGroups + k))
    let (pred, _) ← t.predictM P fvals
    let old ← predictions.get (startIndex + k)
    predictions.set (startIndex + k) (P.mulAdd pred coef old)) 0 e.nRawOutputGroups.toNat) 0 nEstimators.toNat

/-- xgensemble.go 58-70 `predictInner` -/
def XgEnsemble.predictInnerM (P : Platform) (e : XgEnsemble) (fvals : Win) (nEstimators : Int) (predictions : Win) (startIndex : Int) : GoM Unit := do
  forRange (fun k => predictions.set (startIndex + k) e.baseScore) 0 e.nRawOutputGroups.toNat
  forRange (fun i => forRange (fun k => do
    let id := i * e.nRawOutputGroups + k
    let t ← ofRes (Res.idxI e.trees id)
    let (pred, _) ← t.predictM P fvals
    let old ← predictions.get (startIndex + k)
    let w ← ofRes (Res.idxI e.weightDrop id)
    predictions.set (startIndex + k) (P.mulAdd pred w old)) 0 e.nRawOutputGroups.toNat) 0 nEstimators.toNat

/-- xgblinear.go 36-43 `predictInner` -/
def XgLinear.predictInnerM (P : Platform) (e : XgLinear) (fvals predictions : Win) (startIndex : Int) : GoM Unit :=
  forRange (fun k => do
    let w ← ofRes (Res.idxI e.weights (e.nRawOutputGroups * e.numFeature + k))
    predictions.set (startIndex + k) (F64.add e.baseScore w)
    forRange (fun i => do
      let old ← predictions.get (startIndex + k)
      let x ← fvals.get i
      let w ← ofRes (Res.idxI e.weights (e.nRawOutputGroups * i + k))
      predictions.set (startIndex + k) (P.mulAdd x w old)) 0 e.numFeature.toNat) 0 e.nRawOutputGroups.toNat

namespace Base

/-- `predictInner` -/
def predictInnerM (P : Platform) (fvals : Win) (nEstimators : Int) (predictions : Win) (startIndex : Int) : Base → GoM Unit
  | lg e => e.predictInnerM P fvals nEstimators predictions startIndex
  | xg e => e.predictInnerM P fvals nEstimators predictions startIndex
  | lin e => e.predictInnerM P fvals predictions startIndex
  | wrap b _ => b.predictInnerM P fvals nEstimators predictions startIndex

/-- `predictLeafIndicesInner` -/
def predictLeafIndicesInnerM (P : Platform) (fvals : Win) (nEstimators : Int) (predictions : Win) (startIndex : Int) : Base → GoM Unit
  | lg e => leafIndicesInnerM P e.trees e.nRawOutputGroups fvals nEstimators predictions startIndex
  | xg e => leafIndicesInnerM P e.trees e.nRawOutputGroups fvals nEstimators predictions startIndex
  | lin _ => XgLinear.predictLeafIndicesInner
  | wrap b _ => b.predictLeafIndicesInnerM P fvals nEstimators predictions startIndex

end Base

/-- read the whole row -/
def Win.read (s : Win) : (i count : Nat) → GoM (List F64)
  | _, 0 => .ret []
  | i, n + 1 => do
    let x ← s.get i
    let xs ← s.read (i + 1) n
    return x :: xs

/-- `predictions[startIndex+i]` in the transformations (transformation/*.go): as the program does with a slice of its
own, at the place of `predictions` -/
def Win.embed (s : Win) {α : Type} : GoM α → GoM α
  | .ret a => .ret a
  | .load i k => if inRange i s.len then .load (s.off + i) fun v => s.embed (k v) else .stop .panic
  | .store i v k => if inRange i s.len then .store (s.off + i) v (s.embed k) else .stop .panic
  | .stop x => .stop x

namespace Ensemble

/-- leaves.go 33-44 `predictInnerAndTransform`. With a transformation, the raw scores are computed in a slice of their own (line 41), so the
row, read before anything is stored, does not change until it is no longer needed. Simplification: the row is read once and completely,
while the code reads the elements that it needs when it needs them. This makes a difference only if another goroutine stores to the row in
the meantime. -/
def predictInnerAndTransformM (P : Platform) (e : Ensemble) (fvals : Win) (nEstimators : Int) (predictions : Win) (startIndex : Int) : GoM Unit :=
  if e.transform.type = TransformType.raw then e.base.predictInnerM P fvals nEstimators predictions startIndex
  else if e.transform.type = TransformType.leafIndex then e.base.predictLeafIndicesInnerM P fvals nEstimators predictions startIndex
  else do
    let row ← fvals.read 0 fvals.len
    let init ← ofRes (makeSlice e.nRawOutputGroups F64.zero)
    let rawPredictions ← ofRes ((e.base.predictInner P row nEstimators 0).runLocal init)
    let _ ← predictions.embed (e.transform.apply P rawPredictions startIndex)
    return ⟨⟩

/-- leaves.go 80-96 `Predict` -/
def predictM (P : Platform) (e : Ensemble) (fvals : Win) (nEstimators : Int) (predictions : Win) : GoM Unit :=
  if (predictions.len : Int) < wrap64 (e.nOutputGroups * 1) then .stop (.err "predictions slice too short")
  else if e.nFeatures > fvals.len then .stop (.err "incorrect number of features")
  else do
    let nEstimators ← ofRes (e.base.adjustNEstimators nEstimators)
    let _ ← ofRes (e.checkNEstimators nEstimators)
    e.predictInnerAndTransformM P fvals nEstimators predictions 0

/-- leaves.go 210-213 and 235-237: one row of PredictDense. Simplification: `cap(vals) = len(vals)`, as in `denseRowSlice`. -/
def denseRowM (P : Platform) (e : Ensemble) (vals : Win) (ncols nEstimators : Int) (predictions : Win) (i : Nat) : GoM Unit :=
  let lo := i * ncols
  let hi := (i + 1) * ncols
  if lo < 0 ∨ hi < lo ∨ vals.len < hi then .stop .panic
  else e.predictInnerAndTransformM P ⟨vals.off + lo.toNat, hi.toNat - lo.toNat⟩ nEstimators predictions (i * e.nOutputGroups)

/-- leaves.go 210-213: the sequential loop of PredictDense on rows `[startIndex, endIndex)` -/
def denseRowsM (P : Platform) (e : Ensemble) (vals : Win) (ncols nEstimators : Int) (predictions : Win) (startIndex endIndex : Nat) : GoM Unit :=
  forRange (denseRowM P e vals ncols nEstimators predictions) startIndex (endIndex - startIndex)

/-- leaves.go 230-238: the work of one worker of PredictDense for one batch -/
def denseTaskM (P : Platform) (e : Ensemble) (vals : Win) (ncols nEstimators : Int) (predictions : Win) (nRows : Nat)
    (startIndex : Nat) (_ : Unit) : GoM Unit :=
  let endIndex := startIndex + batchSize
  let endIndex := if endIndex > nRows then nRows else endIndex
  e.denseRowsM P vals ncols nEstimators predictions startIndex endIndex

/-- the worker pool of PredictDense -/
def denseJobM (P : Platform) (e : Ensemble) (vals : Win) (ncols nEstimators : Int) (predictions : Win) (nRows : Nat)
    (nThreads nBatches : Int) : Job Unit where
  nThreads := nThreads.toNat
  nBatches := nBatches.toNat
  init := .ok ⟨⟩
  task := e.denseTaskM P vals ncols nEstimators predictions nRows

/-- leaves.go 187-249 `PredictDense`: the possible outcomes (error value and final contents of the array that has `vals` and
`predictions`) of a call -/
def PredictDenseM (P : Platform) (e : Ensemble) (vals : Win) (nrows ncols : Int) (predictions : Win) (nEstimators nThreads : Int)
    (mem : List F64) (out : Res Unit × List F64) : Prop :=
  match e.denseChecks nrows ncols nEstimators predictions.len with
  | .ok n =>
    match plan P nrows nThreads with
    | .sequential => out = (e.denseRowsM P vals ncols n predictions 0 nrows.toNat).run mem
    | .parallel t b => ParResult (e.denseJobM P vals ncols n predictions nrows.toNat t b) mem out
  | .err t => out = (.err t, mem)
  | .panic => out = (.panic, mem)
  | .hang => out = (.hang, mem)

/-- leaves.go 171-175: copy one sparse row into the dense row buffer, which is always a slice of its own -/
def fillRowM (cols : List Int) (vals : Win) : (j : Int) → (count : Nat) → List F64 → GoM (List F64)
  | _, 0, fvals => .ret fvals
  | j, n + 1, fvals => do
    let c ← ofRes (Res.idxI cols j)
    if c < fvals.length then
      let v ← vals.get j
      if c < 0 then .stop .panic
      else fillRowM cols vals (j + 1) n (fvals.set c.toNat v)
    else fillRowM cols vals (j + 1) n fvals

/-- leaves.go 168-179: body of the loop of `predictCSRInner` for row `i`; returns the row buffer -/
def csrRowM (P : Platform) (e : Ensemble) (indptr cols : List Int) (vals : Win) (nEstimators : Int) (predictions : Win)
    (i : Nat) (fvals : List F64) : GoM (List F64) := do
  let start ← ofRes (Res.idx indptr i)
  let end_ ← ofRes (Res.idx indptr (i + 1))
  let fvals ← fillRowM cols vals start (end_ - start).toNat fvals
  predictions.embed (e.predictInnerAndTransform P fvals nEstimators (i * e.nOutputGroups))
  return e.base.resetFVals fvals

/-- leaves.go 158-180 `predictCSRInner` on rows `[startIndex, endIndex)`; returns the row buffer -/
def predictCSRInnerM (P : Platform) (e : Ensemble) (indptr cols : List Int) (vals : Win) (startIndex endIndex : Nat) (nEstimators : Int)
    (predictions : Win) (fvals : List F64) : GoM (List F64) :=
  forState (csrRowM P e indptr cols vals nEstimators predictions) startIndex (endIndex - startIndex) fvals

/-- leaves.go 138-145: the work of one worker of PredictCSR for one batch -/
def csrTaskM (P : Platform) (e : Ensemble) (indptr cols : List Int) (vals : Win) (nEstimators : Int) (predictions : Win)
    (nRows : Nat) (startIndex : Nat) (fvals : List F64) : GoM (List F64) :=
  let endIndex := startIndex + batchSize
  let endIndex := if endIndex > nRows then nRows else endIndex
  e.predictCSRInnerM P indptr cols vals startIndex endIndex nEstimators predictions fvals

/-- the worker pool of PredictCSR -/
def csrJobM (P : Platform) (e : Ensemble) (indptr cols : List Int) (vals : Win) (nEstimators : Int) (predictions : Win)
    (nRows : Nat) (nThreads nBatches : Int) : Job (List F64) where
  nThreads := nThreads.toNat
  nBatches := nBatches.toNat
  init := e.newFVals P
  task := e.csrTaskM P indptr cols vals nEstimators predictions nRows

/-- leaves.go 117-120: the sequential branch of PredictCSR -/
def csrSequentialM (P : Platform) (e : Ensemble) (indptr cols : List Int) (vals : Win) (nEstimators : Int) (predictions : Win) : GoM Unit := do
  let fvals ← ofRes (e.newFVals P)
  let _ ← e.predictCSRInnerM P indptr cols vals 0 (indptr.length - 1) nEstimators predictions fvals
  return ⟨⟩

/-- leaves.go 104-156 `PredictCSR`: the possible outcomes of a call -/
def PredictCSRM (P : Platform) (e : Ensemble) (indptr cols : List Int) (vals predictions : Win) (nEstimators nThreads : Int)
    (mem : List F64) (out : Res Unit × List F64) : Prop :=
  let nRows : Int := indptr.length - 1
  match e.csrChecks nRows nEstimators predictions.len with
  | .ok n =>
    match plan P nRows nThreads with
    | .sequential => out = (e.csrSequentialM P indptr cols vals n predictions).run mem
    | .parallel t b => ParResult (e.csrJobM P indptr cols vals n predictions nRows.toNat t b) mem out
  | .err t => out = (.err t, mem)
  | .panic => out = (.panic, mem)
  | .hang => out = (.hang, mem)

end Ensemble
end Leaves
