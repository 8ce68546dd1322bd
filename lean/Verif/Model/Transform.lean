import Verif.Model.GoM

/-! # transformation/*.go and the softmax of util/util.go -/

namespace Leaves

open GoM

/-- transformation/transformation.go 12-29 `TransformType` (the constants) -/
def TransformType.raw : Int := 0
def TransformType.logistic : Int := 1
def TransformType.softmax : Int := 2
def TransformType.leafIndex : Int := 3
def TransformType.exponential : Int := 4
def TransformType.last : Int := 4

/-- transformation/transformation.go 31-43 `TransformType.Name`: the array literal has four entries while
`Last` is 4, so index 4 panics. -/
def TransformType.name (t : Int) : Res String :=
  if t < TransformType.raw ∨ t > TransformType.last then .ok "unknown"
  else Res.idxI ["raw", "logistic", "softmax", "leaf_index"] t

/-- The transformation objects: raw.go 3-5, logistic.go 9, softmax.go 9-11, leaf_index.go 3-5,
exponential.go 8. -/
inductive Transform where
  | raw (numOutputGroups : Int)
  | logistic
  | softmax (nClasses : Int)
  | leafIndex (numOutputGroups : Int)
  | exponential
deriving DecidableEq, Repr

namespace Transform

/-- `NOutputGroups`: raw.go 14-16, logistic.go 20-22, softmax.go 22-24, leaf_index.go 16-18,
exponential.go 19-21 -/
def nOutputGroups : Transform → Int
  | raw n => n
  | logistic => 1
  | softmax n => n
  | leafIndex n => n
  | exponential => 1

/-- `Type`: raw.go 18-20, logistic.go 24-26, softmax.go 26-28, leaf_index.go 20-22, exponential.go 23-25 -/
def type : Transform → Int
  | raw _ => TransformType.raw
  | logistic => TransformType.logistic
  | softmax _ => TransformType.softmax
  | leafIndex _ => TransformType.leafIndex
  | exponential => TransformType.exponential

/-- `Name`: raw.go 22-24, logistic.go 28-30, softmax.go 30-32, leaf_index.go 24-26, exponential.go 27-29
(which returns `Logistic.Name()`) -/
def name : Transform → Res String
  | raw _ => TransformType.name TransformType.raw
  | logistic => TransformType.name TransformType.logistic
  | softmax _ => TransformType.name TransformType.softmax
  | leafIndex _ => TransformType.name TransformType.leafIndex
  | exponential => TransformType.name TransformType.logistic

/-- raw.go 8-10 and leaf_index.go 10-12: copy `raw` to `output[start..]` -/
def copyLoop (start : Int) : (i : Nat) → List F64 → GoM Unit
  | _, [] => pure ⟨⟩
  | i, v :: vs => do set (start + i) v; copyLoop start (i + 1) vs

/-- util/util.go 262-267: first loop of `SoftmaxFloat64Slice`, returning the sum -/
def softmaxFill (P : Platform) (start : Int) : (i : Nat) → List F64 → (sum : F64) → GoM F64
  | _, [], sum => pure sum
  | i, v :: vs, sum => do
    let exp := P.exp v
    set (start + i) exp
    softmaxFill P start (i + 1) vs (F64.add sum exp)

/-- util/util.go 261-274 `SoftmaxFloat64Slice` -/
def softmaxSlice (P : Platform) (rawValues : List F64) (start : Int) : GoM Unit := do
  let sum ← softmaxFill P start 0 rawValues F64.zero
  if !F64.feq sum F64.zero then
    let invSum := F64.div F64.one sum
    forRange (fun i => do
      let old ← get (start + i)
      set (start + i) (F64.mul old invSum)) 0 rawValues.length

/-- `Transform`: returns true when the Go function returns nil and false when it returns an error.
raw.go 7-12, logistic.go 11-18, softmax.go 13-20, leaf_index.go 7-14, exponential.go 10-17 -/
def apply (P : Platform) (t : Transform) (rawPredictions : List F64) (start : Int) : GoM Bool :=
  match t with
  | raw _ => do copyLoop start 0 rawPredictions; return true
  | leafIndex _ => do copyLoop start 0 rawPredictions; return true
  | logistic =>
    match rawPredictions with
    | [x] => do set start (Util.sigmoid P x); return true
    | _ => return false
  | exponential =>
    match rawPredictions with
    | [x] => do set start (P.exp x); return true
    | _ => return false
  | softmax n =>
    if (rawPredictions.length : Int) ≠ n then return false
    else do softmaxSlice P rawPredictions start; return true

end Transform
end Leaves
