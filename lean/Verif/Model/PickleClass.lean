import Verif.Model.Pickle

/-! # internal/pickle/types.go, numpy.go and sklearn.go: rebuilding the Python objects -/

namespace Leaves.Pickle

/-- a Go string constant -/
def str (s : String) : Bytes := s.toList.map byte

/-- types.go 47-60 `toGlobal`; an empty constant means "any". Returns module and name. -/
def toGlobal (obj : PVal) (modul name : String) : Res (Bytes × Bytes) :=
  match obj with
  | .global m n =>
    if modul ≠ "" ∧ m ≠ str modul then .err "not expected Global Module"
    else if name ≠ "" ∧ n ≠ str name then .err "not expected Global Name"
    else .ok (m, n)
  | _ => .err "expected Global object"

/-- types.go 62-71 `toTuple` with a length -/
def toTuple (obj : PVal) (length : Nat) : Res (List PVal) :=
  match obj with
  | .tuple t => if t.length ≠ length then .err "expected Tuple with length" else .ok t
  | _ => .err "expected Tuple object"

/-- types.go 84-93 `toUnicode` (length -1) -/
def toUnicode (obj : PVal) : Res Bytes :=
  match obj with
  | .unicode b => .ok b
  | _ => .err "expected Unicode object"

/-- types.go 95-101 `toDict`: the contents of the map -/
def toDict (m : Machine) (obj : PVal) : Res DictCells :=
  match obj with
  | .dict ref => Res.idx m.dicts ref
  | _ => .err "expected Dict object"

/-- a Go type assertion `x.(int)` -/
def asInt (obj : PVal) : Res Int :=
  match obj with
  | .int i => .ok i
  | _ => .err "expected int object"

/-- types.go 121-127 `value` -/
def DictCells.value (d : DictCells) (key : String) : Res PVal :=
  Res.ofOption "key not found" (lookup (str key) d)

/-- types.go 129-139 `toInt` -/
def DictCells.toInt (d : DictCells) (key : String) : Res Int := do asInt (← DictCells.value d key)

/-- types.go 141-151 `toFloat` -/
def DictCells.toFloat (d : DictCells) (key : String) : Res F64 := do
  match ← DictCells.value d key with
  | .float x => .ok x
  | _ => .err "expected int"

/-- types.go 154-181 `ParseClass` for an entity given by its `Reduce` (from a fresh value) and `Build` -/
def parseClass {α : Type} (reduceF : (callable : PVal) → (args : List PVal) → Res α)
    (buildF : α → (args : PVal) → Res α) (obj : PVal) : Res α :=
  match obj with
  | .build o args =>
    match o with
    | .reduce c a => do buildF (← reduceF c a) args
    | _ => .err "expected Reduce object"
  | .reduce c a => reduceF c a
  | _ => .err "expected Reduce object"

/-- numpy.go 126-129 `NumpyDType` -/
structure DType where
  littleEndian : Bool := false
  type : Bytes := []

/-- numpy.go 131-162 `NumpyDType` `Reduce` and `Build` -/
def parseDType : PVal → Res DType :=
  parseClass
    (fun callable args => do
      let _ ← toGlobal callable "numpy" "dtype"
      match args with
      | [a0, _, _] => do
        let u ← toUnicode a0
        return { type := u, littleEndian := true }
      | _ => .err "not expected tuple")
    (fun d args => do
      match ← toTuple args 8 with
      | _ :: t1 :: _ => do
        match ← toUnicode t1 with
        | [c] => return { d with littleEndian := decide (c = byte '<') }
        | _ => .err "expected Unicode with length"
      | _ => .panic)

/-- numpy.go 91-109: `NumpyRawBytes` `Reduce` and `Build` -/
def parseRawBytes : PVal → Res Bytes :=
  parseClass
    (fun callable args => do
      let _ ← toGlobal callable "_codecs" "encode"
      match args with
      | [a0, _] => toUnicode a0
      | _ => .err "not expected tuple")
    (fun b _ => .ok b)

/-- split into chunks of `k + 1` bytes; the last one may be shorter -/
def chunksGo (k : Nat) : (fuel : Nat) → Bytes → List Bytes
  | 0, _ => []
  | _ + 1, [] => []
  | fuel + 1, b :: bs => ((b :: bs).take (k + 1)) :: chunksGo k fuel ((b :: bs).drop (k + 1))

/-- numpy.go 112-124 `Iterate`: the chunks of `k + 1` bytes handed to `parse` -/
def iterate (k : Nat) (b : Bytes) : Res (List Bytes) :=
  if b.length % (k + 1) ≠ 0 then .err "unexpected raw bytes length" else .ok (chunksGo k b.length b)

/-- numpy.go 8-15 `NumpyArrayRaw` -/
structure Array where
  type : DType := {}
  shape : List Int := []
  data : Bytes := []
  dataList : List PVal := []

/-- numpy.go 52-59: the dimensions -/
def parseShape : List PVal → Res (List Int)
  | [] => .ok []
  | d :: ds => do
    let i ← asInt d
    let is ← parseShape ds
    return i :: is

/-- the elements of a list value: the first `len` slots of its backing array -/
def listElems (m : Machine) (arr len : Nat) : Res (List PVal) := do
  let a ← Res.idx m.arrays arr
  return a.elems.take len

/-- numpy.go 17-86: `NumpyArrayRaw` `Reduce` and `Build` -/
def parseArray (m : Machine) : PVal → Res Array :=
  parseClass
    (fun callable args => do
      let _ ← toGlobal callable "numpy.core.multiarray" "_reconstruct"
      match args with
      | [a0, _, _] => do
        let _ ← toGlobal a0 "numpy" "ndarray"
        return {}
      | _ => .err "not expected tuple")
    (fun _ args => do
      match ← toTuple args 5 with
      | [a0, a1, a2, a3, a4] => do
        let _ ← asInt a0
        match a1 with
        | .tuple dims => do
          let shape ← parseShape dims
          let type ← parseDType a2
          let isFortran ← asInt a3
          if isFortran ≠ 0 then .err "expected isFortran = 0"
          else
            match a4 with
            | .build _ _ => do
              let data ← parseRawBytes a4
              return { type := type, shape := shape, data := data }
            | .reduce _ _ => do
              let data ← parseRawBytes a4
              return { type := type, shape := shape, data := data }
            | .list arr len => do
              let elems ← listElems m arr len
              return { type := type, shape := shape, dataList := elems }
            | _ => .err "unexpected type"
        | _ => .err "expected Tuple object"
      | _ => .panic)

/-- numpy.go 164-191: `NumpyScalarRaw` `Reduce` and `Build` -/
def parseScalar : PVal → Res (DType × Bytes) :=
  parseClass
    (fun callable args => do
      let _ ← toGlobal callable "numpy.core.multiarray" "scalar"
      match args with
      | [a0, a1] => do
        let type ← parseDType a0
        let data ← parseRawBytes a1
        return (type, data)
      | _ => .err "not expected tuple")
    (fun s _ => .ok s)

/-- `int(binary.LittleEndian.Uint64(b))`: panics on fewer than 8 bytes -/
def int64LE (b : Bytes) : Res Int :=
  if b.length < 8 then .panic else .ok (BitVec.ofNat 64 (Util.leNat (b.take 8))).toInt

/-- apply a function to every element, in order, stopping at the first that does not return normally -/
def mapRes {α β : Type} (f : α → Res β) : List α → Res (List β)
  | [] => .ok []
  | a :: as => do
    let b ← f a
    let bs ← mapRes f as
    return b :: bs

/-- sklearn.go 11-19 `SklearnNode` -/
structure SkNode where
  leftChild : Int
  rightChild : Int
  feature : Int
  threshold : F64
  impurity : F64
  nNodeSamples : Int
  weightedNNodeSamples : F64
deriving DecidableEq

/-- sklearn.go 25-43 `SklearnNodeFromBytes` (56 bytes, from `Iterate(56, …)`) -/
def skNodeFromBytes (bytes : Bytes) : Res SkNode := do
  let field := fun (i : Nat) => (bytes.drop (8 * i)).take 8
  return { leftChild := ← int64LE (field 0), rightChild := ← int64LE (field 1), feature := ← int64LE (field 2),
           threshold := ← Util.float64FromBytes (field 3) true,
           impurity := ← Util.float64FromBytes (field 4) true,
           nNodeSamples := ← int64LE (field 5),
           weightedNNodeSamples := ← Util.float64FromBytes (field 6) true }

/-- sklearn.go 46-52 `SklearnTree` -/
structure SkTree where
  nOutputs : Int := 0
  classes : List Int := []
  nNodes : Int := 0
  nodes : List SkNode := []
  values : List F64 := []
deriving DecidableEq

/-- sklearn.go 72-74, 251-253: `len(arr.Shape) != 1 && arr.Shape[0] != n` (indexes an empty shape) -/
def badShape (shape : List Int) (n : Int) : Res Bool :=
  if shape.length ≠ 1 then do return decide ((← Res.idx shape 0) ≠ n) else .ok false

/-- sklearn.go 72-88, 251-267: an array of little-endian int64 with (nominally) `n` values -/
def parseIntArray (P : Platform) (m : Machine) (obj : PVal) (n : Int) : Res (List Int) := do
  let arr ← parseArray m obj
  if ← badShape arr.shape n then .err "expected 1 dim array"
  else if arr.type.type ≠ str "i8" ∨ arr.type.littleEndian = false then .err "expected i8 little endian"
  else
    allocCheck P n 8
    mapRes int64LE (← iterate 7 arr.data)

/-- sklearn.go 54-141: `SklearnTree` `Reduce` and `Build` -/
def parseSkTree (P : Platform) (m : Machine) : PVal → Res SkTree :=
  parseClass
    (fun callable args => do
      let _ ← toGlobal callable "sklearn.tree._tree" "Tree"
      match args with
      | [_, a1, a2] => do
        let nOutputs ← asInt a2
        let classes ← parseIntArray P m a1 nOutputs
        return { nOutputs := nOutputs, classes := classes }
      | _ => .err "expected len(reduce.Args) = 3")
    (fun t args => do
      let dict ← toDict m args
      let nNodes ← DictCells.toInt dict "node_count"
      let arr ← parseArray m (← DictCells.value dict "nodes")
      if arr.type.type ≠ str "V56" then .err "expected V56"
      else
        let nodes ← mapRes skNodeFromBytes (← iterate 55 arr.data)
        let arr ← parseArray m (← DictCells.value dict "values")
        if arr.type.type ≠ str "f8" then .err "expected f8"
        else
          let values ← mapRes (Util.float64FromBytes · arr.type.littleEndian) (← iterate 7 arr.data)
          return { t with nNodes := nNodes, nodes := nodes, values := values })

/-- sklearn.go 143-148 `SklearnDecisionTreeRegressor` -/
structure SkRegressor where
  tree : SkTree := {}
  nClasses : Int := 0
  maxFeatures : Int := 0
  nOutputs : Int := 0
deriving DecidableEq

/-- the `Reduce` part shared by sklearn.go 150-163, 213-226, 332-346:
`copy_reg._reconstructor` with three arguments -/
def reconstructor (callable : PVal) (args : List PVal) (modul name : String) : Res (Bytes × Bytes) := do
  let _ ← toGlobal callable "copy_reg" "_reconstructor"
  match args with
  | [a0, _, _] => toGlobal a0 modul name
  | _ => .err "not expected tuple"

/-- sklearn.go 150-201: `SklearnDecisionTreeRegressor` `Reduce` and `Build` -/
def parseSkRegressor (P : Platform) (m : Machine) : PVal → Res SkRegressor :=
  parseClass
    (fun callable args => do
      let _ ← reconstructor callable args "sklearn.tree.tree" "DecisionTreeRegressor"
      return {})
    (fun _ args => do
      let dict ← toDict m args
      let (type, data) ← parseScalar (← DictCells.value dict "n_classes_")
      if type.type ≠ str "i8" ∨ type.littleEndian = false then .err "expected little endian i8"
      else
        let nClasses ← int64LE data
        let maxFeatures ← DictCells.toInt dict "max_features_"
        let nOutputs ← DictCells.toInt dict "n_outputs_"
        let tree ← parseSkTree P m (← DictCells.value dict "tree_")
        return { tree := tree, nClasses := nClasses, maxFeatures := maxFeatures, nOutputs := nOutputs })

/-- sklearn.go 327-330 `SKlearnInitEstimator` -/
structure SkInit where
  name : Bytes := []
  prior : List F64 := []
deriving DecidableEq

/-- sklearn.go 332-392: `SKlearnInitEstimator` `Reduce` and `Build`. The error of `Iterate` is ignored by the
code (line 383): a wrong length then leaves the prior empty. -/
def parseSkInit (m : Machine) : PVal → Res SkInit :=
  parseClass
    (fun callable args => do
      let (_, name) ← reconstructor callable args "sklearn.ensemble.gradient_boosting" ""
      return { name := name })
    (fun e args => do
      if e.name = str "LogOddsEstimator" then do
        let dict ← toDict m args
        let (type, data) ← parseScalar (← DictCells.value dict "prior")
        if type.type ≠ str "f8" then .err "expected f8"
        else
          let x ← Util.float64FromBytes data type.littleEndian
          return { e with prior := e.prior ++ [x] }
      else if e.name = str "PriorProbabilityEstimator" then do
        let dict ← toDict m args
        let arr ← parseArray m (← DictCells.value dict "priors")
        if arr.type.type ≠ str "f8" then .err "expected f8"
        else
          match iterate 7 arr.data with
          | .ok chunks =>
            let xs ← mapRes (Util.float64FromBytes · arr.type.littleEndian) chunks
            return { e with prior := e.prior ++ xs }
          | _ => return e
      else .err "unknown init estimator class")

/-- sklearn.go 203-211 `SklearnGradientBoosting` -/
structure SkBoosting where
  nClasses : Int := 0
  classes : List Int := []
  nEstimators : Int := 0
  maxFeatures : Int := 0
  estimators : List SkRegressor := []
  learningRate : F64 := F64.zero
  initEstimator : SkInit := {}
deriving DecidableEq

/-- sklearn.go 213-325: `SklearnGradientBoosting` `Reduce` and `Build`. (Size of one
`SklearnDecisionTreeRegressor` in the allocation: 112 bytes.) -/
def parseSkBoosting (P : Platform) (m : Machine) : PVal → Res SkBoosting :=
  parseClass
    (fun callable args => do
      let _ ← reconstructor callable args "sklearn.ensemble.gradient_boosting" "GradientBoostingClassifier"
      return {})
    (fun _ args => do
      let dict ← toDict m args
      let nClasses ← DictCells.toInt dict "n_classes_"
      let learningRate ← DictCells.toFloat dict "learning_rate"
      let _ ← toUnicode (← DictCells.value dict "loss")
      let initEstimator ← parseSkInit m (← DictCells.value dict "init_")
      let classes ← parseIntArray P m (← DictCells.value dict "classes_") nClasses
      let maxFeatures ← DictCells.toInt dict "max_features_"
      let nEstimators ← DictCells.toInt dict "n_estimators"
      let arr ← parseArray m (← DictCells.value dict "estimators_")
      let adjNClasses := if nClasses = 2 then 1 else nClasses
      if arr.shape ≠ [nEstimators, adjNClasses] then .err "unexpected shape"
      else if (arr.dataList.length : Int) ≠ wrap64 (nEstimators * adjNClasses) then
        .err "unexpected array list length"
      else
        allocCheck P arr.dataList.length 112
        let estimators ← mapRes (parseSkRegressor P m) arr.dataList
        return { nClasses := nClasses, classes := classes, nEstimators := nEstimators,
                 maxFeatures := maxFeatures, estimators := estimators, learningRate := learningRate,
                 initEstimator := initEstimator })

end Leaves.Pickle
