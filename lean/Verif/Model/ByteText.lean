import Verif.Model.Utf8
import Verif.Model.Bufio

/-!
# The text readers on bytes that arrive piece by piece

The functions of util/util.go, lgensemble_io.go and mat/mat_io.go once more, on a `*bufio.Reader` of bytes and on Go strings, for input
that need not be UTF-8. Theorems of C96 compare them with those on characters.
-/

namespace Leaves.Oct

/-- split after the first newline, as `Leaves.splitLine` -/
def splitLine : ByteStr → ByteStr × ByteStr × Bool
  | [] => ([], [], false)
  | c :: cs =>
    if c = 10 then ([c], cs, true)
    else
      let (l, r, b) := splitLine cs
      (c :: l, r, b)

/-- `(b *Reader) ReadSlice('\n')`, as `Bufio.readSlice` -/
def readSlice : (fuel : Nat) → Bufio UInt8 → Res (ByteStr × SliceEnd × Bufio UInt8)
  | 0, _ => .hang
  | fuel + 1, b =>
    let (line, rest, found) := splitLine b.buf
    if found then .ok (line, .found, { b with buf := rest })
    else match b.err with
      | some e => .ok (b.buf, .fault e, { b with buf := [], err := none })
      | none =>
        if b.cap ≤ b.buf.length then .ok (b.buf, .full, { b with buf := [] })
        else readSlice fuel (b.fill 100)

/-- `(b *Reader) collectFragments('\n')`, as `Bufio.readStringLoop` -/
def readStringLoop : (fuel : Nat) → (acc : ByteStr) → Bufio UInt8 → Res (ByteStr × RdErr × Bufio UInt8)
  | 0, _, _ => .hang
  | fuel + 1, acc, b => do
    let (frag, e, b) ← readSlice (b.cap + 2) b
    match e with
    | .found => .ok (acc ++ frag, .none, b)
    | .fault .eof => .ok (acc ++ frag, .eof, b)
    | .fault .fail => .ok (acc ++ frag, .fail, b)
    | .full => readStringLoop fuel (acc ++ frag) b

/-- `(b *Reader) ReadString('\n')` -/
def readString (b : Bufio UInt8) : Res (ByteStr × RdErr × Bufio UInt8) := readStringLoop (b.size + 1) [] b

/-! ## util/util.go -/

/-- util/util.go 27 `stringParams` (a map) -/
def Params := ByteStr → Option ByteStr

namespace Params

/-- the empty map -/
def empty : Params := fun _ => none

/-- `params[k] = v` -/
def set (p : Params) (k v : ByteStr) : Params := fun k' => if k' = k then some v else p k'

/-- util/util.go 45-52: add the binding of one line -/
def addLine (params : Params) (line : ByteStr) : Res Params :=
  match split line (lit "=") with
  | [k, v] => .ok (params.set k v)
  | [k] => .ok (params.set k [])
  | [] => .ok params
  | _ => .err "meet wrong format while reading params"

end Params

/-- util/util.go 34-43: the "skip empty" loop -/
def skipEmpty : (fuel : Nat) → Bufio UInt8 → Res (ByteStr × Bufio UInt8)
  | 0, _ => .hang
  | fuel + 1, b => do
    let (line, e, b) ← readString b
    if e ≠ .none then .err "read error"
    else
      let line := trimSpace line
      if line ≠ lit "\n" then .ok (line, b)
      else skipEmpty fuel b

/-- util/util.go 44-61: the main loop with the current trimmed line -/
def paramsLoop : (fuel : Nat) → Bufio UInt8 → (line : ByteStr) → Params → Res (Params × Bufio UInt8)
  | 0, _, _, _ => .hang
  | fuel + 1, b, line, params => do
    let params ← params.addLine line
    let (line, e, b) ← readString b
    if e = .fail then .err "read error"
    else
      let line := trimSpace line
      if line = [] then .ok (params, b)
      else paramsLoop fuel b line params

/-- util/util.go 29-63 `ReadParamsUntilBlank` -/
def readParamsUntilBlank (b : Bufio UInt8) : Res (Params × Bufio UInt8) := do
  let (line, b) ← skipEmpty (b.size + 1) b
  paramsLoop (b.size + 1) b line Params.empty

namespace Params

/-- util/util.go 65-76 `ToInt` -/
def toInt (p : Params) (key : String) : Res Int :=
  match p (lit key) with
  | none => .err "no field"
  | some s => Res.ofOption "can't convert" (atoi s)

/-- util/util.go 78-84 `ToString` -/
def toString (p : Params) (key : String) : Res ByteStr :=
  match p (lit key) with
  | none => .err "no field"
  | some s => .ok s

/-- util/util.go 86-96 `Compare` -/
def compare (p : Params) (key rhs : String) : Res Unit :=
  match p (lit key) with
  | none => .err "no field"
  | some s => if s ≠ lit rhs then .err "only one value is supported" else .ok ⟨⟩

/-- util/util.go 98-104 `ToStrSlice` -/
def toStrSlice (p : Params) (key : String) : Res (List ByteStr) :=
  match p (lit key) with
  | none => .err "no field"
  | some s => .ok (split s (lit " "))

/-- the conversion loops of util/util.go 113-119, 130-136, 147-153 -/
def convertAll {α : Type} (f : ByteStr → Option α) : List ByteStr → Res (List α)
  | [] => .ok []
  | s :: ss => do
    let v ← Res.ofOption "can't convert" (f s)
    let vs ← convertAll f ss
    return v :: vs

/-- util/util.go 106-121 `ToFloat64Slice` -/
def toFloat64Slice (P : Platform) (p : Params) (key : String) : Res (List F64) :=
  match p (lit key) with
  | none => .err "no field"
  | some s => convertAll (parseFloat P) (split s (lit " "))

/-- util/util.go 123-138 `ToUint32Slice` -/
def toUint32Slice (p : Params) (key : String) : Res (List Nat) :=
  match p (lit key) with
  | none => .err "no field"
  | some s => convertAll (parseUint 32) (split s (lit " "))

/-- util/util.go 140-155 `ToInt32Slice` -/
def toInt32Slice (p : Params) (key : String) : Res (List Int) :=
  match p (lit key) with
  | none => .err "no field"
  | some s => convertAll (parseInt 32) (split s (lit " "))

/-- util/util.go 157-160 `Contains` -/
def contains (p : Params) (key : String) : Bool := (p (lit key)).isSome

end Params

/-! ## lgensemble_io.go -/

/-- lgensemble_io.go 109-290: `lgTreeFromReader` after the parameter block was read -/
def lgTreeFromParams (P : Platform) (params : Params) : Res LgTree := do
  let numCategorical ← params.toInt "num_cat"
  let nCategorical := u32I numCategorical
  let numLeaves ← params.toInt "num_leaves"
  if numLeaves < 1 then .err "num_leaves < 1"
  else
    let numNodes := numLeaves - 1
    let leafValues ← params.toFloat64Slice P "leaf_value"
    if numLeaves = 1 then
      return { leafValues := leafValues, nCategorical := nCategorical }
    else
      let leftChilds ← params.toInt32Slice "left_child"
      let rightChilds ← params.toInt32Slice "right_child"
      let decisionTypes ← params.toUint32Slice "decision_type"
      let splitFeatures ← params.toUint32Slice "split_feature"
      let thresholds ← params.toFloat64Slice P "threshold"
      let (catThresholds, catBoundaries, boundaries) ←
        if numCategorical > 0 then do
          let ct ← params.toUint32Slice "cat_threshold"
          let cb ← params.toUint32Slice "cat_boundaries"
          pure (ct, cb, [0])
        else pure ([], [], [])
      let a : LgArrays :=
        { leftChilds := leftChilds, rightChilds := rightChilds, decisionTypes := decisionTypes,
          splitFeatures := splitFeatures, thresholds := thresholds,
          catThresholds := catThresholds.map (BitVec.ofNat 32), catBoundaries := catBoundaries }
      let (nodes, cats) ← convert P (a.source P) numNodes numNodes { boundaries := boundaries, thresholds := [] }
      return { nodes := nodes, leafValues := leafValues, catBoundaries := cats.boundaries,
               catThresholds := cats.thresholds, nCategorical := nCategorical }

/-- lgensemble_io.go 103-290 `lgTreeFromReader` -/
def lgTreeFromReader (P : Platform) (b : Bufio UInt8) : Res (LgTree × Bufio UInt8) := do
  let (params, b) ← readParamsUntilBlank b
  let t ← lgTreeFromParams P params
  return (t, b)

/-- lgensemble_io.go 55-59 `lgObjective` -/
structure LgObjective where
  name : ByteStr
  param : ByteStr
  value : Int

/-- lgensemble_io.go 61-80 `lgObjectiveParse` -/
def lgObjectiveParse (objective : ByteStr) : Res LgObjective :=
  match split objective (lit " ") with
  | [name, p] =>
    match split p (lit ":") with
    | [param, v] =>
      match atoi v with
      | some value => .ok { name, param, value }
      | none => .err "unexpected objective field"
    | _ => .err "unexpected objective field"
  | _ => .err "unexpected objective field"

/-- lgensemble_io.go 348-380: the transformation -/
def lgTransform (params : Params) (nRawOutputGroups : Int) (averageOutput loadTransformation : Bool) :
    Res Transform :=
  if loadTransformation && !averageOutput then do
    let objectiveStr ← params.toString "objective"
    if objectiveStr = lit "poisson" ∨ objectiveStr = lit "gamma" ∨ objectiveStr = lit "tweedie" then
      return .exponential
    else if !(lit "regression").isPrefixOf objectiveStr then do
      let o ← lgObjectiveParse objectiveStr
      if o.name = lit "binary" ∧ o.param = lit "sigmoid" then
        if o.value ≠ 1 then .err "got sigmoid with value != 1" else return .logistic
      else if o.name = lit "multiclass" ∧ o.param = lit "num_class" then
        if o.value ≠ nRawOutputGroups then .err "got wrong multiclass num_class" else return .softmax o.value
      else .err "unknown transformation function"
    else return .raw nRawOutputGroups
  else return .raw nRawOutputGroups

/-- lgensemble_io.go 383-389: reading the trees -/
def lgReadTrees (P : Platform) : (n : Nat) → Bufio UInt8 → Res (List LgTree × Bufio UInt8)
  | 0, b => .ok ([], b)
  | n + 1, b => do
    let (t, b) ← lgTreeFromReader P b
    let (ts, b) ← lgReadTrees P n b
    return (t :: ts, b)

/-- lgensemble_io.go 301-305: `version` must be v2 or v3 -/
def lgCheckVersion (params : Params) : Res Unit :=
  match params.compare "version" "v2" with
  | .ok _ => .ok ⟨⟩
  | _ => params.compare "version" "v3"

/-- lgensemble_io.go 293-391 `LGEnsembleFromReader`; also returns the reader after the call -/
def lgEnsembleFromReader (P : Platform) (b : Bufio UInt8) (loadTransformation : Bool) :
    Res (Ensemble × Bufio UInt8) := do
  let (params, b) ← readParamsUntilBlank b
  lgCheckVersion params
  let nClasses ← params.toInt "num_class"
  let nTreePerIteration ← params.toInt "num_tree_per_iteration"
  if nClasses ≠ nTreePerIteration then .err "num_class != num_tree_per_iteration"
  else if nClasses < 1 then .err "num_class should be > 0"
  else if nTreePerIteration < 1 then .err "num_tree_per_iteration should be > 0"
  else
    let maxFeatureIdx ← params.toInt "max_feature_idx"
    let averageOutput := params.contains "average_output"
    let name := if averageOutput then "lightgbm.rf" else "lightgbm.gbdt"
    let treeSizes ← params.toStrSlice "tree_sizes"
    let nTrees := treeSizes.length
    if nTrees = 0 then .err "no trees in file"
    else if (nTrees : Int).tmod nClasses ≠ 0 then .err "wrong number of trees"
    else
      let transform ← lgTransform params nClasses averageOutput loadTransformation
      let (trees, b) ← lgReadTrees P nTrees b
      let e : LgEnsemble := { trees := trees, maxFeatureIdx := maxFeatureIdx, nRawOutputGroups := nClasses,
                              name := name, averageOutput := averageOutput }
      return ({ base := .lg e, transform := transform }, b)

/-! ## mat/mat_io.go -/

open Mat (Record DenseMat CSRMat recordsToDenseMat recordsToCSRMat)

/-- mat/mat_io.go 162-180: the tokens of one libsvm line -/
def libsvmTokens (P : Platform) : List ByteStr → Res (List Record)
  | [] => .ok []
  | tok :: toks =>
    if tok.length = 0 then .ok []
    else match split tok (lit ":") with
    | [c, v] => do
      let column ← Res.ofOption "can't convert" (parseUint 32 c)
      let value ← Res.ofOption "can't convert to float" (parseFloat P v)
      let rs ← libsvmTokens P toks
      return { column := column, value := value } :: rs
    | _ => .err "can't parse"

/-- mat/mat_io.go 152-180: one libsvm line (trimmed, not empty) -/
def libsvmLine (P : Platform) (skipFirstColumn : Bool) (line : ByteStr) : Res (List Record) :=
  let tokens := split line (lit " ")
  if tokens.length < 2 then .err "too few columns"
  else libsvmTokens P (tokens.drop (if skipFirstColumn then 1 else 0))

/-- mat/mat_io.go 220-232: the tokens of one CSV line; `col - startIndex` counts from `i` -/
def csvTokens (P : Platform) (defValue : F64) : (i : Nat) → List ByteStr → Res (List Record)
  | _, [] => .ok []
  | i, tok :: toks => do
    let value ← if tok.length = 0 then .ok defValue
      else Res.ofOption "can't convert to float" (parseFloat P tok)
    let rs ← csvTokens P defValue (i + 1) toks
    return { column := i, value := value } :: rs

/-- mat/mat_io.go 213-232: one CSV line (trimmed, not empty) -/
def csvLine (P : Platform) (skipFirstColumn : Bool) (delimiter : ByteStr) (defValue : F64) (line : ByteStr) :
    Res (List Record) :=
  csvTokens P defValue 0 ((split line delimiter).drop (if skipFirstColumn then 1 else 0))

/-- mat/mat_io.go 147-191 and 208-241: the line loop shared by both readers -/
def readRows {μ : Type} (parse : ByteStr → Res (List Record)) (f : μ → List Record → Res μ) (limit : Int) :
    (fuel : Nat) → (rows : Int) → Bufio UInt8 → μ → Res μ
  | 0, _, _, _ => .hang
  | fuel + 1, rows, b, mat => do
    let (line, e, b) ← readString b
    if e = .fail then .err "read error"
    else
      let line := trimSpace line
      if line = [] then .ok mat
      else
        let records ← parse line
        let mat ← f mat records
        let rows := rows + 1
        if limit > 0 ∧ rows = limit then .ok mat
        else readRows parse f limit fuel rows b mat

/-- mat/mat_io.go 22-32 `DenseMatFromLibsvm` with 140-193 `readFromLibsvm` -/
def denseMatFromLibsvm (P : Platform) (b : Bufio UInt8) (limit : Int) (skipFirstColumn : Bool) : Res DenseMat :=
  readRows (libsvmLine P skipFirstColumn) recordsToDenseMat limit (b.size + 1) 0 b
    { values := [], cols := 0, rows := 0 }

/-- mat/mat_io.go 50-61 `CSRMatFromLibsvm` with 140-193 `readFromLibsvm` -/
def csrMatFromLibsvm (P : Platform) (b : Bufio UInt8) (limit : Int) (skipFirstColumn : Bool) : Res CSRMat :=
  readRows (libsvmLine P skipFirstColumn) recordsToCSRMat limit (b.size + 1) 0 b
    { rowHeaders := [0], colIndexes := [], values := [] }

/-- mat/mat_io.go 79-95 `DenseMatFromCsv` with 195-243 `readFromCsv` -/
def denseMatFromCsv (P : Platform) (b : Bufio UInt8) (limit : Int) (skipFirstColumn : Bool) (delimiter : ByteStr)
    (defValue : F64) : Res DenseMat :=
  readRows (csvLine P skipFirstColumn delimiter defValue) recordsToDenseMat limit (b.size + 1) 0 b
    { values := [], cols := 0, rows := 0 }

end Leaves.Oct
