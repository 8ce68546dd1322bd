import Verif.Model.LgText
import Verif.Model.Mat
import Verif.Model.XgLoad
import Verif.Model.SkLoad

/-!
# Reading piece by piece: io.Reader, bufio.Reader, io.ReadFull, and the loaders on top of them

The other model files take the whole input at once. Here the input arrives the way an `io.Reader` delivers
it: in pieces of any size, possibly with empty reads in between, with the final error either alone or
together with the last bytes. `bufio.Reader` (Go library, `bufio.go`) keeps a buffer of `cap` elements. The
loaders are written again on top of it, call by call; theorems of C90 compare them with the others.
-/

namespace Leaves

/-- what ends a stream: io.EOF or another error (among them io.ErrNoProgress) -/
inductive Fault where
  | eof
  | fail
deriving DecidableEq, Repr

/-- An `io.Reader`: the elements it has not delivered yet, the error after them (repeated by every later
call), whether the error comes together with the last elements, and for each coming call the number of
elements it is ready to deliver (0: an empty read without error). Every run of a reader that keeps the
contract of `io.Reader` has this form for some sequence `lim`. -/
structure Feed (α : Type) where
  rest : List α
  fin : Fault := .eof
  eager : Bool := false
  lim : Nat → Nat

/-- one call of `Read(p)` with `len(p) = n > 0`: elements, error, the reader afterwards -/
def Feed.read {α : Type} (f : Feed α) (n : Nat) : List α × Option Fault × Feed α :=
  let k := min n (f.lim 0)
  let f' := { f with rest := f.rest.drop k, lim := fun i => f.lim (i + 1) }
  if f.lim 0 = 0 then ([], none, f')
  else if f.rest.isEmpty then ([], some f.fin, f')
  else (f.rest.take k, if f.eager && f'.rest.isEmpty then some f.fin else none, f')

/-- `bufio.Reader`: the unread part of the buffer, the pending error, the size of the buffer, the
underlying reader. -/
structure Bufio (α : Type) where
  buf : List α := []
  err : Option Fault := none
  cap : Nat
  feed : Feed α

namespace Bufio
variable {α : Type}

/-- `bufio.NewReader(rd)`: 4096 bytes -/
def new (f : Feed α) : Bufio α := { cap := 4096, feed := f }

/-- the elements that are still to come -/
def size (b : Bufio α) : Nat := b.buf.length + b.feed.rest.length

/-- `(b *Reader) fill`: up to 100 attempts to read into the free part of the buffer; after 100 empty reads
io.ErrNoProgress. The call for a full buffer (a panic) does not occur: `readSlice` checks. -/
def fill : (tries : Nat) → Bufio α → Bufio α
  | 0, b => { b with err := some .fail }
  | t + 1, b =>
    let (bs, e, f) := b.feed.read (b.cap - b.buf.length)
    let b := { b with buf := b.buf ++ bs, feed := f }
    match e with
    | some e => { b with err := some e }
    | none => if bs.isEmpty then fill t b else b

/-- `(b *Reader) Read(p)` with `len(p) = n`: at most one call of the underlying reader -/
def read (b : Bufio α) (n : Nat) : List α × Option Fault × Bufio α :=
  if n = 0 then
    if b.buf.isEmpty then ([], b.err, { b with err := none }) else ([], none, b)
  else if b.buf.isEmpty then
    match b.err with
    | some e => ([], some e, { b with err := none })
    | none =>
      if b.cap ≤ n then
        let (bs, e, f) := b.feed.read n
        (bs, e, { b with feed := f })
      else
        let (bs, e, f) := b.feed.read b.cap
        if bs.isEmpty then ([], e, { b with feed := f })
        else (bs.take n, none, { b with buf := bs.drop n, err := e, feed := f })
  else (b.buf.take n, none, { b with buf := b.buf.drop n })

/-- `io.ReadFull(b, p)` with `n` elements of `p` missing and `acc` read so far. Errors of all kinds have one
tag. `fuel` bounds the calls (`readFull_represents`: not exhausted unless 100 reads in a row are empty). -/
def readFullLoop : (fuel : Nat) → Bufio α → (n : Nat) → (acc : List α) → Res (List α × Bufio α)
  | 0, _, _, _ => .hang
  | fuel + 1, b, n, acc =>
    if n = 0 then .ok (acc, b)
    else
      let (bs, e, b) := b.read n
      let acc := acc ++ bs
      match e with
      | some _ => if n ≤ bs.length then .ok (acc, b) else .err "EOF"
      | none => readFullLoop fuel b (n - bs.length) acc

/-- `io.ReadFull(b, p)` with `len(p) = n` -/
def readFull (b : Bufio α) (n : Nat) : Res (List α × Bufio α) :=
  readFullLoop (100 * (b.size + 2)) b n []

end Bufio

/-- how `ReadSlice` ends: delimiter found, error, buffer full -/
inductive SliceEnd where
  | found
  | fault (e : Fault)
  | full
deriving DecidableEq, Repr

namespace Bufio

/-- `(b *Reader) ReadSlice('\n')`. Each turn of the loop delivers, or fills the buffer further, or sets the
error that ends the next turn. -/
def readSlice : (fuel : Nat) → Bufio Char → Res (Str × SliceEnd × Bufio Char)
  | 0, _ => .hang
  | fuel + 1, b =>
    let (line, rest, found) := splitLine b.buf
    if found then .ok (line, .found, { b with buf := rest })
    else match b.err with
      | some e => .ok (b.buf, .fault e, { b with buf := [], err := none })
      | none =>
        if b.cap ≤ b.buf.length then .ok (b.buf, .full, { b with buf := [] })
        else readSlice fuel (b.fill 100)

/-- `(b *Reader) collectFragments('\n')`, used by `ReadString`: whole buffers until the line ends -/
def readStringLoop : (fuel : Nat) → (acc : Str) → Bufio Char → Res (Str × RdErr × Bufio Char)
  | 0, _, _ => .hang
  | fuel + 1, acc, b => do
    let (frag, e, b) ← readSlice (b.cap + 2) b
    match e with
    | .found => .ok (acc ++ frag, .none, b)
    | .fault .eof => .ok (acc ++ frag, .eof, b)
    | .fault .fail => .ok (acc ++ frag, .fail, b)
    | .full => readStringLoop fuel (acc ++ frag) b

/-- `(b *Reader) ReadString('\n')` -/
def readString (b : Bufio Char) : Res (Str × RdErr × Bufio Char) := readStringLoop (b.size + 1) [] b

end Bufio

/-! ## util/util.go and the LightGBM text loader -/

/-- util/util.go 34-43, as `skipEmpty` -/
def skipEmptyS : (fuel : Nat) → Bufio Char → Res (Str × Bufio Char)
  | 0, _ => .hang
  | fuel + 1, b => do
    let (line, e, b) ← b.readString
    if e ≠ .none then .err "read error"
    else
      let line := trimSpace line
      if line ≠ "\n".toList then .ok (line, b)
      else skipEmptyS fuel b

/-- util/util.go 44-61, as `paramsLoop` -/
def paramsLoopS : (fuel : Nat) → Bufio Char → (line : Str) → Params → Res (Params × Bufio Char)
  | 0, _, _, _ => .hang
  | fuel + 1, b, line, params => do
    let params ← params.addLine line
    let (line, e, b) ← b.readString
    if e = .fail then .err "read error"
    else
      let line := trimSpace line
      if line = [] then .ok (params, b)
      else paramsLoopS fuel b line params

/-- util/util.go 29-63 `ReadParamsUntilBlank` -/
def readParamsUntilBlankS (b : Bufio Char) : Res (Params × Bufio Char) := do
  let (line, b) ← skipEmptyS (b.size + 1) b
  paramsLoopS (b.size + 1) b line Params.empty

/-- lgensemble_io.go 103-290 `lgTreeFromReader` -/
def lgTreeFromReaderS (P : Platform) (b : Bufio Char) : Res (LgTree × Bufio Char) := do
  let (params, b) ← readParamsUntilBlankS b
  let t ← lgTreeFromParams P params
  return (t, b)

/-- lgensemble_io.go 383-389: reading the trees -/
def lgReadTreesS (P : Platform) : (n : Nat) → Bufio Char → Res (List LgTree × Bufio Char)
  | 0, b => .ok ([], b)
  | n + 1, b => do
    let (t, b) ← lgTreeFromReaderS P b
    let (ts, b) ← lgReadTreesS P n b
    return (t :: ts, b)

/-- lgensemble_io.go 293-391 `LGEnsembleFromReader`; also returns the reader after the call -/
def lgEnsembleFromReaderS (P : Platform) (b : Bufio Char) (loadTransformation : Bool) :
    Res (Ensemble × Bufio Char) := do
  let (params, b) ← readParamsUntilBlankS b
  lgCheckVersion params
  let nClasses ← params.toInt "num_class".toList
  let nTreePerIteration ← params.toInt "num_tree_per_iteration".toList
  if nClasses ≠ nTreePerIteration then .err "num_class != num_tree_per_iteration"
  else if nClasses < 1 then .err "num_class should be > 0"
  else if nTreePerIteration < 1 then .err "num_tree_per_iteration should be > 0"
  else
    let maxFeatureIdx ← params.toInt "max_feature_idx".toList
    let averageOutput := params.contains "average_output".toList
    let name := if averageOutput then "lightgbm.rf" else "lightgbm.gbdt"
    let treeSizes ← params.toStrSlice "tree_sizes".toList
    let nTrees := treeSizes.length
    if nTrees = 0 then .err "no trees in file"
    else if (nTrees : Int).tmod nClasses ≠ 0 then .err "wrong number of trees"
    else
      let transform ← lgTransform params nClasses averageOutput loadTransformation
      let (trees, b) ← lgReadTreesS P nTrees b
      let e : LgEnsemble := { trees := trees, maxFeatureIdx := maxFeatureIdx, nRawOutputGroups := nClasses,
                              name := name, averageOutput := averageOutput }
      return ({ base := .lg e, transform := transform }, b)

/-! ## mat/mat_io.go -/

namespace Mat

/-- mat/mat_io.go 147-191 and 208-241: the line loop shared by both readers, as `readRows` -/
def readRowsS {μ : Type} (parse : Str → Res (List Record)) (f : μ → List Record → Res μ) (limit : Int) :
    (fuel : Nat) → (rows : Int) → Bufio Char → μ → Res μ
  | 0, _, _, _ => .hang
  | fuel + 1, rows, b, mat => do
    let (line, e, b) ← b.readString
    if e = .fail then .err "read error"
    else
      let line := trimSpace line
      if line = [] then .ok mat
      else
        let records ← parse line
        let mat ← f mat records
        let rows := rows + 1
        if limit > 0 ∧ rows = limit then .ok mat
        else readRowsS parse f limit fuel rows b mat

/-- mat/mat_io.go 22-32 `DenseMatFromLibsvm` with 140-193 `readFromLibsvm` -/
def denseMatFromLibsvmS (P : Platform) (b : Bufio Char) (limit : Int) (skipFirstColumn : Bool) :
    Res DenseMat :=
  readRowsS (libsvmLine P skipFirstColumn) recordsToDenseMat limit (b.size + 1) 0 b
    { values := [], cols := 0, rows := 0 }

/-- mat/mat_io.go 50-61 `CSRMatFromLibsvm` with 140-193 `readFromLibsvm` -/
def csrMatFromLibsvmS (P : Platform) (b : Bufio Char) (limit : Int) (skipFirstColumn : Bool) :
    Res CSRMat :=
  readRowsS (libsvmLine P skipFirstColumn) recordsToCSRMat limit (b.size + 1) 0 b
    { rowHeaders := [0], colIndexes := [], values := [] }

/-- mat/mat_io.go 79-95 `DenseMatFromCsv` with 195-243 `readFromCsv` -/
def denseMatFromCsvS (P : Platform) (b : Bufio Char) (limit : Int) (skipFirstColumn : Bool)
    (delimiter : Str) (defValue : F64) : Res DenseMat :=
  readRowsS (csvLine P skipFirstColumn delimiter defValue) recordsToDenseMat limit (b.size + 1) 0 b
    { values := [], cols := 0, rows := 0 }

end Mat

/-! ## Binary input -/

/-- a function that reads bytes from a `*bufio.Reader` -/
def RdS (α : Type) := Bufio (BitVec 8) → Res (α × Bufio (BitVec 8))

instance : Monad RdS where
  pure a := fun b => .ok (a, b)
  bind x f := fun b => match x b with
    | .ok (a, b) => f a b
    | .err t => .err t
    | .panic => .panic
    | .hang => .hang

namespace RdS

/-- an outcome that reads nothing -/
def lift {α : Type} (r : Res α) : RdS α := fun b => match r with
  | .ok a => .ok (a, b)
  | .err t => .err t
  | .panic => .panic
  | .hang => .hang

/-- `io.ReadFull` of `n` bytes -/
def full (n : Nat) : RdS (List (BitVec 8)) := fun b => b.readFull n

/-- repeat `n` times -/
def many {α : Type} (r : RdS α) : Nat → RdS (List α)
  | 0 => return []
  | n + 1 => do
    let x ← r
    let xs ← many r n
    return x :: xs

end RdS

namespace XgBin
open RdS (many)

/-- `binary.Read(reader, binary.LittleEndian, data)` with data of `n` bytes: one `io.ReadFull`, then the
bytes are taken apart (by the function that does so when the whole input is given). -/
def binaryRead {α : Type} (n : Nat) (dec : Rd α) : RdS α := do
  let bs ← RdS.full n
  let (a, _) ← RdS.lift (dec bs)
  return a

/-- xgbin_io.go 167-182 `ReadString` -/
def readStringS (P : Platform) : RdS Bytes := do
  let size ← binaryRead 8 readWord64
  if size.toNat = 0 then return []
  else
    RdS.lift (allocCheck P size.toNat 1)
    binaryRead size.toNat (readBytes size.toNat)

/-- xgbin_io.go 186-201 `ReadFloat32Slice` and 205-220 `ReadInt32Slice` -/
def readWordSliceS (P : Platform) : RdS (List (BitVec 32)) := do
  let size ← binaryRead 8 readWord64
  if size.toNat = 0 then return []
  else
    RdS.lift (allocCheck P size.toNat 4)
    binaryRead (4 * size.toNat) (readMany readWord size.toNat)

/-- xgbin_io.go 223-242 `ReadModelHeader` (the parameters have 136 bytes: lines 16-29) -/
def readModelHeaderS (P : Platform) : RdS ModelHeader := do
  let param ← binaryRead 136 readLearnerModelParam
  let nameObj ← readStringS P
  let nameGbm ← readStringS P
  return ⟨param, nameObj, nameGbm⟩

/-- xgbin_io.go 273-306 `ReadTreeModel` (148, 20 and 16 bytes: lines 56-72, 76-92, 96-105) -/
def readTreeModelS (P : Platform) : RdS TreeModel := do
  let param ← binaryRead 148 readTreeParam
  RdS.lift (allocCheck P param.numNodes.toInt 20)
  RdS.lift (allocCheck P param.numNodes.toInt 16)
  let nodes ← many (binaryRead 20 readNode) param.numNodes.toInt.toNat
  let stats ← many (binaryRead 16 readStat) param.numNodes.toInt.toNat
  if param.sizeLeafVector.toInt > 0 then
    let _ ← readWordSliceS P
    return ⟨nodes, stats, param⟩
  else return ⟨nodes, stats, param⟩

/-- xgbin_io.go 245-270 `ReadGBTreeModel` (the parameters have 160 bytes: lines 33-52) -/
def readGBTreeModelS (P : Platform) : RdS GBTreeModel := do
  let param ← binaryRead 160 readGBTreeModelParam
  let trees ← many (readTreeModelS P) param.numTrees.toInt.toNat
  if param.numTrees.toInt > 0 then
    RdS.lift (allocCheck P param.numTrees.toInt 4)
    let treeInfo ← binaryRead (4 * param.numTrees.toInt.toNat) (readMany readWord param.numTrees.toInt.toNat)
    return ⟨param, trees, treeInfo⟩
  else return ⟨param, trees, []⟩

/-- xgbin_io.go 309-320 `ReadGBLinearModel` (the parameters have 136 bytes: lines 109-116) -/
def readGBLinearModelS (P : Platform) : RdS GBLinearModel := do
  let param ← binaryRead 136 readGBLinearModelParam
  let weights ← readWordSliceS P
  return ⟨param, weights⟩

end XgBin

open XgBin in
/-- xgensemble_io.go 171-195: the drop weights (reads them for 'dart') -/
def xgWeightDropS (P : Platform) (nameGbm : Bytes) (numTrees : Int) : RdS (List F64) := do
  RdS.lift (allocCheck P numTrees 8)
  if nameGbm = ascii "dart" then
    let weightDrop ← readWordSliceS P
    if (weightDrop.length : Int) ≠ numTrees then RdS.lift (.err "unexpected len(weightDrop)")
    else return weightDrop.map F64.ofBits32
  else if nameGbm = ascii "gbtree" then return List.replicate numTrees.toNat F64.one
  else RdS.lift (.err "unsupported model type")

open XgBin in
/-- xgensemble_io.go 136-249 `XGEnsembleFromReader` -/
def xgEnsembleFromReaderS (P : Platform) (loadTransformation : Bool) : RdS Ensemble := do
  let header ← readModelHeaderS P
  if header.nameGbm ≠ ascii "gbtree" ∧ header.nameGbm ≠ ascii "dart" then
    RdS.lift (.err "only 'gbtree' or 'dart' is supported")
  else
    let name := if header.nameGbm = ascii "gbtree" then "xgboost.gbtree" else "xgboost.dart"
    if header.param.numFeatures.toNat = 0 then RdS.lift (.err "zero number of features")
    else
      let m ← readGBTreeModelS P
      if m.param.numFeature.toInt > header.param.numFeatures.toInt then
        RdS.lift (.err "gbtree number of features")
      else
        let weightDrop ← xgWeightDropS P header.nameGbm m.param.numTrees.toInt
        RdS.lift (xgAssemble P header m weightDrop name loadTransformation)

open XgBin in
/-- xgblinear_io.go 13-48 `XGBLinearFromReader` -/
def xgbLinearFromReaderS (P : Platform) (loadTransformation : Bool) : RdS Ensemble := do
  let header ← readModelHeaderS P
  if header.nameGbm ≠ ascii "gblinear" then RdS.lift (.err "only gblinear is supported")
  else if header.param.numFeatures.toNat = 0 then RdS.lift (.err "zero number of features")
  else
    let m ← readGBLinearModelS P
    let nRawOutputGroups := m.param.numOutputGroup.toInt
    let transform ← RdS.lift (xgTransform header.nameObj nRawOutputGroups loadTransformation)
    return { base := .lin { numFeature := m.param.numFeature.toNat, nRawOutputGroups := nRawOutputGroups,
                            baseScore := F64.ofBits32 header.param.baseScore,
                            weights := m.weights.map F64.ofBits32 },
             transform := transform }

/-! ## internal/pickle -/

namespace Pickle

/-- decoder.go 33-38 and 181-186: one byte with one call of `Read`; an empty read is an error -/
def readByteS : RdS (BitVec 8) := fun b =>
  let (bs, e, b) := b.read 1
  match e with
  | some _ => .err "EOF"
  | none =>
    match bs with
    | [x] => .ok (x, b)
    | _ => .err "unexpected read"

/-- decoder.go 177-193 `readLine`; `fuel` bounds the calls -/
def readLineLoop : (fuel : Nat) → RdS Bytes
  | 0 => RdS.lift .hang
  | fuel + 1 => do
    let x ← readByteS
    if x = byte '\n' then return []
    else
      let l ← readLineLoop fuel
      return x :: l

/-- decoder.go 177-193 `readLine` -/
def readLineS : RdS Bytes := fun b => readLineLoop (b.size + 1) b

/-- the outcome of one opcode: go on, or STOP -/
inductive NextS where
  | continue (m : Machine)
  | stop (m : Machine)

/-- decoder.go 41-172: one opcode, as `stepOp` -/
def stepOpS (P : Platform) (op : BitVec 8) (m : Machine) : RdS NextS :=
  if op = byte '(' then return .continue m.pushMark
  else if op = byte 'p' then do
    let line ← readLineS
    let m ← RdS.lift (m.putMemory line)
    return .continue m
  else if op = byte 'g' then do
    let line ← readLineS
    return .continue (m.push (m.getMemory line))
  else if op = byte 'c' then do
    let modul ← readLineS
    let name ← readLineS
    return .continue (m.push (.global modul name))
  else if op = byte 'L' then do
    let line ← readLineS
    if line.length < 2 ∨ line.getLast? ≠ some (byte 'L') then RdS.lift (.err "unexpected long format")
    else
      let v ← RdS.lift (Res.ofOption "unexpected long format" (atoi (toStr line.dropLast)))
      return .continue (m.push (.int v))
  else if op = byte 'I' then do
    let line ← readLineS
    let v ← RdS.lift (Res.ofOption "atoi" (atoi (toStr line)))
    return .continue (m.push (.int v))
  else if op = byte 'F' then do
    let line ← readLineS
    let v ← RdS.lift (Res.ofOption "parse float" (P.parseFloat (toStr line)))
    return .continue (m.push (.float v))
  else if op = byte 't' then do
    let (objs, m) ← RdS.lift m.popMark
    return .continue (m.push (.tuple objs))
  else if op = byte 'l' then do
    let (objs, m) ← RdS.lift m.popMark
    let (l, m) := m.newList P objs
    return .continue (m.push l)
  else if op = byte 'a' then do
    let (el, m) ← RdS.lift m.pop
    let (obj, m) ← RdS.lift m.pop
    match obj with
    | .list arr len => do
      let (l, m) ← RdS.lift (m.appendList P arr len el)
      return .continue (m.push l)
    | _ => RdS.lift (.err "expected List object")
  else if op = byte 'V' then do
    let line ← readLineS
    return .continue (m.push (.unicode (decodeUnicode line)))
  else if op = byte 'R' then do
    let (args, m) ← RdS.lift m.pop
    let (callable, m) ← RdS.lift m.pop
    match args with
    | .tuple t => return .continue (m.push (.reduce callable t))
    | _ => RdS.lift (.err "reduce: unexpected args")
  else if op = byte 'N' then return .continue (m.push .none)
  else if op = byte 'b' then do
    let (args, m) ← RdS.lift m.pop
    let (obj, m) ← RdS.lift m.pop
    return .continue (m.push (.build obj args))
  else if op = byte 'd' then do
    let (objs, m) ← RdS.lift m.popMark
    if objs.length % 2 ≠ 0 then RdS.lift (.err "dict: expected even number of objects")
    else
      let cells ← RdS.lift (dictCells objs [])
      let (d, m) := m.newDict cells
      return .continue (m.push d)
  else if op = byte 's' then do
    let (v, m) ← RdS.lift m.pop
    let (k, m) ← RdS.lift m.pop
    let d ← RdS.lift m.back
    match d with
    | .dict ref =>
      match k with
      | .unicode key => do
        let m ← RdS.lift (m.setDict ref key v)
        return .continue m
      | _ => RdS.lift (.err "expected Unicode object")
    | _ => RdS.lift (.err "expected Dict object")
  else if op = byte '.' then return .stop m
  else RdS.lift (.err "unknown op code")

/-- decoder.go 32-173: the loop, as `decodeLoop` -/
def decodeLoopS (P : Platform) : (fuel : Nat) → Machine → RdS Machine
  | 0, _ => RdS.lift .hang
  | fuel + 1, m => do
    let op ← readByteS
    match ← stepOpS P op m with
    | .continue m => decodeLoopS P fuel m
    | .stop m => return m

/-- decoder.go 28-175 `Decode` -/
def decodeS (P : Platform) : RdS (PVal × Machine) := fun b => (do
  let m ← decodeLoopS P (b.size + 1) {}
  let v ← RdS.lift m.back
  return (v, m) : RdS (PVal × Machine)) b

end Pickle

open Pickle in
/-- skensemble_io.go 117-176 `SKEnsembleFromReader` -/
def skEnsembleFromReaderS (P : Platform) (_loadTransformation : Bool) : RdS Ensemble := do
  let (res, m) ← decodeS P
  let g ← RdS.lift (parseSkBoosting P m res)
  RdS.lift (skAssemble P g)

/-! ## The functions that open a file -/

/-- `os.Open`: no file, or the file as a reader (an `*os.File`) -/
abbrev OpenFile (α : Type) := Option (Feed α)

/-- lgensemble_io.go 394-402, skensemble_io.go 179-187, xgblinear_io.go 51-59, xgensemble_io.go 252-260,
mat/mat_io.go 37-45, 66-73, 101-113: open the file, defer its closing, load through a `bufio.Reader`.
`handles` is the number of open files of the process; the second component is the number after the call.
The deferred `Close` runs on every return and when the loader panics; when the loader does not return,
the file stays open. -/
def fromFile {α β : Type} (load : Bufio α → Res β) (file : OpenFile α) (handles : Nat) : Res β × Nat :=
  match file with
  | none => (.err "open", handles)
  | some f =>
    match load (Bufio.new f) with
    | .hang => (.hang, handles + 1)
    | r => (r, handles + 1 - 1)

/-- the loader of a reading function: the value without the reader -/
def loaderOf {α β : Type} (rd : Bufio α → Res (β × Bufio α)) (b : Bufio α) : Res β := do
  let (x, _) ← rd b
  return x

/-- lgensemble_io.go 394-402 `LGEnsembleFromFile` -/
def lgEnsembleFromFile (P : Platform) (file : OpenFile Char) (loadTransformation : Bool) (handles : Nat) :
    Res Ensemble × Nat :=
  fromFile (loaderOf fun b => lgEnsembleFromReaderS P b loadTransformation) file handles

/-- xgensemble_io.go 252-260 `XGEnsembleFromFile` -/
def xgEnsembleFromFile (P : Platform) (file : OpenFile (BitVec 8)) (loadTransformation : Bool)
    (handles : Nat) : Res Ensemble × Nat :=
  fromFile (loaderOf (xgEnsembleFromReaderS P loadTransformation)) file handles

/-- xgblinear_io.go 51-59 `XGBLinearFromFile` -/
def xgbLinearFromFile (P : Platform) (file : OpenFile (BitVec 8)) (loadTransformation : Bool)
    (handles : Nat) : Res Ensemble × Nat :=
  fromFile (loaderOf (xgbLinearFromReaderS P loadTransformation)) file handles

/-- skensemble_io.go 179-187 `SKEnsembleFromFile` -/
def skEnsembleFromFile (P : Platform) (file : OpenFile (BitVec 8)) (loadTransformation : Bool)
    (handles : Nat) : Res Ensemble × Nat :=
  fromFile (loaderOf (skEnsembleFromReaderS P loadTransformation)) file handles

namespace Mat

/-- mat/mat_io.go 37-45 `DenseMatFromLibsvmFile` -/
def denseMatFromLibsvmFile (P : Platform) (file : OpenFile Char) (limit : Int) (skipFirstColumn : Bool)
    (handles : Nat) : Res DenseMat × Nat :=
  fromFile (fun b => denseMatFromLibsvmS P b limit skipFirstColumn) file handles

/-- mat/mat_io.go 66-73 `CSRMatFromLibsvmFile` -/
def csrMatFromLibsvmFile (P : Platform) (file : OpenFile Char) (limit : Int) (skipFirstColumn : Bool)
    (handles : Nat) : Res CSRMat × Nat :=
  fromFile (fun b => csrMatFromLibsvmS P b limit skipFirstColumn) file handles

/-- mat/mat_io.go 101-113 `DenseMatFromCsvFile` -/
def denseMatFromCsvFile (P : Platform) (file : OpenFile Char) (limit : Int) (skipFirstColumn : Bool)
    (delimiter : Str) (defValue : F64) (handles : Nat) : Res DenseMat × Nat :=
  fromFile (fun b => denseMatFromCsvS P b limit skipFirstColumn delimiter defValue) file handles

end Mat

end Leaves
