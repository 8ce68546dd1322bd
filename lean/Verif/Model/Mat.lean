import Verif.Model.Text

/-! # mat/mat.go and mat/mat_io.go -/

namespace Leaves.Mat

/-- mat/mat.go 12-16 `DenseMat` -/
structure DenseMat where
  values : List F64
  cols : Int
  rows : Int
deriving DecidableEq

/-- mat/mat.go 41-45 `CSRMat` -/
structure CSRMat where
  rowHeaders : List Int
  colIndexes : List Int
  values : List F64
deriving DecidableEq

/-- mat/mat.go 19-25 `DenseMatZero` -/
def denseMatZero (P : Platform) (rows cols : Int) : Res DenseMat := do
  allocCheck P (wrap64 (rows * cols)) 8
  return { values := List.replicate (wrap64 (rows * cols)).toNat F64.zero, cols := cols, rows := rows }

/-- mat/mat.go 29-38 `DenseMatFromArray` -/
def denseMatFromArray (values : List F64) (rows cols : Int) : Res DenseMat :=
  if (values.length : Int) ≠ wrap64 (cols * rows) then .err "wrong dimensions"
  else .ok { values := values, cols := cols, rows := rows }

/-- mat/mat.go 48-53 `Rows` -/
def CSRMat.rows (m : CSRMat) : Int := if m.rowHeaders.length = 0 then 0 else m.rowHeaders.length - 1

/-- mat/mat.go 66-71: the row loop; returns RowHeaders and ColIndexes -/
def csrRows (cols : Int) : (n : Nat) → (headers colIdx : List Int) → List Int × List Int
  | 0, h, c => (h, c)
  | n + 1, h, c => csrRows cols n (h ++ [(c.length : Int)]) (c ++ (List.range cols.toNat).map Int.ofNat)

/-- mat/mat.go 57-74 `CSRMatFromArray` -/
def csrMatFromArray (P : Platform) (values : List F64) (rows cols : Int) : Res CSRMat :=
  if (values.length : Int) ≠ wrap64 (cols * rows) then .err "wrong dimensions"
  else do
    allocCheck P values.length 8
    allocCheck P (rows + 1) 8
    let (h, c) := csrRows cols rows.toNat [] []
    return { rowHeaders := h ++ [(c.length : Int)], colIndexes := c, values := values }

/-- mat/mat_io.go 12-15 `libsvmRecord` -/
structure Record where
  column : Int
  value : F64
deriving DecidableEq

/-- mat/mat_io.go 116-121: columns must be 0, 1, 2, … -/
def denseRecords : (i : Int) → List Record → Res (List F64)
  | _, [] => .ok []
  | i, r :: rs =>
    if i ≠ r.column then .err "wrong column number for dense matrix"
    else do
      let vs ← denseRecords (i + 1) rs
      return r.value :: vs

/-- mat/mat_io.go 115-129 `recordsToDenseMat` -/
def recordsToDenseMat (mat : DenseMat) (records : List Record) : Res DenseMat := do
  let vs ← denseRecords 0 records
  let mat := { mat with values := mat.values ++ vs }
  if mat.cols = 0 then
    return { mat with cols := (records.length : Int), rows := mat.rows + 1 }
  else if mat.cols ≠ (records.length : Int) then .err "different number of columns"
  else return { mat with rows := mat.rows + 1 }

/-- mat/mat_io.go 131-138 `recordsToCSRMat` -/
def recordsToCSRMat (mat : CSRMat) (records : List Record) : Res CSRMat :=
  let values := mat.values ++ records.map Record.value
  .ok { values := values, colIndexes := mat.colIndexes ++ records.map Record.column,
        rowHeaders := mat.rowHeaders ++ [(values.length : Int)] }

/-- mat/mat_io.go 162-180: the tokens of one libsvm line -/
def libsvmTokens (P : Platform) : List Str → Res (List Record)
  | [] => .ok []
  | tok :: toks =>
    if tok.length = 0 then .ok []
    else match split tok ":".toList with
    | [c, v] => do
      let column ← Res.ofOption "can't convert" (parseUint 32 c)
      let value ← Res.ofOption "can't convert to float" (P.parseFloat v)
      let rs ← libsvmTokens P toks
      return { column := column, value := value } :: rs
    | _ => .err "can't parse"

/-- mat/mat_io.go 152-180: one libsvm line (trimmed, not empty) -/
def libsvmLine (P : Platform) (skipFirstColumn : Bool) (line : Str) : Res (List Record) :=
  let tokens := split line " ".toList
  if tokens.length < 2 then .err "too few columns"
  else libsvmTokens P (tokens.drop (if skipFirstColumn then 1 else 0))

/-- mat/mat_io.go 220-232: the tokens of one CSV line; `col - startIndex` counts from `i` -/
def csvTokens (P : Platform) (defValue : F64) : (i : Nat) → List Str → Res (List Record)
  | _, [] => .ok []
  | i, tok :: toks => do
    let value ← if tok.length = 0 then .ok defValue
      else Res.ofOption "can't convert to float" (P.parseFloat tok)
    let rs ← csvTokens P defValue (i + 1) toks
    return { column := i, value := value } :: rs

/-- mat/mat_io.go 213-232: one CSV line (trimmed, not empty) -/
def csvLine (P : Platform) (skipFirstColumn : Bool) (delimiter : Str) (defValue : F64) (line : Str) :
    Res (List Record) :=
  csvTokens P defValue 0 ((split line delimiter).drop (if skipFirstColumn then 1 else 0))

/-- mat/mat_io.go 147-191 and 208-241: the line loop shared by both readers. `parse` turns a trimmed line
into records, `f` is the row callback, `rows` the rows so far. `fuel` bounds the iterations
(theorem `readRows_ne_hang`: never exhausted). -/
def readRows {μ : Type} (parse : Str → Res (List Record)) (f : μ → List Record → Res μ) (limit : Int) :
    (fuel : Nat) → (rows : Int) → Reader → μ → Res μ
  | 0, _, _, _ => .hang
  | fuel + 1, rows, r, mat => do
    let (line, e, r) := r.readString
    if e = .fail then .err "read error"
    else
      let line := trimSpace line
      if line = [] then .ok mat
      else
        let records ← parse line
        let mat ← f mat records
        let rows := rows + 1
        if limit > 0 ∧ rows = limit then .ok mat
        else readRows parse f limit fuel rows r mat

/-- mat/mat_io.go 22-32 `DenseMatFromLibsvm` with 140-193 `readFromLibsvm` -/
def denseMatFromLibsvm (P : Platform) (r : Reader) (limit : Int) (skipFirstColumn : Bool) : Res DenseMat :=
  readRows (libsvmLine P skipFirstColumn) recordsToDenseMat limit (r.rest.length + 1) 0 r
    { values := [], cols := 0, rows := 0 }

/-- mat/mat_io.go 50-61 `CSRMatFromLibsvm` with 140-193 `readFromLibsvm` -/
def csrMatFromLibsvm (P : Platform) (r : Reader) (limit : Int) (skipFirstColumn : Bool) : Res CSRMat :=
  readRows (libsvmLine P skipFirstColumn) recordsToCSRMat limit (r.rest.length + 1) 0 r
    { rowHeaders := [0], colIndexes := [], values := [] }

/-- mat/mat_io.go 79-95 `DenseMatFromCsv` with 195-243 `readFromCsv` -/
def denseMatFromCsv (P : Platform) (r : Reader) (limit : Int) (skipFirstColumn : Bool) (delimiter : Str)
    (defValue : F64) : Res DenseMat :=
  readRows (csvLine P skipFirstColumn delimiter defValue) recordsToDenseMat limit (r.rest.length + 1) 0 r
    { values := [], cols := 0, rows := 0 }

/-- mat/mat_io.go 256-267: fields of one row from column `j` -/
def writeFields (P : Platform) (m : DenseMat) (delimiter : Str) (i : Nat) : (j count : Nat) → Res Str
  | _, 0 => .ok []
  | j, n + 1 => do
    let v ← Res.idxI m.values (i * m.cols + j)
    let rest ← writeFields P m delimiter i (j + 1) n
    return P.formatG19 v ++ (if (j : Int) ≠ m.cols - 1 then delimiter else []) ++ rest

/-- mat/mat_io.go 255-272: rows from `i` -/
def writeRows (P : Platform) (m : DenseMat) (delimiter : Str) : (i count : Nat) → Res Str
  | _, 0 => .ok []
  | i, n + 1 => do
    let line ← writeFields P m delimiter i 0 m.cols.toNat
    let rest ← writeRows P m delimiter (i + 1) n
    return line ++ "\n".toList ++ rest

/-- mat/mat_io.go 246-274 `WriteStr`: the text written. Writers that fail are in `Model/Write`. -/
def writeStr (P : Platform) (m : DenseMat) (delimiter : Str) : Res Str :=
  if wrap64 (m.cols * m.rows) ≠ m.values.length then .err "matrix unconsistent"
  else if m.cols = 0 ∨ m.rows = 0 then .ok "\n".toList
  else writeRows P m delimiter 0 m.rows.toNat

end Leaves.Mat
