import Verif.Spec.Params
import Verif.Spec.Matrix
import Verif.Model.Mat

/-! # Matrices and their text forms -/

namespace Leaves.Spec

open Mat

/-- a sparse matrix given by its rows, each a list of (column, value) -/
abbrev SRows := List (List (Nat × F64))

/-- The compressed form of the rows: values and columns row after row; pointer `i` is the number of entries before row `i`. -/
structure CsrOf (rows : SRows) (m : CSRMat) : Prop where
  values : m.values = rows.flatten.map Prod.snd
  columns : m.colIndexes = rows.flatten.map fun e => (e.1 : Int)
  count : m.rowHeaders.length = rows.length + 1
  pointers : ∀ i ≤ rows.length, m.rowHeaders[i]? = some (((rows.take i).map List.length).sum : Int)

/-- the shape of a compressed matrix -/
structure CsrValid (m : CSRMat) : Prop where
  start : m.rowHeaders[0]? = some 0
  increasing : ∀ (i : Nat) (a b : Int), m.rowHeaders[i]? = some a → m.rowHeaders[i + 1]? = some b → a ≤ b
  stop : m.rowHeaders.getLast? = some (m.values.length : Int)
  columns : m.colIndexes.length = m.values.length

/-- what a full matrix with `c` columns and these rows is stored as -/
structure DenseOf (rows : List (List F64)) (c : Nat) (m : DenseMat) : Prop where
  values : m.values = rows.flatten
  rows : m.rows = rows.length
  cols : m.cols = c

/-- the first `limit` of the rows, all of them if `limit` is not positive -/
def firstRows {α : Type} (limit : Int) (rows : List α) : List α := if limit ≤ 0 then rows else rows.take limit.toNat

/-- an entry in libsvm format -/
def svmEntry (print : F64 → Str) (e : Nat × F64) : Str := decimal e.1 ++ ':' :: print e.2

/-- a row in libsvm format -/
def svmLine (print : F64 → Str) (label : Str) (row : List (Nat × F64)) : Str := join " ".toList (label :: row.map (svmEntry print))

/-- a row in libsvm format without label -/
def svmBareLine (print : F64 → Str) (row : List (Nat × F64)) : Str := join " ".toList (row.map (svmEntry print))

/-- a row of delimited fields, `none` for an absent value, after the fields `lead` -/
def csvLine (print : F64 → Str) (delimiter : Str) (lead : List Str) (row : List (Option F64)) : Str :=
  join delimiter (lead ++ row.map fun v => match v with | some v => print v | none => [])

/-- the row `0:v₀ 1:v₁ …` -/
def indexed (row : List F64) : List (Nat × F64) := row.zipIdx.map fun x => (x.2, x.1)

/-- lines, each with its newline -/
def linesText (lines : List Str) : Str := lines.flatMap fun s => s ++ ['\n']

/-- The number is written without white space and without the characters in `avoid`, and reading the text gives the
number. -/
structure PrintsBack (P : Platform) (print : F64 → Str) (avoid : Str) (x : F64) : Prop where
  parse : P.parseFloat (print x) = some x
  nonempty : print x ≠ []
  white : ∀ c ∈ print x, ¬ whiteSpace c
  avoids : ∀ c ∈ print x, c ∉ avoid

/-- the values of a row, absent ones replaced -/
def filled (dflt : F64) (row : List (Option F64)) : List F64 := row.map fun v => v.getD dflt

end Leaves.Spec
