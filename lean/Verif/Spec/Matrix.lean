import Verif.Spec.Output

/-! # Rows of matrices -/

namespace Leaves.Spec

/-- row `i` of a row-major matrix with `ncols` columns; it must lie in the array -/
def DenseRow (vals : List F64) (ncols i : Nat) (row : List F64) : Prop :=
  row.length = ncols ∧ ∀ j < ncols, ∃ x, vals[i * ncols + j]? = some x ∧ row[j]? = some x

/-- Row `i` of a compressed sparse row matrix, written out with `nf` columns. The entries of the row are those at
positions `a ≤ j < b`, `a` and `b` being the row's pointers. All of them must exist; columns from `nf` on are
ignored; of several entries for a column the last counts; columns without an entry get the default. -/
def SparseRow (indptr cols : List Int) (vals : List F64) (nf : Nat) (dflt : F64) (i : Nat) (row : List F64) : Prop :=
  ∃ a b : Int, indptr[i]? = some a ∧ indptr[i + 1]? = some b ∧
    (∀ j : Int, a ≤ j → j < b → 0 ≤ j ∧ ∃ c, cols[j.toNat]? = some c ∧ (c < nf → 0 ≤ c ∧ ∃ v, vals[j.toNat]? = some v)) ∧
    row.length = nf ∧ ∀ k < nf,
      (∃ j : Nat, a ≤ j ∧ j < b ∧ cols[j]? = some (k : Int) ∧ row[k]? = vals[j]? ∧
        ∀ j' : Nat, j < j' → j' < b → cols[j']? ≠ some (k : Int)) ∨
      ((∀ j : Nat, a ≤ j → j < b → cols[j]? ≠ some (k : Int)) ∧ row[k]? = some dflt)

/-- the value of columns that a sparse row does not list: NaN (missing) for XGBoost trees, 0 for all others -/
def dflt (b : Base) : F64 :=
  match core b with
  | .xg _ => F64.nan
  | _ => F64.zero

/-- `m'` is `m` with `outs 0, …, outs (r-1)`, of width `w` each, stored side by side from the beginning -/
def StoredRows (m : List F64) (w r : Nat) (outs : Nat → List F64) (m' : List F64) : Prop :=
  r * w ≤ m.length ∧ m'.length = m.length ∧ (∀ i < r, (outs i).length = w) ∧
  (∀ i < r, ∀ k < w, m'[i * w + k]? = (outs i)[k]?) ∧ ∀ j, r * w ≤ j → m'[j]? = m[j]?

end Leaves.Spec
