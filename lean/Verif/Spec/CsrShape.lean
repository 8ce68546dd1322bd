import Verif.Spec.Matrix

/-!
# What a compressed sparse row matrix is
-/

namespace Leaves.Spec

/-- The three arrays hold a compressed sparse row matrix with `r` rows and `ncols` columns: `r + 1` row pointers that begin with 0,
do not decrease and end with the number of entries; as many columns as values, each column in range. -/
structure IsCSR (indptr cols : List Int) (vals : List F64) (r ncols : Nat) : Prop where
  pointers : indptr.length = r + 1
  first : indptr[0]? = some 0
  monotone : ∀ (i : Nat) (a b : Int), indptr[i]? = some a → indptr[i + 1]? = some b → a ≤ b
  last : indptr[r]? = some (cols.length : Int)
  values : vals.length = cols.length
  range : ∀ c ∈ cols, 0 ≤ c ∧ c < ncols

end Leaves.Spec
