import Verif.Spec.MatText

/-! # Rows given by their entries -/

namespace Leaves.Spec

/-- the value of the last entry for column `k` -/
def lastOf (k : Nat) : List (Nat × F64) → Option F64
  | [] => none
  | (c, v) :: es => (lastOf k es).or (if c = k then some v else none)

/-- the row with `nf` columns that the entries describe: the last entry of each column, the default where there is none -/
def written (nf : Nat) (d : F64) (es : List (Nat × F64)) : List F64 := (List.range nf).map fun k => (lastOf k es).getD d

end Leaves.Spec
