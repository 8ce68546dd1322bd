import Verif.Spec.LgModel
import Verif.Spec.LeafView

/-! # Vocabulary of C129: leaf values found by leaf number -/

namespace Leaves.Spec

/-- `x` is the value that the file gives for the leaf whose number has been stored for the tree of estimator `i` and group `k` -/
def LookedUp (ds : List TreeDesc) (K N : Nat) (numbers : List F64) (i k : Nat) (x : F64) : Prop :=
  ∃ (d : TreeDesc) (j : Nat), ds[i * K + k]? = some d ∧ numbers[k * N + i]? = some (F64.ofNat j) ∧ j < 2 ^ 32 ∧ d.leafValues[j]? = some x

end Leaves.Spec
