import Verif.Spec.Output

/-! # Vocabulary of C107 -/

namespace Leaves.Spec

/-- A model of trees, none with more than 2^53 leaves: their numbers are exact as float64. -/
def SmallTrees (b : Base) : Prop :=
  match core b with
  | .lg e => ∀ t ∈ e.trees, t.leafValues.length ≤ 2 ^ 53
  | .xg e => ∀ t ∈ e.trees, t.leafValues.length ≤ 2 ^ 53
  | .lin _ => False
  | .wrap .. => False

end Leaves.Spec
