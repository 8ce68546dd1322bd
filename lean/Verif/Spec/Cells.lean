import Verif.Spec.Relevant
import Verif.Spec.Split

/-! # Vocabulary of C105: values on the same side of all splits -/

namespace Leaves.Spec

/-- The split does not separate the values. Numerical: both or none are NaN, none lies between them and the threshold, and, where small
numbers count as missing, both or none are small. Categorical: they are the same, or have the same integer part. -/
def SameSide (node : LgNode) (x y : F64) : Prop :=
  if hasFlag node.flags Flag.categorical then
    x = y ∨ ∃ c : Int, (∃ q, IsVal x q ∧ c = truncQ q) ∧ (∃ q, IsVal y q ∧ c = truncQ q) ∧ -2 ^ 31 ≤ c ∧ c < 2 ^ 31
  else (x = .nan ↔ y = .nan) ∧ (Le x node.threshold ↔ Le y node.threshold) ∧
    (hasFlag node.flags Flag.missingZero = true → (Within (-zeroBound) zeroBound x ↔ Within (-zeroBound) zeroBound y))

/-- … in the two rows: both have no value for the feature that the split tests, or values that it does not separate -/
def SameSideIn (node : LgNode) (row row' : List F64) : Prop :=
  (row[node.feature]? = none ∧ row'[node.feature]? = none) ∨
  ∃ x y, row[node.feature]? = some x ∧ row'[node.feature]? = some y ∧ SameSide node x y

/-- No split of the model separates the rows. A linear model has no splits and distinguishes all values. -/
def SameCell (b : Base) (row row' : List F64) : Prop :=
  match core b with
  | .lg e => ∀ t ∈ e.trees, ∀ node ∈ t.nodes, SameSideIn node row row'
  | .xg e => ∀ t ∈ e.trees, ∀ node ∈ t.nodes, SameSideIn node row row'
  | .lin e => ∀ f : Nat, (f : Int) < e.numFeature → SameAt row row' f
  | .wrap .. => False

/-- The rows have the same numbers (or both NaN) everywhere; the two zeros are the same number. -/
def SameNumbers (row row' : List F64) : Prop := List.Forall₂ (fun x y => value x = value y) row row'

end Leaves.Spec
