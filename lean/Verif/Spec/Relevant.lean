import Verif.Spec.Output

/-! # Which features a model looks at -/

namespace Leaves.Spec

/-- a split of the tree tests feature `f` -/
def TreeTests (t : LgTree) (f : Nat) : Prop := ∃ node ∈ t.nodes, node.feature = f

/-- the model looks at feature `f`: a split of one of its trees tests it, or it is one of a linear model's features -/
def Tests (b : Base) (f : Nat) : Prop :=
  match core b with
  | .lg e => ∃ t ∈ e.trees, TreeTests t f
  | .xg e => ∃ t ∈ e.trees, TreeTests t f
  | .lin e => (f : Int) < e.numFeature
  | .wrap .. => False

/-- two rows have the same value, or both none, at `f` -/
def SameAt (row row' : List F64) (f : Nat) : Prop := row[f]? = row'[f]?

end Leaves.Spec
