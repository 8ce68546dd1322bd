import Verif.Model.Predict
import Verif.Spec.Output

/-!
# What a leaf-index view of a model with `K` groups and `N` estimators is

In terms of a relation `reach fvals i k j`: on the row `fvals` the tree of estimator `i` and group `k` ends in its leaf
number `j`, and of a relation `count i k c`: that tree has `c` leaves.
-/

namespace Leaves.Spec

/-- the leaf numbers as floats, group by group -/
def LeafOutput (reach : Nat → Nat → Nat → Prop) (K N : Nat) (w : List F64) : Prop :=
  ∃ l : Nat → Nat → Nat, (∀ i < N, ∀ k < K, reach i k (l i k)) ∧ w.length = K * N ∧
    ∀ i < N, ∀ k < K, w[k * N + i]? = some (F64.ofNat (l i k))

/-- The model has a leaf-index view. It has an output for every tree; `NLeaves()` (of the model and of the view) gives the number
of leaves of every tree, in the order of the outputs; and a prediction succeeds exactly when there is room, the row is long enough, all
estimators are asked for and every tree can be evaluated, and then stores the leaf numbers. -/
def LeafView (P : Platform) (ens : Ensemble) (K N : Nat) (count : Nat → Nat → Nat → Prop) (reach : List F64 → Nat → Nat → Nat → Prop) : Prop :=
  ∃ view, ens.withLeafPredictions = .ok view ∧ view.nOutputGroups = ((K * N : Nat) : Int) ∧ view.nRawOutputGroups = K ∧
    view.nEstimators = .ok (N : Int) ∧ view.nFeatures = ens.nFeatures ∧
    (∃ L, ens.nLeaves = .ok L ∧ view.nLeaves = .ok L ∧ L.length = K * N ∧ ∀ i < N, ∀ k < K, ∃ c, L[k * N + i]? = some c ∧ count i k c) ∧
    ∀ fvals req m m', ((view.predict P fvals req m.length).run m = (.ok ⟨⟩, m') ↔
      K * N ≤ m.length ∧ ens.nFeatures ≤ fvals.length ∧ (req ≤ 0 ∨ (N : Int) ≤ req) ∧
        ∃ w, LeafOutput (reach fvals) K N w ∧ Stored m 0 w m')

end Leaves.Spec
