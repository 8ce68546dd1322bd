import Verif.Model.Res

/-!
# Files that have been cut off

`load file` is what a loading function does with the whole contents of a file.
-/

namespace Leaves.Spec

/-- Every accepted file begins with a part that stands for the model by itself: whatever follows this part, the same is loaded,
and a file that contains less than this part is rejected with an error. -/
def SelfDelimiting {σ α : Type} (load : List σ → Res α) : Prop :=
  ∀ file a, load file = .ok a → ∃ used rest, file = used ++ rest ∧ (∀ more, load (used ++ more) = .ok a) ∧
    ∀ p q, used = p ++ q → q ≠ [] → ∃ e, load p = .err e

end Leaves.Spec
