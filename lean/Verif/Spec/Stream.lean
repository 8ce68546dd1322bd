import Verif.Model.Bufio

/-!
# Several models in one stream
-/

namespace Leaves.Spec

/-- the binary model formats -/
inductive Format where
  | xgTrees
  | xgLinear
  | sklearn
deriving DecidableEq

/-- the function that loads a model of this format -/
def Format.load (P : Platform) (lt : Bool) : Format → Bufio (BitVec 8) → Res (Ensemble × Bufio (BitVec 8))
  | .xgTrees => xgEnsembleFromReaderS P lt
  | .xgLinear => xgbLinearFromReaderS P lt
  | .sklearn => skEnsembleFromReaderS P lt

/-- what the function does with a file, given as a whole -/
def Format.loadFile (P : Platform) (lt : Bool) (f : Format) (file : List (BitVec 8)) : Res Ensemble :=
  loaderOf (f.load P lt) (Bufio.new { rest := file, lim := fun _ => 4096 })

/-- the file is loaded as this model, and no part of it that is cut off at the end is loaded -/
def WholeModel {σ α : Type} (load : List σ → Res α) (file : List σ) (a : α) : Prop :=
  load file = .ok a ∧ ∀ p q, file = p ++ q → q ≠ [] → ∀ a', load p ≠ .ok a'

/-- calls of loading functions one after another, with the same reader -/
def inTurn {ρ α : Type} : List (ρ → Res (α × ρ)) → ρ → Res (List α × ρ)
  | [], b => .ok ([], b)
  | f :: fs, b => do
    let (a, b) ← f b
    let (as, b) ← inTurn fs b
    return (a :: as, b)

end Leaves.Spec
