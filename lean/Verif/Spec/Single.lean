import Verif.Spec.XgModel
import Verif.Spec.SkModel

/-!
# Vocabulary of C106: rows rounded to float32

XGBoost stores features as float32 (its `Entry.fvalue` is `bst_float`), and scikit-learn converts a matrix to float32 before walking its
trees (`DTYPE`).
-/

namespace Leaves.Spec

open XgBin Pickle

/-- `b` is `x` rounded to float32, in whatever direction: NaN for NaN, and no float32 lies strictly between `x` and `b`. -/
def Rounds32 (x : F64) (b : BitVec 32) : Prop :=
  (value x = none ∧ value32 b = none) ∨
  ∃ a a', value x = some a ∧ value32 b = some a' ∧ ∀ c t, value32 c = some t → (a ≤ t → a' ≤ t) ∧ (t ≤ a → t ≤ a')

/-- the row that the training library sees -/
def Row32 (row : List F64) (row32 : List (BitVec 32)) : Prop := List.Forall₂ Rounds32 row row32

/-- the float32 values as float64 -/
def widen (row32 : List (BitVec 32)) : List F64 := row32.map F64.ofBits32

/-- Rounding has moved a value up, or not at all, to the split condition of one of the tree's inner nodes. -/
def XgRoundedTie (nodes : List Node) (T : BTree) (row : List F64) (row32 : List (BitVec 32)) : Prop :=
  ∃ i ∈ T.inner, ∃ n x b a c, nodes[i]? = some n ∧ row[xgFeature n]? = some x ∧ row32[xgFeature n]? = some b ∧
    value x = some a ∧ value32 b = some c ∧ value32 n.info = some c ∧ a ≤ c

/-- … of some tree -/
def XgModel.RoundedTie (m : XgModel) (row : List F64) (row32 : List (BitVec 32)) : Prop :=
  ∃ (i : Nat) (t : TreeModel) (T : BTree), m.gbtree.trees[i]? = some t ∧ m.shapes[i]? = some T ∧ XgRoundedTie t.nodes T row row32

/-- Rounding has moved a value across the threshold of one of the tree's inner nodes. -/
def SkCrossing (nodes : List SkNode) (T : BTree) (row : List F64) (row32 : List (BitVec 32)) : Prop :=
  ∃ i ∈ T.inner, ∃ n f x b a a' t, nodes[i]? = some n ∧ n.feature = (f : Nat) ∧ row[f]? = some x ∧ row32[f]? = some b ∧
    value x = some a ∧ value32 b = some a' ∧ value n.threshold = some t ∧ ((a ≤ t ∧ t < a') ∨ (a' ≤ t ∧ t < a))

/-- … of some tree -/
def SkModel.Crossing (m : SkModel) (row : List F64) (row32 : List (BitVec 32)) : Prop :=
  ∃ (i : Nat) (t : SkTree) (T : BTree), m.trees[i]? = some t ∧ m.shapes[i]? = some T ∧ SkCrossing t.nodes T row row32

end Leaves.Spec
