import Verif.Spec.Tree

/-! # Vocabulary of C133: the order in which the leaves of a tree are counted -/

namespace Leaves.Spec

/-- At every split first the leaves directly below it are counted, the left one before the right one; then the leaves further down on the right, then the
leaves further down on the left. -/
def BTree.counted : BTree → List Nat
  | .leaf k => [k]
  | .node _ (.leaf a) (.leaf b) => [a, b]
  | .node _ (.leaf a) (.node j l r) => a :: BTree.counted (.node j l r)
  | .node _ (.node j l r) (.leaf b) => b :: BTree.counted (.node j l r)
  | .node _ (.node j l r) (.node j' l' r') => BTree.counted (.node j' l' r') ++ BTree.counted (.node j l r)

end Leaves.Spec
