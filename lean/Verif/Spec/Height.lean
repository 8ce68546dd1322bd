import Verif.Spec.Tree

/-! # Levels of a tree -/

namespace Leaves.Spec

/-- the number of splits on the longest way from the root to a leaf -/
def BTree.height : BTree → Nat
  | .leaf _ => 0
  | .node _ l r => max l.height r.height + 1

end Leaves.Spec
