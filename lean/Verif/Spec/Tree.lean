import Verif.Spec.Split

/-! # Binary trees and walking them -/

namespace Leaves.Spec

/-- a binary tree with numbered inner nodes and leaves -/
inductive BTree where
  | leaf (k : Nat)
  | node (i : Nat) (l r : BTree)
deriving DecidableEq

namespace BTree

/-- numbers of the inner nodes -/
def inner : BTree → List Nat
  | leaf _ => []
  | node i l r => i :: (r.inner ++ l.inner)

/-- numbers of the leaves -/
def leaves : BTree → List Nat
  | leaf k => [k]
  | node _ l r => l.leaves ++ r.leaves

/-- number of inner nodes -/
def size : BTree → Nat
  | leaf _ => 0
  | node _ l r => l.size + r.size + 1

/-- is it a leaf -/
def isLeaf : BTree → Bool
  | leaf _ => true
  | node .. => false

theorem inner_length (t : BTree) : t.inner.length = t.size := by
  induction t with
  | leaf k => rfl
  | node i l r hl hr => simp [inner, size, hl, hr]; omega

end BTree

/-- Walking from the root: at inner node `i` the walk goes left when `goes i true` and right when
`goes i false`; it ends at a leaf. -/
inductive Walk (goes : Nat → Bool → Prop) : BTree → Nat → Prop
  | leaf (k : Nat) : Walk goes (.leaf k) k
  | left {i k : Nat} {l r : BTree} (h : goes i true) (w : Walk goes l k) : Walk goes (.node i l r) k
  | right {i k : Nat} {l r : BTree} (h : goes i false) (w : Walk goes r k) : Walk goes (.node i l r) k

end Leaves.Spec
