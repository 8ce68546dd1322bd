import Verif.Model.PickleClass
import Verif.Spec.Tree

/-!
# What the arrays of a fitted scikit-learn regression tree mean

sklearn/tree/_tree.pxd: a node is a leaf iff its left child is -1 (TREE_LEAF); an inner node sends a sample left iff
`X[feature] <= threshold`; the value array is indexed by node number.
-/

namespace Leaves.Spec

open Pickle

/-- The subtree at array position `i`. Leaves are numbered by their position. -/
inductive SkShape (nodes : List SkNode) : Nat → BTree → Prop
  | leaf (i : Nat) (n : SkNode) (hn : nodes[i]? = some n) (hl : n.leftChild = -1) : SkShape nodes i (.leaf i)
  | node (i : Nat) (n : SkNode) (li ri : Nat) (l r : BTree) (hn : nodes[i]? = some n) (hl : n.leftChild = li)
      (hr : n.rightChild = ri) (sl : SkShape nodes li l) (sr : SkShape nodes ri r) : SkShape nodes i (.node i l r)

/-- the feature vector goes left (`true`) or right (`false`) at node `i` -/
def SkGoes (nodes : List SkNode) (fvals : List F64) (i : Nat) (b : Bool) : Prop :=
  ∃ n f x, nodes[i]? = some n ∧ n.feature = (f : Nat) ∧ fvals[f]? = some x ∧ (b = true ↔ Le x n.threshold)

/-- the row with every NaN replaced by 0 -/
def nanToZero (fvals : List F64) : List F64 := fvals.map fun x => if x = .nan then .zero else x

/-- The array describes the tree `T`, each entry being one of its nodes, with a value for every entry and features that
fit into 32 bits. -/
structure SkTreeOK (t : SkTree) (T : BTree) : Prop where
  shape : SkShape t.nodes 0 T
  distinct : (T.inner ++ T.leaves).Nodup
  all : ∀ i, i < t.nodes.length → i ∈ T.inner ∨ i ∈ T.leaves
  nodeCount : t.nNodes = t.nodes.length
  values : t.values.length = t.nodes.length
  features : ∀ i ∈ T.inner, ∀ n, t.nodes[i]? = some n → 0 ≤ n.feature ∧ n.feature < 2 ^ 32
  small : t.nodes.length < 2 ^ 32 - 1

/-- The arrays of a tree fit together: either no node is inner and there is a value, or node 0 is inner, the children of
inner nodes are nodes, and those that are leaves have a value. (Nodes may be shared or form cycles.) -/
structure SkTreeFit (P : Platform) (t : SkTree) : Prop where
  count : t.nNodes = t.nodes.length
  memory : t.nodes.length < 2 ^ 32 ∧ t.nodes.length * 24 ≤ P.maxAlloc
  values : t.values ≠ []
  root : ∀ n ∈ t.nodes, 0 ≤ n.leftChild → ∃ r, t.nodes[0]? = some r ∧ 0 ≤ r.leftChild
  left : ∀ n ∈ t.nodes, 0 ≤ n.leftChild → ∃ c : Nat, n.leftChild = c ∧ ∃ m, t.nodes[c]? = some m ∧ (m.leftChild < 0 → c < t.values.length)
  right : ∀ n ∈ t.nodes, 0 ≤ n.leftChild → ∃ c : Nat, n.rightChild = c ∧ ∃ m, t.nodes[c]? = some m ∧ (m.leftChild < 0 → c < t.values.length)

/-- The description of a model fits together: the number of outputs is not negative, the initial estimator has a value, all
trees fit, and the sizes do not exceed the memory. -/
structure SkFit (P : Platform) (g : SkBoosting) : Prop where
  classes : 0 ≤ g.nClasses
  prior : g.nClasses ≠ 0 → g.initEstimator.prior ≠ []
  estimators : 0 ≤ g.nEstimators
  size : g.nEstimators * g.nClasses * 104 ≤ P.maxAlloc ∧ g.nClasses * 8 ≤ P.maxAlloc ∧ g.nEstimators * g.nClasses < 2 ^ 63
  trees : ∀ e ∈ g.estimators, SkTreeFit P e.tree

end Leaves.Spec
