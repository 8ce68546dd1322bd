import Verif.Model.XgBin
import Verif.Spec.Tree

/-!
# What an XGBoost node array means

Written against XGBoost's own description of its node array (include/xgboost/tree_model.h): a node is a leaf iff its left
child is -1; the top bit of the split index is the default direction, the remaining 31 bits are the feature; the split
condition and the leaf value are float32.
-/

namespace Leaves.Spec

open XgBin

/-- the point denoted by a float32 bit pattern -/
def value32 (b : BitVec 32) : Option Line :=
  let e : Nat := b.toNat / 2 ^ 23 % 2 ^ 8
  let f : Nat := b.toNat % 2 ^ 23
  let s : ℚ := if b.toNat / 2 ^ 31 = 1 then -1 else 1
  if e = 255 then
    if f ≠ 0 then none else if b.toNat / 2 ^ 31 = 1 then some ⊥ else some ((⊤ : WithTop ℚ) : Line)
  else if e = 0 then some (pt (s * (f / 2 ^ 149)))
  else some (pt (s * ((2 ^ 23 + f) * 2 ^ e / 2 ^ 150)))

/-- The subtree at array position `i`. Leaves are numbered by their position. -/
inductive XgShape (nodes : List Node) : Nat → BTree → Prop
  | leaf (i : Nat) (n : Node) (hn : nodes[i]? = some n) (hl : n.cLeft.toInt = -1) : XgShape nodes i (.leaf i)
  | node (i : Nat) (n : Node) (li ri : Nat) (l r : BTree) (hn : nodes[i]? = some n) (hl : n.cLeft.toInt = li)
      (hr : n.cRight.toInt = ri) (sl : XgShape nodes li l) (sr : XgShape nodes ri r) : XgShape nodes i (.node i l r)

/-- feature of a node -/
def xgFeature (n : Node) : Nat := n.sIndex.toNat % 2 ^ 31

/-- a missing value goes left -/
def XgDefaultLeft (n : Node) : Prop := n.sIndex.toNat / 2 ^ 31 = 1

/-- XGBoost's rule: missing (NaN) to the default child, otherwise left iff value < split condition -/
def XgLeft (n : Node) (x : F64) : Prop :=
  (x = .nan ∧ XgDefaultLeft n) ∨ ∃ a c, value x = some a ∧ value32 n.info = some c ∧ a < c

/-- the feature vector goes left (`true`) or right (`false`) at node `i` -/
def XgGoes (nodes : List Node) (fvals : List F64) (i : Nat) (b : Bool) : Prop :=
  ∃ n x, nodes[i]? = some n ∧ fvals[xgFeature n]? = some x ∧ (b = true ↔ XgLeft n x)

/-- the same with `<=` -/
def XgLeftLe (n : Node) (x : F64) : Prop :=
  (x = .nan ∧ XgDefaultLeft n) ∨ ∃ a c, value x = some a ∧ value32 n.info = some c ∧ a ≤ c

/-- the same with `<=` -/
def XgGoesLe (nodes : List Node) (fvals : List F64) (i : Nat) (b : Bool) : Prop :=
  ∃ n x, nodes[i]? = some n ∧ fvals[xgFeature n]? = some x ∧ (b = true ↔ XgLeftLe n x)

/-- the row has a value equal to the split condition of one of the tree's inner nodes -/
def XgTie (nodes : List Node) (T : BTree) (fvals : List F64) : Prop :=
  ∃ i ∈ T.inner, ∃ n x a, nodes[i]? = some n ∧ fvals[xgFeature n]? = some x ∧ value x = some a ∧ value32 n.info = some a

/-- leaf `k` has value `v`: the float32 widened to float64 (a zero keeps its sign) -/
def XgVal (nodes : List Node) (k : Nat) (v : F64) : Prop :=
  ∃ n, nodes[k]? = some n ∧ v = F64.ofBits32 n.info

/-- The node array describes the tree `T` with at least one split: no node is used twice. -/
structure XgTreeOK (t : TreeModel) (T : BTree) : Prop where
  numNodes : t.param.numNodes.toInt = t.nodes.length
  roots : t.param.numRoots.toInt = 1
  shape : XgShape t.nodes 0 T
  distinct : (T.inner ++ T.leaves).Nodup
  split : T.isLeaf = false

end Leaves.Spec
