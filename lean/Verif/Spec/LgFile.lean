import Verif.Model.LgText
import Verif.Spec.Tree

/-!
# What a LightGBM text tree block means

The block's arrays (`LgArrays`: the parsed numbers of one tree block) read according to LightGBM's
documentation.
-/

namespace Leaves.Spec

/-- bits 2-3 of `decision_type`: missing type -/
def MissingOf (d : Nat) (m : Missing) : Prop :=
  (d / 4 % 4 = 0 ∧ m = .none) ∨ (d / 4 % 4 = 1 ∧ m = .zero) ∨ (d / 4 % 4 = 2 ∧ m = .nan)

/-- the words of category slot `c`: `cat_threshold[cat_boundaries[c] .. cat_boundaries[c+1])` -/
def Words (a : LgArrays) (c : Nat) (ws : List (BitVec 32)) : Prop :=
  ∃ s e, a.catBoundaries[c]? = some s ∧ a.catBoundaries[c + 1]? = some e ∧ s ≤ e ∧ e ≤ a.catThresholds.length ∧
    ws = (a.catThresholds.drop s).take (e - s)

/-- Inner node `i` of the block splits on feature `f` by `rule`: bit 0 of `decision_type` distinguishes
numerical from categorical splits, bit 1 is the default direction; the threshold of a categorical split is a
category slot. -/
def LgSplit (a : LgArrays) (i f : Nat) (rule : Rule) : Prop :=
  ∃ d thr m, a.decisionTypes[i]? = some d ∧ a.splitFeatures[i]? = some f ∧ a.thresholds[i]? = some thr ∧ MissingOf d m ∧
    ((d % 2 = 0 ∧ rule = .num ⟨m, decide (d / 2 % 2 = 1), thr⟩) ∨
     (d % 2 = 1 ∧ ∃ (c : Nat) (ws : List (BitVec 32)), IsVal thr c ∧ Words a c ws ∧ rule = .cat m (Member ws)))

/-- The subtree that child reference `i` denotes: non-negative references are inner nodes, `-k-1` is leaf `k`. -/
inductive LgShape (a : LgArrays) : Int → BTree → Prop
  | leaf (k : Nat) : LgShape a (-(k : Int) - 1) (.leaf k)
  | node (i : Nat) (li ri : Int) (l r : BTree) (hl : a.leftChilds[i]? = some li) (hr : a.rightChilds[i]? = some ri)
      (sl : LgShape a li l) (sr : LgShape a ri r) : LgShape a (i : Int) (.node i l r)

/-- the category words of inner node `i` number at most `w` -/
def WordsAtMost (a : LgArrays) (i w : Nat) : Prop :=
  ∀ d thr c ws, a.decisionTypes[i]? = some d → d % 2 = 1 → a.thresholds[i]? = some thr → IsVal thr (c : Nat) →
    Words a c ws → ws.length ≤ w

/-- The block describes the tree `T` with `n` inner nodes announced: no inner node is shared, every split is
readable, category sets are not empty and hold int32 categories, and the sizes fit into 32 bits. -/
structure LgTreeOK (a : LgArrays) (n : Nat) (T : BTree) : Prop where
  shape : LgShape a 0 T
  distinct : T.inner.Nodup
  bound : ∀ i ∈ T.inner, i < n
  small : n < 2 ^ 32
  leaves : ∀ k ∈ T.leaves, k < 2 ^ 32
  splits : ∀ i ∈ T.inner, ∃ f rule, LgSplit a i f rule
  cats : ∀ i ∈ T.inner, ∀ d thr c ws, a.decisionTypes[i]? = some d → d % 2 = 1 → a.thresholds[i]? = some thr →
    IsVal thr (c : Nat) → Words a c ws → (∃ n, Member ws n) ∧ ws.length ≤ 2 ^ 26 ∧ c + 1 < 2 ^ 32
  words : ∃ w : Nat → Nat, (∀ i ∈ T.inner, WordsAtMost a i (w i)) ∧ (T.inner.map w).sum < 2 ^ 32

/-- The arrays of a block that announces `n` inner nodes fit together: they have an entry for each of the nodes, children
that are inner nodes are among them, and categorical splits have their words. (They need not describe a tree: nodes may be
shared or form cycles.) -/
structure LgArraysFit (a : LgArrays) (n : Nat) : Prop where
  left : n ≤ a.leftChilds.length
  right : n ≤ a.rightChilds.length
  types : n ≤ a.decisionTypes.length
  features : n ≤ a.splitFeatures.length
  thresholds : n ≤ a.thresholds.length
  leftIn : ∀ i < n, ∀ c, a.leftChilds[i]? = some c → c < n
  rightIn : ∀ i < n, ∀ c, a.rightChilds[i]? = some c → c < n
  cats : ∀ i < n, ∀ d thr, a.decisionTypes[i]? = some d → d % 2 = 1 → a.thresholds[i]? = some thr →
    ∃ c ws, c + 1 < 2 ^ 32 ∧ IsVal thr (c : Nat) ∧ Words a c ws

end Leaves.Spec
