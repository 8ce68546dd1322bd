import Verif.Proofs.SkTree
import Verif.Props.XgTree

/-!
# C07, C08, C09, C23, C61 for scikit-learn trees

`Spec.SkTreeOK` says which tree the arrays of a fitted tree describe; `Spec.SkGoes` is scikit-learn's step. The leaf value
is `value * learning_rate + base` computed in float64 (`Platform.mulAdd`: with one or two roundings, as Go permits).
-/

namespace Leaves

open Spec Pickle

/-- C07 for every row, including NaN: the loaded tree returns exactly the scaled value of the leaf that the walk finds
when every NaN is read as 0. -/
theorem C07_sk_tree_value_nan (P : Platform) (t : SkTree) (T : BTree) (lr base : F64) (h : SkTreeOK t T)
    (hs : T.isLeaf = false) (ha : t.nodes.length * 24 ≤ P.maxAlloc) :
    ∃ t', lgTreeFromSklearn P t lr base = .ok t' ∧ ∀ fvals v,
      (∃ j, t'.predict P fvals = .ok (v, j)) ↔
        ∃ k x, Walk (SkGoes t.nodes (nanToZero fvals)) T k ∧ t.values[k]? = some x ∧ v = P.mulAdd x lr base := by
  obtain ⟨t', h1, -, -, idx, -, -, h2⟩ := sk_load P lr base h hs ha
  refine ⟨t', h1, fun fvals v => ?_⟩
  constructor
  · rintro ⟨j, hj⟩
    obtain ⟨k, w, -, x, hx, hv⟩ := ((h2 fvals).2 v j).1 hj
    exact ⟨k, x, w, hx, hv⟩
  · rintro ⟨k, x, w, hx, hv⟩
    exact ⟨idx k, ((h2 fvals).2 v _).2 ⟨k, w, rfl, x, hx, hv⟩⟩

/-- C07: on NaN-free rows the loaded tree returns exactly `value * learning_rate + base` of the leaf that scikit-learn's
walk finds. -/
theorem C07_sk_tree_value (P : Platform) (t : SkTree) (T : BTree) (lr base : F64) (h : SkTreeOK t T)
    (hs : T.isLeaf = false) (ha : t.nodes.length * 24 ≤ P.maxAlloc) :
    ∃ t', lgTreeFromSklearn P t lr base = .ok t' ∧ ∀ fvals, (∀ x ∈ fvals, x ≠ F64.nan) → ∀ v,
      (∃ j, t'.predict P fvals = .ok (v, j)) ↔
        ∃ k x, Walk (SkGoes t.nodes fvals) T k ∧ t.values[k]? = some x ∧ v = P.mulAdd x lr base := by
  obtain ⟨t', h1, h2⟩ := C07_sk_tree_value_nan P t T lr base h hs ha
  refine ⟨t', h1, fun fvals hn v => ?_⟩
  rw [h2, nanToZero_id hn]

/-- C07 for a tree without splits: every row that has at least one value gets the root's scaled value. -/
theorem C07_sk_single_leaf (P : Platform) (t : SkTree) (k : Nat) (lr base : F64) (h : SkTreeOK t (.leaf k)) :
    ∃ t' x, lgTreeFromSklearn P t lr base = .ok t' ∧ t.values[0]? = some x ∧
      ∀ fvals, fvals ≠ [] → t'.predict P fvals = .ok (P.mulAdd x lr base, 0) := by
  obtain ⟨-, v, ⟨x, hx, rfl⟩, h2⟩ := sk_load_leaf P lr base h
  refine ⟨_, x, h2, hx, fun fvals hne => ?_⟩
  cases fvals with
  | nil => exact absurd rfl hne
  | cons y ys =>
    unfold LgTree.predict
    rw [if_neg (by simp)]
    simp only [List.length_singleton]
    rw [LgTree.predictLoop]
    simp only [Res.idx, List.getElem?_cons_zero, Res.ok_bind]
    rw [show hasFlag (Flag.leftLeaf ||| Flag.rightLeaf) Flag.leftLeaf = true by decide,
      show hasFlag (Flag.leftLeaf ||| Flag.rightLeaf) Flag.rightLeaf = true by decide]
    unfold LgTree.decision
    rw [show hasFlag (Flag.leftLeaf ||| Flag.rightLeaf) Flag.categorical = false by decide]
    simp only [Bool.false_eq_true, if_false, Res.ok_bind, if_true, Res.pure_eq]
    split <;> simp

/-- C08: prediction on a loaded scikit-learn tree ends, whatever the feature vector. -/
theorem C08_sk_terminates (P : Platform) (t : SkTree) (T : BTree) (lr base : F64) (h : SkTreeOK t T)
    (hs : T.isLeaf = false) (ha : t.nodes.length * 24 ≤ P.maxAlloc) :
    ∃ t', lgTreeFromSklearn P t lr base = .ok t' ∧ ∀ fvals, t'.predict P fvals ≠ .hang := by
  obtain ⟨t', h1, -, -, idx, -, -, h2⟩ := sk_load P lr base h hs ha
  exact ⟨t', h1, fun fvals => (h2 fvals).1.1⟩

/-- C09 for one tree: if the split features are below the row's length, the prediction returns. -/
theorem C09_sk_no_panic (P : Platform) (t : SkTree) (T : BTree) (lr base : F64) (h : SkTreeOK t T)
    (hs : T.isLeaf = false) (ha : t.nodes.length * 24 ≤ P.maxAlloc) (m : Nat)
    (hfeat : ∀ i ∈ T.inner, ∀ n, t.nodes[i]? = some n → n.feature < m) :
    ∃ t', lgTreeFromSklearn P t lr base = .ok t' ∧ ∀ fvals, m ≤ fvals.length → ∃ v j, t'.predict P fvals = .ok (v, j) ∧
      j < T.leaves.length := by
  obtain ⟨t', h1, -, -, idx, hi, -, h2⟩ := sk_load P lr base h hs ha
  refine ⟨t', h1, fun fvals hlen => ?_⟩
  have hgo : ∀ i ∈ T.inner, ∃ b, SkGoes t.nodes (nanToZero fvals) i b := by
    intro i hi
    obtain ⟨n, hn, _⟩ := SkShape.inner_lt h.shape i hi
    have hf := hfeat i hi n hn
    have hf0 := h.features i hi n hn
    have hx : n.feature.toNat < (nanToZero fvals).length := by unfold nanToZero; rw [List.length_map]; omega
    classical
    exact ⟨decide (Le (nanToZero fvals)[n.feature.toNat] n.threshold), n, n.feature.toNat, _, hn, by omega,
      List.getElem?_eq_getElem hx, by simp⟩
  obtain ⟨k, hw, hk⟩ := walk_exists T hgo
  obtain ⟨n, hn, _⟩ := SkShape.leaves_lt h.shape k hk
  have hkv : k < t.values.length := by rw [h.values]; exact (List.getElem?_eq_some_iff.1 hn).1
  exact ⟨_, idx k, ((h2 fvals).2 _ _).2 ⟨k, hw, rfl, _, List.getElem?_eq_getElem hkv, rfl⟩, hi k hk⟩

/-- C61: the leaf indices reported for a loaded scikit-learn tree with a split number its leaves `0 … n-1`, one each. -/
theorem C61_sk_leaf_indices (P : Platform) (t : SkTree) (T : BTree) (lr base : F64) (h : SkTreeOK t T)
    (hs : T.isLeaf = false) (ha : t.nodes.length * 24 ≤ P.maxAlloc) :
    ∃ t' idx, lgTreeFromSklearn P t lr base = .ok t' ∧ ((T.leaves.map idx).Perm (List.range T.leaves.length) ∧ ∀ k ∈ T.leaves, T.counted[idx k]? = some k) ∧
      t'.nLeaves = T.leaves.length ∧
      ∀ fvals v j, t'.predict P fvals = .ok (v, j) → ∃ k, Walk (SkGoes t.nodes (nanToZero fvals)) T k ∧ j = idx k := by
  obtain ⟨t', h1, h3, -, idx, hi, hj, h2⟩ := sk_load P lr base h hs ha
  refine ⟨t', idx, h1, ⟨perm_range_of_inj (List.nodup_append.1 h.distinct).2.1 hi hj.1, hj.2⟩, h3, fun fvals v j hp => ?_⟩
  obtain ⟨k, w, rfl, _⟩ := ((h2 fvals).2 v j).1 hp
  exact ⟨k, w, rfl⟩

/-- C23 is false for every scikit-learn tree without splits: it has one leaf, `NLeaves()` counts two. -/
theorem C23_sk_single_leaf_counts_two (P : Platform) (t : SkTree) (k : Nat) (lr base : F64) (h : SkTreeOK t (.leaf k)) :
    ∃ t', lgTreeFromSklearn P t lr base = .ok t' ∧ t'.nLeaves = 2 ∧ t'.leafValues.length = 1 := by
  obtain ⟨-, v, -, h2⟩ := sk_load_leaf P lr base h
  exact ⟨_, h2, rfl, rfl⟩

/-! ### concrete trees -/

namespace SkExample

/-- an inner node -/
def split (l r f : Int) (thr : F64) : SkNode := ⟨l, r, f, thr, F64.zero, 1, F64.one⟩
/-- a leaf -/
def leaf : SkNode := ⟨-1, -1, -2, F64.ofInt (-2), F64.zero, 1, F64.one⟩

/-- depth-first numbering as scikit-learn writes it -/
def tree : SkTree where
  nOutputs := 1
  classes := [1]
  nNodes := 5
  nodes := [split 1 4 1 (F64.const 1 2), split 2 3 0 (F64.ofNat 3), leaf, leaf, leaf]
  values := [F64.zero, F64.zero, F64.ofNat 10, F64.ofNat 20, F64.ofNat 30]

/-- the example's tree -/
def shape : BTree := .node 0 (.node 1 (.leaf 2) (.leaf 3)) (.leaf 4)

theorem tree_ok : SkTreeOK tree shape where
  shape := by
    refine .node 0 _ 1 4 _ _ rfl rfl rfl ?_ (.leaf 4 _ rfl rfl)
    exact .node 1 _ 2 3 _ _ rfl rfl rfl (.leaf 2 _ rfl rfl) (.leaf 3 _ rfl rfl)
  distinct := by decide
  all := by decide
  nodeCount := rfl
  values := rfl
  features := by
    intro i hi n hn
    have : i = 0 ∨ i = 1 := by simpa [shape, BTree.inner] using hi
    rcases this with rfl | rfl <;> simp [tree] at hn <;> subst hn <;> simp [split]
  small := by decide

/-- The theorems apply to the example; with learning rate 2 and base 1 the leaves are worth 21, 41 and 61. -/
example : ∃ t', lgTreeFromSklearn Platform.demo tree (F64.ofNat 2) F64.one = .ok t' ∧
    t'.predict Platform.demo [F64.ofNat 3, F64.const 1 2] = .ok (F64.ofNat 21, 1) ∧
    t'.predict Platform.demo [F64.ofNat 4, F64.const 1 4] = .ok (F64.ofNat 41, 2) ∧
    t'.predict Platform.demo [F64.ofNat 3, F64.one] = .ok (F64.ofNat 61, 0) := by
  obtain ⟨t', h, _⟩ := C07_sk_tree_value Platform.demo tree shape (F64.ofNat 2) F64.one tree_ok rfl (by decide)
  refine ⟨t', h, ?_⟩
  have : lgTreeFromSklearn Platform.demo tree (F64.ofNat 2) F64.one = .ok
      { nodes := [⟨F64.const 1 2, 1, 0, 1, 0x08#8⟩, ⟨F64.ofNat 3, 1, 2, 0, 0x0c#8⟩],
        leafValues := [F64.ofNat 61, F64.ofNat 21, F64.ofNat 41] } := by decide +kernel
  rw [this] at h
  cases h
  decide +kernel

/-- a tree without splits -/
def stump : SkTree where
  nOutputs := 1
  classes := [1]
  nNodes := 1
  nodes := [leaf]
  values := [F64.ofNat 7]

theorem stump_ok : SkTreeOK stump (.leaf 0) where
  shape := .leaf 0 _ rfl rfl
  distinct := by decide
  all := by decide
  nodeCount := rfl
  values := rfl
  features := by simp [BTree.inner]
  small := by decide

example : ∃ t', lgTreeFromSklearn Platform.demo stump F64.one F64.zero = .ok t' ∧ t'.nLeaves = 2 ∧ t'.leafValues.length = 1 :=
  C23_sk_single_leaf_counts_two Platform.demo stump 0 F64.one F64.zero stump_ok

end SkExample
end Leaves
