import Verif.Proofs.XgTree
import Mathlib.Data.List.Perm.Subperm

/-!
# C06, C08, C09, C61 for the trees of XGBoost models

`Spec.XgTreeOK` says which tree a node array describes; `Spec.XgGoes` is XGBoost's own step.
-/

namespace Leaves

open Spec XgBin

/-- C06, as the code does it: the loaded tree returns exactly the leaf value that the walk with `<=` finds. -/
theorem C06_xg_tree_value_le (P : Platform) (t : TreeModel) (T : BTree) (nf : BitVec 32) (h : XgTreeOK t T)
    (hf : t.param.numFeature.toInt ≤ nf.toInt) (ha : t.nodes.length * 24 ≤ P.maxAlloc) :
    ∃ t', xgTreeFromTreeModel P t nf = .ok t' ∧ ∀ fvals v,
      (∃ j, t'.predict P fvals = .ok (v, j)) ↔ ∃ k, Walk (XgGoesLe t.nodes fvals) T k ∧ XgVal t.nodes k v := by
  obtain ⟨t', h1, -, -, idx, -, -, h2⟩ := xg_load P h hf ha
  refine ⟨t', h1, fun fvals v => ?_⟩
  constructor
  · rintro ⟨j, hj⟩
    obtain ⟨k, w, -, hv⟩ := ((h2 fvals).2 v j).1 hj
    exact ⟨k, w, hv⟩
  · rintro ⟨k, w, hv⟩
    exact ⟨idx k, ((h2 fvals).2 v _).2 ⟨k, w, rfl, hv⟩⟩

/-- C06 for rows without a tie: the loaded tree returns exactly the leaf value that XGBoost's walk finds. Missing for
the full claim: rows in which a value equals a split condition, where it is false (`XgExample.C06_tie_fails`). -/
theorem C06_xg_tree_value_partial (P : Platform) (t : TreeModel) (T : BTree) (nf : BitVec 32) (h : XgTreeOK t T)
    (hf : t.param.numFeature.toInt ≤ nf.toInt) (ha : t.nodes.length * 24 ≤ P.maxAlloc) :
    ∃ t', xgTreeFromTreeModel P t nf = .ok t' ∧ ∀ fvals, ¬ XgTie t.nodes T fvals → ∀ v,
      (∃ j, t'.predict P fvals = .ok (v, j)) ↔ ∃ k, Walk (XgGoes t.nodes fvals) T k ∧ XgVal t.nodes k v := by
  obtain ⟨t', h1, h2⟩ := C06_xg_tree_value_le P t T nf h hf ha
  refine ⟨t', h1, fun fvals ht v => ?_⟩
  rw [h2]
  exact exists_congr fun k => and_congr_left fun _ => Walk.iff fun i hi b => (xg_noTie ht hi b).symm

/-- C06, one-node tree: every row gets that node's value. -/
theorem C06_xg_single_leaf (P : Platform) (t : TreeModel) (n : Node) (nf : BitVec 32) (hn : t.nodes = [n])
    (h1 : t.param.numNodes.toInt = 1) (h2 : t.param.numRoots.toInt = 1) (hf : t.param.numFeature.toInt ≤ nf.toInt) :
    ∃ t', xgTreeFromTreeModel P t nf = .ok t' ∧ ∀ fvals, t'.predict P fvals = .ok (F64.ofBits32 n.info, 0) := by
  refine ⟨{ leafValues := [F64.ofBits32 n.info] }, ?_, fun fvals => rfl⟩
  unfold xgTreeFromTreeModel
  rw [if_neg (by omega), if_neg (by rw [h2]; simp), if_neg (by rw [h1]; simp)]
  dsimp only
  rw [h1, if_pos rfl, hn]
  rfl

/-- The float32 numbers of the file are exact in the loaded tree. -/
theorem C06_float32_exact (b : BitVec 32) : value (F64.ofBits32 b) = value32 b := F64.value_ofBits32 b

/-- C08: prediction on a loaded XGBoost tree ends, whatever the feature vector. -/
theorem C08_xg_terminates (P : Platform) (t : TreeModel) (T : BTree) (nf : BitVec 32) (h : XgTreeOK t T)
    (hf : t.param.numFeature.toInt ≤ nf.toInt) (ha : t.nodes.length * 24 ≤ P.maxAlloc) :
    ∃ t', xgTreeFromTreeModel P t nf = .ok t' ∧ ∀ fvals, t'.predict P fvals ≠ .hang := by
  obtain ⟨t', h1, -, -, idx, -, -, h2⟩ := xg_load P h hf ha
  exact ⟨t', h1, fun fvals => (h2 fvals).1.1⟩

/-- C09 for one tree: if the split features are below the row's length, the prediction returns. -/
theorem C09_xg_no_panic (P : Platform) (t : TreeModel) (T : BTree) (nf : BitVec 32) (h : XgTreeOK t T)
    (hf : t.param.numFeature.toInt ≤ nf.toInt) (ha : t.nodes.length * 24 ≤ P.maxAlloc) (m : Nat)
    (hfeat : ∀ i ∈ T.inner, ∀ n, t.nodes[i]? = some n → xgFeature n < m) :
    ∃ t', xgTreeFromTreeModel P t nf = .ok t' ∧ ∀ fvals, m ≤ fvals.length → ∃ v j, t'.predict P fvals = .ok (v, j) ∧
      j < T.leaves.length := by
  obtain ⟨t', h1, -, -, idx, hi, -, h2⟩ := xg_load P h hf ha
  refine ⟨t', h1, fun fvals hlen => ?_⟩
  have hgo : ∀ i ∈ T.inner, ∃ b, XgGoesLe t.nodes fvals i b := by
    intro i hi
    obtain ⟨n, hn⟩ := XgShape.inner_get h.shape i hi
    have hx : xgFeature n < fvals.length := by have := hfeat i hi n hn; omega
    classical
    exact ⟨decide (XgLeftLe n fvals[xgFeature n]), n, _, hn, List.getElem?_eq_getElem hx, by simp⟩
  obtain ⟨k, hw, hk⟩ := walk_exists T hgo
  obtain ⟨v, hv⟩ := XgShape.leaf_val h.shape k hk
  exact ⟨v, idx k, ((h2 fvals).2 v _).2 ⟨k, hw, rfl, hv⟩, hi k hk⟩

/-- an injective numbering of `n` different leaves below `n` is a permutation of `0 … n-1` -/
theorem perm_range_of_inj {l : List Nat} (hnd : l.Nodup) {idx : Nat → Nat} (h1 : ∀ k ∈ l, idx k < l.length)
    (h2 : ∀ k ∈ l, ∀ k' ∈ l, idx k = idx k' → k = k') : (l.map idx).Perm (List.range l.length) := by
  have hn : (l.map idx).Nodup := List.Nodup.map_on h2 hnd
  refine (List.subperm_of_subset hn ?_).perm_of_length_le (by simp)
  intro x hx
  obtain ⟨k, hk, rfl⟩ := List.mem_map.1 hx
  exact List.mem_range.2 (h1 k hk)

/-- C61: the leaf indices reported for a loaded XGBoost tree number its leaves: they are `0 … n-1` for the `n` leaves of
the file's tree, one each, and the index reported for a row is that of the leaf its walk ends in. -/
theorem C61_xg_leaf_indices (P : Platform) (t : TreeModel) (T : BTree) (nf : BitVec 32) (h : XgTreeOK t T)
    (hf : t.param.numFeature.toInt ≤ nf.toInt) (ha : t.nodes.length * 24 ≤ P.maxAlloc) :
    ∃ t' idx, xgTreeFromTreeModel P t nf = .ok t' ∧ ((T.leaves.map idx).Perm (List.range T.leaves.length) ∧ ∀ k ∈ T.leaves, T.counted[idx k]? = some k) ∧
      t'.nLeaves = T.leaves.length ∧
      ∀ fvals v j, t'.predict P fvals = .ok (v, j) → ∃ k, Walk (XgGoesLe t.nodes fvals) T k ∧ j = idx k := by
  obtain ⟨t', h1, h3, -, idx, hi, hj, h2⟩ := xg_load P h hf ha
  refine ⟨t', idx, h1, ⟨perm_range_of_inj (List.nodup_append.1 h.distinct).2.1 hi hj.1, hj.2⟩, h3, fun fvals v j hp => ?_⟩
  obtain ⟨k, w, rfl, _⟩ := ((h2 fvals).2 v j).1 hp
  exact ⟨k, w, rfl⟩

/-! ### a concrete tree -/

namespace XgExample

/-- nodes: root (feature 1, default left, split condition 0.5), a second split (feature 0, condition -2) to its right,
leaves 0.25, -1, 3 -/
def nodes : List Node :=
  [⟨0#32, 1#32, 2#32, 0x80000001#32, 0x3f000000#32⟩,
   ⟨0#32, -1#32, -1#32, 0#32, 0x3e800000#32⟩,
   ⟨0#32, 3#32, 4#32, 0#32, 0xc0000000#32⟩,
   ⟨2#32, -1#32, -1#32, 0#32, 0xbf800000#32⟩,
   ⟨2#32, -1#32, -1#32, 0#32, 0x40400000#32⟩]

/-- the example's record -/
def model : TreeModel := { param := ⟨1#32, 5#32, 0#32, 2#32, 2#32, 0#32, []⟩, nodes := nodes, stats := [] }

/-- the example's tree -/
def tree : BTree := .node 0 (.leaf 1) (.node 2 (.leaf 3) (.leaf 4))

theorem tree_ok : XgTreeOK model tree where
  numNodes := by decide
  roots := by decide
  shape := by
    refine .node 0 _ 1 2 _ _ rfl (by decide) (by decide) (.leaf 1 _ rfl (by decide)) ?_
    exact .node 2 _ 3 4 _ _ rfl (by decide) (by decide) (.leaf 3 _ rfl (by decide)) (.leaf 4 _ rfl (by decide))
  distinct := by decide
  split := rfl

/-- what the loaded tree is -/
def loaded : LgTree :=
  { nodes := [⟨F64.ofBits32 0x3f000000#32, 0, 1, 1, 0x26#8⟩, ⟨F64.ofBits32 0xc0000000#32, 1, 2, 0, 0x2c#8⟩],
    leafValues := [F64.ofBits32 0x3e800000#32, F64.ofBits32 0xbf800000#32, F64.ofBits32 0x40400000#32] }

theorem load_eq : xgTreeFromTreeModel Platform.demo model 2#32 = .ok loaded := by decide +kernel

/-- The theorems apply to the example; a NaN in feature 1 goes left, 0.75 goes right. -/
example : loaded.predict Platform.demo [F64.zero, .nan] = .ok (F64.ofBits32 0x3e800000#32, 0) ∧
    loaded.predict Platform.demo [F64.zero, F64.const 3 4] = .ok (F64.ofBits32 0x40400000#32, 2) := by
  obtain ⟨t', h, _⟩ := C06_xg_tree_value_le Platform.demo model tree 2#32 tree_ok (by decide) (by decide)
  rw [load_eq] at h
  cases h
  decide +kernel

/-- a row without a tie -/
example : ¬ XgTie model.nodes tree [F64.zero, F64.one] := by
  rintro ⟨i, hi, n, x, a, hn, hx, h1, h2⟩
  have : i = 0 ∨ i = 2 := by simpa [tree, BTree.inner] using hi
  rw [← F64.value_ofBits32] at h2
  rcases this with rfl | rfl
  · have : n = ⟨0#32, 1#32, 2#32, 0x80000001#32, 0x3f000000#32⟩ := by simpa [model, nodes] using hn.symm
    subst this
    have hx' : x = F64.one := by
      have : xgFeature ⟨0#32, 1#32, 2#32, 0x80000001#32, 0x3f000000#32⟩ = 1 := by decide
      rw [this] at hx; simpa using hx.symm
    subst hx'
    have : F64.feq F64.one (F64.ofBits32 0x3f000000#32) = true := (F64.feq_iff _ _).2 ⟨a, h1, h2⟩
    revert this; decide +kernel
  · have : n = ⟨0#32, 3#32, 4#32, 0#32, 0xc0000000#32⟩ := by simpa [model, nodes] using hn.symm
    subst this
    have hx' : x = F64.zero := by
      have : xgFeature ⟨0#32, 3#32, 4#32, 0#32, 0xc0000000#32⟩ = 0 := by decide
      rw [this] at hx; simpa using hx.symm
    subst hx'
    have : F64.feq F64.zero (F64.ofBits32 0xc0000000#32) = true := (F64.feq_iff _ _).2 ⟨a, h1, h2⟩
    revert this; decide +kernel

/-- C06 is false at a tie: the row (0, 0.5) meets the split condition 0.5 exactly. XGBoost's walk goes right and ends at
leaf 4 (value 3); the loaded tree goes left and returns leaf 1's value 0.25. -/
theorem C06_tie_fails :
    xgTreeFromTreeModel Platform.demo model 2#32 = .ok loaded ∧
    Walk (XgGoes model.nodes [F64.zero, F64.const 1 2]) tree 4 ∧
    (∀ v, XgVal model.nodes 4 v → v = F64.ofNat 3) ∧
    loaded.predict Platform.demo [F64.zero, F64.const 1 2] = .ok (F64.const 1 4, 0) := by
  refine ⟨load_eq, ?_, ?_, by decide +kernel⟩
  · refine .right ⟨_, F64.const 1 2, rfl, rfl, ?_⟩ (.right ⟨_, F64.zero, rfl, rfl, ?_⟩ (.leaf 4))
    · constructor
      · intro h; cases h
      · rintro (⟨h, _⟩ | ⟨a, c, h1, h2, h3⟩)
        · revert h; decide +kernel
        · rw [← F64.value_ofBits32] at h2
          have : F64.lt (F64.const 1 2) (F64.ofBits32 0x3f000000#32) = true := (F64.lt_iff _ _).2 ⟨a, c, h1, h2, h3⟩
          revert this; decide +kernel
    · constructor
      · intro h; cases h
      · rintro (⟨h, _⟩ | ⟨a, c, h1, h2, h3⟩)
        · revert h; decide +kernel
        · rw [← F64.value_ofBits32] at h2
          have : F64.lt F64.zero (F64.ofBits32 0xc0000000#32) = true := (F64.lt_iff _ _).2 ⟨a, c, h1, h2, h3⟩
          revert this; decide +kernel
  · rintro v ⟨n, hn, rfl⟩
    have : n = ⟨2#32, -1#32, -1#32, 0#32, 0x40400000#32⟩ := by simpa [model, nodes] using hn.symm
    subst this
    decide +kernel

end XgExample
end Leaves
