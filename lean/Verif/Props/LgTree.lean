import Verif.Proofs.LgTree

/-!
# C03, C04, C08, C09 for the trees of LightGBM text models

`LgBlock` says what the fields of a block are; `Spec.LgTreeOK` says which tree they describe; `Spec.Walk` walks
that tree by the documented split rules. None of them mentions nodes of the loaded representation.
-/

namespace Leaves

open Spec

/-- the block's fields read as: `nc` categorical splits, `n` inner nodes, leaf values `lv`, arrays `a` -/
structure LgBlock (P : Platform) (params : Params) (nc : Int) (n : Nat) (lv : List F64) (a : LgArrays) : Prop where
  numCat : params.toInt "num_cat".toList = .ok nc
  numLeaves : params.toInt "num_leaves".toList = .ok ((n : Int) + 1)
  leafValue : params.toFloat64Slice P "leaf_value".toList = .ok lv
  leftChild : params.toInt32Slice "left_child".toList = .ok a.leftChilds
  rightChild : params.toInt32Slice "right_child".toList = .ok a.rightChilds
  decisionType : params.toUint32Slice "decision_type".toList = .ok a.decisionTypes
  splitFeature : params.toUint32Slice "split_feature".toList = .ok a.splitFeatures
  threshold : params.toFloat64Slice P "threshold".toList = .ok a.thresholds
  catThreshold : ∃ ct, a.catThresholds = ct.map (BitVec.ofNat 32) ∧
    if 0 < nc then params.toUint32Slice "cat_threshold".toList = .ok ct else ct = []
  catBoundaries : if 0 < nc then params.toUint32Slice "cat_boundaries".toList = .ok a.catBoundaries
    else a.catBoundaries = []

theorem lg_root_pos {a : LgArrays} {n : Nat} {T : BTree} (h : LgTreeOK a n T) : 0 < n := by
  have hsh := h.shape
  generalize hz : (0 : Int) = z at hsh
  cases hsh with
  | leaf k => omega
  | node i li ri l r =>
    have := h.bound i (by simp [BTree.inner]); omega

/-- loading a block that describes a tree -/
theorem lg_load (P : Platform) {params : Params} {nc : Int} {n : Nat} {lv : List F64} {a : LgArrays} {T : BTree}
    (hb : LgBlock P params nc n lv a) (h : LgTreeOK a n T) (ha : n * 24 ≤ P.maxAlloc) :
    ∃ t, lgTreeFromParams P params = .ok t ∧ t.leafValues = lv ∧ t.nodes.length = T.size ∧
      Emb (lgMeaning a) t.nodes { boundaries := t.catBoundaries, thresholds := t.catThresholds } T 0 ∧
      T.isLeaf = false ∧ t.nodes.length < 2 ^ 32 ∧ t.nCategorical = u32I nc := by
  have hn := lg_root_pos h
  obtain ⟨ct, hct, hct'⟩ := hb.catThreshold
  have hcb := hb.catBoundaries
  unfold lgTreeFromParams
  rw [hb.numCat, hb.numLeaves]
  simp only [Res.ok_bind]
  rw [if_neg (by omega), hb.leafValue]
  simp only [Res.ok_bind]
  rw [if_neg (by omega), hb.leftChild, hb.rightChild, hb.decisionType, hb.splitFeature, hb.threshold]
  simp only [Res.ok_bind, Int.add_sub_cancel]
  by_cases hc : 0 < nc
  · rw [if_pos hc] at hct' hcb ⊢
    rw [hct', hcb]
    simp only [Res.ok_bind, Res.pure_eq]
    obtain ⟨nodes, cats, h1, h2, h3, h4, h5⟩ := lg_convert P h ha (b0 := [0]) ⟨fun _ => rfl, by simp⟩
    rw [← hct]
    rw [show ({ leftChilds := a.leftChilds, rightChilds := a.rightChilds, decisionTypes := a.decisionTypes, splitFeatures := a.splitFeatures, thresholds := a.thresholds, catThresholds := a.catThresholds, catBoundaries := a.catBoundaries } : LgArrays) = a from rfl, h1]
    exact ⟨_, rfl, rfl, h2, h3, h4, h5, rfl⟩
  · rw [if_neg hc] at hct' hcb ⊢
    simp only [Res.ok_bind, Res.pure_eq]
    obtain ⟨nodes, cats, h1, h2, h3, h4, h5⟩ := lg_convert P h ha (b0 := []) ⟨fun hh => absurd hcb hh, by simp⟩
    subst hct'
    have ha' : ({ leftChilds := a.leftChilds, rightChilds := a.rightChilds, decisionTypes := a.decisionTypes, splitFeatures := a.splitFeatures, thresholds := a.thresholds, catThresholds := ([] : List Nat).map (BitVec.ofNat 32), catBoundaries := [] } : LgArrays) = a := by
      rw [← hct, ← hcb]
    rw [ha', h1]
    exact ⟨_, rfl, rfl, h2, h3, h4, h5, rfl⟩

/-- C03: the loaded tree returns exactly the leaf values that the walk through the file's arrays finds. -/
theorem C03_lg_text_tree_value (P : Platform) (params : Params) (nc : Int) (n : Nat) (lv : List F64) (a : LgArrays)
    (T : BTree) (hb : LgBlock P params nc n lv a) (h : LgTreeOK a n T) (ha : n * 24 ≤ P.maxAlloc) :
    ∃ t, lgTreeFromParams P params = .ok t ∧ ∀ fvals v,
      (∃ j, t.predict P fvals = .ok (v, j)) ↔ (∃ k, Walk (Goes P.out (LgSplit a) fvals) T k ∧ lv[k]? = some v) := by
  obtain ⟨t, h1, h2, h3, h4, h5, h6, _⟩ := lg_load P hb h ha
  refine ⟨t, h1, fun fvals v => ?_⟩
  constructor
  · rintro ⟨j, hj⟩
    rw [lg_predict P h5 h3 h6 h4, h2] at hj
    exact ⟨j, hj⟩
  · rintro ⟨k, hk⟩
    refine ⟨k, ?_⟩
    rw [lg_predict P h5 h3 h6 h4, h2]
    exact hk

/-- C04: the reported leaf index is the leaf number of the file. -/
theorem C04_lg_text_leaf_index (P : Platform) (params : Params) (nc : Int) (n : Nat) (lv : List F64) (a : LgArrays)
    (T : BTree) (hb : LgBlock P params nc n lv a) (h : LgTreeOK a n T) (ha : n * 24 ≤ P.maxAlloc) :
    ∃ t, lgTreeFromParams P params = .ok t ∧ ∀ fvals v k,
      t.predict P fvals = .ok (v, k) ↔ (Walk (Goes P.out (LgSplit a) fvals) T k ∧ lv[k]? = some v) := by
  obtain ⟨t, h1, h2, h3, h4, h5, h6, _⟩ := lg_load P hb h ha
  refine ⟨t, h1, fun fvals v k => ?_⟩
  rw [lg_predict P h5 h3 h6 h4, h2]

/-- C08: prediction on a loaded LightGBM text tree ends, whatever the feature vector. -/
theorem C08_lg_text_terminates (P : Platform) (params : Params) (nc : Int) (n : Nat) (lv : List F64) (a : LgArrays)
    (T : BTree) (hb : LgBlock P params nc n lv a) (h : LgTreeOK a n T) (ha : n * 24 ≤ P.maxAlloc) :
    ∃ t, lgTreeFromParams P params = .ok t ∧ ∀ fvals, t.predict P fvals ≠ .hang := by
  obtain ⟨t, h1, h2, h3, h4, h5, h6, _⟩ := lg_load P hb h ha
  refine ⟨t, h1, fun fvals => ?_⟩
  unfold LgTree.predict
  split
  · exact Res.bind_ne_hang (Res.idx_ne_hang _ _) fun v _ => by simp
  · exact predictLoop_emb_ne_hang (LgTree.decision_ne_hang P t) h6 T 0 _ h5 h4 (by omega)

/-- C09 for one tree: if the split features are below the row's length and the leaf numbers have values, the
prediction returns. -/
theorem C09_lg_text_no_panic (P : Platform) (params : Params) (nc : Int) (n : Nat) (lv : List F64) (a : LgArrays)
    (T : BTree) (hb : LgBlock P params nc n lv a) (h : LgTreeOK a n T) (ha : n * 24 ≤ P.maxAlloc)
    (hleaf : ∀ k ∈ T.leaves, k < lv.length) (nf : Nat) (hfeat : ∀ i ∈ T.inner, ∀ f, a.splitFeatures[i]? = some f → f < nf) :
    ∃ t, lgTreeFromParams P params = .ok t ∧ ∀ fvals, nf ≤ fvals.length → ∃ v k, t.predict P fvals = .ok (v, k) ∧
      k ∈ T.leaves := by
  obtain ⟨t, h1, h2⟩ := C04_lg_text_leaf_index P params nc n lv a T hb h ha
  refine ⟨t, h1, fun fvals hlen => ?_⟩
  have hgo : ∀ i ∈ T.inner, ∃ b, Goes P.out (LgSplit a) fvals i b := by
    intro i hi
    obtain ⟨f, rule, hs⟩ := h.splits i hi
    have hf : f < fvals.length := by
      obtain ⟨d, thr, m, _, hf, _⟩ := id hs
      have := hfeat i hi f hf; omega
    classical
    exact ⟨decide (rule.Left P.out fvals[f]), f, rule, fvals[f], hs, List.getElem?_eq_getElem hf, by simp⟩
  obtain ⟨k, hw, hk⟩ := walk_exists T hgo
  have hkl := hleaf k hk
  exact ⟨lv[k], k, (h2 fvals _ k).2 ⟨hw, List.getElem?_eq_getElem hkl⟩, hk⟩

/-- A block with one leaf: every feature vector gets that leaf. -/
theorem C03_lg_text_single_leaf (P : Platform) (params : Params) (nc : Int) (lv : List F64)
    (h1 : params.toInt "num_cat".toList = .ok nc) (h2 : params.toInt "num_leaves".toList = .ok 1)
    (h3 : params.toFloat64Slice P "leaf_value".toList = .ok lv) :
    ∃ t, lgTreeFromParams P params = .ok t ∧ ∀ fvals v k, t.predict P fvals = .ok (v, k) ↔ (k = 0 ∧ lv[0]? = some v) := by
  refine ⟨{ leafValues := lv, nCategorical := u32I nc }, ?_, ?_⟩
  · unfold lgTreeFromParams
    rw [h1, h2, h3]
    simp only [Res.ok_bind, Res.pure_eq]
    rw [if_neg (by norm_num), if_pos trivial]
  · intro fvals v k
    unfold LgTree.predict
    simp only [List.length_nil, if_true]
    cases hv : lv[0]? with
    | none => simp [Res.idx, hv]
    | some w => simp [Res.idx, hv]; constructor <;> rintro ⟨rfl, rfl⟩ <;> exact ⟨rfl, rfl⟩

/-! ### a concrete block

Three inner nodes: a numerical root (feature 0, missing NaN, default left), a categorical node (feature 1) with the
category set {1, 33} and another numerical node. -/

namespace LgExample

/-- the example's arrays -/
def arrays : LgArrays where
  leftChilds := [1, -1, -3]
  rightChilds := [2, -2, -4]
  decisionTypes := [10, 1, 2]
  splitFeatures := [0, 1, 0]
  thresholds := [F64.ofNat 5, F64.ofNat 0, F64.ofNat 9]
  catThresholds := [2#32, 2#32]
  catBoundaries := [0, 2]

/-- the example's tree -/
def tree : BTree := .node 0 (.node 1 (.leaf 0) (.leaf 1)) (.node 2 (.leaf 2) (.leaf 3))

theorem tree_ok : LgTreeOK arrays 3 tree where
  shape := by
    refine .node 0 1 2 _ _ rfl rfl ?_ ?_
    · exact .node 1 (-1) (-2) _ _ rfl rfl (.leaf 0) (.leaf 1)
    · exact .node 2 (-3) (-4) _ _ rfl rfl (.leaf 2) (.leaf 3)
  distinct := by decide
  bound := by decide
  small := by norm_num
  leaves := by decide
  splits := by
    intro i hi
    have : i = 0 ∨ i = 2 ∨ i = 1 := by simpa [tree, BTree.inner] using hi
    rcases this with rfl | rfl | rfl
    · exact ⟨0, _, 10, _, .nan, rfl, rfl, rfl, by unfold MissingOf; decide, .inl ⟨by norm_num, rfl⟩⟩
    · exact ⟨0, _, 2, _, .none, rfl, rfl, rfl, by unfold MissingOf; decide, .inl ⟨by norm_num, rfl⟩⟩
    · exact ⟨1, _, 1, _, .none, rfl, rfl, rfl, by unfold MissingOf; decide, .inr ⟨by norm_num, 0, [2#32, 2#32],
        F64.isVal_ofNat (by norm_num), ⟨0, 2, rfl, rfl, by norm_num, by decide, rfl⟩, rfl⟩⟩
  cats := by
    intro i hi d thr c ws h1 h2 h3 h4 h5
    have : i = 0 ∨ i = 2 ∨ i = 1 := by simpa [tree, BTree.inner] using hi
    rcases this with rfl | rfl | rfl
    · simp [arrays] at h1; subst h1; simp at h2
    · simp [arrays] at h1; subst h1; simp at h2
    · simp [arrays] at h3; subst h3
      have : c = 0 := by exact_mod_cast IsVal.unique h4 (F64.isVal_ofNat (n := 0) (by norm_num))
      subst this
      obtain ⟨s, e, hs, he, hse, hle, rfl⟩ := h5
      simp [arrays] at hs he
      subst hs he
      exact ⟨⟨1, by decide⟩, by decide, by norm_num⟩
  words := by
    refine ⟨fun _ => 2, ?_, by decide⟩
    intro i hi d thr c ws h1 h2 h3 h4 h5
    obtain ⟨s, e, hs, he, hse, hle, rfl⟩ := h5
    have : e ≤ 2 := hle
    simp; omega

/-- the example's block -/
def params : Params := fun k =>
  if k = "num_cat".toList then some "1".toList
  else if k = "num_leaves".toList then some "4".toList
  else if k = "leaf_value".toList then some "10 20 30 40".toList
  else if k = "left_child".toList then some "1 -1 -3".toList
  else if k = "right_child".toList then some "2 -2 -4".toList
  else if k = "decision_type".toList then some "10 1 2".toList
  else if k = "split_feature".toList then some "0 1 0".toList
  else if k = "threshold".toList then some "5 0 9".toList
  else if k = "cat_threshold".toList then some "2 2".toList
  else if k = "cat_boundaries".toList then some "0 2".toList
  else none

/-- a platform whose number parser reads decimal integers -/
def platform : Platform := { Platform.demo with parseFloat := fun s => (atoi s).map F64.ofInt }

theorem block_ok : LgBlock platform params 1 3 [F64.ofNat 10, F64.ofNat 20, F64.ofNat 30, F64.ofNat 40] arrays where
  numCat := by decide +kernel
  numLeaves := by decide +kernel
  leafValue := by decide +kernel
  leftChild := by decide +kernel
  rightChild := by decide +kernel
  decisionType := by decide +kernel
  splitFeature := by decide +kernel
  threshold := by decide +kernel
  catThreshold := ⟨[2, 2], by decide +kernel, by rw [if_pos (by norm_num)]; decide +kernel⟩
  catBoundaries := by rw [if_pos (by norm_num)]; decide +kernel

/-- The theorems apply to the example, and this is what the loaded tree answers: category 33 is in the set,
category 34 is not, and 7 is above the root's threshold. -/
example : ∃ t, lgTreeFromParams platform params = .ok t ∧
    t.predict platform [F64.ofNat 5, F64.ofNat 33] = .ok (F64.ofNat 10, 0) ∧
    t.predict platform [.nan, F64.ofNat 34] = .ok (F64.ofNat 20, 1) ∧
    t.predict platform [F64.ofNat 7, F64.ofNat 34] = .ok (F64.ofNat 30, 2) := by
  obtain ⟨t, h, _⟩ := C03_lg_text_tree_value platform params 1 3 _ arrays tree block_ok tree_ok (by decide)
  refine ⟨t, h, ?_⟩
  have : lgTreeFromParams platform params = .ok
      { nodes := [⟨F64.ofNat 5, 2, 1, 0, 0x22#8⟩, ⟨F64.ofNat 9, 2, 3, 0, 0x0e#8⟩, ⟨F64.ofNat 0, 0, 1, 1, 0x0d#8⟩],
        leafValues := [F64.ofNat 10, F64.ofNat 20, F64.ofNat 30, F64.ofNat 40],
        catBoundaries := [0, 2], catThresholds := [2#32, 2#32], nCategorical := 1 } := by decide +kernel
  rw [this] at h
  cases h
  decide +kernel

end LgExample
end Leaves
