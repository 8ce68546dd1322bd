import Verif.Proofs.NLeaves
import Verif.Props.LgTree
import Verif.Props.Predict

/-! # C22, C23: leaf indices and leaf counts -/

namespace Leaves

open Spec GoM

namespace Spec

/-- the trees of a tree model -/
def TreesOf (b : Base) (trees : List LgTree) : Prop :=
  match core b with
  | .lg e => trees = e.trees
  | .xg e => trees = e.trees
  | _ => False

end Spec

theorem treesOf_total {b : Base} {trees : List LgTree} {G total : Nat} (hG : b.nRawOutputGroups = G) (ht : IsTotal b total)
    (htr : TreesOf b trees) : total = trees.length / G ∧ 0 < G := by
  induction b with
  | wrap b t ih => exact ih hG ht htr
  | lin e => exact htr.elim
  | lg e =>
    obtain ⟨G', h1, h2, h3⟩ := ht
    have hG : e.nRawOutputGroups = G := hG
    have : G' = G := by omega
    subst this
    rw [show trees = e.trees from htr]
    exact ⟨h3, h2⟩
  | xg e =>
    obtain ⟨G', h1, h2, h3⟩ := ht
    have hG : e.nRawOutputGroups = G := hG
    have : G' = G := by omega
    subst this
    rw [show trees = e.trees from htr]
    exact ⟨h3, h2⟩

theorem nLeaves_eq {b : Base} {trees : List LgTree} {G total : Nat} (hG : b.nRawOutputGroups = G) (ht : IsTotal b total)
    (htr : TreesOf b trees) : b.nLeaves = nLeavesOf trees total G := by
  induction b with
  | wrap b t ih => exact ih hG ht htr
  | lin e => exact htr.elim
  | lg e =>
    show (e.nEstimators >>= fun n => nLeavesOf e.trees n e.nRawOutputGroups) = _
    rw [show e.nEstimators = _ from nEstimators_of ht, Res.ok_bind, show trees = e.trees from htr,
      show e.nRawOutputGroups = G from hG]
  | xg e =>
    show (e.nEstimators >>= fun n => nLeavesOf e.trees n e.nRawOutputGroups) = _
    rw [show e.nEstimators = _ from nEstimators_of ht, Res.ok_bind, show trees = e.trees from htr,
      show e.nRawOutputGroups = G from hG]

/-- C23: `NLeaves()` has an entry for every group and estimator; entry `k * total + i` is the leaf count of the tree of
estimator `i` and group `k`. -/
theorem C23_nleaves_layout (e : Ensemble) (trees : List LgTree) (G total : Nat) (hG : e.base.nRawOutputGroups = G)
    (ht : IsTotal e.base total) (htr : TreesOf e.base trees) :
    ∃ L, e.nLeaves = .ok L ∧ L.length = G * total ∧
      ∀ i < total, ∀ k < G, ∃ t, trees[i * G + k]? = some t ∧ L[k * total + i]? = some t.nLeaves := by
  obtain ⟨h1, h2⟩ := treesOf_total hG ht htr
  obtain ⟨L, h3⟩ := nLeavesOf_spec (trees := trees) (G := G) (n := total) (by rw [h1]; exact Nat.div_mul_le_self _ _)
  refine ⟨L, ?_, h3.2⟩
  show e.base.nLeaves = _
  rw [nLeaves_eq hG ht htr]
  exact h3.1

theorem Walk.mem_leaves {goes : Nat → Bool → Prop} {T : BTree} {k : Nat} (h : Walk goes T k) : k ∈ T.leaves := by
  induction h with
  | leaf k => simp [BTree.leaves]
  | left h w ih => simp [BTree.leaves, ih]
  | right h w ih => simp [BTree.leaves, ih]

theorem BTree.leaves_length (T : BTree) : T.leaves.length = T.size + 1 := by
  induction T with
  | leaf k => rfl
  | node i l r hl hr => simp [BTree.leaves, BTree.size, hl, hr]; omega

/-- C23: the count reported for a loaded LightGBM text tree is the number of leaves of the tree in the file. -/
theorem C23_lg_text_leaf_count (P : Platform) (params : Params) (nc : Int) (n : Nat) (lv : List F64) (a : LgArrays)
    (T : BTree) (hb : LgBlock P params nc n lv a) (h : LgTreeOK a n T) (ha : n * 24 ≤ P.maxAlloc) :
    ∃ t, lgTreeFromParams P params = .ok t ∧ t.nLeaves = T.leaves.length := by
  obtain ⟨t, h1, h2, h3, _⟩ := lg_load P hb h ha
  exact ⟨t, h1, by rw [Leaves.BTree.leaves_length, ← h3]; rfl⟩

/-- a tree that can be evaluated on the empty row has no nodes -/
theorem single_leaf_nLeaves {P : Platform} {t : LgTree} {v : F64} {j : Nat} (h : t.predict P [] = .ok (v, j)) : t.nLeaves = 1 := by
  unfold LgTree.predict at h
  split at h
  · rename_i h0
    unfold LgTree.nLeaves
    rw [h0]
  · exfalso
    cases hn : t.nodes.length with
    | zero => contradiction
    | succ n =>
      rw [hn, LgTree.predictLoop] at h
      obtain ⟨node, _, h⟩ := Res.bind_eq_ok.1 h
      obtain ⟨x, hx, _⟩ := Res.bind_eq_ok.1 h
      have := Res.idx_eq_ok.1 hx
      simp at this

namespace Spec

/-- a tree whose leaf indices are below its leaf count -/
def LeafBound (P : Platform) (t : LgTree) : Prop := ∀ fvals v j, t.predict P fvals = .ok (v, j) → j < t.nLeaves

end Spec

theorem predictLoop_leaf {P : Platform} {t : LgTree} {fvals : List F64} {v : F64} {j : Nat} : ∀ {fuel idx : Nat},
    t.predictLoop P fvals fuel idx = .ok (v, j) → t.leafValues[j]? = some v := by
  intro fuel
  induction fuel with
  | zero => intro idx h; simp [LgTree.predictLoop] at h
  | succ fuel ih =>
    intro idx h
    rw [LgTree.predictLoop] at h
    obtain ⟨node, _, h⟩ := Res.bind_eq_ok.1 h
    obtain ⟨x, _, h⟩ := Res.bind_eq_ok.1 h
    obtain ⟨b, _, h⟩ := Res.bind_eq_ok.1 h
    split at h
    · split at h
      · obtain ⟨w, hw, h⟩ := Res.bind_eq_ok.1 h
        simp only [Res.pure_eq, Res.ok.injEq, Prod.mk.injEq] at h
        obtain ⟨rfl, rfl⟩ := h
        exact Res.idx_eq_ok.1 hw
      · exact ih h
    · split at h
      · obtain ⟨w, hw, h⟩ := Res.bind_eq_ok.1 h
        simp only [Res.pure_eq, Res.ok.injEq, Prod.mk.injEq] at h
        obtain ⟨rfl, rfl⟩ := h
        exact Res.idx_eq_ok.1 hw
      · exact ih h

/-- C22: the value returned with a leaf index is the value stored for that leaf, so the index is a valid one. Every
tree, from any format, however malformed. -/
theorem C22_value_of_leaf (P : Platform) (t : LgTree) (fvals : List F64) (v : F64) (j : Nat)
    (h : t.predict P fvals = .ok (v, j)) : t.leafValues[j]? = some v := by
  unfold LgTree.predict at h
  split at h
  · obtain ⟨w, hw, h⟩ := Res.bind_eq_ok.1 h
    simp only [Res.pure_eq, Res.ok.injEq, Prod.mk.injEq] at h
    obtain ⟨rfl, rfl⟩ := h
    exact Res.idx_eq_ok.1 hw
  · exact predictLoop_leaf h

/-- C22: a tree with no more leaf values than leaves. -/
theorem C22_leaf_bound (P : Platform) (t : LgTree) (h : t.leafValues.length ≤ t.nLeaves) : LeafBound P t := by
  intro fvals v j hp
  have := List.getElem?_eq_some_iff.1 (C22_value_of_leaf P t fvals v j hp)
  obtain ⟨h1, _⟩ := this
  omega

/-- C22: the leaf indices of a loaded LightGBM text tree whose leaves are numbered `0 … leaves-1` are below its leaf
count. -/
theorem C22_lg_text_leaf_bound (P : Platform) (params : Params) (nc : Int) (n : Nat) (lv : List F64) (a : LgArrays)
    (T : BTree) (hb : LgBlock P params nc n lv a) (h : LgTreeOK a n T) (ha : n * 24 ≤ P.maxAlloc)
    (hl : ∀ k ∈ T.leaves, k < T.leaves.length) :
    ∃ t, lgTreeFromParams P params = .ok t ∧ LeafBound P t := by
  obtain ⟨t, h1, h2⟩ := C04_lg_text_leaf_index P params nc n lv a T hb h ha
  obtain ⟨t', h1', h3⟩ := C23_lg_text_leaf_count P params nc n lv a T hb h ha
  rw [h1] at h1'
  cases h1'
  refine ⟨t, h1, fun fvals v j hp => ?_⟩
  have hw := ((h2 fvals v j).1 hp).1
  rw [h3]
  exact hl j (Leaves.Walk.mem_leaves hw)

/-- C22: a leaf view stores at position `k * total + i` the leaf index of the tree of estimator `i` and group `k`,
exactly, and it is below the entry of `NLeaves()` at the same position. -/
theorem C22_leaf_layout (P : Platform) (e : Ensemble) (hf : Fits e) (hw : e.nOutputGroups < 2 ^ 63)
    (hleaf : ∃ k, e.transform = .leafIndex k) (trees : List LgTree) (htr : TreesOf e.base trees) (G total : Nat)
    (hG : e.base.nRawOutputGroups = G) (ht : IsTotal e.base total)
    (hbound : ∀ t ∈ trees, LeafBound P t ∧ t.nLeaves ≤ 2 ^ 32) (fvals : List F64) (req : Int) (m m' : List F64)
    (h : (e.predict P fvals req m.length).run m = (.ok ⟨⟩, m')) :
    e.nOutputGroups = G * total ∧ ∃ L, e.nLeaves = .ok L ∧
      ∀ i < total, ∀ k < G, ∃ (t : LgTree) (v y : F64) (j c : Nat), trees[i * G + k]? = some t ∧ t.predict P fvals = .ok (v, j) ∧
        m'[k * total + i]? = some y ∧ IsVal y (j : ℚ) ∧ L[k * total + i]? = some c ∧ j < c := by
  obtain ⟨L, hL, hL1, hL2⟩ := C23_nleaves_layout e trees G total hG ht htr
  obtain ⟨_, _, total', n, ht', hu, hl, out, ho, hs⟩ := (predict_spec hf hw).1 h
  have := IsTotal.unique ht ht'
  subst this
  have hn := hl (isLeaf_iff.2 hleaf)
  subst hn
  have hwid := width_eq hf hG ht
  obtain ⟨b, t⟩ := e
  obtain ⟨kk, hk⟩ := hleaf
  simp only at hk
  subst hk
  refine ⟨by rw [← hwid]; show ((G * n : Nat) : Int) = _; push_cast; rfl, L, hL, fun i hi k hk => ?_⟩
  have ho' : IsLeafVec P b fvals n out := ho
  have key : ∃ l : Nat → Nat → Nat, TreeLeaves P trees G n fvals l ∧ out.length = G * n ∧
      ∀ i < n, ∀ k < G, out[k * n + i]? = some (F64.ofNat (l i k)) := by
    clear hs hwid ho h hf hu hl hL hw ht'; clear * - hG ht htr ho'
    simp only at hG ht htr
    induction b with
    | wrap b t ih => exact ih htr hG ht ho'
    | lin e => exact ho'.elim
    | lg e =>
      obtain ⟨G', l, h1, h2, h3, h4⟩ := ho'
      have hG : e.nRawOutputGroups = G := hG
      have : G' = G := by omega
      subst this
      rw [show trees = e.trees from htr]
      exact ⟨l, h2, h3, h4⟩
    | xg e =>
      obtain ⟨G', l, h1, h2, h3, h4⟩ := ho'
      have hG : e.nRawOutputGroups = G := hG
      have : G' = G := by omega
      subst this
      rw [show trees = e.trees from htr]
      exact ⟨l, h2, h3, h4⟩
  obtain ⟨l, h1, h2, h3⟩ := key
  obtain ⟨t, v, ht1, ht2⟩ := h1 i hi k hk
  obtain ⟨t', ht1', hc⟩ := hL2 i hi k hk
  rw [ht1] at ht1'
  cases ht1'
  obtain ⟨hb1, hb2⟩ := hbound t (List.mem_of_getElem? ht1)
  have hlt := hb1 fvals v _ ht2
  refine ⟨t, v, F64.ofNat (l i k), l i k, t.nLeaves, ht1, ht2, ?_, F64.isVal_ofNat (by omega), hc, hlt⟩
  have := cell_lt hk hi
  rw [hs.2.2, if_pos (by omega), Nat.sub_zero, h3 i hi k hk]

namespace PredictExample

theorem trees_bound (P : Platform) : ∀ t ∈ trees, LeafBound P t ∧ t.nLeaves ≤ 2 ^ 32 := by
  intro t ht
  simp only [trees, List.mem_cons, List.not_mem_nil, or_false] at ht
  rcases ht with rfl | rfl | rfl | rfl <;> exact ⟨C22_leaf_bound P _ (by decide), by decide⟩

/-- the hypotheses of C22 and C23 hold for this model -/
example : TreesOf lg.base trees ∧ IsTotal lg.base 2 ∧ lg.nLeaves = .ok [2, 2, 2, 2] :=
  ⟨rfl, ⟨2, rfl, by decide, by decide⟩, by decide +kernel⟩

/-- trees of different sizes: counts are listed group by group, trees estimator by estimator -/
example : (Ensemble.mk (.lg { lgm with trees := [{ leafValues := [F64.one] }, stump F64.one F64.one,
      { leafValues := [F64.one] }, { stump F64.one F64.one with nodes := (stump F64.one F64.one).nodes ++ (stump F64.one F64.one).nodes }] })
      (.raw 2)).nLeaves = .ok [1, 1, 2, 3] := by decide +kernel

end PredictExample

end Leaves
