import Verif.Proofs.Visits
import Verif.Props.XgFile
import Verif.Props.SkModel
import Verif.Props.JsonModel

/-! # C114: a prediction looks at one split per level -/

namespace Leaves
open Spec XgBin

/-- **C114, LightGBM text**: whatever the row, the loaded tree looks at no more splits than the file's tree has levels. -/
theorem C114_lg_text (P : Platform) (params : Params) (nc : Int) (n : Nat) (lv : List F64) (a : LgArrays) (T : BTree)
    (hb : LgBlock P params nc n lv a) (h : LgTreeOK a n T) (ha : n * 24 ≤ P.maxAlloc) :
    ∃ t, lgTreeFromParams P params = .ok t ∧ ∀ fvals i, (t.examined P fvals i).length ≤ T.height := by
  obtain ⟨t, h1, -, -, h4, h5, h6, -⟩ := lg_load P hb h ha
  exact ⟨t, h1, examined_emb (LgTree.decision_ne_hang P t) h6 h5 h4⟩

theorem examined_empty {P : Platform} {t : LgTree} (h : t.nodes = []) (fvals : List F64) (i : Nat) : t.examined P fvals i = [] := by
  unfold LgTree.examined
  rw [h]
  rfl

/-- **C114, XGBoost**. -/
theorem C114_xgboost (P : Platform) (t : TreeModel) (T : BTree) (nf : BitVec 32) (h : XgMeans t T)
    (hn : t.param.numNodes.toInt = t.nodes.length) (hf : t.param.numFeature.toInt ≤ nf.toInt) (ha : t.nodes.length * 24 ≤ P.maxAlloc) :
    ∃ t', xgTreeFromTreeModel P t nf = .ok t' ∧ ∀ fvals i, (t'.examined P fvals i).length ≤ T.height := by
  rcases h with h | ⟨⟨n, h1⟩, h2, rfl⟩
  · obtain ⟨t', h1, -, -, idx, -, -, h2⟩ := xg_load P h hf ha
    exact ⟨t', h1, fun fvals => (h2 fvals).1.2⟩
  · refine ⟨{ leafValues := [F64.ofBits32 n.info] }, ?_, fun fvals i => by rw [examined_empty rfl]; exact Nat.zero_le _⟩
    rw [h1] at hn
    have hn1 : t.param.numNodes.toInt = 1 := hn
    unfold xgTreeFromTreeModel
    rw [if_neg (by omega), if_neg (by rw [h2]; simp), if_neg (by rw [hn1]; simp)]
    dsimp only
    rw [hn1, if_pos rfl, h1]
    rfl

/-- **C114, scikit-learn**: a single leaf counts as one split, which the loader puts there. -/
theorem C114_sklearn (P : Platform) (t : Pickle.SkTree) (T : BTree) (lr base : F64) (h : SkTreeOK t T)
    (ha : t.nodes.length * 24 ≤ P.maxAlloc) :
    ∃ t', lgTreeFromSklearn P t lr base = .ok t' ∧ ∀ fvals i, (t'.examined P fvals i).length ≤ max 1 T.height := by
  cases hT : T with
  | node j l r =>
    rw [← hT]
    obtain ⟨t', h1, -, -, idx, -, -, h2⟩ := sk_load P lr base h (by rw [hT]; rfl) ha
    exact ⟨t', h1, fun fvals i => ((h2 fvals).1.2 i).trans (Nat.le_max_right _ _)⟩
  | leaf k =>
    rw [hT] at h
    obtain ⟨-, v, -, h1⟩ := sk_load_leaf P lr base h
    refine ⟨_, h1, fun fvals i => ?_⟩
    unfold LgTree.examined
    rw [if_neg (by simp)]
    refine LgTree.visits_le 1 0 ?_ i
    rw [LgTree.predictLoop]
    refine Res.bind_ne_hang (Res.idx_ne_hang _ _) fun nd hnd => ?_
    cases hnd
    refine Res.bind_ne_hang (Res.idx_ne_hang _ _) fun x _ => ?_
    refine Res.bind_ne_hang (LgTree.decision_ne_hang P _ _ _) fun b _ => ?_
    cases b with
    | true =>
      rw [if_pos rfl, if_pos (by decide)]
      exact Res.bind_ne_hang (Res.idx_ne_hang _ _) fun v _ => by simp
    | false =>
      rw [if_neg (by simp), if_pos (by decide)]
      exact Res.bind_ne_hang (Res.idx_ne_hang _ _) fun v _ => by simp

/-- **C114, JSON dumps**: no more splits than on the longest way through the nested objects. -/
theorem C114_json (P : Platform) (t : JTree) (W b : Nat) (h : JTreeOK t W) (hal : jLeaves t.root * 24 ≤ P.maxAlloc) (haw : 4 * W ≤ P.maxAlloc)
    (hb : ∀ p ∈ jPaths t.root, p.length ≤ b) :
    ∃ t', unmarshalTree P t = .ok t' ∧ ∀ fvals i, (t'.examined P fvals i).length ≤ b := by
  by_cases h1 : 1 < jLeaves t.root
  · obtain ⟨t', idx, h2, -, -, -, h3⟩ := json_load P h hal haw h1
    exact ⟨t', h2, fun fvals i => (h3 fvals).1.2 b hb i⟩
  · obtain ⟨w, hw⟩ := jleaf_of_one h h1
    obtain ⟨t', h2, hn, hv⟩ := json_load_leaf P h hw
    exact ⟨t', h2, fun fvals i => by rw [examined_empty hn]; exact Nat.zero_le _⟩

/-- What is counted are the iterations of the loop: `predict` ends within `n` iterations exactly if there are no more than `n` nodes to
look at. -/
theorem C114_counts (P : Platform) (t : LgTree) (fvals : List F64) (n : Nat) (h : t.nodes ≠ []) :
    t.predictLoop P fvals n 0 ≠ .hang ↔ ∀ i, (t.examined P fvals i).length ≤ n := by
  have he : ∀ i, t.examined P fvals i = t.visits P fvals i 0 := fun i => by
    unfold LgTree.examined
    rw [if_neg (by simpa using h)]
  constructor
  · intro hp i
    rw [he]
    exact LgTree.visits_le _ _ hp i
  · intro hi hh
    have := (LgTree.visits_hang_iff (LgTree.decision_ne_hang P t) n 0).1 hh
    have := hi (n + 1)
    rw [he] at this
    omega

namespace VisitsExample

/-- The theorem applies to the tree with five nodes of `XgExample`, which has two levels; -/
example : ∃ t', xgTreeFromTreeModel Platform.demo XgFileExample.tree1 2#32 = .ok t' ∧
    ∀ fvals i, (t'.examined Platform.demo fvals i).length ≤ 2 :=
  C114_xgboost Platform.demo XgFileExample.tree1 XgExample.tree 2#32 XgFileExample.tree1_means rfl (by decide) (by decide)

/-- both are looked at; -/
theorem C114_reached : XgExample.loaded.examined Platform.demo [F64.zero, F64.const 3 4] 100 = [0, 1] := by decide +kernel

/-- and so do the other theorems. -/
example := C114_lg_text LgExample.platform LgExample.params 1 3 _ LgExample.arrays LgExample.tree LgExample.block_ok LgExample.tree_ok (by decide)

example := C114_sklearn Platform.demo SkExample.tree SkExample.shape F64.one F64.zero SkExample.tree_ok (by decide)

example := C114_sklearn Platform.demo SkExample.stump _ F64.one F64.zero SkExample.stump_ok (by decide)

example := C114_json JsonExample.platform _ 0 2 JsonExample.C05_wrong_num_leaves_fails.2.2.2 (by decide) (by decide) (by decide)

end VisitsExample
end Leaves
