import Verif.Props.LeafFiles

/-! # C133: which number a leaf has in XGBoost and scikit-learn models -/

namespace Leaves
open Spec

/-- every leaf is counted, once -/
theorem counted_perm : ∀ T : BTree, T.counted.Perm T.leaves
  | .leaf _ => .refl _
  | .node _ (.leaf _) (.leaf _) => .refl _
  | .node _ (.leaf a) (.node j l r) => (counted_perm (.node j l r)).cons a
  | .node _ (.node j l r) (.leaf b) =>
    ((counted_perm (.node j l r)).cons b).trans (List.perm_append_comm (l₁ := [b]) (l₂ := (BTree.node j l r).leaves))
  | .node _ (.node j l r) (.node j' l' r') =>
    ((counted_perm (.node j' l' r')).append (counted_perm (.node j l r))).trans List.perm_append_comm

theorem counted_iff {T : BTree} (hn : T.leaves.Nodup) {num : Nat → Nat} (h : ∀ k ∈ T.leaves, T.counted[num k]? = some k) {k : Nat} (hk : k ∈ T.leaves) (j : Nat) :
    j = num k ↔ T.counted[j]? = some k := by
  constructor
  · rintro rfl
    exact h k hk
  · intro hj
    have hnd := (counted_perm T).nodup_iff.2 hn
    exact (List.getElem?_inj (List.getElem?_eq_some_iff.1 hj).1 hnd).1 (hj.trans (h k hk).symm)

theorem LeafView.congr {P : Platform} {ens : Ensemble} {K N : Nat} {count count' : Nat → Nat → Nat → Prop} {reach reach' : List F64 → Nat → Nat → Nat → Prop}
    (h : LeafView P ens K N count reach) (hc : ∀ i < N, ∀ k < K, ∀ c, count i k c → count' i k c)
    (hr : ∀ fvals, ∀ i < N, ∀ k < K, ∀ j, reach fvals i k j ↔ reach' fvals i k j) : LeafView P ens K N count' reach' := by
  obtain ⟨view, h1, h2, h3, h4, h5, ⟨L, l1, l2, l3, l4⟩, h6⟩ := h
  refine ⟨view, h1, h2, h3, h4, h5, ⟨L, l1, l2, l3, fun i hi k hk => ?_⟩, fun fvals req m m' => ?_⟩
  · obtain ⟨c, e1, e2⟩ := l4 i hi k hk
    exact ⟨c, e1, hc i hi k hk c e2⟩
  · rw [h6]
    refine and_congr Iff.rfl (and_congr Iff.rfl (and_congr Iff.rfl (exists_congr fun w => and_congr (exists_congr fun l => and_congr_left fun _ => ?_) Iff.rfl)))
    exact forall_congr' fun i => forall_congr' fun hi => forall_congr' fun k => forall_congr' fun hk => hr fvals i hi k hk _

theorem xgMeans_nodup {t : XgBin.TreeModel} {T : BTree} (h : XgMeans t T) : T.leaves.Nodup := by
  rcases h with h | ⟨-, -, rfl⟩
  · exact (List.nodup_append.1 h.distinct).2.1
  · simp [BTree.leaves]

/-- **C133** for XGBoost files: the number stored for a tree is the position, in the order in which the leaves of this tree are counted, of the leaf that the
file's own nodes lead to. -/
theorem C133_xgboost (P : Platform) (m : XgModel) (K N : Nat) (ok : m.OK P.maxAlloc K N) (lt : Bool) (tr : Transform)
    (ho : XgObjective K m.header.nameObj lt tr) (hlog : tr = .logistic → K = 1) :
    ∃ ens, (∀ rest, xgEnsembleFromReader P lt (m.image ++ rest) = .ok (ens, rest)) ∧
      LeafView P ens K N (fun i k c => ∃ T, m.shapes[i * K + k]? = some T ∧ c = T.counted.length)
        (fun fvals i k j => ∃ t T leaf, m.gbtree.trees[i * K + k]? = some t ∧ m.shapes[i * K + k]? = some T ∧
          Walk (XgGoesLe t.nodes fvals) T leaf ∧ T.counted[j]? = some leaf) := by
  obtain ⟨ens, h1, num, h2, h3⟩ := C81_xgboost_file P m K N ok lt tr ho hlog
  refine ⟨ens, h1, LeafView.congr h3 (fun i _ k _ c hc => ?_) fun fvals i _ k _ j => ?_⟩
  · obtain ⟨T, e1, rfl⟩ := hc
    exact ⟨T, e1, (counted_perm T).length_eq.symm⟩
  · refine exists_congr fun t => exists_congr fun T => exists_congr fun leaf => and_congr_right fun e1 => and_congr_right fun e2 => and_congr_right fun w => ?_
    have hm : XgMeans t T := by
      obtain ⟨a1, rfl⟩ := List.getElem?_eq_some_iff.1 e1
      obtain ⟨a2, rfl⟩ := List.getElem?_eq_some_iff.1 e2
      exact ok.trees.get a1 a2
    exact counted_iff (xgMeans_nodup hm) (h2 _ T e2).2 (Walk.mem w) j

/-- **C133** for scikit-learn files. -/
theorem C133_sklearn (P : Platform) (v : PyVal) (bs : Pickle.Bytes) (μ : Memo) (hd : Dumps P noMemo v bs μ) (M : SkModel)
    (hc : IsClassifier M v) (ok : M.OK P.maxAlloc) :
    ∃ ens, (∀ rest lt, skEnsembleFromReader P (bs ++ octet '.' :: rest) lt = .ok ens) ∧
      LeafView P ens M.groups M.estimators
        (fun i k c => ∃ T, M.shapes[i * M.groups + k]? = some T ∧ c = if T.isLeaf then 2 else T.counted.length)
        (fun fvals i k j => ∃ t T leaf, M.trees[i * M.groups + k]? = some t ∧ M.shapes[i * M.groups + k]? = some T ∧ fvals ≠ [] ∧
          Walk (SkGoes t.nodes (nanToZero fvals)) T leaf ∧ T.counted[j]? = some leaf) := by
  obtain ⟨ens, h1, num, h2, h3⟩ := C81_sklearn_file P v bs μ hd M hc ok
  refine ⟨ens, h1, LeafView.congr h3 (fun i _ k _ c hc => ?_) fun fvals i hi k hk j => ?_⟩
  · obtain ⟨T, e1, rfl⟩ := hc
    exact ⟨T, e1, by rw [(counted_perm T).length_eq]⟩
  · refine exists_congr fun t => exists_congr fun T => exists_congr fun leaf => and_congr_right fun e1 => and_congr_right fun e2 => and_congr_right fun _ =>
      and_congr_right fun w => ?_
    have hm : SkTreeOK t T := by
      obtain ⟨a1, rfl⟩ := List.getElem?_eq_some_iff.1 e1
      obtain ⟨a2, rfl⟩ := List.getElem?_eq_some_iff.1 e2
      exact ok.trees.get a1 a2
    obtain ⟨T', e3, -, h4⟩ := h2 i hi k hk
    rw [e2] at e3
    cases e3
    exact counted_iff (List.nodup_append.1 hm.distinct).2.1 h4 (Walk.mem w) j

/-! ### concrete trees -/

namespace LeafOrderExample

/-- The order is neither that of the nodes in the file nor from left to right: in the first tree the rightmost leaf is number 0, in the second the leaves
are counted from the right half to the left half. -/
theorem C133_orders :
    SkExample.shape.leaves = [2, 3, 4] ∧ SkExample.shape.counted = [4, 2, 3] ∧
    (BTree.node 0 (.node 1 (.leaf 3) (.leaf 4)) (.node 2 (.leaf 5) (.leaf 6))).counted = [5, 6, 3, 4] := by decide

/-- a case of the theorem for XGBoost files: the second tree, a single leaf, is counted as number 0 for every row that has a leaf-index prediction -/
example (rest : XgBin.Bytes) : ∃ ens view, xgEnsembleFromReader Platform.demo false ((XgFileExample.file 1#32).image ++ rest) = .ok (ens, rest) ∧
    ens.withLeafPredictions = .ok view ∧ ∀ row m m', (view.predict Platform.demo row 0 m.length).run m = (.ok ⟨⟩, m') → m'[1]? = some (F64.ofNat 0) := by
  obtain ⟨ens, h1, view, h2, h3, -, -, -, -, h4⟩ := C133_xgboost Platform.demo (XgFileExample.file 1#32) 1 2
    XgFileExample.file_ok false (.raw 1) .raw (fun h => by cases h)
  refine ⟨ens, view, h1 rest, h2, fun row m m' h => ?_⟩
  obtain ⟨-, -, -, w, ⟨l, hl, hlen, hw⟩, hs⟩ := (h4 row 0 m m').1 h
  obtain ⟨t, T, leaf, -, e2, -, e4⟩ := hl 1 (by norm_num) 0 (by norm_num)
  cases e2
  have hl1 : l 1 0 = 0 := by
    have := (List.getElem?_eq_some_iff.1 e4).1
    have hc : (BTree.leaf 0).counted.length = 1 := rfl
    omega
  have h5 := hw 1 (by norm_num) 0 (by norm_num)
  rw [hl1] at h5
  have := hs.2.2 1
  simp only [hlen] at this
  rw [this]
  simpa using h5

/-- A case of the theorem for scikit-learn files: the row (0, 0) ends in node 2 of both trees, their leftmost leaf; PredictLeafIndices stores 1 for it. -/
theorem C133_sklearn_example :
    ∃ ens, (∀ rest lt, skEnsembleFromReader Platform.demo ((SkModelExample.value 2).dump SkModelExample.print ++ octet '.' :: rest) lt = .ok ens) ∧
    ∃ view, ens.withLeafPredictions = .ok view ∧ ∀ x y,
      (view.predict Platform.demo [F64.zero, F64.zero] 0 2).run [x, y] = (.ok ⟨⟩, [F64.ofNat 1, F64.ofNat 1]) := by
  have hd := dump_dumps (μ := noMemo) _ (SkModelExample.writable 2 ⟨by decide, by decide⟩)
  obtain ⟨ens, h1, view, h2, -, -, -, -, -, h3⟩ := C133_sklearn Platform.demo _ _ _ hd _ (SkModelExample.is_classifier 2) (SkModelExample.model_ok 2)
  obtain ⟨e', g1, -, -, -, -, -, g2, -⟩ := C63_sklearn_file Platform.demo _ _ _ hd _ (SkModelExample.is_classifier 2) (SkModelExample.model_ok 2)
  have := (h1 [] false).symm.trans (g1 [] false)
  cases this
  refine ⟨ens, h1, view, h2, fun x y => ?_⟩
  refine (h3 _ 0 [x, y] _).2 ⟨by simp [SkModelExample.model, SkModel.groups], by rw [g2, if_pos (by decide)]; decide, .inl le_rfl, [F64.ofNat 1, F64.ofNat 1], ?_, ?_⟩
  · refine ⟨fun _ _ => 1, fun i hi k hk => ?_, rfl, fun i hi k hk => ?_⟩
    · have hk : k = 0 := by have : k < 1 := hk; omega
      have hi : i < 2 := hi
      subst hk
      rcases (show i = 0 ∨ i = 1 by omega) with rfl | rfl
      · exact ⟨SkExample.tree, SkExample.shape, 2, rfl, rfl, by simp, SkModelExample.row_walk, rfl⟩
      · exact ⟨SkExample.tree, SkExample.shape, 2, rfl, rfl, by simp, SkModelExample.row_walk, rfl⟩
    · have hk : k = 0 := by have : k < 1 := hk; omega
      have hi : i < 2 := hi
      subst hk
      rcases (show i = 0 ∨ i = 1 by omega) with rfl | rfl <;> rfl
  · refine ⟨by simp, by simp, fun j => ?_⟩
    match j with
    | 0 => simp
    | 1 => simp
    | j + 2 => simp

end LeafOrderExample
end Leaves
