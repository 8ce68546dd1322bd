import Verif.Spec.LeafView
import Verif.Props.LeafLayout
import Verif.Props.LgLoad
import Verif.Props.XgFile
import Verif.Props.SkModel
import Verif.Props.JsonModel

/-! # C81: leaf indices of whole model files -/

namespace Leaves

open Spec XgBin

theorem isLeafVec_iff {P : Platform} {b : Base} {trees : List LgTree} {G n : Nat} (htr : TreesOf b trees) (hG : b.nRawOutputGroups = G)
    (fvals w : List F64) : IsLeafVec P b fvals n w ↔ ∃ l : Nat → Nat → Nat, TreeLeaves P trees G n fvals l ∧ w.length = G * n ∧
      ∀ i < n, ∀ k < G, w[k * n + i]? = some (F64.ofNat (l i k)) := by
  induction b with
  | wrap b t ih => exact ih htr hG
  | lin e => exact htr.elim
  | lg e =>
    rw [show trees = e.trees from htr]
    constructor
    · rintro ⟨G', l, h1, h⟩
      have hG : e.nRawOutputGroups = G := hG
      obtain rfl : G' = G := by omega
      exact ⟨l, h⟩
    · rintro ⟨l, h⟩
      exact ⟨G, l, hG, h⟩
  | xg e =>
    rw [show trees = e.trees from htr]
    constructor
    · rintro ⟨G', l, h1, h⟩
      have hG : e.nRawOutputGroups = G := hG
      obtain rfl : G' = G := by omega
      exact ⟨l, h⟩
    · rintro ⟨l, h⟩
      exact ⟨G, l, hG, h⟩

/-- the view of any tree model whose trees mean `reach` and have `count` leaves -/
theorem leaf_view (P : Platform) (ens : Ensemble) (hf : Fits ens) {trees : List LgTree} (htr : TreesOf ens.base trees) {K N : Nat}
    (hG : ens.base.nRawOutputGroups = K) (ht : IsTotal ens.base N) (hw : K * N < 2 ^ 63) {count : Nat → Nat → Nat → Prop}
    {reach : List F64 → Nat → Nat → Nat → Prop}
    (hm : ∀ i < N, ∀ k < K, ∃ t, trees[i * K + k]? = some t ∧ count i k t.nLeaves ∧
      ∀ fvals j, (∃ v, t.predict P fvals = .ok (v, j)) ↔ reach fvals i k j) :
    LeafView P ens K N count reach := by
  have hcore : ∀ l, core ens.base ≠ .lin l := by
    intro l hl
    unfold TreesOf at htr
    rw [hl] at htr
    exact htr
  have hest : ens.nEstimators = .ok (N : Int) := nEstimators_of ht
  have hview : ens.withLeafPredictions = .ok ⟨.wrap ens.base ens.transform, .leafIndex (ens.nRawOutputGroups * N)⟩ := by
    unfold Ensemble.withLeafPredictions
    rw [hest]
    rfl
  have hmul : ens.nRawOutputGroups * (N : Int) = ((K * N : Nat) : Int) := by
    show ens.base.nRawOutputGroups * (N : Int) = _
    rw [hG]
    push_cast
    rfl
  obtain ⟨e', he', hfit⟩ := (C24_views_fit ens hf).2 hcore
  rw [hview] at he'
  cases he'
  refine ⟨_, hview, hmul, hG, hest, rfl, ?_, ?_⟩
  · obtain ⟨L, h1, h2, h3⟩ := C23_nleaves_layout ens trees K N hG ht htr
    refine ⟨L, h1, h1, h2, fun i hi k hk => ?_⟩
    obtain ⟨t, h4, h5⟩ := h3 i hi k hk
    obtain ⟨t', h6, h7, -⟩ := hm i hi k hk
    rw [h4] at h6
    cases h6
    exact ⟨_, h5, h7⟩
  · intro fvals req m m'
    have hvw : (Ensemble.mk (.wrap ens.base ens.transform) (.leafIndex (ens.nRawOutputGroups * N))).nOutputGroups = ((K * N : Nat) : Int) := hmul
    rw [C12_predict_iff P _ hfit (by rw [hvw]; exact_mod_cast hw), hvw]
    refine and_congr (by exact_mod_cast Iff.rfl) (and_congr Iff.rfl ?_)
    have hleaf : ∀ w, IsLeafVec P ens.base fvals N w ↔ LeafOutput (reach fvals) K N w := by
      intro w
      rw [isLeafVec_iff htr hG]
      refine exists_congr fun l => and_congr_left fun _ => ?_
      refine forall_congr' fun i => forall_congr' fun hi => forall_congr' fun k => forall_congr' fun hk => ?_
      obtain ⟨t, h1, -, h2⟩ := hm i hi k hk
      rw [← h2]
      constructor
      · rintro ⟨t', x, h3, h4⟩
        rw [h1] at h3
        cases h3
        exact ⟨x, h4⟩
      · rintro ⟨x, h4⟩
        exact ⟨t, x, h1, h4⟩
    constructor
    · rintro ⟨total, n, h1, h2, h3, out, h4, h5⟩
      obtain rfl : total = N := IsTotal.unique h1 ht
      obtain rfl := h3 ⟨_, rfl⟩
      refine ⟨?_, out, (hleaf out).1 h4, h5⟩
      unfold Used at h2
      split at h2 <;> omega
    · rintro ⟨h1, w, h2, h3⟩
      refine ⟨N, N, ht, ?_, fun _ => rfl, w, (hleaf w).2 h2, h3⟩
      unfold Used
      rw [if_neg (by omega)]

/-- C81 for LightGBM text files: the leaf numbers are those of the file. -/
theorem C81_text_file (P : Platform) (print : F64 → Str) (text rest0 rest : Str) (header : List Str) (e0 e1 : Bool)
    (bs : List (List Str)) (ds : List TreeDesc) (K N : Nat) (M : Int) (avg : Bool)
    (hK : 1 ≤ K ∧ K < 2 ^ 63) (hN : 1 ≤ N) (hlen : ds.length = N * K) (hsmall : ds.length < 2 ^ 63)
    (hh : FileBlock text header rest0 e0) (hhl : HeaderLines header K M ds.length avg)
    (hb : FileBlocks rest0 bs rest e1) (hbl : List.Forall₂ (TreeLines print) ds bs)
    (hok : ∀ d ∈ ds, d.OK P.parseFloat print ∧ d.inner * 24 ≤ P.maxAlloc) :
    ∃ ens, lgEnsembleFromReader P ⟨text, false⟩ false = .ok (ens, ⟨rest, false⟩) ∧
      LeafView P ens K N (fun i k c => ∃ d, ds[i * K + k]? = some d ∧ c = d.leafCount)
        (fun fvals i k j => ∃ d, ds[i * K + k]? = some d ∧ d.Leaf P.out fvals j) := by
  obtain ⟨ens, h1, hfit, hG, hest, -⟩ := C39_text_file P print text rest0 rest header e0 e1 bs ds K N M avg hK hN hlen hh hhl hb hbl hok
  obtain ⟨ts, h2, hmean⟩ := lg_file_loaded P print text rest0 rest header e0 e1 bs ds K N M avg hK hN hlen hh hhl hb hbl hok
  rw [h1] at h2
  cases h2
  have hl : ts.length = N * K := by rw [hmean.length_eq, hlen]
  refine ⟨_, h1, leaf_view P _ hfit (trees := ts) rfl hG ⟨K, rfl, hK.1, by rw [show LgEnsemble.trees _ = ts from rfl, hl, Nat.mul_div_cancel _ hK.1]⟩
    (by rw [Nat.mul_comm, ← hlen]; exact hsmall) fun i hi k hk => ?_⟩
  have hidx := tree_pos hlen le_rfl hi hk
  have hidx' := tree_pos hl le_rfl hi hk
  have hm := (List.forall₂_iff_get.1 hmean).2 (i * K + k) hidx' hidx
  refine ⟨ts[i * K + k], List.getElem?_eq_getElem hidx', ⟨ds[i * K + k], List.getElem?_eq_getElem hidx, hm.2.2⟩, fun fvals j => ?_⟩
  rw [List.getElem?_eq_getElem hidx]
  refine (hm.2.1 fvals j).trans ⟨fun h => ⟨_, rfl, h⟩, ?_⟩
  rintro ⟨d, hd, h⟩
  cases hd
  exact h

/-- C81 for XGBoost files of trees: every tree's leaves are numbered from 0, one number each, and the view reports the number of
the leaf that the node array leads to. -/
theorem C81_xgboost_file (P : Platform) (m : XgModel) (K N : Nat) (ok : m.OK P.maxAlloc K N) (lt : Bool) (tr : Transform)
    (ho : XgObjective K m.header.nameObj lt tr) (hlog : tr = .logistic → K = 1) :
    ∃ ens, (∀ rest, xgEnsembleFromReader P lt (m.image ++ rest) = .ok (ens, rest)) ∧ ∃ num : Nat → Nat → Nat,
      (∀ (q : Nat) (T : BTree), m.shapes[q]? = some T → (T.leaves.map (num q)).Perm (List.range T.leaves.length) ∧ ∀ k ∈ T.leaves, T.counted[num q k]? = some k) ∧
      LeafView P ens K N (fun i k c => ∃ T, m.shapes[i * K + k]? = some T ∧ c = T.leaves.length)
        (fun fvals i k j => ∃ t T leaf, m.gbtree.trees[i * K + k]? = some t ∧ m.shapes[i * K + k]? = some T ∧
          Walk (XgGoesLe t.nodes fvals) T leaf ∧ j = num (i * K + k) leaf) := by
  obtain ⟨hK, hN, hlen⟩ := ok.counts
  obtain ⟨ts, hc, hl, hmean⟩ := xg_file_loaded P m K N ok lt tr ((xgTransform_iff _ _ _ _).2 ho)
  have htot := xgBase_total m ts K N hK hl
  have hsl : m.shapes.length = N * K := by rw [← ok.trees.length_eq, hlen]
  have hfit : Fits ⟨.xg (xgBase m ts K N), tr⟩ := by
    refine ⟨K, N, rfl, hK, (htot N).2 rfl, ?_⟩
    cases ho with
    | raw => rfl
    | logistic => exact hlog rfl
  have hex : ∀ q : Nat, ∃ idx : Nat → Nat, ∀ (t' : LgTree) (t : TreeModel) (T : BTree), ts[q]? = some t' → m.gbtree.trees[q]? = some t →
      m.shapes[q]? = some T → ((T.leaves.map idx).Perm (List.range T.leaves.length) ∧ ∀ k ∈ T.leaves, T.counted[idx k]? = some k) ∧
        ∀ fvals j, (∃ v, t'.predict P fvals = .ok (v, j)) ↔ ∃ k, Walk (XgGoesLe t.nodes fvals) T k ∧ j = idx k := by
    intro q
    by_cases hq : q < N * K
    · have e1 : ts[q]? = some (ts[q]'(by omega)) := List.getElem?_eq_getElem _
      have e2 : m.gbtree.trees[q]? = some (m.gbtree.trees[q]'(by omega)) := List.getElem?_eq_getElem _
      have e3 : m.shapes[q]? = some (m.shapes[q]'(by omega)) := List.getElem?_eq_getElem _
      obtain ⟨-, -, idx, h⟩ := hmean _ _ _ _ e1 e2 e3
      refine ⟨idx, fun t' t T h1 h2 h3 => ?_⟩
      rw [e1] at h1
      rw [e2] at h2
      rw [e3] at h3
      cases h1; cases h2; cases h3
      exact h
    · refine ⟨id, fun t' t T h1 => ?_⟩
      have := (List.getElem?_eq_some_iff.1 h1).1
      omega
  choose num hnum using hex
  have hsmall : K * N < 2 ^ 63 := by
    have h1 := BitVec.toInt_lt (x := m.gbtree.param.numTrees)
    rw [ok.gbtree.trees, hlen, Nat.mul_comm] at h1
    omega
  refine ⟨_, hc.decode, num, fun q T hT => ?_, leaf_view P _ hfit (trees := ts) rfl rfl ((htot N).2 rfl) hsmall fun i hi k hk => ?_⟩
  · have hq := (List.getElem?_eq_some_iff.1 hT).1
    exact (hnum q _ _ T (List.getElem?_eq_getElem (by omega)) (List.getElem?_eq_getElem (by omega)) hT).1
  · have hx := tree_pos hl le_rfl hi hk
    have e1 : ts[i * K + k]? = some (ts[i * K + k]'hx) := List.getElem?_eq_getElem _
    have e2 : m.gbtree.trees[i * K + k]? = some (m.gbtree.trees[i * K + k]'(by omega)) := List.getElem?_eq_getElem _
    have e3 : m.shapes[i * K + k]? = some (m.shapes[i * K + k]'(by omega)) := List.getElem?_eq_getElem _
    refine ⟨_, e1, ⟨_, e3, (hmean _ _ _ _ e1 e2 e3).2.1⟩, fun fvals j => ?_⟩
    rw [(hnum _ _ _ _ e1 e2 e3).2 fvals j]
    constructor
    · rintro ⟨leaf, h1, h2⟩
      exact ⟨_, _, leaf, e2, e3, h1, h2⟩
    · rintro ⟨t, T, leaf, h1, h2, h3, h4⟩
      rw [e2] at h1
      rw [e3] at h2
      cases h1; cases h2
      exact ⟨leaf, h3, h4⟩

/-- C81 for scikit-learn files. A tree without splits has one leaf but is reported to have two (see
`C23_sk_single_leaf_counts_two`); its only leaf has number 0. -/
theorem C81_sklearn_file (P : Platform) (v : PyVal) (bs : Pickle.Bytes) (μ : Memo) (hd : Dumps P noMemo v bs μ) (M : SkModel)
    (hc : IsClassifier M v) (ok : M.OK P.maxAlloc) :
    ∃ ens, (∀ rest lt, skEnsembleFromReader P (bs ++ octet '.' :: rest) lt = .ok ens) ∧ ∃ num : Nat → Nat → Nat,
      (∀ i < M.estimators, ∀ k < M.groups, ∃ T, M.shapes[i * M.groups + k]? = some T ∧
        (T.leaves.map (num (i * M.groups + k))).Perm (List.range T.leaves.length) ∧
        ∀ leaf ∈ T.leaves, T.counted[num (i * M.groups + k) leaf]? = some leaf) ∧
      LeafView P ens M.groups M.estimators
        (fun i k c => ∃ T, M.shapes[i * M.groups + k]? = some T ∧ c = if T.isLeaf then 2 else T.leaves.length)
        (fun fvals i k j => ∃ t T leaf, M.trees[i * M.groups + k]? = some t ∧ M.shapes[i * M.groups + k]? = some T ∧ fvals ≠ [] ∧
          Walk (SkGoes t.nodes (nanToZero fvals)) T leaf ∧ j = num (i * M.groups + k) leaf) := by
  obtain ⟨c1, c2, c3⟩ := ok.counts
  have hgr : 1 ≤ M.groups ∧ M.groups ≤ M.classes := by unfold SkModel.groups; split <;> omega
  have hint := ok.int
  obtain ⟨ens, h1, hfit, -⟩ := C63_sklearn_file P v bs μ hd M hc ok
  obtain ⟨ts, h2, hl, hp, hmean⟩ := sk_file_loaded P hd hc ok
  have := (h1 [] false).symm.trans (h2 [] false)
  cases this
  have hex : ∀ q : Nat, ∃ idx : Nat → Nat, q < M.estimators * M.groups → ∃ t' t T, ts[q]? = some t' ∧ M.trees[q]? = some t ∧ M.shapes[q]? = some T ∧
      t'.nLeaves = (if T.isLeaf then 2 else T.leaves.length) ∧ ((T.leaves.map idx).Perm (List.range T.leaves.length) ∧ ∀ k ∈ T.leaves, T.counted[idx k]? = some k) ∧
      ∀ fvals j, (∃ v, t'.predict P fvals = .ok (v, j)) ↔ ∃ k, fvals ≠ [] ∧ Walk (SkGoes t.nodes (nanToZero fvals)) T k ∧ j = idx k := by
    intro q
    by_cases hq : q < M.estimators * M.groups
    · have hi : q / M.groups < M.estimators := (Nat.div_lt_iff_lt_mul hgr.1).2 hq
      have hk : q % M.groups < M.groups := Nat.mod_lt _ hgr.1
      obtain ⟨t', t, T, e1, e2, e3, -, e4, idx, e5, e6⟩ := hmean (q / M.groups) (q % M.groups) _ hi (List.getElem?_eq_getElem (by omega))
      rw [Nat.div_add_mod'] at e1 e2 e3
      exact ⟨idx, fun _ => ⟨t', t, T, e1, e2, e3, e4, e5, e6⟩⟩
    · exact ⟨id, fun h => absurd h hq⟩
  choose num hnum using hex
  have hpos : ∀ {i k : Nat}, i < M.estimators → k < M.groups → i * M.groups + k < M.estimators * M.groups := by
    intro i k hi hk
    have := tree_pos hl le_rfl hi hk
    omega
  refine ⟨_, h1, num, fun i hi k hk => ?_, leaf_view P _ hfit (trees := ts) rfl rfl
    ⟨M.groups, rfl, hgr.1, by rw [show LgEnsemble.trees _ = ts from rfl, hl, Nat.mul_div_cancel _ hgr.1]⟩ ?_ fun i hi k hk => ?_⟩
  · obtain ⟨t', t, T, e1, e2, e3, e4, e5, e6⟩ := hnum _ (hpos hi hk)
    exact ⟨T, e3, e5⟩
  · calc M.groups * M.estimators ≤ M.classes * M.estimators := Nat.mul_le_mul_right _ hgr.2
      _ = M.estimators * M.classes := Nat.mul_comm _ _
      _ < 2 ^ 63 := by omega
  · obtain ⟨t', t, T, e1, e2, e3, e4, e5, e6⟩ := hnum _ (hpos hi hk)
    refine ⟨t', e1, ⟨T, e3, e4⟩, fun fvals j => ?_⟩
    rw [e6 fvals j]
    constructor
    · rintro ⟨leaf, h1, h2, h3⟩
      exact ⟨_, _, leaf, e2, e3, h1, h2, h3⟩
    · rintro ⟨t1, T1, leaf, h1, h2, h3, h4, h5⟩
      rw [e2] at h1
      rw [e3] at h2
      cases h1; cases h2
      exact ⟨leaf, h3, h4, h5⟩

/-- C81 for LightGBM JSON dumps: the leaf objects of a tree are numbered from 0, one number each. -/
theorem C81_json_file (P : Platform) (d : JEnsemble) (K N : Nat) (M : Int) (ts : List JTree) (ok : JEnsembleOK d P.maxAlloc K N M ts)
    (hK : K < 2 ^ 63) (hsmall : ts.length < 2 ^ 63) :
    ∃ ens, lgEnsembleFromJSON P (some d) false = .ok ens ∧ ∃ num : Nat → List Bool → Nat,
      (∀ (q : Nat) (t : JTree), ts[q]? = some t → ((jPaths t.root).map (num q)).Perm (List.range (jLeaves t.root))) ∧
      LeafView P ens K N (fun i k c => ∃ t, ts[i * K + k]? = some t ∧ c = jLeaves t.root)
        (fun fvals i k j => ∃ t p v, ts[i * K + k]? = some t ∧ JWalk P.out fvals t.root p v ∧ j = num (i * K + k) p) := by
  obtain ⟨c1, c2, hlen⟩ := ok.counts
  obtain ⟨ens, h1, hfit, -⟩ := C67_json_file P d K N M ts ok hK
  obtain ⟨ts', h2, hmean⟩ := j_file_loaded P d K N M ts ok
  rw [h1] at h2
  cases h2
  have hl : ts'.length = N * K := by rw [hmean.length_eq, hlen]
  have hex : ∀ q : Nat, ∃ idx : List Bool → Nat, ∀ (h : q < ts.length) (h' : q < ts'.length),
      ((jPaths ts[q].root).map idx).Perm (List.range (jLeaves ts[q].root)) ∧
        ∀ fvals j, (∃ v, ts'[q].predict P fvals = .ok (v, j)) ↔ ∃ p v, JWalk P.out fvals ts[q].root p v ∧ j = idx p := by
    intro q
    by_cases hq : q < N * K
    · obtain ⟨-, -, idx, h⟩ := (List.forall₂_iff_get.1 hmean).2 q (by omega) (by omega)
      exact ⟨idx, fun _ _ => h⟩
    · exact ⟨fun _ => 0, fun h => by omega⟩
  choose num hnum using hex
  refine ⟨_, h1, num, fun q t ht => ?_, leaf_view P _ hfit (trees := ts') rfl rfl
    ⟨K, rfl, c1, by rw [show LgEnsemble.trees _ = ts' from rfl, hl, Nat.mul_div_cancel _ c1]⟩
    (by rw [Nat.mul_comm, ← hlen]; exact hsmall) fun i hi k hk => ?_⟩
  · obtain ⟨hq, rfl⟩ := List.getElem?_eq_some_iff.1 ht
    exact (hnum q hq (by omega)).1
  · have hx := tree_pos hlen le_rfl hi hk
    have hx' := tree_pos hl le_rfl hi hk
    refine ⟨_, List.getElem?_eq_getElem hx', ⟨_, List.getElem?_eq_getElem hx, ((List.forall₂_iff_get.1 hmean).2 _ hx' hx).2.1⟩, fun fvals j => ?_⟩
    rw [(hnum _ hx hx').2 fvals j, List.getElem?_eq_getElem hx]
    constructor
    · rintro ⟨p, v, h3, h4⟩
      exact ⟨_, p, v, rfl, h3, h4⟩
    · rintro ⟨t, p, v, h3, h4, h5⟩
      cases h3
      exact ⟨p, v, h4, h5⟩

/-! ### concrete files -/

namespace LeafFilesExample

open LgExample LgLoadExample JsonModelExample

/-- the view of a loaded model run on a row, for `n` outputs -/
def leavesOf (r : Res Ensemble) (row : List F64) (n : Nat) : Option (List F64) :=
  match r with
  | .ok e => match e.withLeafPredictions with
    | .ok v => match (v.predict platform row 0 n).run (List.replicate n F64.zero) with
      | (.ok ⟨⟩, m) => some m
      | _ => none
    | _ => none
  | _ => none

/-- the theorem applies to the file of `LgLoadExample`: four leaves and one leaf, the row (8, 33) ends in leaf 2 and leaf 0 -/
example (tail : Str) : ∃ ens view, lgEnsembleFromReader platform ⟨modelText print [d1, d2] 2 1 false ++ tail, false⟩ false = .ok (ens, ⟨tail, false⟩) ∧
    ens.withLeafPredictions = .ok view ∧ view.nLeaves = .ok [4, 1] ∧
    ∀ x y, (view.predict platform [F64.ofNat 8, F64.ofNat 33] 0 2).run [x, y] = (.ok ⟨⟩, [F64.ofNat 2, F64.ofNat 0]) := by
  obtain ⟨header, rest0, blocks, b1, b2, b3, b4⟩ := modelText_blocks (M := 1) tail 2 false (by norm_num) ds_ok
  have hok := fun d hd => (⟨(ds_ok d hd).1, (ds_ok d hd).2.2⟩ : _ ∧ _)
  obtain ⟨ens, h1, view, h2, -, -, -, h3, ⟨L, -, h4, h5, h6⟩, h7⟩ := C81_text_file platform print _ _ tail _ false false _ [d1, d2] 2 1 1 false
    (by norm_num) le_rfl rfl (by norm_num) b1 b2 b3 b4 hok
  obtain ⟨e', g1, -, -, -, -, g2, -⟩ := C39_text_file platform print _ _ tail _ false false _ [d1, d2] 2 1 1 false
    (by norm_num) le_rfl rfl b1 b2 b3 b4 hok
  rw [h1] at g1
  cases g1
  refine ⟨ens, view, h1, h2, ?_, fun x y => ?_⟩
  · rw [h4]
    obtain ⟨c, e1, d, e2, e3⟩ := h6 0 (by norm_num) 0 (by norm_num)
    cases e2
    obtain ⟨c', e1', d', e2', e3'⟩ := h6 0 (by norm_num) 1 (by norm_num)
    cases e2'
    match L, h5, e1, e1' with
    | [a, b], _, e1, e1' =>
      cases e1; cases e1'
      rw [e3, e3']
      rfl
  · refine (h7 _ 0 [x, y] _).2 ⟨by simp, by rw [g2, if_pos (by norm_num)]; simp, .inl le_rfl, [F64.ofNat 2, F64.ofNat 0], ?_, ?_⟩
    swap
    · refine ⟨by simp, rfl, fun j => ?_⟩
      match j with
      | 0 => rfl
      | 1 => rfl
      | j + 2 => simp
    refine ⟨fun i k => if k = 0 then 2 else 0, fun i hi k hk => ?_, rfl, fun i hi k hk => ?_⟩
    · obtain rfl : i = 0 := by omega
      rcases (show k = 0 ∨ k = 1 by omega) with rfl | rfl
      · refine ⟨d1, rfl, ?_⟩
        unfold TreeDesc.Leaf
        rw [if_neg (by decide)]
        obtain ⟨t, h, hv⟩ := C04_lg_text_leaf_index platform LgExample.params 1 3 _ LgExample.arrays LgExample.tree LgExample.block_ok
          LgExample.tree_ok (by decide)
        have : lgTreeFromParams platform LgExample.params = .ok
            { nodes := [⟨F64.ofNat 5, 2, 1, 0, 0x22#8⟩, ⟨F64.ofNat 9, 2, 3, 0, 0x0e#8⟩, ⟨F64.ofNat 0, 0, 1, 1, 0x0d#8⟩],
              leafValues := [F64.ofNat 10, F64.ofNat 20, F64.ofNat 30, F64.ofNat 40],
              catBoundaries := [0, 2], catThresholds := [2#32, 2#32], nCategorical := 1 } := by decide +kernel
        rw [this] at h
        cases h
        exact ⟨((hv _ (F64.ofNat 30) 2).1 (by decide +kernel)).1, by decide⟩
      · exact ⟨d2, rfl, rfl⟩
    · obtain rfl : i = 0 := by omega
      rcases (show k = 0 ∨ k = 1 by omega) with rfl | rfl <;> rfl

/-- a case of the theorem for XGBoost files -/
example (rest : Bytes) : ∃ ens, xgEnsembleFromReader Platform.demo false ((XgFileExample.file 1#32).image ++ rest) = .ok (ens, rest) ∧
    ∃ view L, ens.withLeafPredictions = .ok view ∧ view.nOutputGroups = 2 ∧ view.nLeaves = .ok L ∧ L[0]? = some 3 ∧ L[1]? = some 1 := by
  obtain ⟨ens, h1, num, -, view, h2, h3, -, -, -, ⟨L, -, h4, -, h5⟩, -⟩ := C81_xgboost_file Platform.demo (XgFileExample.file 1#32) 1 2
    XgFileExample.file_ok false (.raw 1) .raw (fun h => by cases h)
  obtain ⟨c, e1, T, e2, e3⟩ := h5 0 (by norm_num) 0 (by norm_num)
  cases e2
  obtain ⟨c', e1', T', e2', e3'⟩ := h5 1 (by norm_num) 0 (by norm_num)
  cases e2'
  subst e3 e3'
  exact ⟨ens, h1 rest, view, L, h2, h3, h4, e1, e1'⟩

/-- a case of the theorem for scikit-learn files: the two trees have three leaves each, and every leaf that the row (0, 0) can
reach is numbered below 3 -/
example : ∃ ens, (∀ rest lt, skEnsembleFromReader Platform.demo ((SkModelExample.value 2).dump SkModelExample.print ++ octet '.' :: rest) lt = .ok ens) ∧
    ∃ view l, ens.withLeafPredictions = .ok view ∧ l < 3 ∧ ∃ l', l' < 3 ∧ ∀ x y,
      (view.predict Platform.demo [F64.zero, F64.zero] 0 2).run [x, y] = (.ok ⟨⟩, [F64.ofNat l, F64.ofNat l']) := by
  have hd := dump_dumps (μ := noMemo) _ (SkModelExample.writable 2 ⟨by decide, by decide⟩)
  obtain ⟨ens, h1, num, hn, view, h2, -, -, -, -, -, h3⟩ := C81_sklearn_file Platform.demo _ _ _ hd _ (SkModelExample.is_classifier 2) (SkModelExample.model_ok 2)
  obtain ⟨e', g1, -, -, -, -, -, g2, -⟩ := C63_sklearn_file Platform.demo _ _ _ hd _ (SkModelExample.is_classifier 2) (SkModelExample.model_ok 2)
  have := (h1 [] false).symm.trans (g1 [] false)
  cases this
  have hlt : ∀ i < 2, num (i * 1 + 0) 2 < 3 := by
    intro i hi
    obtain ⟨T, e1, e2⟩ := hn i hi 0 (by decide)
    have hT : T = SkExample.shape := by
      rcases (show i = 0 ∨ i = 1 by omega) with rfl | rfl <;> (cases e1; rfl)
    subst hT
    have hm : num (i * 1 + 0) 2 ∈ SkExample.shape.leaves.map (num (i * 1 + 0)) := List.mem_map_of_mem (by decide)
    have := e2.1.mem_iff.1 hm
    simpa [SkExample.shape, BTree.leaves] using this
  refine ⟨ens, h1, view, num 0 2, h2, hlt 0 (by norm_num), num 1 2, hlt 1 (by norm_num), fun x y => ?_⟩
  refine (h3 _ 0 [x, y] _).2 ⟨by simp [SkModelExample.model, SkModel.groups], by rw [g2, if_pos (by decide)]; decide, .inl le_rfl, [F64.ofNat (num 0 2), F64.ofNat (num 1 2)], ?_, ?_⟩
  · refine ⟨fun i _ => num i 2, fun i hi k hk => ?_, rfl, fun i hi k hk => ?_⟩
    · have hk : k = 0 := by have : k < 1 := hk; omega
      have hi : i < 2 := hi
      subst hk
      rcases (show i = 0 ∨ i = 1 by omega) with rfl | rfl
      · exact ⟨SkExample.tree, SkExample.shape, 2, rfl, rfl, by simp, SkModelExample.row_walk, rfl⟩
      · exact ⟨SkExample.tree, SkExample.shape, 2, rfl, rfl, by simp, SkModelExample.row_walk, rfl⟩
    · have hk : k = 0 := by have : k < 1 := hk; omega
      have hi : i < 2 := hi
      subst hk
      rcases (show i = 0 ∨ i = 1 by omega) with rfl | rfl <;> rfl
  · refine ⟨by simp, by simp, fun j => ?_⟩
    match j with
    | 0 => simp
    | 1 => simp
    | j + 2 => simp

/-- a case of the theorem for JSON dumps -/
example : ∃ ens view L, lgEnsembleFromJSON platform (some (doc 2 [t1, t2])) false = .ok ens ∧ ens.withLeafPredictions = .ok view ∧
    view.nOutputGroups = 2 ∧ view.nLeaves = .ok L ∧ L[0]? = some 4 ∧ L[1]? = some 1 := by
  obtain ⟨ens, h1, num, -, view, h2, h3, -, -, -, ⟨L, -, h4, -, h5⟩, -⟩ := C81_json_file platform (doc 2 [t1, t2]) 2 1 1 [t1, t2] doc_ok
    (by norm_num) (by norm_num)
  obtain ⟨c, e1, T, e2, e3⟩ := h5 0 (by norm_num) 0 (by norm_num)
  cases e2
  obtain ⟨c', e1', T', e2', e3'⟩ := h5 0 (by norm_num) 1 (by norm_num)
  cases e2'
  subst e3 e3'
  exact ⟨ens, view, L, h1, h2, h3, h4, e1, e1'⟩

/-- The leaf numbers of a JSON dump need not be those of the text file of the same model: both files describe the same trees and give the
same scores, but the row (8, 33) ends in leaf 2 according to the one and in leaf 0 according to the other. -/
theorem C81_text_json_differ : List.Forall₂ SameTree [d1, d2] [t1, t2] ∧
    leavesOf ((lgEnsembleFromReader platform ⟨modelText print [d1, d2] 2 1 false, false⟩ false) >>= fun p => pure p.1)
      [F64.ofNat 8, F64.ofNat 33] 2 = some [F64.ofNat 2, F64.ofNat 0] ∧
    leavesOf (lgEnsembleFromJSON platform (some (doc 2 [t1, t2])) false) [F64.ofNat 8, F64.ofNat 33] 2 = some [F64.ofNat 0, F64.ofNat 0] :=
  ⟨same, by decide +kernel, by decide +kernel⟩

end LeafFilesExample

end Leaves
