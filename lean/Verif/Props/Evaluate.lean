import Verif.Props.LgLoad
import Verif.Props.XgFile
import Verif.Props.SkModel

/-!
# C09, C66: a well-formed model can be evaluated

Whole files: if every split feature is below the row's length, `Predict` returns without an error or a crash.
-/

namespace Leaves

open Spec

/-- the output can be stored in a long enough slice -/
theorem stored_exists (m out : List F64) (h : out.length ≤ m.length) : ∃ m', Stored m 0 out m' := by
  refine ⟨out ++ m.drop out.length, by simpa using h, by simp; omega, fun j => ?_⟩
  by_cases hj : j < out.length
  · rw [if_pos ⟨by omega, by omega⟩, List.getElem?_append_left hj, Nat.sub_zero]
  · rw [if_neg (by omega), List.getElem?_append_right (by omega), List.getElem?_drop]
    congr 1
    omega

/-- there is a number of estimators to use -/
theorem used_exists (req : Int) (total : Nat) : ∃ n, Used req total n ∧ n ≤ total := by
  unfold Used
  by_cases h : 0 < req ∧ req < total
  · exact ⟨req.toNat, by rw [if_pos h]; omega, by omega⟩
  · exact ⟨total, by rw [if_neg h], le_rfl⟩

/-- position of a tree -/
theorem tree_pos {i k n K N len : Nat} (hlen : len = N * K) (hn : n ≤ N) (hi : i < n) (hk : k < K) : i * K + k < len := by
  rw [hlen]
  calc i * K + k < i * K + K := by omega
    _ = (i + 1) * K := by ring
    _ ≤ N * K := Nat.mul_le_mul_right _ (by omega)

/-- Features and leaf numbers of a LightGBM tree are in range: split features at most `M`, a value for every leaf. -/
def LgInRange (d : TreeDesc) (M : Int) : Prop :=
  d.inner ≠ 0 → (∀ i ∈ d.tree.inner, ∀ f, d.arrays.splitFeatures[i]? = some f → (f : Int) ≤ M) ∧ ∀ k ∈ d.tree.leaves, k < d.leafValues.length

theorem lg_value_exists {parse : Str → Option F64} {print : F64 → Str} {d : TreeDesc} (ok : d.OK parse print) {M : Int} (hr : LgInRange d M)
    (out : F64 → Int) (fvals : List F64) (hf : M < fvals.length) : ∃ w, d.Value out fvals w := by
  unfold TreeDesc.Value
  by_cases h0 : d.inner = 0
  · simp only [if_pos h0]
    have := List.length_pos_iff.2 ok.leafValues
    exact ⟨_, List.getElem?_eq_getElem this⟩
  · simp only [if_neg h0]
    obtain ⟨hfeat, hleaf⟩ := hr h0
    have h := ok.tree h0
    have hgo : ∀ i ∈ d.tree.inner, ∃ b, Goes out (LgSplit d.arrays) fvals i b := by
      intro i hi
      obtain ⟨f, rule, hs⟩ := h.splits i hi
      have hf : f < fvals.length := by
        obtain ⟨_, thr, m, _, hf, _⟩ := id hs
        have := hfeat i hi f hf; omega
      classical
      exact ⟨decide (rule.Left out fvals[f]), f, rule, fvals[f], hs, List.getElem?_eq_getElem hf, by simp⟩
    obtain ⟨k, hw, hk⟩ := walk_exists d.tree hgo
    exact ⟨_, k, hw, List.getElem?_eq_getElem (hleaf k hk)⟩

/-- C09, C66 for LightGBM text files: a well-formed file whose split features are at most `max_feature_idx` and whose leaves all
have values loads, and for every row of at least `max_feature_idx + 1` values, every number of estimators and every output slice
of at least `num_class` values, `Predict` returns without an error. -/
theorem C09_text_file (P : Platform) (print : F64 → Str) (text rest0 rest : Str) (header : List Str) (e0 e1 : Bool)
    (blocks : List (List Str)) (ds : List TreeDesc) (K N : Nat) (M : Int) (avg : Bool) (hK : 1 ≤ K ∧ K < 2 ^ 63) (hN : 1 ≤ N)
    (hlen : ds.length = N * K) (h0 : FileBlock text header rest0 e0) (hhl : HeaderLines header K M ds.length avg)
    (hb : FileBlocks rest0 blocks rest e1) (hd : List.Forall₂ (TreeLines print) ds blocks)
    (hok : ∀ d ∈ ds, d.OK P.parseFloat print ∧ d.inner * 24 ≤ P.maxAlloc) (hr : ∀ d ∈ ds, LgInRange d M) :
    ∃ ens, lgEnsembleFromReader P ⟨text, false⟩ false = .ok (ens, ⟨rest, false⟩) ∧
      ∀ fvals req m, M < fvals.length → K ≤ m.length → ∃ m', (ens.predict P fvals req m.length).run m = (.ok ⟨⟩, m') := by
  obtain ⟨ens, h1, -, -, -, -, h2, -, h3⟩ := C39_text_file P print text rest0 rest header e0 e1 blocks ds K N M avg hK hN hlen h0 hhl hb hd hok
  refine ⟨ens, h1, fun fvals req m hf hm => ?_⟩
  obtain ⟨n, hu, hn⟩ := used_exists req N
  have hv : ∀ i < n, ∀ k < K, ∃ x d, ds[i * K + k]? = some d ∧ d.Value P.out fvals x := by
    intro i hi k hk
    have hpos := tree_pos hlen hn hi hk
    have hmem := List.getElem_mem hpos
    obtain ⟨x, hx⟩ := lg_value_exists (hok _ hmem).1 (hr _ hmem) P.out fvals hf
    exact ⟨x, _, List.getElem?_eq_getElem hpos, hx⟩
  choose! v hv using hv
  obtain ⟨w, hraw, hw⟩ : ∃ w, RefRaw P P.out ds K avg fvals n w ∧ w.length = K := ⟨_, ⟨v, hv, rfl⟩, by rw [List.length_map, List.length_range]⟩
  obtain ⟨m', hs⟩ := stored_exists m w (by omega)
  exact ⟨m', (h3 fvals req m m').2 ⟨hm, by rw [h2]; split <;> omega, n, w, hu, hraw, hs⟩⟩

/-- C09, C66 for LightGBM text files, for the text written for any model. -/
theorem C09_written_model (P : Platform) (print : F64 → Str) (tail : Str) (ds : List TreeDesc) (K N : Nat) (M : Int) (avg : Bool)
    (hK : 1 ≤ K ∧ K < 2 ^ 63) (hN : 1 ≤ N) (hlen : ds.length = N * K) (hM : -2 ^ 63 ≤ M ∧ M < 2 ^ 63 - 1)
    (hok : ∀ d ∈ ds, d.OK P.parseFloat print ∧ PlainFloats print d ∧ d.inner * 24 ≤ P.maxAlloc) (hr : ∀ d ∈ ds, LgInRange d M) :
    ∃ ens, lgEnsembleFromReader P ⟨modelText print ds K M avg ++ tail, false⟩ false = .ok (ens, ⟨tail, false⟩) ∧
      ∀ fvals req m, M < fvals.length → K ≤ m.length → ∃ m', (ens.predict P fvals req m.length).run m = (.ok ⟨⟩, m') := by
  obtain ⟨header, rest0, blocks, h1, h2, h3, h4⟩ := modelText_blocks tail K avg hM hok
  exact C09_text_file P print _ _ tail _ false false _ ds K N M avg hK hN hlen h1 h2 h3 h4 (fun d hd => ⟨(hok d hd).1, (hok d hd).2.2⟩) hr

/-- the transformation's result exists and is as long as the model's output -/
theorem xg_transformed_exists (P : Platform) {K : Nat} {objective : List (BitVec 8)} {lt : Bool} {tr : Transform}
    (ho : XgObjective K objective lt tr) (hlog : tr = .logistic → K = 1) (w : List F64) (hw : w.length = K) :
    ∃ out, IsTransformed P tr w out ∧ (out.length : Int) = tr.nOutputGroups := by
  cases ho with
  | raw => exact ⟨w, rfl, by rw [hw]; rfl⟩
  | logistic h =>
    have hK := hlog rfl
    subst hK
    obtain ⟨x, rfl⟩ := List.length_eq_one_iff.1 hw
    exact ⟨_, ⟨x, rfl, rfl⟩, rfl⟩

/-- C09, C66 for XGBoost files of trees: a well-formed file whose split features are below `num_feature` loads, and for every row
of at least `num_feature` values, every number of estimators and every output slice that is long enough, `Predict` returns
without an error. -/
theorem C09_xgboost_file (P : Platform) (m : XgModel) (K N : Nat) (ok : m.OK P.maxAlloc K N) (lt : Bool) (tr : Transform)
    (ho : XgObjective K m.header.nameObj lt tr) (hlog : tr = .logistic → K = 1)
    (hfeat : ∀ (i : Nat) (t : XgBin.TreeModel) (T : BTree), m.gbtree.trees[i]? = some t → m.shapes[i]? = some T → ∀ j ∈ T.inner, ∀ node, t.nodes[j]? = some node →
      xgFeature node < m.header.param.numFeatures.toNat) :
    ∃ ens, (∀ rest, xgEnsembleFromReader P lt (m.image ++ rest) = .ok (ens, rest)) ∧
      ∀ fvals req s, m.header.param.numFeatures.toNat ≤ fvals.length → ens.nOutputGroups ≤ s.length →
        ∃ s', (ens.predict P fvals req s.length).run s = (.ok ⟨⟩, s') := by
  obtain ⟨ens, h1, -, ht, -, -, h2, -, h3⟩ := C62_xgboost_file_le P m K N ok lt tr ho hlog
  refine ⟨ens, h1, fun fvals req s hf hs => ?_⟩
  obtain ⟨n, hu, hn⟩ := used_exists req N
  have hlen := ok.counts.2.2
  have hsh := ok.trees
  have hv : ∀ i < n, ∀ k < K, ∃ x t T leaf, m.gbtree.trees[i * K + k]? = some t ∧ m.shapes[i * K + k]? = some T ∧
      Walk (XgGoesLe t.nodes fvals) T leaf ∧ XgVal t.nodes leaf x := by
    intro i hi k hk
    have hpos := tree_pos hlen hn hi hk
    have hpos' : i * K + k < m.shapes.length := by rw [← hsh.length_eq]; exact hpos
    have hT := (List.forall₂_iff_get.1 hsh).2 (i * K + k) hpos hpos'
    have e1 := List.getElem?_eq_getElem hpos
    have e2 := List.getElem?_eq_getElem hpos'
    simp only [List.get_eq_getElem] at hT
    rcases hT with hT | ⟨⟨node, hnode⟩, -, hT⟩
    · have hgo : ∀ j ∈ (m.shapes[i * K + k]).inner, ∃ b, XgGoesLe (m.gbtree.trees[i * K + k]).nodes fvals j b := by
        intro j hj
        obtain ⟨node, hnode⟩ := XgShape.inner_get hT.shape j hj
        have hx : xgFeature node < fvals.length := lt_of_lt_of_le (hfeat _ _ _ e1 e2 j hj node hnode) hf
        classical
        exact ⟨decide (XgLeftLe node fvals[xgFeature node]), node, _, hnode, List.getElem?_eq_getElem hx, by simp⟩
      obtain ⟨leaf, hw, hl⟩ := walk_exists _ hgo
      obtain ⟨x, hx⟩ := XgShape.leaf_val hT.shape leaf hl
      exact ⟨x, _, _, leaf, e1, e2, hw, hx⟩
    · refine ⟨F64.ofBits32 node.info, _, _, 0, e1, e2, ?_, node, by rw [hnode]; rfl, rfl⟩
      rw [hT]
      exact .leaf 0
  have hc : ∀ i < n, ∀ k < K, ∃ c, m.Weight (i * K + k) c := by
    intro i hi k hk
    have hpos := tree_pos hlen hn hi hk
    unfold XgModel.Weight
    by_cases hd : m.dart = true
    · rw [hlen, ← ok.weights hd] at hpos
      exact ⟨_, by rw [if_pos hd]; exact ⟨_, List.getElem?_eq_getElem hpos, rfl⟩⟩
    · exact ⟨_, by rw [if_neg hd]⟩
  choose! v hv using hv
  choose! c hc using hc
  obtain ⟨w, hraw, hw⟩ : ∃ w, XgRefRaw P XgGoesLe m K fvals n w ∧ w.length = K :=
    ⟨_, ⟨v, c, hv, hc, rfl⟩, by rw [List.length_map, List.length_range]⟩
  obtain ⟨out, ho1, ho2⟩ := xg_transformed_exists P ho hlog w hw
  have hout : ens.nOutputGroups = tr.nOutputGroups := by unfold Ensemble.nOutputGroups; rw [ht]
  obtain ⟨s', hst⟩ := stored_exists s out (by omega)
  exact ⟨s', (h3 fvals req s s').2 ⟨hs, by rw [h2]; split <;> omega, n, w, out, hu, hraw, ho1, hst⟩⟩

/-- C09, C66 for linear XGBoost files. -/
theorem C09_linear_file (P : Platform) (m : XgLinFile) (K F : Nat) (ok : m.OK P.maxAlloc K F) (lt : Bool) (tr : Transform)
    (ho : XgObjective K m.header.nameObj lt tr) (hlog : tr = .logistic → K = 1) :
    ∃ ens, (∀ rest, xgbLinearFromReader P lt (m.image ++ rest) = .ok (ens, rest)) ∧
      ∀ fvals req s, F ≤ fvals.length → ens.nOutputGroups ≤ s.length →
        ∃ s', (ens.predict P fvals req s.length).run s = (.ok ⟨⟩, s') := by
  obtain ⟨ens, h1, -, ht, -, -, -, -, h3⟩ := C62_linear_file P m K F ok lt tr ho hlog
  refine ⟨ens, h1, fun fvals req s hf hs => ?_⟩
  have hx : ∀ i < F, ∃ x, fvals[i]? = some x := fun i hi => ⟨_, List.getElem?_eq_getElem (by omega)⟩
  have hc : ∀ i ≤ F, ∀ k < K, ∃ c b, m.linear.weights[i * K + k]? = some b ∧ c = F64.ofBits32 b := by
    intro i hi k hk
    have hpos := tree_pos ok.weights le_rfl (show i < F + 1 by omega) hk
    exact ⟨_, _, List.getElem?_eq_getElem hpos, rfl⟩
  choose! x hx using hx
  choose! c hc using hc
  obtain ⟨out, ho1, ho2⟩ := xg_transformed_exists P ho hlog ((List.range K).map fun k => accumulate (fun i acc => P.mulAdd (x i) (c i k) acc) F
      (F64.add (F64.ofBits32 m.header.param.baseScore) (c F k))) (by rw [List.length_map, List.length_range])
  have hout : ens.nOutputGroups = tr.nOutputGroups := by unfold Ensemble.nOutputGroups; rw [ht]
  obtain ⟨s', hst⟩ := stored_exists s out (by omega)
  exact ⟨s', (h3 fvals req s s').2 ⟨hs, hf, _, out, ⟨x, c, hx, hc, rfl⟩, ho1, hst⟩⟩

theorem init_length {K : Nat} {xs : List F64} {v : PyVal} (h : IsInit K xs v) : xs.length = K := by
  cases h with
  | logOdds => simp
  | priors _ _ _ _ _ _ _ hl => exact hl

/-- C09, C66 for scikit-learn pickles: a fitted classifier whose split features are below `F` loads, and for every row of at least
`F` (and one, and `max_features_`) values, every number of estimators and every output slice that is long enough, `Predict`
returns without an error. -/
theorem C09_sklearn_file (P : Platform) (v : PyVal) (bs : Pickle.Bytes) (μ : Memo) (hd : Dumps P noMemo v bs μ) (M : SkModel)
    (hc : IsClassifier M v) (ok : M.OK P.maxAlloc) (F : Nat)
    (hfeat : ∀ (i : Nat) (t : Pickle.SkTree) (T : BTree), M.trees[i]? = some t → M.shapes[i]? = some T → ∀ j ∈ T.inner, ∀ node, t.nodes[j]? = some node → node.feature < F) :
    ∃ ens, (∀ rest lt, skEnsembleFromReader P (bs ++ octet '.' :: rest) lt = .ok ens) ∧
      ∀ fvals req s, F ≤ fvals.length → fvals ≠ [] → M.maxFeatures ≤ fvals.length → M.groups ≤ s.length →
        ∃ s', (ens.predict P fvals req s.length).run s = (.ok ⟨⟩, s') := by
  obtain ⟨ens, h1, -, -, -, -, -, h2, -, h3⟩ := C63_sklearn_file P v bs μ hd M hc ok
  refine ⟨ens, h1, fun fvals req s hf hne hmf hs => ?_⟩
  obtain ⟨n, hu, hn⟩ := used_exists req M.estimators
  have hlen := ok.counts.2.2
  have hsh := ok.trees
  have hprior : M.prior.length = M.groups := by
    obtain ⟨_, _, init, _, _, _, _, _, _, _, _, _, _, _, hinit, _⟩ := hc
    exact init_length hinit
  have hv : ∀ i < n, ∀ k < M.groups, ∃ y t T leaf x p, M.trees[i * M.groups + k]? = some t ∧ M.shapes[i * M.groups + k]? = some T ∧
      fvals ≠ [] ∧ Walk (SkGoes t.nodes (nanToZero fvals)) T leaf ∧ t.values[leaf]? = some x ∧ M.prior[k]? = some p ∧
      y = P.mulAdd x M.learningRate (if i = 0 then p else F64.zero) := by
    intro i hi k hk
    have hpos := tree_pos hlen hn hi hk
    have hpos' : i * M.groups + k < M.shapes.length := by rw [← hsh.length_eq]; exact hpos
    have hT := (List.forall₂_iff_get.1 hsh).2 (i * M.groups + k) hpos hpos'
    have e1 := List.getElem?_eq_getElem hpos
    have e2 := List.getElem?_eq_getElem hpos'
    simp only [List.get_eq_getElem] at hT
    have hgo : ∀ j ∈ (M.shapes[i * M.groups + k]).inner, ∃ b, SkGoes (M.trees[i * M.groups + k]).nodes (nanToZero fvals) j b := by
      intro j hj
      obtain ⟨node, hnode, -⟩ := SkShape.inner_lt hT.shape j hj
      have hf1 := hfeat _ _ _ e1 e2 j hj node hnode
      have hf0 := hT.features j hj node hnode
      have hx : node.feature.toNat < (nanToZero fvals).length := by unfold nanToZero; rw [List.length_map]; omega
      classical
      exact ⟨decide (Le (nanToZero fvals)[node.feature.toNat] node.threshold), node, node.feature.toNat, _, hnode, by omega,
        List.getElem?_eq_getElem hx, by simp⟩
    obtain ⟨leaf, hw, hl⟩ := walk_exists _ hgo
    have hlt : leaf < (M.trees[i * M.groups + k]).values.length := by
      rw [hT.values]
      obtain ⟨_, hl', -⟩ := SkShape.leaves_lt hT.shape leaf hl
      exact (List.getElem?_eq_some_iff.1 hl').1
    exact ⟨_, _, _, leaf, _, _, e1, e2, hne, hw, List.getElem?_eq_getElem hlt, List.getElem?_eq_getElem (by omega), rfl⟩
  choose! y hy using hv
  obtain ⟨s', hst⟩ := stored_exists s ((List.range M.groups).map fun k => accumulate (fun i acc => P.mulAdd (y i k) F64.one acc) n F64.zero)
    (by rw [List.length_map, List.length_range]; exact hs)
  exact ⟨s', (h3 fvals req s s').2 ⟨hs, by rw [h2]; split <;> omega, n, _, hu, ⟨y, hy, rfl⟩, hst⟩⟩

namespace EvaluateExample

/-- every row of two values can be evaluated -/
example : ∃ ens, lgEnsembleFromReader LgExample.platform ⟨modelText LgLoadExample.print [LgLoadExample.d1, LgLoadExample.d2] 2 1 false ++ [], false⟩
      false = .ok (ens, ⟨[], false⟩) ∧
    ∀ fvals req m, (1 : Int) < fvals.length → 2 ≤ m.length → ∃ m', (ens.predict LgExample.platform fvals req m.length).run m = (.ok ⟨⟩, m') :=
  C09_written_model _ _ _ _ 2 1 1 false (by norm_num) le_rfl rfl (by norm_num) LgLoadExample.ds_ok (by
    intro d hd
    simp only [List.mem_cons, List.not_mem_nil, or_false] at hd
    rcases hd with rfl | rfl
    · intro _
      refine ⟨?_, by decide⟩
      intro i hi f hf
      have hall : ∀ f ∈ LgLoadExample.d1.arrays.splitFeatures, (f : Int) ≤ 1 := by decide
      exact hall f (List.mem_of_getElem? hf)
    · intro h
      exact absurd rfl h)

/-- a file of two trees -/
example : ∃ ens, (∀ rest, xgEnsembleFromReader Platform.demo false ((XgFileExample.file 1#32).image ++ rest) = .ok (ens, rest)) ∧
      ∀ fvals req s, 2 ≤ fvals.length → ens.nOutputGroups ≤ s.length →
        ∃ s', (ens.predict Platform.demo fvals req s.length).run s = (.ok ⟨⟩, s') :=
  C09_xgboost_file Platform.demo (XgFileExample.file 1#32) 1 2 XgFileExample.file_ok false (.raw 1) .raw (by intro h; cases h) (by
    intro i t T ht _ j _ node hn
    have hall : ∀ t ∈ (XgFileExample.file 1#32).gbtree.trees, ∀ node ∈ t.nodes, xgFeature node < 2 := by decide
    exact hall t (List.mem_of_getElem? ht) node (List.mem_of_getElem? hn))

/-- a linear file -/
example : ∃ ens, (∀ rest, xgbLinearFromReader Platform.demo false (XgFileExample.linFile.image ++ rest) = .ok (ens, rest)) ∧
      ∀ fvals req s, 2 ≤ fvals.length → ens.nOutputGroups ≤ s.length →
        ∃ s', (ens.predict Platform.demo fvals req s.length).run s = (.ok ⟨⟩, s') :=
  C09_linear_file Platform.demo XgFileExample.linFile 1 2 XgFileExample.linFile_ok false (.raw 1) .raw (by intro h; cases h)

/-- a pickle of two trees on two features, `max_features` being 1 -/
example : ∃ ens, (∀ rest lt, skEnsembleFromReader Platform.demo ((SkModelExample.value 1).dump SkModelExample.print ++ octet '.' :: rest) lt = .ok ens) ∧
      ∀ fvals req s, 2 ≤ fvals.length → fvals ≠ [] → (1 : Int) ≤ fvals.length → 1 ≤ s.length →
        ∃ s', (ens.predict Platform.demo fvals req s.length).run s = (.ok ⟨⟩, s') :=
  C09_sklearn_file Platform.demo _ _ _ (dump_dumps _ (SkModelExample.writable 1 ⟨by decide, by decide⟩)) _ (SkModelExample.is_classifier 1)
    (SkModelExample.model_ok 1) 2 (by
    intro i t T ht _ j _ node hn
    have hall : ∀ t ∈ (SkModelExample.model 1).trees, ∀ node ∈ t.nodes, node.feature < (2 : Nat) := by decide
    exact hall t (List.mem_of_getElem? ht) node (List.mem_of_getElem? hn))

/-- a tree that is a leaf of value 10 -/
def leafTree : Pickle.SkTree := ⟨1, [1], 1, [SkModelExample.leafWords.node], [F64.ofNat 10]⟩
/-- the tree as a Python object -/
def leafValue : PyVal :=
  .build (pyName "sklearn.tree._tree" "Tree") (.ofList [.int 2, SkModelExample.array [1] "i8" (SkModelExample.bytes (field64 1)), .int 1])
    (.dict (SkModelExample.items [("max_depth", .int 0), ("node_count", .int 1),
      ("nodes", SkModelExample.array [1] "V56" (SkModelExample.bytes ([SkModelExample.leafWords].flatMap NodeWords.record))),
      ("values", SkModelExample.array [1, 1, 1] "f8" (SkModelExample.bytes ([0x4024000000000000#64].flatMap field64)))]))
/-- a regressor with this tree -/
def leafRegressor : PyVal :=
  SkModelExample.inst "sklearn.tree.tree" "DecisionTreeRegressor"
    (SkModelExample.items [("n_classes_", SkModelExample.scalar "i8" (field64 1)), ("max_features_", .int 1), ("n_outputs_", .int 1), ("tree_", leafValue)])
/-- a classifier without splits -/
def leafModel : SkModel where
  classes := 2
  estimators := 1
  maxFeatures := 1
  learningRate := F64.ofNat 2
  prior := [F64.ofNat 5]
  trees := [leafTree]
  shapes := [.leaf 0]

theorem leaf_is_classifier : IsClassifier leafModel (SkModelExample.classifier 2 1 1 1 [leafRegressor]) := by
  refine ⟨_, _, _, _, [0, 1], _, _, _, _, ⟨_, _, rfl⟩, rfl, rfl, rfl, rfl, ?_, rfl, ⟨[0, 1], _, SkModelExample.is_array _ _ _, rfl, by decide⟩, rfl, rfl, rfl,
    SkModelExample.is_array _ _ _, .cons ⟨_, _, _, _, _, _, ⟨_, _, rfl⟩, rfl, ⟨_, _, .plain _ _ rfl, rfl, rfl⟩, rfl, rfl, rfl, ?_⟩ .nil⟩
  · exact .logOdds _ _ _ _ _ _ ⟨_, _, rfl⟩ rfl ⟨_, _, .plain _ _ rfl, rfl, rfl⟩ ⟨[0x4014000000000000], by decide +kernel, .inl ⟨rfl, by simp⟩⟩
  · refine ⟨_, _, _, _, _, rfl, ⟨[1], _, SkModelExample.is_array _ _ _, ?_, by decide⟩, rfl, rfl,
      ⟨_, _, [SkModelExample.leafWords], _, SkModelExample.is_array _ _ _, rfl, by decide +kernel⟩, rfl,
      ⟨_, _, _, _, SkModelExample.is_array _ _ _, rfl, [0x4024000000000000], by decide +kernel, Or.inl ⟨rfl, rfl⟩⟩⟩
    show IsBytes (field64 1 ++ []) _
    rw [List.append_nil]
    rfl

/-- C09 is false for rows without values: a classifier without splits, whose `NFeatures` is 0, crashes on the empty row. -/
theorem C09_empty_row_fails : ∃ v ens, IsClassifier leafModel v ∧ (∀ T ∈ leafModel.shapes, T.inner = []) ∧
    skEnsembleFromReader Platform.demo (v.dump SkModelExample.print ++ [octet '.']) false = .ok ens ∧ ens.nFeatures = 0 ∧
    ∃ s, (ens.predict Platform.demo [] 0 1).run [F64.zero] = (.panic, s) := by
  obtain ⟨ens, h, hc⟩ := SkModelExample.of_check
    (r := skEnsembleFromReader Platform.demo ((SkModelExample.classifier 2 1 1 1 [leafRegressor]).dump SkModelExample.print ++ [octet '.']) false)
    (fun ens => ens.nFeatures = 0 ∧ ((ens.predict Platform.demo [] 0 1).run [F64.zero]).1 = .panic) (by decide +kernel)
  exact ⟨_, ens, leaf_is_classifier, by decide, h, hc.1, _, Prod.ext hc.2 rfl⟩

end EvaluateExample

end Leaves
