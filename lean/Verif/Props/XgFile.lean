import Verif.Props.LeafLayout
import Verif.Proofs.XgInv
import Verif.Props.XgTree
import Verif.Props.Predict
import Verif.Spec.XgModel

/-! # C41, C42, C43, C62: XGBoost files -/

namespace Leaves

open Spec XgBin

/-! ### C41, C42: records -/

/-- C41: the image of a header is read as the header and nothing more is consumed. -/
theorem C41_header (P : Platform) (h : ModelHeader) (ok : HeaderOK P.maxAlloc h) (rest : Bytes) :
    readModelHeader P (headerImage h ++ rest) = .ok (h, rest) := (Codec.header P ok).decode rest

/-- C41, one tree. -/
theorem C41_tree (P : Platform) (t : TreeModel) (v : List (BitVec 32)) (ok : TreeImageOK P.maxAlloc t v) (rest : Bytes) :
    readTreeModel P (treeImage t v ++ rest) = .ok (t, rest) := (Codec.tree P ok).decode rest

/-- C41, a model of trees. -/
theorem C41_gbtree (P : Platform) (m : GBTreeModel) (vs : List (List (BitVec 32))) (ok : GBTreeOK P.maxAlloc m vs) (rest : Bytes) :
    readGBTreeModel P (gbtreeImage m vs ++ rest) = .ok (m, rest) := (Codec.gbtree P ok).decode rest

/-- C41, a linear model. -/
theorem C41_linear (P : Platform) (m : GBLinearModel) (ok : LinearOK P.maxAlloc m) (rest : Bytes) :
    readGBLinearModel P (linearImage m ++ rest) = .ok (m, rest) := (Codec.linear P ok).decode rest

/-- C41, strings and vectors. -/
theorem C41_string_and_slice (P : Platform) (s : Bytes) (ws : List (BitVec 32)) (hs : s.length < 2 ^ 64 ∧ s.length ≤ P.maxAlloc)
    (hw : ws.length < 2 ^ 64 ∧ ws.length * 4 ≤ P.maxAlloc) (rest : Bytes) :
    readString P (stringImage s ++ rest) = .ok (s, rest) ∧ readWordSlice P (sliceImage ws ++ rest) = .ok (ws, rest) :=
  ⟨(Codec.string P hs).decode rest, (Codec.slice P hw).decode rest⟩

/-- two records with the same image are the same (so the image loses nothing) -/
theorem C41_gbtree_injective (P : Platform) (m m' : GBTreeModel) (vs vs' : List (List (BitVec 32))) (ok : GBTreeOK P.maxAlloc m vs)
    (ok' : GBTreeOK P.maxAlloc m' vs') (h : gbtreeImage m vs = gbtreeImage m' vs') : m = m' := by
  have h1 := C41_gbtree P m vs ok []
  rw [h, C41_gbtree P m' vs' ok' []] at h1
  cases h1; rfl

/-- C41, the other direction: whatever is read as a header is the image of that header, so nothing of the file is reinterpreted. -/
theorem C41_header_iff (P : Platform) (h : ModelHeader) (bytes rest : Bytes) :
    readModelHeader P bytes = .ok (h, rest) ↔ HeaderOK P.maxAlloc h ∧ bytes = headerImage h ++ rest :=
  ⟨readModelHeader_inv, fun ⟨h1, h2⟩ => by rw [h2]; exact C41_header P h h1 rest⟩

/-- C41, the other direction for a tree. -/
theorem C41_tree_iff (P : Platform) (t : TreeModel) (bytes rest : Bytes) :
    readTreeModel P bytes = .ok (t, rest) ↔ ∃ v, TreeImageOK P.maxAlloc t v ∧ bytes = treeImage t v ++ rest :=
  ⟨readTreeModel_inv, fun ⟨v, h1, h2⟩ => by rw [h2]; exact C41_tree P t v h1 rest⟩

/-- C41, the other direction for a model of trees: a negative number of trees is read as none. -/
theorem C41_gbtree_iff (P : Platform) (m : GBTreeModel) (bytes rest : Bytes) (hn : 0 ≤ m.param.numTrees.toInt) :
    readGBTreeModel P bytes = .ok (m, rest) ↔ ∃ vs, GBTreeOK P.maxAlloc m vs ∧ bytes = gbtreeImage m vs ++ rest :=
  ⟨readGBTreeModel_inv hn, fun ⟨vs, h1, h2⟩ => by rw [h2]; exact C41_gbtree P m vs h1 rest⟩

/-- C41, the other direction for a linear model. -/
theorem C41_linear_iff (P : Platform) (m : GBLinearModel) (bytes rest : Bytes) :
    readGBLinearModel P bytes = .ok (m, rest) ↔ LinearOK P.maxAlloc m ∧ bytes = linearImage m ++ rest :=
  ⟨readGBLinearModel_inv, fun ⟨h1, h2⟩ => by rw [h2]; exact C41_linear P m h1 rest⟩

theorem Codec.prefix {α : Type} {r : Rd α} {img : Bytes} {a : α} (h : Codec r img a) {pre : Bytes} (hp : pre <+: img) (hne : pre ≠ img) :
    ∃ e, r pre = .err e := by
  obtain ⟨suf, rfl⟩ := hp
  exact h.trunc pre suf rfl (by rintro rfl; exact hne (by simp))

/-- C42: a truncated header is rejected. -/
theorem C42_header (P : Platform) (h : ModelHeader) (ok : HeaderOK P.maxAlloc h) (pre : Bytes) (hp : pre <+: headerImage h)
    (hne : pre ≠ headerImage h) : ∃ e, readModelHeader P pre = .err e := (Codec.header P ok).prefix hp hne

/-- C42, one tree. -/
theorem C42_tree (P : Platform) (t : TreeModel) (v : List (BitVec 32)) (ok : TreeImageOK P.maxAlloc t v) (pre : Bytes)
    (hp : pre <+: treeImage t v) (hne : pre ≠ treeImage t v) : ∃ e, readTreeModel P pre = .err e := (Codec.tree P ok).prefix hp hne

/-- C42, a model of trees. -/
theorem C42_gbtree (P : Platform) (m : GBTreeModel) (vs : List (List (BitVec 32))) (ok : GBTreeOK P.maxAlloc m vs) (pre : Bytes)
    (hp : pre <+: gbtreeImage m vs) (hne : pre ≠ gbtreeImage m vs) : ∃ e, readGBTreeModel P pre = .err e :=
  (Codec.gbtree P ok).prefix hp hne

/-- C42, a linear model. -/
theorem C42_linear (P : Platform) (m : GBLinearModel) (ok : LinearOK P.maxAlloc m) (pre : Bytes)
    (hp : pre <+: linearImage m) (hne : pre ≠ linearImage m) : ∃ e, readGBLinearModel P pre = .err e := (Codec.linear P ok).prefix hp hne

/-! ### whole files -/

/-- all strict prefixes of `img` are rejected -/
def Trunc {α : Type} (r : Rd α) (img : Bytes) : Prop := ∀ pre suf, img = pre ++ suf → suf ≠ [] → ∃ e, r pre = .err e

theorem Codec.trunc_bind {α β : Type} {r : Rd α} {f : α → Rd β} {img img' : Bytes} {a : α} (h : Codec r img a)
    (h' : Trunc (f a) img') : Trunc (r >>= f) (img ++ img') := by
  intro pre suf he hs
  show ∃ e, (match r pre with | .ok (a, bs) => f a bs | .err t => .err t | .panic => .panic | .hang => .hang) = .err e
  rcases List.append_eq_append_iff.1 he with ⟨as, h1, h2⟩ | ⟨bs, h1, h2⟩
  · rw [h1, h.decode]
    exact h' as suf h2 hs
  · by_cases hb : bs = []
    · subst hb
      rw [List.append_nil] at h1
      rw [← h1]
      have := h.decode []
      rw [List.append_nil] at this
      rw [this]
      exact h' [] suf h2.symm hs
    · obtain ⟨e, he'⟩ := h.trunc pre bs h1 hb
      exact ⟨e, by rw [he']⟩

theorem Trunc.err {α : Type} {e : String} {img : Bytes} : Trunc (lift (.err e) : Rd α) img := fun _ _ _ _ => ⟨e, rfl⟩

theorem Trunc.nil {α : Type} {r : Rd α} : Trunc r [] := by
  intro pre suf he hs
  rw [eq_comm, List.append_eq_nil_iff] at he
  exact absurd he.2 hs

theorem rd_bind_err {α β : Type} {r : Rd α} {f : α → Rd β} {bs : Bytes} {e : String} (h : r bs = .err e) : (r >>= f) bs = .err e := by
  show (match r bs with | .ok (a, bs) => f a bs | .err t => .err t | .panic => .panic | .hang => .hang) = _
  rw [h]

/-- C42: `XGEnsembleFromReader` rejects every truncated file, whatever its contents. -/
theorem C42_truncated_file (P : Platform) (m : XgModel) (lt : Bool) (h1 : HeaderOK P.maxAlloc m.header)
    (h2 : GBTreeOK P.maxAlloc m.gbtree m.leafVectors) (hd : m.dart = true → m.header.nameGbm = asciiBytes "dart")
    (h3 : m.weights.length < 2 ^ 64 ∧ m.weights.length * 4 ≤ P.maxAlloc) (h4 : m.gbtree.trees.length * 8 ≤ P.maxAlloc)
    (pre : Bytes) (hp : pre <+: m.image) (hne : pre ≠ m.image) : ∃ e, xgEnsembleFromReader P lt pre = .err e := by
  obtain ⟨suf, hsuf⟩ := hp
  refine Codec.trunc_bind (img' := gbtreeImage m.gbtree m.leafVectors ++ if m.dart then sliceImage m.weights else []) (Codec.header P h1) ?_
    pre suf (by rw [hsuf]; rfl) (by rintro rfl; exact hne (by simpa using hsuf))
  split
  · exact Trunc.err
  simp only
  split
  · exact Trunc.err
  refine Codec.trunc_bind (Codec.gbtree P h2) ?_
  split
  · exact Trunc.err
  by_cases hdart : m.dart = true
  · rw [if_pos hdart]
    have hal : allocCheck P m.gbtree.param.numTrees.toInt 8 = .ok ⟨⟩ := allocCheck_of h2.trees h4
    intro p s he hs
    unfold xgWeightDrop
    rw [if_pos (show m.header.nameGbm = ascii "dart" from hd hdart), hal]
    have := (Codec.slice P h3).trunc p s he hs
    obtain ⟨e, hee⟩ := this
    refine ⟨e, ?_⟩
    exact rd_bind_err (rd_bind_err (r := readWordSlice P) hee)
  · rw [if_neg hdart]
    exact Trunc.nil

theorem checkTreeInfo_iff (G : Nat) (hG : 1 ≤ G) : ∀ (xs : List (BitVec 32)) (cur : Nat), cur < G →
    (xgCheckTreeInfo G cur xs = true ↔ ∀ (j : Nat) (b : BitVec 32), xs[j]? = some b → b.toInt = ((cur + j) % G : Nat))
  | [], cur, hc => by simp [xgCheckTreeInfo]
  | x :: xs, cur, hc => by
    rw [xgCheckTreeInfo]
    by_cases hx : x.toInt = cur
    · rw [if_neg (by simpa using hx)]
      have key : (if (cur : Int) + 1 ≥ (G : Int) then (0 : Int) else (cur : Int) + 1) = (((cur + 1) % G : Nat) : Int) := by
        split
        · have : cur + 1 = G := by omega
          rw [this, Nat.mod_self]; rfl
        · rw [Nat.mod_eq_of_lt (by omega)]; push_cast; rfl
      simp only [key]
      rw [checkTreeInfo_iff G hG xs _ (Nat.mod_lt _ (by omega))]
      constructor
      · intro h j b hb
        cases j with
        | zero => simp at hb; subst hb; rw [Nat.add_zero, Nat.mod_eq_of_lt hc]; exact hx
        | succ j =>
          rw [List.getElem?_cons_succ] at hb
          rw [h j b hb]
          congr 1
          rw [Nat.mod_add_mod]
          congr 1
          omega
      · intro h j b hb
        rw [h (j + 1) b (by rwa [List.getElem?_cons_succ])]
        congr 1
        rw [Nat.mod_add_mod]
        congr 1
        omega
    · rw [if_pos (by simpa using hx)]
      constructor
      · intro h; cases h
      · intro h
        have := h 0 x rfl
        rw [Nat.add_zero, Nat.mod_eq_of_lt hc] at this
        exact absurd this hx

/-- a loaded tree means what its node array says: values, number of leaves, and a numbering of the leaves -/
def XgTreeMeans (P : Platform) (t' : LgTree) (t : TreeModel) (T : BTree) : Prop :=
  (∀ fvals v, (∃ j, t'.predict P fvals = .ok (v, j)) ↔ ∃ k, Walk (XgGoesLe t.nodes fvals) T k ∧ XgVal t.nodes k v) ∧
  t'.nLeaves = T.leaves.length ∧ ∃ idx : Nat → Nat, ((T.leaves.map idx).Perm (List.range T.leaves.length) ∧ ∀ k ∈ T.leaves, T.counted[idx k]? = some k) ∧
    ∀ fvals j, (∃ v, t'.predict P fvals = .ok (v, j)) ↔ ∃ k, Walk (XgGoesLe t.nodes fvals) T k ∧ j = idx k

theorem xg_tree_loaded (P : Platform) {t : TreeModel} {T : BTree} {nf : BitVec 32} (hm : XgMeans t T)
    (hn : t.param.numNodes.toInt = t.nodes.length) (hf : t.param.numFeature.toInt ≤ nf.toInt) (ha : t.nodes.length * 24 ≤ P.maxAlloc) :
    ∃ t', xgTreeFromTreeModel P t nf = .ok t' ∧ XgTreeMeans P t' t T := by
  rcases hm with h | ⟨⟨n, h1⟩, h2, rfl⟩
  · obtain ⟨t', h1, h2⟩ := C06_xg_tree_value_le P t T nf h hf ha
    obtain ⟨t'', h1', h3, -, idx, hi, hj, h4⟩ := xg_load P h hf ha
    rw [h1] at h1'
    cases h1'
    refine ⟨t', h1, h2, h3, idx, ⟨perm_range_of_inj (List.nodup_append.1 h.distinct).2.1 hi hj.1, hj.2⟩, fun fvals j => ?_⟩
    constructor
    · rintro ⟨v, hv⟩
      obtain ⟨k, w, rfl, _⟩ := ((h4 fvals).2 v j).1 hv
      exact ⟨k, w, rfl⟩
    · rintro ⟨k, w, rfl⟩
      obtain ⟨v, hv⟩ := XgShape.leaf_val h.shape k (Leaves.Walk.mem_leaves w)
      exact ⟨v, ((h4 fvals).2 v _).2 ⟨k, w, rfl, hv⟩⟩
  · obtain ⟨t', h3, h4⟩ := C06_xg_single_leaf P t n nf h1 (by rw [hn, h1]; rfl) h2 hf
    refine ⟨t', h3, fun fvals v => ?_, single_leaf_nLeaves (h4 []), fun _ => 0, ⟨by simp [BTree.leaves], by simp [BTree.leaves, BTree.counted]⟩, fun fvals j => ?_⟩
    · rw [h4]
      constructor
      · rintro ⟨j, hj⟩
        cases hj
        exact ⟨0, .leaf 0, n, by rw [h1]; rfl, rfl⟩
      · rintro ⟨k, hk, n', hn', rfl⟩
        cases hk
        rw [h1] at hn'
        cases hn'
        exact ⟨0, rfl⟩
    · rw [h4]
      constructor
      · rintro ⟨v, hv⟩
        cases hv
        exact ⟨0, .leaf 0, rfl⟩
      · rintro ⟨k, -, rfl⟩
        exact ⟨_, rfl⟩

theorem xg_trees_loaded (P : Platform) (nf : BitVec 32) {ts : List TreeModel} {Ts : List BTree} (h : List.Forall₂ XgMeans ts Ts)
    (hn : ∀ t ∈ ts, t.param.numNodes.toInt = t.nodes.length ∧ t.param.numFeature.toInt ≤ nf.toInt ∧ t.nodes.length * 24 ≤ P.maxAlloc) :
    ∃ ts', xgConvertTrees P nf ts = .ok ts' ∧ ts'.length = ts.length ∧
      ∀ (i : Nat) (t' : LgTree) (t : TreeModel) (T : BTree), ts'[i]? = some t' → ts[i]? = some t → Ts[i]? = some T → XgTreeMeans P t' t T := by
  induction h with
  | nil => exact ⟨[], rfl, rfl, fun i t' t T h => by simp at h⟩
  | @cons t T ts Ts ht _ ih =>
    obtain ⟨h1, h2, h3⟩ := hn t (by simp)
    obtain ⟨t', ht1, ht2⟩ := xg_tree_loaded P ht h1 h2 h3
    obtain ⟨ts', hts1, hts2, hts3⟩ := ih fun u hu => hn u (by simp [hu])
    refine ⟨t' :: ts', ?_, by rw [List.length_cons, hts2, List.length_cons], ?_⟩
    · rw [xgConvertTrees, ht1, Res.ok_bind, hts1]; rfl
    · intro i a b c h1 h2 h3
      cases i with
      | zero => simp at h1 h2 h3; subst h1 h2 h3; exact ht2
      | succ i => simp at h1 h2 h3; exact hts3 i a b c (by simpa using h1) (by simpa using h2) (by simpa using h3)

/-- the base model of a tree file -/
def xgBase (m : XgModel) (ts : List LgTree) (K N : Nat) : XgEnsemble where
  trees := ts
  maxFeatureIdx := (m.header.param.numFeatures.toNat : Int) - 1
  nRawOutputGroups := K
  baseScore := F64.ofBits32 m.header.param.baseScore
  weightDrop := if m.dart then m.weights.map F64.ofBits32 else List.replicate (N * K) F64.one
  name := if m.dart then "xgboost.dart" else "xgboost.gbtree"

theorem xg_file_loaded (P : Platform) (m : XgModel) (K N : Nat) (ok : m.OK P.maxAlloc K N) (lt : Bool) (tr : Transform)
    (htr : xgTransform m.header.nameObj K lt = .ok tr) :
    ∃ ts, Codec (xgEnsembleFromReader P lt) m.image ⟨.xg (xgBase m ts K N), tr⟩ ∧ ts.length = N * K ∧
      ∀ (i : Nat) (t' : LgTree) (t : TreeModel) (T : BTree), ts[i]? = some t' → m.gbtree.trees[i]? = some t →
        m.shapes[i]? = some T → XgTreeMeans P t' t T := by
  obtain ⟨hK, hN, hlen⟩ := ok.counts
  have hpos : 1 ≤ N * K := Nat.mul_pos hN hK
  have hnn : ∀ t ∈ m.gbtree.trees, t.param.numNodes.toInt = t.nodes.length := by
    intro t ht
    obtain ⟨i, hi, rfl⟩ := List.mem_iff_getElem.1 ht
    have hi' : i < m.leafVectors.length := by rw [ok.gbtree.vectors]; exact hi
    exact (ok.gbtree.each (m.gbtree.trees[i], m.leafVectors[i]) (by
      rw [List.mem_iff_getElem]
      exact ⟨i, by simp [hi, hi'], by simp⟩)).nodes
  obtain ⟨ts, hts1, hts2, hts3⟩ := xg_trees_loaded P m.header.param.numFeatures ok.trees fun t ht =>
    ⟨hnn t ht, ok.treeFeatures t ht⟩
  refine ⟨ts, ?_, by rw [hts2, hlen], hts3⟩
  have hnt : m.gbtree.param.numTrees.toInt = ((N * K : Nat) : Int) := by rw [ok.gbtree.trees, hlen]
  have hinfo : xgCheckTreeInfo K 0 m.gbtree.treeInfo = true := by
    refine (checkTreeInfo_iff K hK m.gbtree.treeInfo 0 hK).2 fun j b hb => ?_
    have hj : j < N * K := by
      have := (List.getElem?_eq_some_iff.1 hb).1
      rwa [ok.gbtree.info, hlen] at this
    obtain ⟨b', hb', hv⟩ := ok.info (j / K) (by rwa [Nat.div_lt_iff_lt_mul hK]) (j % K) (Nat.mod_lt _ hK)
    rw [Nat.div_add_mod', hb] at hb'
    cases hb'
    rw [hv, Nat.zero_add]
  have hmul : m.gbtree.trees.length * 104 ≤ P.maxAlloc := by rw [hlen]; exact ok.alloc
  have hasm : ∀ (wd : List F64) (name : String), xgAssemble P m.header m.gbtree wd name lt = .ok
      { base := .xg { trees := ts, maxFeatureIdx := (m.header.param.numFeatures.toNat : Int) - 1, nRawOutputGroups := K,
                      baseScore := F64.ofBits32 m.header.param.baseScore, weightDrop := wd, name := name }, transform := tr } := by
    intro wd name
    unfold xgAssemble
    simp only [ok.groups]
    rw [if_neg (by rw [ok.roots]; simp), if_neg (by rw [ok.gbtree.info, ok.gbtree.trees]; simp), hinfo, htr]
    simp only [Bool.not_true, Bool.false_eq_true, if_false, Res.ok_bind]
    rw [if_neg (by rw [hnt]; omega), allocCheck_of ok.gbtree.trees hmul, Res.ok_bind, hts1]
    rfl
  have hname : m.header.nameGbm = if m.dart then ascii "dart" else ascii "gbtree" := ok.name
  have hnf : m.header.param.numFeatures.toNat ≠ 0 := by
    intro h0
    have := ok.features.1
    rw [BitVec.toInt_eq_toNat_of_lt (by omega)] at this
    omega
  refine (Codec.header P ok.header).bind ?_
  have hgood : ¬ (m.header.nameGbm ≠ ascii "gbtree" ∧ m.header.nameGbm ≠ ascii "dart") := by
    rw [hname]; cases m.dart <;> simp
  rw [if_neg hgood]
  simp only
  rw [if_neg hnf]
  refine (Codec.gbtree P ok.gbtree).bind ?_
  rw [if_neg (by have := ok.features.2; omega)]
  have hal : allocCheck P m.gbtree.param.numTrees.toInt 8 = .ok ⟨⟩ := allocCheck_of ok.gbtree.trees (by omega)
  cases hd : m.dart with
  | true =>
    have hwl := ok.weights hd
    have hn' : m.header.nameGbm = ascii "dart" := by rw [hname, hd]; rfl
    have hw : Codec (xgWeightDrop P m.header.nameGbm m.gbtree.param.numTrees.toInt) (sliceImage m.weights) (m.weights.map F64.ofBits32) := by
      unfold xgWeightDrop
      refine Codec.lift hal ?_
      rw [if_pos hn']
      have h64 : m.weights.length < 2 ^ 64 := by
        have h1 : m.gbtree.param.numTrees.toInt < 2 ^ 31 := by have := BitVec.toInt_lt (x := m.gbtree.param.numTrees); simpa using this
        rw [hnt] at h1
        rw [hwl]; omega
      have hs := Codec.slice P (ws := m.weights) ⟨h64, by rw [hwl, ← hlen]; omega⟩
      have := hs.bind (f := fun weightDrop => if (weightDrop.length : Int) ≠ m.gbtree.param.numTrees.toInt then lift (.err "unexpected len(weightDrop)")
        else Pure.pure (weightDrop.map F64.ofBits32)) (img' := []) (b := m.weights.map F64.ofBits32) (by
          rw [if_neg (by rw [hwl, hnt]; simp)]
          exact Codec.pure _)
      rwa [List.append_nil] at this
    have := hw.bind (f := fun wd => XgBin.lift (xgAssemble P m.header m.gbtree wd
      (if m.header.nameGbm = ascii "gbtree" then "xgboost.gbtree" else "xgboost.dart") lt)) (img' := []) (b := ⟨.xg (xgBase m ts K N), tr⟩) (by
        rw [hasm, hn', if_neg (by decide)]
        have hb : xgBase m ts K N = { trees := ts, maxFeatureIdx := (m.header.param.numFeatures.toNat : Int) - 1, nRawOutputGroups := K, baseScore := F64.ofBits32 m.header.param.baseScore, weightDrop := m.weights.map F64.ofBits32, name := "xgboost.dart" } := by
          unfold xgBase; rw [hd]; rfl
        rw [hb]
        exact Codec.pure _)
    rwa [List.append_nil] at this
  | false =>
    have hn' : m.header.nameGbm = ascii "gbtree" := by rw [hname, hd]; rfl
    have hw : Codec (xgWeightDrop P m.header.nameGbm m.gbtree.param.numTrees.toInt) [] (List.replicate (N * K) F64.one) := by
      unfold xgWeightDrop
      refine Codec.lift hal ?_
      rw [hn', if_neg (by decide), if_pos rfl, hnt, Int.toNat_natCast]
      exact Codec.pure _
    have := hw.bind (f := fun wd => XgBin.lift (xgAssemble P m.header m.gbtree wd
      (if m.header.nameGbm = ascii "gbtree" then "xgboost.gbtree" else "xgboost.dart") lt)) (img' := []) (b := ⟨.xg (xgBase m ts K N), tr⟩) (by
        rw [hasm, hn', if_pos rfl]
        have hb : xgBase m ts K N = { trees := ts, maxFeatureIdx := (m.header.param.numFeatures.toNat : Int) - 1, nRawOutputGroups := K, baseScore := F64.ofBits32 m.header.param.baseScore, weightDrop := List.replicate (N * K) F64.one, name := "xgboost.gbtree" } := by
          unfold xgBase; rw [hd]; rfl
        rw [hb]
        exact Codec.pure _)
    exact this

theorem xgTransform_iff (o : Bytes) (K : Int) (lt : Bool) (tr : Transform) : xgTransform o K lt = .ok tr ↔ XgObjective K o lt tr := by
  unfold xgTransform
  cases lt with
  | false =>
    simp only [Bool.false_eq_true, if_false]
    constructor
    · intro h; cases h; exact .raw
    · intro h; cases h; rfl
  | true =>
    simp only [if_true]
    constructor
    · intro h
      split at h
      · cases h; exact .logistic (by assumption)
      · cases h
    · intro h
      cases h with
      | logistic h => exact if_pos h

/-- Prediction of a model whose raw scores are known. -/
theorem predict_of_raw (P : Platform) (e : Ensemble) (hf : Fits e) (hw : e.nOutputGroups < 2 ^ 63) (N : Nat)
    (ht : ∀ total, IsTotal e.base total ↔ total = N) (hl : ∀ k, e.transform ≠ .leafIndex k)
    {R : List F64 → Nat → List F64 → Prop} (fvals : List F64) (hraw : ∀ n w, n ≤ N → (IsRaw P e.base fvals n w ↔ R fvals n w))
    (req : Int) (m m' : List F64) :
    (e.predict P fvals req m.length).run m = (.ok ⟨⟩, m') ↔
      e.nOutputGroups ≤ m.length ∧ e.nFeatures ≤ fvals.length ∧ ∃ n w out, Used req N n ∧ R fvals n w ∧
        IsTransformed P e.transform w out ∧ Stored m 0 out m' := by
  rw [C12_predict_iff P e hf hw]
  refine and_congr_right fun _ => and_congr_right fun _ => ?_
  have hout : ∀ n out, IsOutput P e fvals n out ↔ ∃ w, IsRaw P e.base fvals n w ∧ IsTransformed P e.transform w out := by
    intro n out
    unfold IsOutput
    split
    · rename_i k hk; exact absurd hk (hl k)
    · rfl
  have hle : ∀ n, Used req N n → n ≤ N := by intro n h; unfold Used at h; split at h <;> omega
  constructor
  · rintro ⟨total, n, h1, h2, -, out, h3, hs⟩
    obtain rfl := (ht total).1 h1
    obtain ⟨w, h4, h5⟩ := (hout n out).1 h3
    exact ⟨n, w, out, h2, (hraw n w (hle n h2)).1 h4, h5, hs⟩
  · rintro ⟨n, w, out, h2, h4, h5, hs⟩
    exact ⟨N, n, (ht N).2 rfl, h2, fun ⟨k, hk⟩ => absurd hk (hl k), out, (hout n out).2 ⟨w, (hraw n w (hle n h2)).2 h4, h5⟩, hs⟩

theorem xgBase_total (m : XgModel) (ts : List LgTree) (K N : Nat) (hK : 1 ≤ K) (hl : ts.length = N * K) (total : Nat) :
    IsTotal (.xg (xgBase m ts K N)) total ↔ total = N := by
  have hN' : ts.length / K = N := by rw [hl, Nat.mul_div_cancel _ (by omega)]
  constructor
  · rintro ⟨G, hG, -, rfl⟩
    have hG : (K : Int) = G := hG
    have : K = G := by exact_mod_cast hG
    subst this
    exact hN'
  · rintro rfl
    exact ⟨K, rfl, by omega, hN'.symm⟩

theorem xg_raw (P : Platform) (m : XgModel) (K N : Nat) (ok : m.OK P.maxAlloc K N) (ts : List LgTree) (hl : ts.length = N * K)
    (hmean : ∀ (i : Nat) (t' : LgTree) (t : TreeModel) (T : BTree), ts[i]? = some t' → m.gbtree.trees[i]? = some t →
        m.shapes[i]? = some T → XgTreeMeans P t' t T) (fvals : List F64) (n : Nat) (hn : n ≤ N) (w : List F64) :
    IsRaw P (.xg (xgBase m ts K N)) fvals n w ↔ XgRefRaw P XgGoesLe m K fvals n w := by
  obtain ⟨hK, hN, hlen⟩ := ok.counts
  have hsl : m.shapes.length = N * K := by rw [← ok.trees.length_eq, hlen]
  have hidx : ∀ {i k : Nat}, i < n → k < K → i * K + k < N * K := by
    intro i k hi hk
    calc i * K + k < i * K + K := by omega
      _ = (i + 1) * K := by ring
      _ ≤ N * K := Nat.mul_le_mul_right _ (by omega)
  have hval : ∀ v : Nat → Nat → F64, TreeValues P ts K n fvals v ↔
      (∀ i < n, ∀ k < K, ∃ t T leaf, m.gbtree.trees[i * K + k]? = some t ∧ m.shapes[i * K + k]? = some T ∧
        Walk (XgGoesLe t.nodes fvals) T leaf ∧ XgVal t.nodes leaf (v i k)) := by
    intro v
    unfold TreeValues
    refine forall_congr' fun i => forall_congr' fun hi => forall_congr' fun k => forall_congr' fun hk => ?_
    have hx := hidx hi hk
    have e1 : ts[i * K + k]? = some (ts[i * K + k]'(by omega)) := List.getElem?_eq_getElem _
    have e2 : m.gbtree.trees[i * K + k]? = some (m.gbtree.trees[i * K + k]'(by omega)) := List.getElem?_eq_getElem _
    have e3 : m.shapes[i * K + k]? = some (m.shapes[i * K + k]'(by omega)) := List.getElem?_eq_getElem _
    have hm := (hmean _ _ _ _ e1 e2 e3).1 fvals (v i k)
    constructor
    · rintro ⟨t, j, h1, h2⟩
      rw [e1] at h1
      cases h1
      obtain ⟨leaf, h3, h4⟩ := hm.1 ⟨j, h2⟩
      exact ⟨_, _, leaf, e2, e3, h3, h4⟩
    · rintro ⟨t, T, leaf, h1, h2, h3, h4⟩
      rw [e2] at h1
      rw [e3] at h2
      cases h1; cases h2
      obtain ⟨j, hj⟩ := hm.2 ⟨leaf, h3, h4⟩
      exact ⟨_, j, e1, hj⟩
  have hwt : ∀ c : Nat → Nat → F64, (∀ i < n, ∀ k < K, (xgBase m ts K N).weightDrop[i * K + k]? = some (c i k)) ↔
      ∀ i < n, ∀ k < K, m.Weight (i * K + k) (c i k) := by
    intro c
    refine forall_congr' fun i => forall_congr' fun hi => forall_congr' fun k => forall_congr' fun hk => ?_
    have hx := hidx hi hk
    unfold xgBase XgModel.Weight
    simp only
    split
    · rw [List.getElem?_map, Option.map_eq_some_iff]
      exact exists_congr fun b => and_congr_right fun _ => eq_comm
    · rw [List.getElem?_replicate, if_pos hx, Option.some_inj, eq_comm]
  constructor
  · rintro ⟨G, v, c, hG, hv, hc, hw⟩
    have hG : (K : Int) = G := hG
    have : K = G := by exact_mod_cast hG
    subst this
    exact ⟨v, c, (hval v).1 hv, (hwt c).1 hc, hw⟩
  · rintro ⟨v, c, hv, hc, hw⟩
    exact ⟨K, v, c, rfl, (hval v).2 hv, (hwt c).2 hc, hw⟩

theorem xg_raw_noTie (P : Platform) (m : XgModel) (K : Nat) (fvals : List F64) (h : ¬ m.Tie fvals) (n : Nat) (w : List F64) :
    XgRefRaw P XgGoesLe m K fvals n w ↔ XgRefRaw P XgGoes m K fvals n w := by
  unfold XgRefRaw
  refine exists_congr fun v => exists_congr fun c => and_congr_left fun _ => ?_
  refine forall_congr' fun i => forall_congr' fun _ => forall_congr' fun k => forall_congr' fun _ => ?_
  refine exists_congr fun t => exists_congr fun T => exists_congr fun leaf => and_congr_right fun h1 => and_congr_right fun h2 => and_congr_left fun _ => ?_
  exact (Walk.iff fun j hj b => (xg_noTie (fun ht => h ⟨_, t, T, h1, h2, ht⟩) hj b)).symm

/-- C62: a well-formed XGBoost file of trees loads, whatever follows it, and predicts base score plus weighted tree values; a
value equal to a split condition goes left. -/
theorem C62_xgboost_file_le (P : Platform) (m : XgModel) (K N : Nat) (ok : m.OK P.maxAlloc K N) (lt : Bool) (tr : Transform)
    (ho : XgObjective K m.header.nameObj lt tr) (hlog : tr = .logistic → K = 1) :
    ∃ ens, (∀ rest, xgEnsembleFromReader P lt (m.image ++ rest) = .ok (ens, rest)) ∧ Fits ens ∧ ens.transform = tr ∧
      ens.nRawOutputGroups = K ∧ ens.nEstimators = .ok N ∧ ens.nFeatures = (if 2 ≤ m.header.param.numFeatures.toNat then m.header.param.numFeatures.toNat else 0) ∧
      (∀ fvals n w, n ≤ N → (IsRaw P ens.base fvals n w ↔ XgRefRaw P XgGoesLe m K fvals n w)) ∧
      ∀ fvals req s s', ((ens.predict P fvals req s.length).run s = (.ok ⟨⟩, s') ↔
        ens.nOutputGroups ≤ s.length ∧ ens.nFeatures ≤ fvals.length ∧ ∃ n w out, Used req N n ∧ XgRefRaw P XgGoesLe m K fvals n w ∧
          IsTransformed P tr w out ∧ Stored s 0 out s') := by
  obtain ⟨hK, hN, hlen⟩ := ok.counts
  obtain ⟨ts, hc, hl, hmean⟩ := xg_file_loaded P m K N ok lt tr ((xgTransform_iff _ _ _ _).2 ho)
  have htot := xgBase_total m ts K N hK hl
  have hKlt : (K : Int) < 2 ^ 31 := by rw [← ok.groups]; exact BitVec.toInt_lt
  have hfit : Fits ⟨.xg (xgBase m ts K N), tr⟩ := by
    refine ⟨K, N, rfl, hK, (htot N).2 rfl, ?_⟩
    cases ho with
    | raw => rfl
    | logistic => exact hlog rfl
  have hw : (Ensemble.mk (.xg (xgBase m ts K N)) tr).nOutputGroups < 2 ^ 63 := by
    cases ho with
    | raw => show (K : Int) < 2 ^ 63; omega
    | logistic => show (1 : Int) < 2 ^ 63; norm_num
  refine ⟨_, hc.decode, hfit, rfl, rfl, ?_, ?_, fun fvals n w hn => xg_raw P m K N ok ts hl hmean fvals n hn w, ?_⟩
  · show goDiv (ts.length : Int) (K : Int) = .ok (N : Int)
    unfold goDiv
    rw [if_neg (by omega), hl]
    push_cast
    rw [Int.mul_tdiv_cancel _ (by omega)]
  · have := m.header.param.numFeatures.isLt
    show (if (m.header.param.numFeatures.toNat : Int) - 1 > 0 then wrap64 ((m.header.param.numFeatures.toNat : Int) - 1 + 1) else 0) = _
    rw [wrap64_id (by omega) (by omega)]
    split <;> split <;> omega
  · intro fvals req s s'
    exact predict_of_raw P _ hfit hw N htot (by intro k; cases ho <;> simp) fvals
      (fun n w hn => xg_raw P m K N ok ts hl hmean fvals n hn w) req s s'

/-- C62 with XGBoost's own rule at splits (`<`), for rows without a value equal to a split condition (at equality it is false,
see `C06_tie_fails`). -/
theorem C62_xgboost_file_partial (P : Platform) (m : XgModel) (K N : Nat) (ok : m.OK P.maxAlloc K N) (lt : Bool) (tr : Transform)
    (ho : XgObjective K m.header.nameObj lt tr) (hlog : tr = .logistic → K = 1) :
    ∃ ens, (∀ rest, xgEnsembleFromReader P lt (m.image ++ rest) = .ok (ens, rest)) ∧
      ∀ fvals, ¬ m.Tie fvals → ∀ req s s', ((ens.predict P fvals req s.length).run s = (.ok ⟨⟩, s') ↔
        ens.nOutputGroups ≤ s.length ∧ ens.nFeatures ≤ fvals.length ∧ ∃ n w out, Used req N n ∧ XgRefRaw P XgGoes m K fvals n w ∧
          IsTransformed P tr w out ∧ Stored s 0 out s') := by
  obtain ⟨ens, h1, -, -, -, -, -, -, h2⟩ := C62_xgboost_file_le P m K N ok lt tr ho hlog
  refine ⟨ens, h1, fun fvals ht req s s' => ?_⟩
  rw [h2]
  simp only [xg_raw_noTie P m K fvals ht]

theorem gbtree_counts {P : Platform} {bs bs' : Bytes} {m : GBTreeModel} (h : readGBTreeModel P bs = .ok (m, bs')) :
    m.trees.length = m.param.numTrees.toInt.toNat ∧ m.treeInfo.length = m.param.numTrees.toInt.toNat := by
  obtain ⟨param, b1, -, h⟩ := rd_bind_ok h
  obtain ⟨trees, b2, h2, h⟩ := rd_bind_ok h
  have ht := readMany_length _ _ _ _ h2
  split at h
  · obtain ⟨_, b3, -, h⟩ := rd_bind_ok h
    obtain ⟨info, b4, h4, h⟩ := rd_bind_ok h
    cases h
    exact ⟨ht, readMany_length _ _ _ _ h4⟩
  · cases h
    refine ⟨ht, ?_⟩
    show (0 : Nat) = param.numTrees.toInt.toNat
    omega

theorem xgConvertTrees_length (P : Platform) (nf : BitVec 32) : ∀ (ts : List TreeModel) (ts' : List LgTree),
    xgConvertTrees P nf ts = .ok ts' → ts'.length = ts.length
  | [], ts', h => by cases h; rfl
  | t :: ts, ts', h => by
    rw [xgConvertTrees] at h
    obtain ⟨a, -, h⟩ := Res.bind_eq_ok.1 h
    obtain ⟨b, h2, h⟩ := Res.bind_eq_ok.1 h
    cases h
    rw [List.length_cons, xgConvertTrees_length P nf ts b h2, List.length_cons]

theorem weightDrop_length {P : Platform} {name : Bytes} {n : Int} {bs bs' : Bytes} {wd : List F64}
    (h : xgWeightDrop P name n bs = .ok (wd, bs')) : (wd.length : Int) = n := by
  obtain ⟨_, b0, h0, h⟩ := rd_bind_ok h
  have hn : 0 ≤ n := by
    have := (rd_lift_ok h0).1
    unfold allocCheck at this
    split at this
    · cases this
    · omega
  split at h
  · obtain ⟨w, b1, -, h⟩ := rd_bind_ok h
    split at h
    · cases h
    · rename_i hne
      cases h
      rw [List.length_map]
      simpa using hne
  · split at h
    · cases h
      rw [List.length_replicate]
      omega
    · cases h

/-- C43: what holds of every model loaded by `XGEnsembleFromReader`. The groups are those the file announces, there is a tree
and a weight for each announced tree (at least one), and the transformation is the one the objective asks for. -/
theorem C43_loaded_partial (P : Platform) (lt : Bool) (bs rest : Bytes) (ens : Ensemble) (h : xgEnsembleFromReader P lt bs = .ok (ens, rest)) :
    ∃ (header : ModelHeader) (m : GBTreeModel) (b1 b2 : Bytes) (e : XgEnsemble), readModelHeader P bs = .ok (header, b1) ∧
      readGBTreeModel P b1 = .ok (m, b2) ∧ ens.base = .xg e ∧ 1 ≤ e.trees.length ∧ e.trees.length = m.trees.length ∧
      (e.trees.length : Int) = m.param.numTrees.toInt ∧ e.weightDrop.length = e.trees.length ∧
      ens.nRawOutputGroups = m.param.numOutputGroup.toInt ∧ XgObjective m.param.numOutputGroup.toInt header.nameObj lt ens.transform ∧
      (1 ≤ m.param.numOutputGroup.toInt → ∃ G N : Nat, m.param.numOutputGroup.toInt = G ∧ ens.nEstimators = .ok N ∧ N = e.trees.length / G ∧
        (e.trees.length % G = 0 → 1 ≤ N ∧ e.trees.length = N * G)) := by
  obtain ⟨header, b1, hh, h⟩ := rd_bind_ok h
  split at h
  · cases h
  simp only at h
  split at h
  · cases h
  obtain ⟨m, b2, hm, h⟩ := rd_bind_ok h
  split at h
  · cases h
  obtain ⟨wd, b3, hwd, h⟩ := rd_bind_ok h
  obtain ⟨h, -⟩ := rd_lift_ok h
  unfold xgAssemble at h
  simp only at h
  split at h
  · cases h
  split at h
  · cases h
  split at h
  · cases h
  obtain ⟨tr, htr, h⟩ := Res.bind_eq_ok.1 h
  split at h
  · cases h
  rename_i hnt
  obtain ⟨_, hal, h⟩ := Res.bind_eq_ok.1 h
  obtain ⟨ts, hts, h⟩ := Res.bind_eq_ok.1 h
  simp only [Res.pure_eq, Res.ok.injEq] at h
  have hlen := xgConvertTrees_length P _ _ _ hts
  have hc := gbtree_counts hm
  have hpos : 0 ≤ m.param.numTrees.toInt := by
    unfold allocCheck at hal
    split at hal
    · cases hal
    · omega
  have hwl := weightDrop_length hwd
  subst h
  refine ⟨header, m, b1, b2, _, hh, hm, rfl, ?_, hlen, ?_, ?_, rfl, (xgTransform_iff _ _ _ _).1 htr, ?_⟩
  · show 1 ≤ ts.length; omega
  · show (ts.length : Int) = _; omega
  · show wd.length = ts.length; omega
  · intro hG
    obtain ⟨G, hG'⟩ := Int.eq_ofNat_of_zero_le (show 0 ≤ m.param.numOutputGroup.toInt by omega)
    refine ⟨G, ts.length / G, hG', ?_, rfl, fun hmod => ?_⟩
    · show goDiv (ts.length : Int) m.param.numOutputGroup.toInt = _
      unfold goDiv
      rw [if_neg (by omega), hG', ← Int.ofNat_tdiv]
    · have hd := Nat.dvd_of_mod_eq_zero hmod
      have hmul := Nat.div_mul_cancel hd
      refine ⟨?_, hmul.symm⟩
      rcases Nat.eq_zero_or_pos (ts.length / G) with h0 | h0
      · rw [h0, Nat.zero_mul] at hmul
        have h1 : m.trees.length ≠ 0 := by omega
        rw [← hlen] at h1
        exact absurd hmul.symm h1
      · exact h0

theorem xg_linear_loaded (P : Platform) (m : XgLinFile) (K F : Nat) (ok : m.OK P.maxAlloc K F) (lt : Bool) (tr : Transform)
    (htr : xgTransform m.header.nameObj K lt = .ok tr) :
    Codec (xgbLinearFromReader P lt) m.image ⟨.lin ⟨F, K, F64.ofBits32 m.header.param.baseScore, m.linear.weights.map F64.ofBits32⟩, tr⟩ := by
  refine (Codec.header P ok.header).bind ?_
  rw [if_neg (by rw [show m.header.nameGbm = ascii "gblinear" from ok.name]; simp), if_neg ok.features]
  have := (Codec.linear P ok.linear).bind (f := fun m_1 => XgBin.lift (xgTransform m.header.nameObj m_1.param.numOutputGroup.toInt lt) >>= fun transform =>
    Pure.pure (Ensemble.mk (.lin ⟨m_1.param.numFeature.toNat, m_1.param.numOutputGroup.toInt, F64.ofBits32 m.header.param.baseScore, m_1.weights.map F64.ofBits32⟩) transform))
    (img' := []) (b := ⟨.lin ⟨F, K, F64.ofBits32 m.header.param.baseScore, m.linear.weights.map F64.ofBits32⟩, tr⟩) (by
      rw [ok.groups.1, ok.numFeature]
      refine Codec.lift htr ?_
      exact Codec.pure _)
  rwa [List.append_nil] at this

theorem lin_raw (P : Platform) (m : XgLinFile) (K F : Nat) (fvals : List F64) (n : Nat) (w : List F64) :
    IsRaw P (.lin ⟨F, K, F64.ofBits32 m.header.param.baseScore, m.linear.weights.map F64.ofBits32⟩) fvals n w ↔ XgLinRaw P m K F fvals w := by
  have hget : ∀ (i : Nat) (c : F64), (m.linear.weights.map F64.ofBits32)[i]? = some c ↔ ∃ b, m.linear.weights[i]? = some b ∧ c = F64.ofBits32 b := by
    intro i c
    rw [List.getElem?_map, Option.map_eq_some_iff]
    exact exists_congr fun b => and_congr_right fun _ => eq_comm
  constructor
  · rintro ⟨G, F', x, c, bias, hG, hF, hx, hc, hb, hw⟩
    have hG : (K : Int) = G := hG
    have hF : (F : Int) = F' := hF
    have hF : F = F' := by exact_mod_cast hF
    have : K = G := by exact_mod_cast hG
    subst this hF
    refine ⟨x, fun i k => if i = F then bias k else c i k, hx, fun i hi k hk => ?_, ?_⟩
    · rcases Nat.lt_or_eq_of_le hi with h | rfl
      · dsimp only
        rw [if_neg (by omega)]
        have := (hget _ _).1 (hc i h k hk)
        rwa [Nat.mul_comm] at this
      · dsimp only
        rw [if_pos rfl]
        have := (hget _ _).1 (hb k hk)
        rwa [Nat.mul_comm] at this
    · rw [hw]
      refine List.map_congr_left fun k hk => ?_
      simp only [if_true]
      unfold accumulate
      refine List.foldl_ext _ _ _ fun acc i hi => ?_
      dsimp only
      rw [if_neg (by have := List.mem_range.1 hi; omega)]
  · rintro ⟨x, c, hx, hc, hw⟩
    refine ⟨K, F, x, c, c F, rfl, rfl, hx, fun i hi k hk => ?_, fun k hk => ?_, hw⟩
    · rw [Nat.mul_comm]; exact (hget _ _).2 (hc i (by omega) k hk)
    · rw [Nat.mul_comm]; exact (hget _ _).2 (hc F le_rfl k hk)

/-- C62: a well-formed linear XGBoost file loads, whatever follows it, and predicts base score plus bias plus weighted
features. -/
theorem C62_linear_file (P : Platform) (m : XgLinFile) (K F : Nat) (ok : m.OK P.maxAlloc K F) (lt : Bool) (tr : Transform)
    (ho : XgObjective K m.header.nameObj lt tr) (hlog : tr = .logistic → K = 1) :
    ∃ ens, (∀ rest, xgbLinearFromReader P lt (m.image ++ rest) = .ok (ens, rest)) ∧ Fits ens ∧ ens.transform = tr ∧
      ens.nRawOutputGroups = K ∧ ens.nEstimators = .ok 1 ∧ ens.nFeatures = F ∧
      (∀ fvals n w, IsRaw P ens.base fvals n w ↔ XgLinRaw P m K F fvals w) ∧
      ∀ fvals req s s', ((ens.predict P fvals req s.length).run s = (.ok ⟨⟩, s') ↔
        ens.nOutputGroups ≤ s.length ∧ F ≤ fvals.length ∧ ∃ w out, XgLinRaw P m K F fvals w ∧
          IsTransformed P tr w out ∧ Stored s 0 out s') := by
  have hK := ok.groups.2
  have hKlt : (K : Int) < 2 ^ 31 := by rw [← ok.groups.1]; exact BitVec.toInt_lt
  have hc := xg_linear_loaded P m K F ok lt tr ((xgTransform_iff _ _ _ _).2 ho)
  have hfit : Fits ⟨.lin ⟨F, K, F64.ofBits32 m.header.param.baseScore, m.linear.weights.map F64.ofBits32⟩, tr⟩ := by
    refine ⟨K, 1, rfl, hK, rfl, ?_⟩
    cases ho with
    | raw => rfl
    | logistic => exact hlog rfl
  have hw : (Ensemble.mk (.lin ⟨F, K, F64.ofBits32 m.header.param.baseScore, m.linear.weights.map F64.ofBits32⟩) tr).nOutputGroups < 2 ^ 63 := by
    cases ho with
    | raw => show (K : Int) < 2 ^ 63; omega
    | logistic => show (1 : Int) < 2 ^ 63; norm_num
  refine ⟨_, hc.decode, hfit, rfl, rfl, rfl, rfl, fun fvals n w => lin_raw P m K F fvals n w, ?_⟩
  intro fvals req s s'
  rw [predict_of_raw P _ hfit hw 1 (fun total => Iff.rfl) (by intro k; cases ho <;> simp) fvals
      (R := fun fvals n w => XgLinRaw P m K F fvals w) (fun n w hn => lin_raw P m K F fvals n w) req s s']
  refine and_congr_right fun _ => ?_
  show ((F : Int) ≤ fvals.length ∧ _) ↔ _
  refine and_congr (by omega) ?_
  constructor
  · rintro ⟨n, w, out, -, h⟩; exact ⟨w, out, h⟩
  · rintro ⟨w, out, h⟩
    refine ⟨1, w, out, ?_, h⟩
    unfold Used
    rw [if_neg (by omega)]

/-! ### concrete files -/

namespace XgFileExample

/-- the tree of `XgExample` with full records -/
def tree1 : TreeModel where
  param := ⟨1#32, 5#32, 0#32, 2#32, 2#32, 0#32, List.replicate 31 0#32⟩
  nodes := XgExample.nodes
  stats := List.replicate 5 ⟨0#32, 0#32, 0#32, 0#32⟩

/-- a single leaf with value 2, and a leaf vector -/
def tree2 : TreeModel where
  param := ⟨1#32, 1#32, 0#32, 0#32, 2#32, 1#32, List.replicate 31 0#32⟩
  nodes := [⟨0#32, -1#32, -1#32, 0#32, 0x40000000#32⟩]
  stats := [⟨0#32, 0#32, 0#32, 0#32⟩]

/-- header of a file with two features and base score 0.5 -/
def header (name : String) : ModelHeader where
  param := ⟨0x3f000000#32, 2#32, 0#32, 0#32, 0#32, List.replicate 29 0#32⟩
  nameObj := asciiBytes "binary:logistic"
  nameGbm := asciiBytes name

/-- a 'dart' file with these two trees, weights 1 and 0.5, and `groups` groups -/
def file (groups : BitVec 32) : XgModel where
  header := header "dart"
  gbtree := ⟨⟨2#32, 1#32, 2#32, 0#32, 0#64, groups, 0#32, List.replicate 32 0#32⟩, [tree1, tree2], [0#32, 0#32]⟩
  leafVectors := [[], [7#32]]
  dart := true
  weights := [0x3f800000#32, 0x3f000000#32]
  shapes := [XgExample.tree, .leaf 0]

theorem tree1_means : XgMeans tree1 XgExample.tree :=
  .inl ⟨by decide, by decide, XgExample.tree_ok.shape, by decide, rfl⟩

theorem file_ok : (file 1#32).OK Platform.demo.maxAlloc 1 2 where
  header := ⟨rfl, by decide, by decide⟩
  gbtree := ⟨rfl, by decide, rfl, by
    intro t ht
    rcases (show t = (tree1, []) ∨ t = (tree2, [7#32]) by simpa [file] using ht) with rfl | rfl
    · exact ⟨rfl, by decide, by decide, by decide, by decide⟩
    · exact ⟨rfl, by decide, by decide, by decide, by decide⟩, rfl, by decide⟩
  name := rfl
  features := by decide
  roots := by decide
  groups := by decide
  counts := ⟨le_rfl, by norm_num, rfl⟩
  info := by
    intro i hi k hk
    obtain rfl : k = 0 := by omega
    rcases (show i = 0 ∨ i = 1 by omega) with rfl | rfl <;> exact ⟨0#32, rfl, by decide⟩
  weights := fun _ => rfl
  alloc := by decide
  trees := .cons tree1_means (.cons (.inr ⟨⟨_, rfl⟩, by decide, rfl⟩) .nil)
  treeFeatures := by decide

/-- The theorems apply: the row (0, 0.75) gets 0.5 + 3 * 1 + 2 * 0.5 = 4.5. -/
example (rest : Bytes) : ∃ ens, xgEnsembleFromReader Platform.demo false ((file 1#32).image ++ rest) = .ok (ens, rest) ∧
    ∀ x, (ens.predict Platform.demo [F64.zero, F64.const 3 4] 0 1).run [x] = (.ok ⟨⟩, [F64.const 9 2]) := by
  obtain ⟨ens, h1, -, ht, hr, -, hn, -, h2⟩ := C62_xgboost_file_le Platform.demo (file 1#32) 1 2 file_ok false (.raw 1) .raw (by intro h; cases h)
  refine ⟨ens, h1 rest, fun x => ?_⟩
  refine (h2 _ 0 [x] _).2 ⟨?_, by rw [hn, if_pos (by decide)]; decide, 2, [F64.const 9 2], [F64.const 9 2], by unfold Used; decide, ?_, rfl, ?_⟩
  · unfold Ensemble.nOutputGroups
    rw [ht]
    exact le_rfl
  · refine ⟨fun i _ => if i = 0 then F64.ofBits32 0x40400000#32 else F64.ofBits32 0x40000000#32,
      fun i _ => if i = 0 then F64.ofBits32 0x3f800000#32 else F64.ofBits32 0x3f000000#32, ?_, ?_, by decide +kernel⟩
    · intro i hi k hk
      obtain rfl : k = 0 := by omega
      rcases (show i = 0 ∨ i = 1 by omega) with rfl | rfl
      · obtain ⟨t', h, hv⟩ := C06_xg_tree_value_le Platform.demo XgExample.model XgExample.tree 2#32 XgExample.tree_ok (by decide) (by decide)
        rw [XgExample.load_eq] at h
        cases h
        obtain ⟨leaf, hw, hx⟩ := (hv [F64.zero, F64.const 3 4] (F64.ofBits32 0x40400000#32)).1 ⟨2, by decide +kernel⟩
        dsimp only
        rw [if_pos rfl]
        exact ⟨tree1, XgExample.tree, leaf, rfl, rfl, hw, hx⟩
      · dsimp only
        rw [if_neg (by decide)]
        exact ⟨tree2, .leaf 0, 0, rfl, rfl, .leaf 0, _, rfl, rfl⟩
    · intro i hi k hk
      obtain rfl : k = 0 := by omega
      rcases (show i = 0 ∨ i = 1 by omega) with rfl | rfl
      · exact ⟨_, rfl, if_pos rfl⟩
      · exact ⟨_, rfl, if_neg (by decide)⟩
  · refine ⟨by simp, rfl, fun j => ?_⟩
    cases j <;> simp

/-- what the file with `groups` groups loads as -/
def loadedFile (groups : Int) : Ensemble where
  base := .xg { trees := [XgExample.loaded, { leafValues := [F64.ofBits32 0x40000000#32] }], maxFeatureIdx := 1,
                nRawOutputGroups := groups, baseScore := F64.ofBits32 0x3f000000#32,
                weightDrop := [F64.ofBits32 0x3f800000#32, F64.ofBits32 0x3f000000#32], name := "xgboost.dart" }
  transform := .raw groups

/-- C43 is false: a file that announces no groups loads, and asking the model for its estimators panics. -/
theorem C43_zero_groups_loads : xgEnsembleFromReader Platform.demo false (file 0#32).image = .ok (loadedFile 0, []) ∧
    (loadedFile 0).nRawOutputGroups = 0 ∧ (loadedFile 0).nEstimators = .panic := by
  refine ⟨by decide +kernel, rfl, by decide⟩

/-- a file with one group more than trees -/
def shortFile : XgModel where
  header := header "gbtree"
  gbtree := ⟨⟨1#32, 1#32, 2#32, 0#32, 0#64, 2#32, 0#32, List.replicate 32 0#32⟩, [tree2], [0#32]⟩
  leafVectors := [[7#32]]
  dart := false
  weights := []
  shapes := [.leaf 0]

/-- C43 is false: a file with one tree and two groups loads as a model with no estimators; the tree takes no part in
predictions, which are all base score. -/
theorem C43_tree_ignored : ∃ ens, xgEnsembleFromReader Platform.demo false shortFile.image = .ok (ens, []) ∧ ens.nEstimators = .ok 0 ∧
    (∃ e, ens.base = .xg e ∧ e.trees.length = 1) ∧
    ((ens.predict Platform.demo [F64.zero, F64.zero] 0 2).run [F64.zero, F64.zero]) = (.ok ⟨⟩, [F64.ofBits32 0x3f000000#32, F64.ofBits32 0x3f000000#32]) := by
  refine ⟨⟨.xg { trees := [{ leafValues := [F64.ofBits32 0x40000000#32] }], maxFeatureIdx := 1, nRawOutputGroups := 2, baseScore := F64.ofBits32 0x3f000000#32, weightDrop := [F64.one], name := "xgboost.gbtree" }, .raw 2⟩,
    by decide +kernel, by decide, ⟨_, rfl, rfl⟩, by decide +kernel⟩

/-- a linear file: two features, one group, weights 1 and 2, bias 0.5 -/
def linFile : XgLinFile where
  header := header "gblinear"
  linear := ⟨⟨2#32, 1#32, List.replicate 32 0#32⟩, [0x3f800000#32, 0x40000000#32, 0x3f000000#32]⟩

theorem linFile_ok : linFile.OK Platform.demo.maxAlloc 1 2 where
  header := ⟨rfl, by decide, by decide⟩
  linear := ⟨rfl, by decide⟩
  name := rfl
  features := by decide
  numFeature := by decide
  groups := by decide
  weights := rfl

/-- 0.5 + 0.5 + 3 * 1 + 4 * 2 = 12 -/
example (rest : Bytes) : ∃ ens, xgbLinearFromReader Platform.demo false (linFile.image ++ rest) = .ok (ens, rest) ∧
    ∀ x, (ens.predict Platform.demo [F64.ofNat 3, F64.ofNat 4] 0 1).run [x] = (.ok ⟨⟩, [F64.ofNat 12]) := by
  obtain ⟨ens, h1, -, ht, hr, -, hn, -, h2⟩ := C62_linear_file Platform.demo linFile 1 2 linFile_ok false (.raw 1) .raw (by intro h; cases h)
  refine ⟨ens, h1 rest, fun x => ?_⟩
  refine (h2 _ 0 [x] _).2 ⟨?_, by simp, [F64.ofNat 12], [F64.ofNat 12], ?_, rfl, ?_⟩
  · unfold Ensemble.nOutputGroups
    rw [ht]
    exact le_rfl
  · refine ⟨fun i => if i = 0 then F64.ofNat 3 else F64.ofNat 4,
      fun i _ => if i = 0 then F64.ofBits32 0x3f800000#32 else if i = 1 then F64.ofBits32 0x40000000#32 else F64.ofBits32 0x3f000000#32, ?_, ?_, by decide +kernel⟩
    · intro i hi
      rcases (show i = 0 ∨ i = 1 by omega) with rfl | rfl <;> rfl
    · intro i hi k hk
      obtain rfl : k = 0 := by omega
      rcases (show i = 0 ∨ i = 1 ∨ i = 2 by omega) with rfl | rfl | rfl
      · exact ⟨_, rfl, if_pos rfl⟩
      · exact ⟨_, rfl, (if_neg (by decide)).trans (if_pos rfl)⟩
      · exact ⟨_, rfl, (if_neg (by decide)).trans (if_neg (by decide))⟩
  · refine ⟨by simp, rfl, fun j => ?_⟩
    cases j <;> simp

end XgFileExample

end Leaves
