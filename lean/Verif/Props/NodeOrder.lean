import Verif.Proofs.NodeOrder
import Verif.Props.LeafFiles
import Verif.Props.Prefix
import Verif.Props.SkModel

/-! # C124: the numbers of the nodes do not matter -/

namespace Leaves
open Spec XgBin

theorem Spec.NodesReordered.idx {ρ : Nat → Nat} {ns ns' : List Node} (h : NodesReordered ρ ns ns') (c : Int) :
    (∃ n n', Res.idxI ns c = .ok n ∧ Res.idxI ns' (newRef ns.length ρ c) = .ok n' ∧ n'.info = n.info ∧ n'.sIndex = n.sIndex ∧
      n'.cLeft.toInt = newRef ns.length ρ n.cLeft.toInt ∧ n'.cRight.toInt = newRef ns.length ρ n.cRight.toInt) ∨
    (Res.idxI ns c = .panic ∧ Res.idxI ns' (newRef ns.length ρ c) = .panic) := by
  unfold newRef
  by_cases hc : 0 ≤ c ∧ c < ns.length
  · obtain ⟨i, rfl⟩ := Int.eq_ofNat_of_zero_le hc.1
    have hi : i < ns.length := by omega
    obtain ⟨n', h1, h2⟩ := h.node i _ (List.getElem?_eq_getElem hi)
    refine .inl ⟨ns[i], n', ?_, ?_, h2⟩
    · rw [Res.idxI_ofNat, Res.idx_eq_ok, List.getElem?_eq_getElem hi]
    · rw [if_pos hc, Int.toNat_natCast, Res.idxI_ofNat, Res.idx_eq_ok, h1]
  · rw [if_neg hc]
    refine .inr ⟨?_, ?_⟩
    · unfold Res.idxI Res.idx
      split
      · rfl
      · rw [List.getElem?_eq_none (by omega)]
    · unfold Res.idxI Res.idx
      split
      · rfl
      · rw [List.getElem?_eq_none (by rw [h.length]; omega)]

theorem newRef_one {n : Nat} {ρ : Nat → Nat} {c : Int} : newRef n ρ c = -1 ↔ c = -1 := by
  unfold newRef
  split <;> omega

theorem newRef_neg {n : Nat} {ρ : Nat → Nat} {c : Int} : newRef n ρ c < 0 ↔ c < 0 := by
  unfold newRef
  split <;> omega

theorem xgCreateNode_moved {ρ : Nat → Nat} {ns ns' : List Node} (h : NodesReordered ρ ns ns') (i : Nat)
    (hi : i < ns.length) (lv : List F64) : xgCreateNode ns' (ρ i : Nat) lv = xgCreateNode ns i lv := by
  have hr : ((ρ i : Nat) : Int) = newRef ns.length ρ i := by
    unfold newRef
    rw [if_pos (by omega), Int.toNat_natCast]
  rw [hr]
  unfold xgCreateNode
  rcases Spec.NodesReordered.idx h i with ⟨n, n', h1, h2, e1, e2, e3, e4⟩ | ⟨h1, h2⟩
  · have f1 : xgDefaultLeft n' = xgDefaultLeft n := by unfold xgDefaultLeft; rw [e2]
    have f2 : xgSplitIndex n' = xgSplitIndex n := by unfold xgSplitIndex; rw [e2]
    rw [h1, h2, Res.ok_bind, Res.ok_bind, e1, f1, f2, e3, e4]
    dsimp only
    by_cases hl : n.cLeft.toInt < 0
    · rw [if_pos hl, if_pos (newRef_neg.2 hl)]
    · rw [if_neg hl, if_neg (fun x => hl (newRef_neg.1 x))]
      by_cases hr : n.cRight.toInt < 0
      · rw [if_pos hr, if_pos (newRef_neg.2 hr)]
      · rw [if_neg hr, if_neg (fun x => hr (newRef_neg.1 x))]
        rcases Spec.NodesReordered.idx h n.cLeft.toInt with ⟨l, l', g1, g2, a1, a2, a3, a4⟩ | ⟨g1, g2⟩
        · have p1 : xgIsLeaf l' = xgIsLeaf l := by
            unfold xgIsLeaf
            rw [a3, decide_eq_decide]
            exact newRef_one
          rw [g1, g2, Res.ok_bind, Res.ok_bind, p1, a1]
          rcases Spec.NodesReordered.idx h n.cRight.toInt with ⟨r, r', k1, k2, b1, b2, b3, b4⟩ | ⟨k1, k2⟩
          · have p2 : xgIsLeaf r' = xgIsLeaf r := by
              unfold xgIsLeaf
              rw [b3, decide_eq_decide]
              exact newRef_one
            rw [k1, k2]
            simp only [Res.ok_bind, p2, b1]
          · rw [k1, k2]
        · rw [g1, g2]; rfl
  · rw [h1, h2]; rfl

theorem xgSource_moved {ρ : Nat → Nat} {ns ns' : List Node} (h : NodesReordered ρ ns ns') :
    SourceMoved ns.length ρ (xgSource ns) (xgSource ns') where
  create := fun i hi a => xgCreateNode_moved h i hi a
  right := fun i hi => by
    obtain ⟨n', h1, h2⟩ := h.node i _ (List.getElem?_eq_getElem hi)
    have e1 : Res.idx ns i = .ok ns[i] := Res.idx_of_lt hi
    have e2 : Res.idx ns' (ρ i) = .ok n' := Res.idx_eq_ok.2 h1
    show Alike _ (Res.idx ns i >>= fun n => pure n.cRight.toInt) (Res.idx ns' (ρ i) >>= fun n => pure n.cRight.toInt)
    rw [e1, e2]
    exact .ok h2.2.2.2
  left := fun i hi => by
    obtain ⟨n', h1, h2⟩ := h.node i _ (List.getElem?_eq_getElem hi)
    have e1 : Res.idx ns i = .ok ns[i] := Res.idx_of_lt hi
    have e2 : Res.idx ns' (ρ i) = .ok n' := Res.idx_eq_ok.2 h1
    show Alike _ (Res.idx ns i >>= fun n => pure n.cLeft.toInt) (Res.idx ns' (ρ i) >>= fun n => pure n.cLeft.toInt)
    rw [e1, e2]
    exact .ok h2.2.2.1

theorem xgTree_moved (P : Platform) {t t' : TreeModel} (hn : t.param.numNodes.toInt = t.nodes.length) (h : XgNodesMoved t t') (nf : BitVec 32) :
    xgTreeFromTreeModel P t' nf = xgTreeFromTreeModel P t nf := by
  obtain ⟨ρ, τ, hρ, hm⟩ := h.nodes
  unfold xgTreeFromTreeModel
  rw [h.numRoots, h.numNodes, h.numFeature]
  split
  · rfl
  · split
    · rfl
    · split
      · rfl
      · rename_i h0
        dsimp only
        have hpos : 0 < t.nodes.length := by omega
        split
        · obtain ⟨n', h1, h2, -⟩ := hm.node 0 _ (List.getElem?_eq_getElem hpos)
          rw [hm.root] at h1
          rw [Res.idx_of_lt hpos, Res.idx_eq_ok.2 h1, Res.ok_bind, Res.ok_bind, h2]
        · have hlt := BitVec.toInt_lt (x := t.param.numNodes)
          rw [hn, convert_moved P hpos (by omega) hm.root hρ (xgSource_moved hm)]

theorem xgTrees_moved (P : Platform) (nf : BitVec 32) {ts ts' : List TreeModel} (hn : ∀ t ∈ ts, t.param.numNodes.toInt = t.nodes.length)
    (h : List.Forall₂ XgNodesMoved ts ts') : xgConvertTrees P nf ts' = xgConvertTrees P nf ts := by
  induction h with
  | nil => rfl
  | cons h _ ih => rw [xgConvertTrees, xgConvertTrees, xgTree_moved P (hn _ List.mem_cons_self) h, ih fun t ht => hn t (List.mem_cons_of_mem _ ht)]

/-- **C124, XGBoost files.** Two files that differ in the order of the nodes of their trees (and in the parents, statistics and leaf vectors):
`XGEnsembleFromReader` returns the same for both, whatever follows the trees: the same ensemble and rest of the input, the same error or the
same crash. The nodes need not form a tree: children may be out of range, shared or form a cycle. -/
theorem C124_xgboost (P : Platform) (h : ModelHeader) (m m' : GBTreeModel) (vs vs' : List (List (BitVec 32)))
    (ok : HeaderOK P.maxAlloc h) (okm : GBTreeOK P.maxAlloc m vs) (okm' : GBTreeOK P.maxAlloc m' vs')
    (hp : m'.param = m.param) (hi : m'.treeInfo = m.treeInfo) (ht : List.Forall₂ XgNodesMoved m.trees m'.trees) (lt : Bool) (rest : Bytes) :
    xgEnsembleFromReader P lt (headerImage h ++ (gbtreeImage m vs ++ rest)) =
      xgEnsembleFromReader P lt (headerImage h ++ (gbtreeImage m' vs' ++ rest)) := by
  have hn : ∀ t ∈ m.trees, t.param.numNodes.toInt = t.nodes.length := by
    intro t ht
    obtain ⟨i, hi, rfl⟩ := List.mem_iff_getElem.1 ht
    have hv : i < vs.length := by rw [okm.vectors]; exact hi
    exact (okm.each (m.trees[i], vs[i]) (List.mem_iff_getElem.2 ⟨i, by rw [List.length_zip]; omega, by simp⟩)).nodes
  have ha : ∀ wd name, xgAssemble P h m' wd name lt = xgAssemble P h m wd name lt := by
    intro wd name
    unfold xgAssemble
    rw [hp, hi, xgTrees_moved P _ hn ht]
  unfold xgEnsembleFromReader
  rw [rd_bind_decode (Codec.header P ok), rd_bind_decode (Codec.header P ok)]
  split
  · rfl
  · dsimp only
    split
    · rfl
    · rw [rd_bind_decode (Codec.gbtree P okm), rd_bind_decode (Codec.gbtree P okm'), hp]
      simp only [ha]

/-- the tree with other numbers -/
def renamed (ρ lam : Nat → Nat) : BTree → BTree
  | .leaf k => .leaf (lam k)
  | .node i l r => .node (ρ i) (renamed ρ lam l) (renamed ρ lam r)

theorem newChild_leaf (ρ lam : Nat → Nat) (k : Nat) : newChild ρ lam (-(k : Int) - 1) = -(lam k : Int) - 1 := by
  unfold newChild
  rw [if_neg (by omega), show (-(-(k : Int) - 1) - 1).toNat = k by omega]

theorem newChild_node (ρ lam : Nat → Nat) (i : Nat) : newChild ρ lam (i : Int) = (ρ i : Int) := by
  unfold newChild
  rw [if_pos (by omega), Int.toNat_natCast]

theorem shape_reordered {ρ lam : Nat → Nat} {d d' : TreeDesc} (h : TreeDesc.NodesReordered ρ lam d d') {c : Int} {T : BTree} (hs : LgShape d.arrays c T) :
    (∀ i ∈ T.inner, i < d.inner) → ∀ T', LgShape d'.arrays (newChild ρ lam c) T' → T' = renamed ρ lam T := by
  induction hs with
  | leaf k =>
    intro _ T' h'
    rw [newChild_leaf] at h'
    generalize hc : -(lam k : Int) - 1 = c at h'
    cases h' with
    | leaf k' =>
      obtain rfl : k' = lam k := by omega
      rfl
    | node i => omega
  | node i li ri l r hl hr _ _ il ir =>
    intro hb T' h'
    have hi : i < d.inner := hb i (by simp [BTree.inner])
    rw [newChild_node] at h'
    generalize hc : ((ρ i : Nat) : Int) = c at h'
    cases h' with
    | leaf k' => omega
    | node i' li' ri' l' r' hl' hr' sl' sr' =>
      obtain rfl : i' = ρ i := by omega
      rw [h.left i hi, hl] at hl'
      rw [h.right i hi, hr] at hr'
      cases hl'
      cases hr'
      rw [il (fun j hj => hb j (by simp [BTree.inner, hj])) l' sl', ir (fun j hj => hb j (by simp [BTree.inner, hj])) r' sr', renamed]

theorem split_moved {ρ lam : Nat → Nat} {d d' : TreeDesc} (h : TreeDesc.NodesReordered ρ lam d d') {i : Nat} (hi : i < d.inner) (f : Nat) (rule : Rule) :
    LgSplit d'.arrays (ρ i) f rule ↔ LgSplit d.arrays i f rule := by
  unfold LgSplit Words
  rw [h.types i hi, h.features i hi, h.thresholds i hi, h.catThresholds, h.catBoundaries]

theorem walk_moved {ρ lam : Nat → Nat} {goes goes' : Nat → Bool → Prop} {T : BTree} (hg : ∀ i ∈ T.inner, ∀ b, goes' (ρ i) b ↔ goes i b) (k' : Nat) :
    Walk goes' (renamed ρ lam T) k' ↔ ∃ k, Walk goes T k ∧ k' = lam k := by
  induction T with
  | leaf k =>
    constructor
    · intro h
      cases h
      exact ⟨k, .leaf k, rfl⟩
    · rintro ⟨j, h, rfl⟩
      cases h
      exact .leaf _
  | node i l r il ir =>
    have hi := hg i (by simp [BTree.inner])
    specialize il fun j hj => hg j (by simp [BTree.inner, hj])
    specialize ir fun j hj => hg j (by simp [BTree.inner, hj])
    constructor
    · intro h
      cases h with
      | left h w =>
        obtain ⟨k, w', rfl⟩ := il.1 w
        exact ⟨k, .left ((hi _).1 h) w', rfl⟩
      | right h w =>
        obtain ⟨k, w', rfl⟩ := ir.1 w
        exact ⟨k, .right ((hi _).1 h) w', rfl⟩
    · rintro ⟨k, h, rfl⟩
      cases h with
      | left h w => exact .left ((hi _).2 h) (il.2 ⟨k, w, rfl⟩)
      | right h w => exact .right ((hi _).2 h) (ir.2 ⟨k, w, rfl⟩)

theorem renamed_leaves (ρ lam : Nat → Nat) (T : BTree) : (renamed ρ lam T).leaves = T.leaves.map lam := by
  induction T with
  | leaf k => rfl
  | node i l r il ir => simp [renamed, BTree.leaves, il, ir]

section
variable {ρ lam : Nat → Nat} {d d' : TreeDesc} {parse : Str → Option F64} {print : F64 → Str}

theorem tree_moved (ok : d.OK parse print) (ok' : d'.OK parse print) (h : TreeDesc.NodesReordered ρ lam d d') (h0 : d.inner ≠ 0) :
    d'.tree = renamed ρ lam d.tree := by
  have hc := (ok'.tree (by rw [h.inner]; exact h0)).shape
  refine shape_reordered h (ok.tree h0).shape (ok.tree h0).bound _ ?_
  have := newChild_node ρ lam 0
  rw [h.root] at this
  rw [show newChild ρ lam 0 = 0 from this]
  exact hc

theorem walk_desc (ok : d.OK parse print) (ok' : d'.OK parse print) (h : TreeDesc.NodesReordered ρ lam d d') (h0 : d.inner ≠ 0) (out : F64 → Int)
    (fvals : List F64) (k' : Nat) : Walk (Goes out (LgSplit d'.arrays) fvals) d'.tree k' ↔
      ∃ k, Walk (Goes out (LgSplit d.arrays) fvals) d.tree k ∧ k' = lam k := by
  rw [tree_moved ok ok' h h0]
  refine walk_moved (fun i hi b => ?_) k'
  unfold Goes
  simp only [split_moved h ((ok.tree h0).bound i hi)]

theorem value_reordered (ok : d.OK parse print) (ok' : d'.OK parse print) (h : TreeDesc.NodesReordered ρ lam d d') (out : F64 → Int) (fvals : List F64) (w : F64) :
    d'.Value out fvals w ↔ d.Value out fvals w := by
  unfold TreeDesc.Value
  rw [h.inner]
  by_cases h0 : d.inner = 0
  · rw [if_pos h0, if_pos h0, ← h.values 0, h.only h0]
  · rw [if_neg h0, if_neg h0]
    simp only [walk_desc ok ok' h h0 out fvals]
    constructor
    · rintro ⟨_, ⟨k, hk, rfl⟩, hv⟩
      exact ⟨k, hk, by rw [← h.values]; exact hv⟩
    · rintro ⟨k, hk, hv⟩
      exact ⟨lam k, ⟨k, hk, rfl⟩, by rw [h.values]; exact hv⟩

theorem leaf_moved (ok : d.OK parse print) (ok' : d'.OK parse print) (h : TreeDesc.NodesReordered ρ lam d d') (out : F64 → Int) (fvals : List F64) (j' : Nat) :
    d'.Leaf out fvals j' ↔ ∃ j, d.Leaf out fvals j ∧ j' = lam j := by
  unfold TreeDesc.Leaf
  rw [h.inner]
  by_cases h0 : d.inner = 0
  · simp only [if_pos h0]
    constructor
    · rintro rfl
      exact ⟨0, rfl, (h.only h0).symm⟩
    · rintro ⟨_, rfl, rfl⟩
      exact h.only h0
  · simp only [if_neg h0, walk_desc ok ok' h h0 out fvals]
    have hlen : ∀ k, lam k < d'.leafValues.length ↔ k < d.leafValues.length := by
      intro k
      have := h.values k
      rw [← not_iff_not, not_lt, not_lt, ← List.getElem?_eq_none_iff, ← List.getElem?_eq_none_iff, this]
    constructor
    · rintro ⟨⟨k, hk, rfl⟩, hv⟩
      exact ⟨k, ⟨hk, (hlen k).1 hv⟩, rfl⟩
    · rintro ⟨k, ⟨hk, hv⟩, rfl⟩
      exact ⟨⟨k, hk, rfl⟩, (hlen k).2 hv⟩

theorem leafCount_moved (ok : d.OK parse print) (ok' : d'.OK parse print) (h : TreeDesc.NodesReordered ρ lam d d') : d'.leafCount = d.leafCount := by
  unfold TreeDesc.leafCount
  rw [h.inner]
  by_cases h0 : d.inner = 0
  · rw [if_pos h0, if_pos h0]
  · rw [if_neg h0, if_neg h0, tree_moved ok ok' h h0, renamed_leaves, List.length_map]

end

/-- **C124, LightGBM text files**, boosted models and averaged forests. Of two files the second one has the inner nodes and the leaves of its trees in
another order. Both models predict the same, for single rows, dense and sparse matrices, with all numbers of estimators; where the one reports that
a row ends in leaf `j` of tree `q`, the other one reports leaf `lam q j`. -/
theorem C124_text (P : Platform) (print : F64 → Str) (text text' rest0 rest0' rest rest' : Str) (header header' : List Str)
    (e0 e0' e1 e1' : Bool) (bs bs' : List (List Str)) (ds ds' : List TreeDesc) (K N : Nat) (M : Int) (avg : Bool)
    (hK : 1 ≤ K ∧ K < 2 ^ 63) (hN : 1 ≤ N) (hlen : ds.length = N * K) (hsmall : ds.length < 2 ^ 63)
    (hok : ∀ d ∈ ds, d.OK P.parseFloat print ∧ d.inner * 24 ≤ P.maxAlloc) (hok' : ∀ d ∈ ds', d.OK P.parseFloat print ∧ d.inner * 24 ≤ P.maxAlloc)
    (hh : FileBlock text header rest0 e0) (hhl : HeaderLines header K M ds.length avg)
    (hb : FileBlocks rest0 bs rest e1) (hbl : List.Forall₂ (TreeLines print) ds bs)
    (hh' : FileBlock text' header' rest0' e0') (hhl' : HeaderLines header' K M ds'.length avg)
    (hb' : FileBlocks rest0' bs' rest' e1') (hbl' : List.Forall₂ (TreeLines print) ds' bs')
    (lam : Nat → Nat → Nat) (hl : ds'.length = ds.length)
    (hm : ∀ (q : Nat) (d d' : TreeDesc), ds[q]? = some d → ds'[q]? = some d' → ∃ ρ, TreeDesc.NodesReordered ρ (lam q) d d') :
    ∃ e e', lgEnsembleFromReader P ⟨text, false⟩ false = .ok (e, ⟨rest, false⟩) ∧
      lgEnsembleFromReader P ⟨text', false⟩ false = .ok (e', ⟨rest', false⟩) ∧ (∀ req, SameFor P e req e' req) ∧
      LeafView P e K N (fun i k c => ∃ d, ds[i * K + k]? = some d ∧ c = d.leafCount)
        (fun fvals i k j => ∃ d, ds[i * K + k]? = some d ∧ d.Leaf P.out fvals j) ∧
      LeafView P e' K N (fun i k c => ∃ d, ds[i * K + k]? = some d ∧ c = d.leafCount)
        (fun fvals i k j' => ∃ d, ds[i * K + k]? = some d ∧ ∃ j, d.Leaf P.out fvals j ∧ j' = lam (i * K + k) j) := by
  have hlen' := hl.trans hlen
  obtain ⟨e, l1, f1, -, t1, w1, n1, -, p1⟩ := C39_text_file P print text rest0 rest header e0 e1 bs ds K N M avg hK hN hlen hh hhl hb hbl hok
  obtain ⟨e', l2, f2, -, t2, w2, n2, -, p2⟩ := C39_text_file P print text' rest0' rest' header' e0' e1' bs' ds' K N M avg hK hN hlen' hh' hhl' hb' hbl' hok'
  obtain ⟨v1, k1, u1⟩ := C81_text_file P print text rest0 rest header e0 e1 bs ds K N M avg hK hN hlen hsmall hh hhl hb hbl hok
  obtain ⟨v2, k2, u2⟩ := C81_text_file P print text' rest0' rest' header' e0' e1' bs' ds' K N M avg hK hN hlen' (by omega) hh' hhl' hb' hbl' hok'
  rw [l1] at k1
  rw [l2] at k2
  cases k1
  cases k2
  have key : ∀ (Q : TreeDesc → Prop) (R : Nat → TreeDesc → Prop), (∀ q d d' ρ, ds[q]? = some d → ds'[q]? = some d' → d.OK P.parseFloat print →
      d'.OK P.parseFloat print → TreeDesc.NodesReordered ρ (lam q) d d' → (Q d' ↔ R q d)) →
      ∀ q, (∃ d', ds'[q]? = some d' ∧ Q d') ↔ ∃ d, ds[q]? = some d ∧ R q d := by
    intro Q R hQ q
    constructor
    · rintro ⟨d', h', hq⟩
      have hq' : q < ds.length := by rw [← hl]; exact (List.getElem?_eq_some_iff.1 h').1
      have h := List.getElem?_eq_getElem hq'
      obtain ⟨ρ, hρ⟩ := hm q _ _ h h'
      exact ⟨_, h, (hQ q _ _ ρ h h' (hok _ (List.mem_of_getElem? h)).1 (hok' _ (List.mem_of_getElem? h')).1 hρ).1 hq⟩
    · rintro ⟨d, h, hq⟩
      have hq' : q < ds'.length := by rw [hl]; exact (List.getElem?_eq_some_iff.1 h).1
      have h' := List.getElem?_eq_getElem hq'
      obtain ⟨ρ, hρ⟩ := hm q _ _ h h'
      exact ⟨_, h', (hQ q _ _ ρ h h' (hok _ (List.mem_of_getElem? h)).1 (hok' _ (List.mem_of_getElem? h')).1 hρ).2 hq⟩
  refine ⟨e, e', l1, l2, fun req => SameFor.of_rows f1 f2 (w1.trans w2.symm) (n1.trans n2.symm)
    ((lg_loaded_base l1).trans (lg_loaded_base l2).symm) fun row m m' => ?_, u1, ?_⟩
  · rw [p1, p2, n1, n2]
    refine and_congr_right fun _ => and_congr_right fun _ => exists_congr fun n => exists_congr fun w => and_congr_right fun _ => and_congr_left' ?_
    unfold RefRaw
    refine exists_congr fun v => and_congr_left' ?_
    refine forall_congr' fun i => forall_congr' fun _ => forall_congr' fun k => forall_congr' fun _ => ?_
    exact (key (fun d' => d'.Value P.out row (v i k)) (fun _ d => d.Value P.out row (v i k))
      (fun q d d' ρ _ _ o o' hρ => value_reordered o o' hρ P.out row _) _).symm
  · have e1 : (fun i k c => ∃ d, ds'[i * K + k]? = some d ∧ c = d.leafCount) = fun i k c => ∃ d, ds[i * K + k]? = some d ∧ c = d.leafCount := by
      funext i k c
      exact propext (key (fun d' => c = d'.leafCount) (fun _ d => c = d.leafCount) (fun q d d' ρ _ _ o o' hρ => by rw [leafCount_moved o o' hρ]) _)
    have e2 : (fun fvals i k j => ∃ d, ds'[i * K + k]? = some d ∧ d.Leaf P.out fvals j) =
        fun fvals i k j' => ∃ d, ds[i * K + k]? = some d ∧ ∃ j, d.Leaf P.out fvals j ∧ j' = lam (i * K + k) j := by
      funext fvals i k j
      exact propext (key (fun d' => d'.Leaf P.out fvals j) (fun q d => ∃ j0, d.Leaf P.out fvals j0 ∧ j = lam q j0)
        (fun q d d' ρ _ _ o o' hρ => leaf_moved o o' hρ P.out fvals j) _)
    rw [← e1, ← e2]
    exact u2

theorem skShape_inside_nodes {nodes : List Pickle.SkNode} {i : Nat} {T : BTree} (h : SkShape nodes i T) : i < nodes.length := by
  cases h with
  | leaf _ n hn => exact (List.getElem?_eq_some_iff.1 hn).1
  | node _ n li ri l r hn => exact (List.getElem?_eq_some_iff.1 hn).1

theorem skShape_all {nodes : List Pickle.SkNode} {i : Nat} {T : BTree} (h : SkShape nodes i T) :
    (∀ j ∈ T.inner, j < nodes.length) ∧ ∀ j ∈ T.leaves, j < nodes.length := by
  induction h with
  | leaf i n hn =>
    refine ⟨fun j hj => absurd hj (by simp [BTree.inner]), fun j hj => ?_⟩
    obtain rfl : j = i := by simpa [BTree.leaves] using hj
    exact (List.getElem?_eq_some_iff.1 hn).1
  | node i n li ri l r hn _ _ _ _ il ir =>
    refine ⟨fun j hj => ?_, fun j hj => ?_⟩
    · rcases (show j = i ∨ j ∈ r.inner ∨ j ∈ l.inner by simpa [BTree.inner] using hj) with rfl | h | h
      · exact (List.getElem?_eq_some_iff.1 hn).1
      · exact ir.1 j h
      · exact il.1 j h
    · rcases (show j ∈ l.leaves ∨ j ∈ r.leaves by simpa [BTree.leaves] using hj) with h | h
      · exact il.2 j h
      · exact ir.2 j h

theorem skShape_reordered {ρ : Nat → Nat} {t t' : Pickle.SkTree} (h : SkNodesMoved ρ t t') {i : Nat} {T : BTree} (hs : SkShape t.nodes i T) :
    ∀ T', SkShape t'.nodes (ρ i) T' → T' = renamed ρ ρ T := by
  induction hs with
  | leaf i n hn hl =>
    intro T' h'
    obtain ⟨-, n', h1, -, -, h2, -⟩ := h.node i n hn
    rw [hl] at h2
    have h2 : n'.leftChild = -1 := h2.trans (newRef_one.2 rfl)
    generalize hc : ρ i = c at h'
    cases h' with
    | leaf => subst hc; rfl
    | node _ n'' li' ri' l' r' hn'' hl' =>
      rw [← hc, h1] at hn''
      cases hn''
      omega
  | node i n li ri l r hn hl hr sl sr il ir =>
    intro T' h'
    obtain ⟨-, n', h1, -, -, h2, h3⟩ := h.node i n hn
    have f1 : n'.leftChild = (ρ li : Nat) := by
      rw [h2, hl, newRef, if_pos ⟨by omega, by exact_mod_cast skShape_inside_nodes sl⟩, Int.toNat_natCast]
    have f2 : n'.rightChild = (ρ ri : Nat) := by
      rw [h3, hr, newRef, if_pos ⟨by omega, by exact_mod_cast skShape_inside_nodes sr⟩, Int.toNat_natCast]
    generalize hc : ρ i = c at h'
    cases h' with
    | leaf _ n'' hn'' hl' =>
      rw [← hc, h1] at hn''
      cases hn''
      omega
    | node _ n'' li' ri' l' r' hn'' hl' hr' sl' sr' =>
      rw [← hc, h1] at hn''
      cases hn''
      obtain rfl : li' = ρ li := by omega
      obtain rfl : ri' = ρ ri := by omega
      rw [il l' sl', ir r' sr', ← hc, renamed]

theorem skWalk_reordered {ρ : Nat → Nat} {t t' : Pickle.SkTree} (h : SkNodesMoved ρ t t') {T T' : BTree} (ok : SkTreeOK t T) (ok' : SkTreeOK t' T')
    (fvals : List F64) (k' : Nat) : Walk (SkGoes t'.nodes fvals) T' k' ↔ ∃ k, Walk (SkGoes t.nodes fvals) T k ∧ k' = ρ k := by
  have hs := ok'.shape
  rw [← h.root] at hs
  rw [skShape_reordered h ok.shape T' hs]
  refine walk_moved (fun i hi b => ?_) k'
  have hlt := (skShape_all ok.shape).1 i hi
  have hn := List.getElem?_eq_getElem hlt
  obtain ⟨-, n', h1, h2, h3, -⟩ := h.node i _ hn
  unfold SkGoes
  rw [h1, hn]
  constructor
  · rintro ⟨_, f, x, g, g1, g2, g3⟩
    cases g
    exact ⟨_, f, x, rfl, by rw [← h2]; exact g1, g2, by rw [← h3]; exact g3⟩
  · rintro ⟨_, f, x, g, g1, g2, g3⟩
    cases g
    exact ⟨_, f, x, rfl, by rw [h2]; exact g1, g2, by rw [h3]; exact g3⟩

theorem skRefRaw_reordered {P : Platform} {M M' : SkModel} (hM : M.NodesReordered M') (ok : M.OK P.maxAlloc) (ok' : M'.OK P.maxAlloc) (row : List F64) (n : Nat)
    (w : List F64) : SkRefRaw P M' row n w ↔ SkRefRaw P M row n w := by
  have hg : M'.groups = M.groups := by unfold SkModel.groups; rw [hM.classes]
  unfold SkRefRaw
  rw [hg, hM.learningRate, hM.prior]
  refine exists_congr fun v => and_congr_left' ?_
  refine forall_congr' fun i => forall_congr' fun hi => forall_congr' fun k => forall_congr' fun hk => ?_
  have l1 := hM.trees.length_eq
  have l2 := ok.trees.length_eq
  have l3 := ok'.trees.length_eq
  generalize i * M.groups + k = q
  have key : ∀ t T t' T', M.trees[q]? = some t → M.shapes[q]? = some T → M'.trees[q]? = some t' → M'.shapes[q]? = some T' →
      ∀ x, (∃ leaf, Walk (SkGoes t'.nodes (nanToZero row)) T' leaf ∧ t'.values[leaf]? = some x) ↔
        ∃ leaf, Walk (SkGoes t.nodes (nanToZero row)) T leaf ∧ t.values[leaf]? = some x := by
    intro t T t' T' h1 h2 h3 h4 x
    obtain ⟨b1, rfl⟩ := List.getElem?_eq_some_iff.1 h1
    obtain ⟨b2, rfl⟩ := List.getElem?_eq_some_iff.1 h2
    obtain ⟨b3, rfl⟩ := List.getElem?_eq_some_iff.1 h3
    obtain ⟨b4, rfl⟩ := List.getElem?_eq_some_iff.1 h4
    obtain ⟨ρ, hρ⟩ := hM.trees.get b1 b3
    have o := ok.trees.get b1 b2
    have o' := ok'.trees.get b3 b4
    have hv : ∀ {leaf}, Walk (SkGoes M.trees[q].nodes (nanToZero row)) M.shapes[q] leaf → M'.trees[q].values[ρ leaf]? = M.trees[q].values[leaf]? := fun hw =>
      (hρ.node _ _ (List.getElem?_eq_getElem ((skShape_all o.shape).2 _ (Walk.mem hw)))).1
    constructor
    · rintro ⟨leaf, hw, hx⟩
      obtain ⟨k, hw', rfl⟩ := (skWalk_reordered hρ o o' _ _).1 hw
      exact ⟨k, hw', by rw [← hv hw']; exact hx⟩
    · rintro ⟨leaf, hw, hx⟩
      exact ⟨ρ leaf, (skWalk_reordered hρ o o' _ _).2 ⟨leaf, hw, rfl⟩, by rw [hv hw]; exact hx⟩
  constructor
  · rintro ⟨t', T', leaf, x, p, h1, h2, h3, h4, h5, h6⟩
    have b : q < M.trees.length := by rw [l1]; exact (List.getElem?_eq_some_iff.1 h1).1
    obtain ⟨k, g1, g2⟩ := (key _ _ _ _ (List.getElem?_eq_getElem b) (List.getElem?_eq_getElem (by omega)) h1 h2 x).1 ⟨leaf, h4, h5⟩
    exact ⟨_, _, k, x, p, List.getElem?_eq_getElem b, List.getElem?_eq_getElem (by omega), h3, g1, g2, h6⟩
  · rintro ⟨t, T, leaf, x, p, h1, h2, h3, h4, h5, h6⟩
    have b : q < M'.trees.length := by rw [← l1]; exact (List.getElem?_eq_some_iff.1 h1).1
    obtain ⟨k, g1, g2⟩ := (key _ _ _ _ h1 h2 (List.getElem?_eq_getElem b) (List.getElem?_eq_getElem (by omega)) x).2 ⟨leaf, h4, h5⟩
    exact ⟨_, _, k, x, p, List.getElem?_eq_getElem b, List.getElem?_eq_getElem (by omega), h3, g1, g2, h6⟩

/-- **C124, scikit-learn pickles.** The second classifier has the nodes of its trees, with their values, in another order; all that the loader does not
use (impurities, numbers of samples, further attributes) may differ as well. Both models predict the same. -/
theorem C124_sklearn (P : Platform) (v v' : PyVal) (bs bs' : Pickle.Bytes) (μ μ' : Memo) (hd : Dumps P noMemo v bs μ)
    (hd' : Dumps P noMemo v' bs' μ') (M M' : SkModel) (ok : M.OK P.maxAlloc) (ok' : M'.OK P.maxAlloc) (hc : IsClassifier M v) (hc' : IsClassifier M' v')
    (hM : M.NodesReordered M') :
    ∃ e e', (∀ rest lt, skEnsembleFromReader P (bs ++ octet '.' :: rest) lt = .ok e) ∧
      (∀ rest lt, skEnsembleFromReader P (bs' ++ octet '.' :: rest) lt = .ok e') ∧ ∀ req, SameFor P e req e' req := by
  obtain ⟨e, l1, f1, -, -, w1, t1, n1, -, p1⟩ := C63_sklearn_file P v bs μ hd M hc ok
  obtain ⟨e', l2, f2, -, -, w2, t2, n2, -, p2⟩ := C63_sklearn_file P v' bs' μ' hd' M' hc' ok'
  have hg : M'.groups = M.groups := by unfold SkModel.groups; rw [hM.classes]
  rw [hg] at w2 p2
  rw [hM.maxFeatures] at n2
  have hdf : dflt e.base = dflt e'.base := by
    obtain ⟨ts, g1, -⟩ := sk_file_loaded P hd hc ok
    obtain ⟨ts', g2, -⟩ := sk_file_loaded P hd' hc' ok'
    have g1 := (l1 [] false).symm.trans (g1 [] false)
    have g2 := (l2 [] false).symm.trans (g2 [] false)
    cases g1
    cases g2
    rfl
  refine ⟨e, e', l1, l2, fun req => SameFor.of_rows f1 f2 (w1.trans w2.symm) (n1.trans n2.symm) hdf fun row m m' => ?_⟩
  rw [p1, p2, n1, n2, hM.estimators]
  refine and_congr_right fun _ => and_congr_right fun _ => exists_congr fun n => exists_congr fun w => and_congr_right fun _ => and_congr_left' ?_
  exact (skRefRaw_reordered hM ok ok' row n w).symm

namespace NodeOrderExample
open LgExample (platform)
open LgLoadExample (print d1 d2 ds_ok plain_of)

/-- new numbers of the five nodes of `XgExample` -/
def move : Nat → Nat
  | 1 => 4
  | 2 => 1
  | 3 => 2
  | 4 => 3
  | i => i

/-- old numbers -/
def back : Nat → Nat
  | 4 => 1
  | 1 => 2
  | 2 => 3
  | 3 => 4
  | i => i

/-- the nodes in their new order; the parents are wrong on purpose -/
def nodes : List Node :=
  [⟨9#32, 4#32, 1#32, 0x80000001#32, 0x3f000000#32⟩,
   ⟨9#32, 2#32, 3#32, 0#32, 0xc0000000#32⟩,
   ⟨9#32, -1#32, -1#32, 0#32, 0xbf800000#32⟩,
   ⟨9#32, -1#32, -1#32, 0#32, 0x40400000#32⟩,
   ⟨9#32, -1#32, -1#32, 0#32, 0x3e800000#32⟩]

theorem below_five {i : Nat} (h : i < 5) : i = 0 ∨ i = 1 ∨ i = 2 ∨ i = 3 ∨ i = 4 := by omega

theorem nodes_moved : NodesReordered move XgExample.nodes nodes where
  root := rfl
  length := rfl
  node := by
    intro i n h
    have hi : i < 5 := (List.getElem?_eq_some_iff.1 h).1
    rcases below_five hi with rfl | rfl | rfl | rfl | rfl <;> cases h <;> exact ⟨_, rfl, by decide⟩

theorem move_back : Renumbering XgExample.nodes.length move back := by
  intro i hi
  rcases below_five hi with rfl | rfl | rfl | rfl | rfl <;> decide

def gbtree : GBTreeModel :=
  ⟨⟨2#32, 1#32, 2#32, 0#32, 0#64, 1#32, 0#32, List.replicate 32 0#32⟩, [{ XgFileExample.tree1 with nodes := nodes }, XgFileExample.tree2], [0#32, 0#32]⟩

theorem gbtree_ok : GBTreeOK Platform.demo.maxAlloc gbtree [[], [7#32]] := ⟨rfl, by decide, rfl, by
  intro t ht
  rcases (show t = ({ XgFileExample.tree1 with nodes := nodes }, []) ∨ t = (XgFileExample.tree2, [7#32]) by simpa [gbtree] using ht) with rfl | rfl
  · exact ⟨rfl, by decide, by decide, by decide, by decide⟩
  · exact ⟨rfl, by decide, by decide, by decide, by decide⟩, rfl, by decide⟩

theorem trees_moved : List.Forall₂ XgNodesMoved (XgFileExample.file 1#32).gbtree.trees gbtree.trees :=
  .cons ⟨rfl, rfl, rfl, move, back, move_back, nodes_moved⟩ (.cons ⟨rfl, rfl, rfl, id, id, fun k hk => ⟨hk, hk, rfl, rfl⟩, rfl, rfl, by
    intro i n h
    have hi : i < 1 := (List.getElem?_eq_some_iff.1 h).1
    obtain rfl : i = 0 := by omega
    cases h
    exact ⟨_, rfl, by decide⟩⟩ .nil)

/-- The theorem applies to the file of `XgFileExample` and the one with the nodes in the new order; they load. -/
theorem C124_example (rest : Bytes) :
    xgEnsembleFromReader Platform.demo false
        (headerImage (XgFileExample.header "dart") ++ (gbtreeImage (XgFileExample.file 1#32).gbtree [[], [7#32]] ++ rest)) =
      xgEnsembleFromReader Platform.demo false (headerImage (XgFileExample.header "dart") ++ (gbtreeImage gbtree [[], [7#32]] ++ rest)) ∧
    xgEnsembleFromReader Platform.demo false
        (headerImage (XgFileExample.header "dart") ++ (gbtreeImage gbtree [[], [7#32]] ++ sliceImage [0x3f800000#32, 0x3f000000#32])) =
      .ok (XgFileExample.loadedFile 1, []) :=
  ⟨C124_xgboost Platform.demo _ _ _ _ _ XgFileExample.file_ok.header XgFileExample.file_ok.gbtree gbtree_ok rfl rfl trees_moved false rest, by decide +kernel⟩

/-- the nodes of `XgExample` in the order 2, 0, 1, 3, 4 -/
def rootMoved : GBTreeModel :=
  ⟨⟨2#32, 1#32, 2#32, 0#32, 0#64, 1#32, 0#32, List.replicate 32 0#32⟩, [{ XgFileExample.tree1 with nodes :=
    [⟨1#32, 3#32, 4#32, 0#32, 0xc0000000#32⟩, ⟨0#32, 2#32, 0#32, 0x80000001#32, 0x3f000000#32⟩, ⟨1#32, -1#32, -1#32, 0#32, 0x3e800000#32⟩,
     ⟨0#32, -1#32, -1#32, 0#32, 0xbf800000#32⟩, ⟨0#32, -1#32, -1#32, 0#32, 0x40400000#32⟩] }, XgFileExample.tree2], [0#32, 0#32]⟩

/-- The root has to stay the first node: the file whose second node is the root loads, but the row (0, 0.25) gets 4.5 instead of 1.75. -/
theorem C124_root : ∃ e,
    xgEnsembleFromReader Platform.demo false (headerImage (XgFileExample.header "dart") ++ (gbtreeImage rootMoved [[], [7#32]] ++
      sliceImage [0x3f800000#32, 0x3f000000#32])) = .ok e ∧
    (e.1.predict Platform.demo [F64.zero, F64.const 1 4] 0 1).run [F64.nan] = (.ok ⟨⟩, [F64.const 9 2]) ∧
    ((XgFileExample.loadedFile 1).predict Platform.demo [F64.zero, F64.const 1 4] 0 1).run [F64.nan] = (.ok ⟨⟩, [F64.const 7 4]) :=
  SkModelExample.of_check (r := xgEnsembleFromReader Platform.demo false (headerImage (XgFileExample.header "dart") ++ (gbtreeImage rootMoved [[], [7#32]] ++
      sliceImage [0x3f800000#32, 0x3f000000#32])))
    (fun e => (e.1.predict Platform.demo [F64.zero, F64.const 1 4] 0 1).run [F64.nan] = (.ok ⟨⟩, [F64.const 9 2]) ∧
      ((XgFileExample.loadedFile 1).predict Platform.demo [F64.zero, F64.const 1 4] 0 1).run [F64.nan] = (.ok ⟨⟩, [F64.const 7 4])) (by decide +kernel)

/-- new numbers of the inner nodes of the tree of `LgExample` -/
def rho : Nat → Nat
  | 1 => 2
  | 2 => 1
  | i => i

/-- new numbers of its leaves -/
def leafNo : Nat → Nat
  | 0 => 3
  | 1 => 0
  | 2 => 1
  | 3 => 2
  | k => k

/-- the tree of `LgExample` with inner nodes and leaves in another order -/
def d3 : TreeDesc where
  numCat := 1
  inner := 3
  leafValues := [F64.ofNat 20, F64.ofNat 30, F64.ofNat 40, F64.ofNat 10]
  catThreshold := [2, 2]
  arrays := ⟨[2, -2, -4], [1, -3, -1], [10, 2, 1], [0, 0, 1], [F64.ofNat 5, F64.ofNat 9, F64.ofNat 0], [2#32, 2#32], [0, 2]⟩
  tree := .node 0 (.node 2 (.leaf 3) (.leaf 0)) (.node 1 (.leaf 1) (.leaf 2))

theorem d3_tree : LgTreeOK d3.arrays 3 d3.tree where
  shape := by
    refine .node 0 2 1 _ _ rfl rfl ?_ ?_
    · exact .node 2 (-4) (-1) _ _ rfl rfl (.leaf 3) (.leaf 0)
    · exact .node 1 (-2) (-3) _ _ rfl rfl (.leaf 1) (.leaf 2)
  distinct := by decide
  bound := by decide
  small := by norm_num
  leaves := by decide
  splits := by
    intro i hi
    have : i = 0 ∨ i = 1 ∨ i = 2 := by simpa [d3, BTree.inner] using hi
    rcases this with rfl | rfl | rfl
    · exact ⟨0, _, 10, _, .nan, rfl, rfl, rfl, by unfold MissingOf; decide, .inl ⟨by norm_num, rfl⟩⟩
    · exact ⟨0, _, 2, _, .none, rfl, rfl, rfl, by unfold MissingOf; decide, .inl ⟨by norm_num, rfl⟩⟩
    · exact ⟨1, _, 1, _, .none, rfl, rfl, rfl, by unfold MissingOf; decide, .inr ⟨by norm_num, 0, [2#32, 2#32],
        F64.isVal_ofNat (by norm_num), ⟨0, 2, rfl, rfl, by norm_num, by decide, rfl⟩, rfl⟩⟩
  cats := by
    intro i hi d thr c ws h1 h2 h3 h4 h5
    have : i = 0 ∨ i = 1 ∨ i = 2 := by simpa [d3, BTree.inner] using hi
    rcases this with rfl | rfl | rfl
    · simp [d3] at h1; subst h1; simp at h2
    · simp [d3] at h1; subst h1; simp at h2
    · simp [d3] at h3; subst h3
      have : c = 0 := by exact_mod_cast IsVal.unique h4 (F64.isVal_ofNat (n := 0) (by norm_num))
      subst this
      obtain ⟨s, e, hs, he, hse, hle, rfl⟩ := h5
      simp [d3] at hs he
      subst hs he
      exact ⟨⟨1, by decide⟩, by decide, by norm_num⟩
  words := by
    refine ⟨fun _ => 2, ?_, by decide⟩
    intro i hi d thr c ws h1 h2 h3 h4 h5
    obtain ⟨s, e, hs, he, hse, hle, rfl⟩ := h5
    have : e ≤ 2 := hle
    simp; omega

theorem d3_ok : d3.OK platform.parseFloat print where
  numCat := by decide
  leafValues := by decide
  leafText := by decide +kernel
  tree := fun _ => d3_tree
  left := fun _ => by decide
  right := fun _ => by decide
  decision := fun _ => by decide
  feature := fun _ => by decide
  threshold := fun _ => ⟨by decide, by decide +kernel⟩
  cats := fun _ => ⟨by decide, by decide⟩

theorem ds_ok' : ∀ d ∈ [d3, d2], d.OK platform.parseFloat print ∧ PlainFloats print d ∧ d.inner * 24 ≤ platform.maxAlloc := by
  intro d hd
  simp only [List.mem_cons, List.not_mem_nil, or_false] at hd
  rcases hd with rfl | rfl
  · refine ⟨d3_ok, ⟨fun x hx => plain_of ?_, fun _ x hx => plain_of ?_⟩, by decide⟩
    · revert x; decide +kernel
    · revert x; decide +kernel
  · exact ds_ok d2 (by simp)

theorem below_three {i : Nat} (h : i < 3) : i = 0 ∨ i = 1 ∨ i = 2 := by omega

theorem d1_moved : TreeDesc.NodesReordered rho leafNo d1 d3 where
  root := rfl
  only := fun h => absurd h (by decide)
  inner := rfl
  values := by
    intro k
    match k with
    | 0 => rfl
    | 1 => rfl
    | 2 => rfl
    | 3 => rfl
    | k + 4 => rfl
  features := fun i hi => by rcases below_three hi with rfl | rfl | rfl <;> rfl
  thresholds := fun i hi => by rcases below_three hi with rfl | rfl | rfl <;> rfl
  types := fun i hi => by rcases below_three hi with rfl | rfl | rfl <;> rfl
  left := fun i hi => by rcases below_three hi with rfl | rfl | rfl <;> decide
  right := fun i hi => by rcases below_three hi with rfl | rfl | rfl <;> decide
  catThresholds := rfl
  catBoundaries := rfl

/-- The theorem applies to the file of `LgLoadExample` and one with the nodes and the leaves of the first tree in another order. -/
theorem C124_text_example (avg : Bool) : ∃ e e',
    lgEnsembleFromReader platform ⟨modelText print [d1, d2] 2 1 avg ++ [], false⟩ false = .ok (e, ⟨[], false⟩) ∧
    lgEnsembleFromReader platform ⟨modelText print [d3, d2] 2 1 avg ++ [], false⟩ false = .ok (e', ⟨[], false⟩) ∧ ∀ req, SameFor platform e req e' req := by
  obtain ⟨_, _, _, h1, h2, h3, h4⟩ := modelText_blocks (M := 1) [] 2 avg (by norm_num) ds_ok
  obtain ⟨_, _, _, g1, g2, g3, g4⟩ := modelText_blocks (M := 1) [] 2 avg (by norm_num) ds_ok'
  obtain ⟨e, e', l, l', hs, -, -⟩ := C124_text platform print _ _ _ _ _ _ _ _ _ _ _ _ _ _ [d1, d2] [d3, d2] 2 1 1 avg (by norm_num) le_rfl rfl (by simp)
    (fun d hd => ⟨(ds_ok d hd).1, (ds_ok d hd).2.2⟩) (fun d hd => ⟨(ds_ok' d hd).1, (ds_ok' d hd).2.2⟩) h1 h2 h3 h4 g1 g2 g3 g4
    (fun q => if q = 0 then leafNo else id) rfl (by
      intro q d d' h h'
      match q with
      | 0 =>
        cases h
        cases h'
        exact ⟨rho, d1_moved⟩
      | 1 =>
        cases h
        cases h'
        exact ⟨id, ⟨rfl, fun _ => rfl, rfl, fun _ => rfl, fun _ h => absurd h (Nat.not_lt_zero _), fun _ h => absurd h (Nat.not_lt_zero _),
          fun _ h => absurd h (Nat.not_lt_zero _), fun _ h => absurd h (Nat.not_lt_zero _), fun _ h => absurd h (Nat.not_lt_zero _), rfl, rfl⟩⟩
      | q + 2 => cases h)
  exact ⟨e, e', l, l', hs⟩

/-- the tree of `SkExample` with its nodes in the order of `move`, other impurities and other numbers of samples -/
def skTree : Pickle.SkTree where
  nOutputs := 1
  classes := [1]
  nNodes := 5
  nodes := [⟨4, 3, 1, F64.const 1 2, F64.one, 7, F64.ofNat 9⟩, ⟨-1, -1, -2, F64.ofInt (-2), F64.one, 7, F64.zero⟩, SkExample.leaf, SkExample.leaf,
    SkExample.split 1 2 0 (F64.ofNat 3)]
  values := [F64.zero, F64.ofNat 10, F64.ofNat 20, F64.ofNat 30, F64.zero]

/-- its shape -/
def skShape : BTree := .node 0 (.node 4 (.leaf 1) (.leaf 2)) (.leaf 3)

theorem skTree_ok : SkTreeOK skTree skShape where
  shape := by
    refine .node 0 _ 4 3 _ _ rfl rfl rfl ?_ (.leaf 3 _ rfl rfl)
    exact .node 4 _ 1 2 _ _ rfl rfl rfl (.leaf 1 _ rfl rfl) (.leaf 2 _ rfl rfl)
  distinct := by decide
  all := by decide
  nodeCount := rfl
  values := rfl
  features := by
    intro i hi n hn
    have : i = 0 ∨ i = 4 := by simpa [skShape, BTree.inner] using hi
    rcases this with rfl | rfl <;> simp [skTree] at hn <;> subst hn <;> simp [SkExample.split]
  small := by decide

theorem skTree_moved : SkNodesMoved move SkExample.tree skTree where
  root := rfl
  node := by
    intro i n h
    have hi : i < 5 := (List.getElem?_eq_some_iff.1 h).1
    rcases below_five hi with rfl | rfl | rfl | rfl | rfl <;> cases h <;> exact ⟨rfl, _, rfl, rfl, rfl, by decide⟩

/-- the records of `skTree` -/
def skWords : List NodeWords :=
  [⟨4, 3, 1, 0x3fe0000000000000, 0x3ff0000000000000, 7, 0x4022000000000000⟩, ⟨-1, -1, -2, 0xc000000000000000, 0x3ff0000000000000, 7, 0⟩,
    SkModelExample.leafWords, SkModelExample.leafWords, ⟨1, 2, 0, 0x4008000000000000, 0, 1, 0x3ff0000000000000⟩]
/-- 0, 10, 20, 30, 0 -/
def skValues : List (BitVec 64) := [0, 0x4024000000000000, 0x4034000000000000, 0x403e000000000000, 0]

open SkModelExample in
/-- `skTree` as a value -/
def skTreeValue : PyVal :=
  .build (pyName "sklearn.tree._tree" "Tree") (.ofList [.int 2, array [1] "i8" (bytes (field64 1)), .int 1])
    (.dict (items [("max_depth", .int 2), ("node_count", .int 5), ("nodes", array [5] "V56" (bytes (skWords.flatMap NodeWords.record))),
      ("values", array [5, 1, 1] "f8" (bytes (skValues.flatMap field64)))]))

open SkModelExample in
/-- a regressor with `skTree` -/
def skRegressor : PyVal :=
  inst "sklearn.tree.tree" "DecisionTreeRegressor"
    (items [("n_classes_", scalar "i8" (field64 1)), ("max_features_", .int 2), ("n_outputs_", .int 1), ("tree_", skTreeValue)])

open SkModelExample in
theorem is_skTree : IsTree skTree skTreeValue := by
  refine ⟨_, _, _, _, _, rfl, ⟨[1], _, is_array _ _ _, ?_, by decide⟩, rfl, rfl, ⟨_, _, skWords, _, is_array _ _ _, rfl, by decide +kernel⟩, rfl,
    ⟨_, _, _, _, is_array _ _ _, rfl, skValues, by decide +kernel, Or.inl ⟨rfl, rfl⟩⟩⟩
  show IsBytes (field64 1 ++ []) _
  rw [List.append_nil]
  rfl

theorem is_skRegressor : IsRegressor skTree skRegressor :=
  ⟨_, _, _, _, _, _, ⟨_, _, rfl⟩, rfl, ⟨_, _, .plain _ _ rfl, rfl, rfl⟩, rfl, rfl, rfl, is_skTree⟩

/-- the classifier of `SkModelExample` with `skTree` for its first tree -/
def skModel : SkModel where
  classes := 2
  estimators := 2
  maxFeatures := 2
  learningRate := F64.ofNat 2
  prior := [F64.ofNat 5]
  trees := [skTree, SkExample.tree]
  shapes := [skShape, SkExample.shape]

/-- its value -/
def skValue : PyVal := SkModelExample.classifier 2 2 1 2 [skRegressor, SkModelExample.regressor]

open SkModelExample in
theorem is_skClassifier : IsClassifier skModel skValue := by
  refine ⟨_, octets "deviance".toList, _, _, [0, 1], _, "O", octet '<', .ofList [skRegressor, regressor], ⟨_, _, rfl⟩, rfl, rfl, rfl, rfl, ?_, rfl,
    ⟨[0, 1], _, is_array _ _ _, ?_, by decide⟩, rfl, rfl, rfl, is_array _ _ _, .cons is_skRegressor (.cons is_regressor .nil)⟩
  · exact .logOdds _ _ _ (octet '<') _ (F64.ofNat 5) ⟨_, _, rfl⟩ rfl ⟨_, _, .plain _ _ rfl, rfl, rfl⟩
      ⟨[0x4014000000000000], by decide +kernel, Or.inl ⟨rfl, by simp⟩⟩
  · show IsBytes ([0, 1].flatMap field64) _
    simp [IsBytes, bytes]

theorem skModel_ok : skModel.OK Platform.demo.maxAlloc where
  counts := ⟨by show 1 ≤ 2; omega, by show 1 ≤ 2; omega, rfl⟩
  trees := .cons skTree_ok (.cons SkExample.tree_ok .nil)
  alloc := ⟨by show 2 * 8 ≤ 2 ^ 32; norm_num, by show 2 * 2 * 112 ≤ 2 ^ 32; norm_num⟩
  int := by show 2 * 2 < 2 ^ 63; norm_num
  features := by decide
  treeAlloc := by
    intro t ht
    rcases (show t = skTree ∨ t = SkExample.tree by simpa [skModel] using ht) with rfl | rfl <;> decide

theorem skWritable : skValue.Writable Platform.demo SkModelExample.print := by
  repeat' first
    | exact trivial
    | exact ⟨by decide, by decide⟩
    | exact ⟨by decide, by decide +kernel⟩
    | apply And.intro

theorem skModel_moved : (SkModelExample.model 2).NodesReordered skModel :=
  ⟨rfl, rfl, rfl, rfl, rfl, .cons ⟨move, skTree_moved⟩ (.cons ⟨id, rfl, by
    intro i n h
    have hi : i < 5 := (List.getElem?_eq_some_iff.1 h).1
    rcases below_five hi with rfl | rfl | rfl | rfl | rfl <;> cases h <;> exact ⟨rfl, _, rfl, rfl, rfl, by decide⟩⟩ .nil)⟩

/-- The theorem applies to the pickle of `SkModelExample` and one with the nodes of the first tree in another order. -/
theorem C124_sklearn_example : ∃ e e',
    (∀ rest lt, skEnsembleFromReader Platform.demo ((SkModelExample.value 2).dump SkModelExample.print ++ octet '.' :: rest) lt = .ok e) ∧
    (∀ rest lt, skEnsembleFromReader Platform.demo (skValue.dump SkModelExample.print ++ octet '.' :: rest) lt = .ok e') ∧
    ∀ req, SameFor Platform.demo e req e' req :=
  C124_sklearn Platform.demo _ _ _ _ _ _ (dump_dumps _ (SkModelExample.writable 2 ⟨by decide, by decide⟩)) (dump_dumps _ skWritable) _ _
    (SkModelExample.model_ok 2) skModel_ok (SkModelExample.is_classifier 2) is_skClassifier skModel_moved

end NodeOrderExample

end Leaves
