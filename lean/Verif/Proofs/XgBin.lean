import Verif.Spec.XgImage
import Mathlib.Tactic.NormNum

/-! # Reading byte images: internals of C41 and C42 -/

namespace Leaves

open Spec XgBin

/-- `r` reads the image `img` as `a`, taking exactly its bytes, and rejects every strict prefix of it -/
structure Codec {α : Type} (r : Rd α) (img : Bytes) (a : α) : Prop where
  decode : ∀ rest, r (img ++ rest) = .ok (a, rest)
  trunc : ∀ pre suf, img = pre ++ suf → suf ≠ [] → ∃ e, r pre = .err e

theorem Codec.pure {α : Type} (a : α) : Codec (Pure.pure a : Rd α) [] a where
  decode := fun rest => rfl
  trunc := fun pre suf h hs => by
    rw [eq_comm, List.append_eq_nil_iff] at h
    exact absurd h.2 hs

theorem Codec.bind {α β : Type} {r : Rd α} {f : α → Rd β} {img img' : Bytes} {a : α} {b : β} (h : Codec r img a)
    (h' : Codec (f a) img' b) : Codec (r >>= f) (img ++ img') b where
  decode := fun rest => by
    show (match r (img ++ img' ++ rest) with | .ok (a, bs) => f a bs | .err t => .err t | .panic => .panic | .hang => .hang) = _
    rw [List.append_assoc, h.decode]
    exact h'.decode rest
  trunc := fun pre suf he hs => by
    show ∃ e, (match r pre with | .ok (a, bs) => f a bs | .err t => .err t | .panic => .panic | .hang => .hang) = .err e
    rcases List.append_eq_append_iff.1 he with ⟨as, h1, h2⟩ | ⟨bs, h1, h2⟩
    · rw [h1, h.decode]
      exact h'.trunc as suf h2 hs
    · by_cases hb : bs = []
      · subst hb
        rw [List.append_nil] at h1
        rw [← h1]
        have := h.decode []
        rw [List.append_nil] at this
        rw [this]
        exact h'.trunc [] suf h2.symm hs
      · obtain ⟨e, he'⟩ := h.trunc pre bs h1 hb
        exact ⟨e, by rw [he']⟩

theorem Codec.map {α β : Type} {r : Rd α} {f : α → β} {img : Bytes} {a : α} (h : Codec r img a) :
    Codec (r >>= fun x => Pure.pure (f x)) img (f a) := by
  have := h.bind (f := fun x => Pure.pure (f x)) (Codec.pure (f a))
  rwa [List.append_nil] at this

theorem Codec.lift {α β : Type} {x : Res α} {a : α} {f : α → Rd β} {img : Bytes} {b : β} (hx : x = .ok a) (h : Codec (f a) img b) :
    Codec (lift x >>= f) img b := by
  subst hx
  exact ⟨fun rest => h.decode rest, fun pre suf he hs => h.trunc pre suf he hs⟩

theorem Codec.bytes (img : Bytes) : Codec (readBytes img.length) img img where
  decode := fun rest => by
    unfold readBytes
    rw [if_neg (by simp)]
    simp
  trunc := fun pre suf he hs => by
    unfold readBytes
    refine ⟨"EOF", if_pos ?_⟩
    rw [he, List.length_append]
    have := List.length_pos_iff.2 hs
    omega

theorem bytesLE_length (k n : Nat) : (bytesLE k n).length = k := by simp [bytesLE]

theorem bytesLE_succ (k n : Nat) : bytesLE (k + 1) n = BitVec.ofNat 8 n :: bytesLE k (n / 256) := by
  unfold bytesLE
  rw [List.range_succ_eq_map, List.map_cons, List.map_map]
  refine congrArg₂ _ (by simp) (List.map_congr_left fun i _ => ?_)
  simp only [Function.comp]
  rw [Nat.pow_succ', Nat.div_div_eq_div_mul]

theorem leNat_bytesLE : ∀ (k n : Nat), Util.leNat (bytesLE k n) = n % 256 ^ k
  | 0, n => by simp [bytesLE, Util.leNat, Nat.mod_one]
  | k + 1, n => by
    rw [bytesLE_succ, Util.leNat, leNat_bytesLE k, BitVec.toNat_ofNat]
    show n % 256 + 256 * (n / 256 % 256 ^ k) = n % 256 ^ (k + 1)
    rw [Nat.pow_succ', Nat.mod_mul]

theorem Codec.word (w : BitVec 32) : Codec readWord (word w) w := by
  have h := (Codec.bytes (Spec.word w)).map (f := fun b => BitVec.ofNat 32 (Util.leNat b))
  have h1 : BitVec.ofNat 32 (Util.leNat (Spec.word w)) = w := by
    unfold Spec.word
    rw [leNat_bytesLE, show 256 ^ 4 = 2 ^ 32 by norm_num, Nat.mod_eq_of_lt w.isLt, BitVec.ofNat_toNat, BitVec.setWidth_eq]
  have h2 : (Spec.word w).length = 4 := bytesLE_length _ _
  rw [h1, h2] at h
  exact h

theorem Codec.word64 {n : Nat} (hn : n < 2 ^ 64) : Codec readWord64 (bytesLE 8 n) (BitVec.ofNat 64 n) := by
  have h := (Codec.bytes (bytesLE 8 n)).map (f := fun b => BitVec.ofNat 64 (Util.leNat b))
  have h1 : Util.leNat (bytesLE 8 n) = n := by
    rw [leNat_bytesLE, show 256 ^ 8 = 2 ^ 64 by norm_num, Nat.mod_eq_of_lt hn]
  rw [h1, bytesLE_length] at h
  exact h

theorem Codec.many {α β : Type} {r : Rd α} {img : β → Bytes} {val : β → α} : ∀ xs : List β, (∀ x ∈ xs, Codec r (img x) (val x)) →
    Codec (readMany r xs.length) (xs.flatMap img) (xs.map val)
  | [], _ => Codec.pure []
  | x :: xs, h => by
    have h1 := h x (by simp)
    have h2 := Codec.many xs fun y hy => h y (by simp [hy])
    exact h1.bind (h2.map (f := fun l => val x :: l))

theorem Codec.words {ws : List (BitVec 32)} {n : Nat} (h : ws.length = n) : Codec (readMany readWord n) (words ws) ws := by
  subst h
  have := Codec.many (r := readWord) (img := Spec.word) (val := id) ws fun x _ => Codec.word x
  rwa [List.map_id] at this

theorem words_cons (w : BitVec 32) (ws : List (BitVec 32)) : words (w :: ws) = word w ++ words ws := rfl

theorem words_append (a b : List (BitVec 32)) : words (a ++ b) = words a ++ words b := by simp [words]

theorem allocCheck_of {P : Platform} {n : Int} {size : Nat} {k : Nat} (hn : n = k) (h : k * size ≤ P.maxAlloc) : allocCheck P n size = .ok ⟨⟩ := by
  subst hn
  unfold allocCheck
  have : ((k : Int) * size) ≤ P.maxAlloc := by exact_mod_cast h
  rw [if_neg]
  rintro (h | h) <;> omega

theorem toNat_len {n : Nat} (h : n < 2 ^ 64) : (BitVec.ofNat 64 n).toNat = n := by
  rw [BitVec.toNat_ofNat, Nat.mod_eq_of_lt h]

theorem Codec.string (P : Platform) {s : Bytes} (h : s.length < 2 ^ 64 ∧ s.length ≤ P.maxAlloc) : Codec (readString P) (stringImage s) s := by
  refine (Codec.word64 h.1).bind ?_
  rw [toNat_len h.1]
  split
  · rename_i h0
    obtain rfl : s = [] := List.length_eq_zero_iff.1 h0
    exact Codec.pure []
  · exact Codec.lift (allocCheck_of rfl (by omega)) (Codec.bytes s)

theorem Codec.slice (P : Platform) {ws : List (BitVec 32)} (h : ws.length < 2 ^ 64 ∧ ws.length * 4 ≤ P.maxAlloc) :
    Codec (readWordSlice P) (sliceImage ws) ws := by
  refine (Codec.word64 h.1).bind ?_
  rw [toNat_len h.1]
  split
  · rename_i h0
    obtain rfl : ws = [] := List.length_eq_zero_iff.1 h0
    exact Codec.pure []
  · exact Codec.lift (allocCheck_of rfl h.2) (Codec.words rfl)

theorem Codec.learner {p : LearnerModelParam} (h : p.reserved.length = 29) : Codec readLearnerModelParam (learnerImage p) p := by
  refine (Codec.word p.baseScore).bind <| (Codec.word p.numFeatures).bind <| (Codec.word p.numClass).bind <|
    (Codec.word p.containExtraAttrs).bind <| (Codec.word p.containEvalMetrics).bind <| ?_
  exact (Codec.words h).map (f := fun r => LearnerModelParam.mk p.baseScore p.numFeatures p.numClass p.containExtraAttrs p.containEvalMetrics r)

theorem Codec.gbtreeParam {p : GBTreeModelParam} (h : p.reserved.length = 32) : Codec readGBTreeModelParam (gbtreeParamImage p) p := by
  unfold gbtreeParamImage
  rw [List.append_assoc]
  have hw : Codec readWord64 (bytesLE 8 p.numPbufferDeprecated.toNat) p.numPbufferDeprecated := by
    have := Codec.word64 p.numPbufferDeprecated.isLt
    rwa [BitVec.ofNat_toNat, BitVec.setWidth_eq] at this
  refine (Codec.word p.numTrees).bind <| (Codec.word p.numRoots).bind <| (Codec.word p.numFeature).bind <|
    (Codec.word p.pad32bit).bind <| hw.bind <| (Codec.word p.numOutputGroup).bind <| (Codec.word p.sizeLeafVector).bind <| ?_
  exact (Codec.words h).map (f := fun r => GBTreeModelParam.mk p.numTrees p.numRoots p.numFeature p.pad32bit p.numPbufferDeprecated
    p.numOutputGroup p.sizeLeafVector r)

theorem Codec.treeParam {p : TreeParam} (h : p.reserved.length = 31) : Codec readTreeParam (treeParamImage p) p := by
  refine (Codec.word p.numRoots).bind <| (Codec.word p.numNodes).bind <| (Codec.word p.numDeleted).bind <| (Codec.word p.maxDepth).bind <|
    (Codec.word p.numFeature).bind <| (Codec.word p.sizeLeafVector).bind <| ?_
  exact (Codec.words h).map (f := fun r => TreeParam.mk p.numRoots p.numNodes p.numDeleted p.maxDepth p.numFeature p.sizeLeafVector r)

theorem Codec.node (n : Node) : Codec readNode (nodeImage n) n := by
  refine (Codec.word n.parent).bind <| (Codec.word n.cLeft).bind <| (Codec.word n.cRight).bind <| (Codec.word n.sIndex).bind <| ?_
  have := (Codec.word n.info).map (f := fun i => Node.mk n.parent n.cLeft n.cRight n.sIndex i)
  simpa [words] using this

theorem Codec.stat (s : RTreeNodeStat) : Codec readStat (statImage s) s := by
  refine (Codec.word s.lossChg).bind <| (Codec.word s.sumHess).bind <| (Codec.word s.baseWeight).bind <| ?_
  have := (Codec.word s.leafChildCnt).map (f := fun i => RTreeNodeStat.mk s.lossChg s.sumHess s.baseWeight i)
  simpa [words] using this

theorem Codec.linearParam {p : GBLinearModelParam} (h : p.reserved.length = 32) :
    Codec readGBLinearModelParam (linearParamImage p) p := by
  refine (Codec.word p.numFeature).bind <| (Codec.word p.numOutputGroup).bind <| ?_
  exact (Codec.words h).map (f := fun r => GBLinearModelParam.mk p.numFeature p.numOutputGroup r)

theorem Codec.header (P : Platform) {h : ModelHeader} (ok : HeaderOK P.maxAlloc h) : Codec (readModelHeader P) (headerImage h) h := by
  unfold headerImage
  rw [List.append_assoc]
  refine (Codec.learner ok.reserved).bind <| (Codec.string P ok.nameObj).bind <| ?_
  exact (Codec.string P ok.nameGbm).map (f := fun s => ModelHeader.mk h.param h.nameObj s)

theorem Codec.tree (P : Platform) {t : TreeModel} {v : List (BitVec 32)} (ok : TreeImageOK P.maxAlloc t v) :
    Codec (readTreeModel P) (treeImage t v) t := by
  unfold treeImage
  rw [List.append_assoc, List.append_assoc]
  have hn := ok.nodes
  have hs := ok.stats
  have hns : t.nodes.length = t.stats.length := by omega
  refine (Codec.treeParam ok.reserved).bind ?_
  refine Codec.lift (allocCheck_of hn ok.alloc) ?_
  refine Codec.lift (allocCheck_of hn (by have := ok.alloc; omega)) ?_
  have h1 : Codec (readMany readNode t.param.numNodes.toInt.toNat) (t.nodes.flatMap nodeImage) t.nodes := by
    have := Codec.many (r := readNode) (img := nodeImage) (val := id) t.nodes fun x _ => Codec.node x
    rw [List.map_id] at this
    rwa [hn, Int.toNat_natCast]
  have h2 : Codec (readMany readStat t.param.numNodes.toInt.toNat) (t.stats.flatMap statImage) t.stats := by
    have := Codec.many (r := readStat) (img := statImage) (val := id) t.stats fun x _ => Codec.stat x
    rw [List.map_id] at this
    rwa [hs, Int.toNat_natCast]
  refine h1.bind (h2.bind ?_)
  split
  · exact (Codec.slice P ok.leafVector).map (f := fun _ => TreeModel.mk t.nodes t.stats t.param)
  · exact Codec.pure t

theorem Codec.gbtree (P : Platform) {m : GBTreeModel} {vs : List (List (BitVec 32))} (ok : GBTreeOK P.maxAlloc m vs) :
    Codec (readGBTreeModel P) (gbtreeImage m vs) m := by
  unfold gbtreeImage
  rw [List.append_assoc]
  refine (Codec.gbtreeParam ok.reserved).bind ?_
  have h1 : Codec (readMany (readTreeModel P) m.param.numTrees.toInt.toNat) ((m.trees.zip vs).flatMap fun t => treeImage t.1 t.2) m.trees := by
    have := Codec.many (r := readTreeModel P) (img := fun t : TreeModel × List (BitVec 32) => treeImage t.1 t.2) (val := Prod.fst)
      (m.trees.zip vs) fun x hx => Codec.tree P (ok.each x hx)
    rw [List.map_fst_zip (by rw [ok.vectors]), List.length_zip, ok.vectors, Nat.min_self] at this
    rwa [ok.trees, Int.toNat_natCast]
  refine h1.bind ?_
  split
  · refine Codec.lift (allocCheck_of ok.trees ok.alloc) ?_
    exact (Codec.words (by rw [ok.info, ok.trees]; rfl)).map (f := fun i => GBTreeModel.mk m.param m.trees i)
  · rename_i h0
    have : m.treeInfo = [] := List.length_eq_zero_iff.1 (by have := ok.trees; have := ok.info; omega)
    have he : GBTreeModel.mk m.param m.trees [] = m := by rw [← this]
    rw [this, he]
    exact Codec.pure m

theorem Codec.linear (P : Platform) {m : GBLinearModel} (ok : LinearOK P.maxAlloc m) : Codec (readGBLinearModel P) (linearImage m) m := by
  refine (Codec.linearParam ok.reserved).bind ?_
  exact (Codec.slice P ok.weights).map (f := fun w => GBLinearModel.mk m.param w)

end Leaves
