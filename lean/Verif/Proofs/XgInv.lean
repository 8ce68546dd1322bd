import Verif.Proofs.XgBin

/-! # What is read is the image of the result: internals of C41 and C57 -/

namespace Leaves

open Spec XgBin

theorem rd_bind_ok {α β : Type} {r : Rd α} {f : α → Rd β} {bs : Bytes} {x : β × Bytes} (h : (r >>= f) bs = .ok x) :
    ∃ a bs', r bs = .ok (a, bs') ∧ f a bs' = .ok x := by
  have h : (match r bs with | .ok (a, bs) => f a bs | .err t => .err t | .panic => .panic | .hang => .hang) = .ok x := h
  cases hr : r bs with
  | ok p => obtain ⟨a, bs'⟩ := p; rw [hr] at h; exact ⟨a, bs', rfl, h⟩
  | err t => rw [hr] at h; cases h
  | panic => rw [hr] at h; cases h
  | hang => rw [hr] at h; cases h

theorem rd_lift_ok {α : Type} {x : Res α} {bs : Bytes} {y : α × Bytes} (h : lift x bs = .ok y) : x = .ok y.1 ∧ y.2 = bs := by
  cases x with
  | ok a => cases h; exact ⟨rfl, rfl⟩
  | err t => cases h
  | panic => cases h
  | hang => cases h

theorem readMany_length {α : Type} {r : Rd α} : ∀ (n : Nat) (bs bs' : Bytes) (xs : List α), readMany r n bs = .ok (xs, bs') → xs.length = n
  | 0, bs, bs', xs, h => by cases h; rfl
  | n + 1, bs, bs', xs, h => by
    obtain ⟨x, b1, -, h⟩ := rd_bind_ok h
    obtain ⟨xs', b2, h2, h⟩ := rd_bind_ok h
    cases h
    rw [List.length_cons, readMany_length n b1 _ xs' h2]

theorem bytesLE_leNat : ∀ b : Bytes, bytesLE b.length (Util.leNat b) = b
  | [] => rfl
  | b :: bs => by
    rw [List.length_cons, bytesLE_succ]
    have h1 : BitVec.ofNat 8 (Util.leNat (b :: bs)) = b := by
      apply BitVec.eq_of_toNat_eq
      rw [BitVec.toNat_ofNat]
      have := b.isLt
      unfold Util.leNat
      omega
    have h2 : Util.leNat (b :: bs) / 256 = Util.leNat bs := by
      have := b.isLt
      rw [Util.leNat]
      omega
    rw [h1, h2, bytesLE_leNat bs]

theorem leNat_lt : ∀ b : Bytes, Util.leNat b < 256 ^ b.length
  | [] => by simp [Util.leNat]
  | b :: bs => by
    have := leNat_lt bs
    have := b.isLt
    rw [Util.leNat, List.length_cons, Nat.pow_succ]
    omega

theorem readBytes_inv {n : Nat} {bs b rest : Bytes} (h : readBytes n bs = .ok (b, rest)) : bs = b ++ rest ∧ b.length = n := by
  unfold readBytes at h
  split at h
  · cases h
  · cases h
    exact ⟨by simp, by simp; omega⟩

theorem readWord_inv {bs rest : Bytes} {w : BitVec 32} (h : readWord bs = .ok (w, rest)) : bs = word w ++ rest := by
  obtain ⟨b, b1, h1, h⟩ := rd_bind_ok h
  cases h
  obtain ⟨rfl, hl⟩ := readBytes_inv h1
  unfold word
  have := leNat_lt b
  rw [hl] at this
  rw [BitVec.toNat_ofNat, Nat.mod_eq_of_lt (by norm_num at this ⊢; exact this), ← hl, bytesLE_leNat]

theorem readWord64_inv {bs rest : Bytes} {w : BitVec 64} (h : readWord64 bs = .ok (w, rest)) : bs = bytesLE 8 w.toNat ++ rest := by
  obtain ⟨b, b1, h1, h⟩ := rd_bind_ok h
  cases h
  obtain ⟨rfl, hl⟩ := readBytes_inv h1
  have := leNat_lt b
  rw [hl] at this
  rw [BitVec.toNat_ofNat, Nat.mod_eq_of_lt (by norm_num at this ⊢; exact this)]
  have e := bytesLE_leNat b
  rw [hl] at e
  rw [e]

theorem readMany_inv {α : Type} {r : Rd α} {img : α → Bytes} (hr : ∀ bs a rest, r bs = .ok (a, rest) → bs = img a ++ rest) :
    ∀ (n : Nat) (bs rest : Bytes) (xs : List α), readMany r n bs = .ok (xs, rest) → bs = xs.flatMap img ++ rest
  | 0, bs, rest, xs, h => by cases h; rfl
  | n + 1, bs, rest, xs, h => by
    obtain ⟨x, b1, h1, h⟩ := rd_bind_ok h
    obtain ⟨xs', b2, h2, h⟩ := rd_bind_ok h
    cases h
    rw [hr _ _ _ h1, readMany_inv hr n _ _ _ h2]
    simp

theorem readWords_inv {n : Nat} {bs rest : Bytes} {ws : List (BitVec 32)} (h : readMany readWord n bs = .ok (ws, rest)) :
    bs = words ws ++ rest ∧ ws.length = n :=
  ⟨readMany_inv (fun _ _ _ => readWord_inv) n bs rest ws h, readMany_length _ _ _ _ h⟩

theorem allocCheck_inv {P : Platform} {n : Int} {z : Nat} (h : allocCheck P n z = .ok ⟨⟩) : 0 ≤ n ∧ n * z ≤ P.maxAlloc := by
  unfold allocCheck at h
  split at h
  · cases h
  · rename_i hn
    push Not at hn
    exact hn

theorem rd_alloc_inv {β : Type} {P : Platform} {n : Int} {z : Nat} {f : Unit → Rd β} {bs : Bytes} {x : β × Bytes}
    (h : (lift (allocCheck P n z) >>= f) bs = .ok x) : (0 ≤ n ∧ n * z ≤ P.maxAlloc) ∧ f ⟨⟩ bs = .ok x := by
  obtain ⟨_, b2, h2, h⟩ := rd_bind_ok h
  obtain ⟨h3, h3'⟩ := rd_lift_ok h2
  have e : b2 = bs := h3'
  rw [e] at h
  exact ⟨allocCheck_inv h3, h⟩

theorem readString_inv {P : Platform} {bs rest s : Bytes} (h : readString P bs = .ok (s, rest)) :
    bs = stringImage s ++ rest ∧ s.length < 2 ^ 64 ∧ s.length ≤ P.maxAlloc := by
  obtain ⟨size, b1, h1, h⟩ := rd_bind_ok h
  rw [readWord64_inv h1]
  have hlt := size.isLt
  split at h
  · rename_i h0
    cases h
    rw [h0]
    exact ⟨rfl, by simp, by simp⟩
  · obtain ⟨_, h⟩ := rd_alloc_inv h
    obtain ⟨rfl, hl⟩ := readBytes_inv h
    unfold stringImage
    rw [hl]
    exact ⟨by simp, hlt, by omega⟩

theorem readWordSlice_inv {P : Platform} {bs rest : Bytes} {ws : List (BitVec 32)} (h : readWordSlice P bs = .ok (ws, rest)) :
    bs = sliceImage ws ++ rest ∧ ws.length < 2 ^ 64 ∧ ws.length * 4 ≤ P.maxAlloc := by
  obtain ⟨size, b1, h1, h⟩ := rd_bind_ok h
  rw [readWord64_inv h1]
  have hlt := size.isLt
  split at h
  · rename_i h0
    cases h
    rw [h0]
    exact ⟨rfl, by simp, by simp⟩
  · obtain ⟨_, h⟩ := rd_alloc_inv h
    obtain ⟨rfl, hl⟩ := readWords_inv h
    unfold sliceImage
    rw [hl]
    exact ⟨by simp, hlt, by omega⟩

theorem words_of_cons (w : BitVec 32) (ws : List (BitVec 32)) (rest : Bytes) : word w ++ (words ws ++ rest) = words (w :: ws) ++ rest := by
  simp [words]

theorem readLearner_inv {bs rest : Bytes} {p : LearnerModelParam} (h : readLearnerModelParam bs = .ok (p, rest)) :
    bs = learnerImage p ++ rest ∧ p.reserved.length = 29 := by
  obtain ⟨w1, b1, h1, h⟩ := rd_bind_ok h
  obtain ⟨w2, b2, h2, h⟩ := rd_bind_ok h
  obtain ⟨w3, b3, h3, h⟩ := rd_bind_ok h
  obtain ⟨w4, b4, h4, h⟩ := rd_bind_ok h
  obtain ⟨w5, b5, h5, h⟩ := rd_bind_ok h
  obtain ⟨ws, b6, h6, h⟩ := rd_bind_ok h
  cases h
  obtain ⟨h6, hl⟩ := readWords_inv h6
  refine ⟨?_, hl⟩
  rw [readWord_inv h1, readWord_inv h2, readWord_inv h3, readWord_inv h4, readWord_inv h5, h6]
  simp [learnerImage, words]

theorem readGBTreeParam_inv {bs rest : Bytes} {p : GBTreeModelParam} (h : readGBTreeModelParam bs = .ok (p, rest)) :
    bs = gbtreeParamImage p ++ rest ∧ p.reserved.length = 32 := by
  obtain ⟨w1, b1, h1, h⟩ := rd_bind_ok h
  obtain ⟨w2, b2, h2, h⟩ := rd_bind_ok h
  obtain ⟨w3, b3, h3, h⟩ := rd_bind_ok h
  obtain ⟨w4, b4, h4, h⟩ := rd_bind_ok h
  obtain ⟨w5, b5, h5, h⟩ := rd_bind_ok h
  obtain ⟨w6, b6, h6, h⟩ := rd_bind_ok h
  obtain ⟨w7, b7, h7, h⟩ := rd_bind_ok h
  obtain ⟨ws, b8, h8, h⟩ := rd_bind_ok h
  cases h
  obtain ⟨h8, hl⟩ := readWords_inv h8
  refine ⟨?_, hl⟩
  rw [readWord_inv h1, readWord_inv h2, readWord_inv h3, readWord_inv h4, readWord64_inv h5, readWord_inv h6, readWord_inv h7, h8]
  simp [gbtreeParamImage, words]

theorem readTreeParam_inv {bs rest : Bytes} {p : TreeParam} (h : readTreeParam bs = .ok (p, rest)) :
    bs = treeParamImage p ++ rest ∧ p.reserved.length = 31 := by
  obtain ⟨w1, b1, h1, h⟩ := rd_bind_ok h
  obtain ⟨w2, b2, h2, h⟩ := rd_bind_ok h
  obtain ⟨w3, b3, h3, h⟩ := rd_bind_ok h
  obtain ⟨w4, b4, h4, h⟩ := rd_bind_ok h
  obtain ⟨w5, b5, h5, h⟩ := rd_bind_ok h
  obtain ⟨w6, b6, h6, h⟩ := rd_bind_ok h
  obtain ⟨ws, b8, h8, h⟩ := rd_bind_ok h
  cases h
  obtain ⟨h8, hl⟩ := readWords_inv h8
  refine ⟨?_, hl⟩
  rw [readWord_inv h1, readWord_inv h2, readWord_inv h3, readWord_inv h4, readWord_inv h5, readWord_inv h6, h8]
  simp [treeParamImage, words]

theorem readNode_inv (bs : Bytes) (p : Node) (rest : Bytes) (h : readNode bs = .ok (p, rest)) : bs = nodeImage p ++ rest := by
  obtain ⟨w1, b1, h1, h⟩ := rd_bind_ok h
  obtain ⟨w2, b2, h2, h⟩ := rd_bind_ok h
  obtain ⟨w3, b3, h3, h⟩ := rd_bind_ok h
  obtain ⟨w4, b4, h4, h⟩ := rd_bind_ok h
  obtain ⟨w5, b5, h5, h⟩ := rd_bind_ok h
  cases h
  rw [readWord_inv h1, readWord_inv h2, readWord_inv h3, readWord_inv h4, readWord_inv h5]
  simp [nodeImage, words]

theorem readStat_inv (bs : Bytes) (p : RTreeNodeStat) (rest : Bytes) (h : readStat bs = .ok (p, rest)) : bs = statImage p ++ rest := by
  obtain ⟨w1, b1, h1, h⟩ := rd_bind_ok h
  obtain ⟨w2, b2, h2, h⟩ := rd_bind_ok h
  obtain ⟨w3, b3, h3, h⟩ := rd_bind_ok h
  obtain ⟨w4, b4, h4, h⟩ := rd_bind_ok h
  cases h
  rw [readWord_inv h1, readWord_inv h2, readWord_inv h3, readWord_inv h4]
  simp [statImage, words]

theorem readLinearParam_inv {bs rest : Bytes} {p : GBLinearModelParam} (h : readGBLinearModelParam bs = .ok (p, rest)) :
    bs = linearParamImage p ++ rest ∧ p.reserved.length = 32 := by
  obtain ⟨w1, b1, h1, h⟩ := rd_bind_ok h
  obtain ⟨w2, b2, h2, h⟩ := rd_bind_ok h
  obtain ⟨ws, b8, h8, h⟩ := rd_bind_ok h
  cases h
  obtain ⟨h8, hl⟩ := readWords_inv h8
  refine ⟨?_, hl⟩
  rw [readWord_inv h1, readWord_inv h2, h8]
  simp [linearParamImage, words]

theorem readModelHeader_inv {P : Platform} {bs rest : Bytes} {m : ModelHeader} (h : readModelHeader P bs = .ok (m, rest)) :
    HeaderOK P.maxAlloc m ∧ bs = headerImage m ++ rest := by
  obtain ⟨p, b1, h1, h⟩ := rd_bind_ok h
  obtain ⟨o, b2, h2, h⟩ := rd_bind_ok h
  obtain ⟨g, b3, h3, h⟩ := rd_bind_ok h
  cases h
  obtain ⟨e1, hr⟩ := readLearner_inv h1
  obtain ⟨e2, ho⟩ := readString_inv h2
  obtain ⟨e3, hg⟩ := readString_inv h3
  refine ⟨⟨hr, ho, hg⟩, ?_⟩
  rw [e1, e2, e3]
  simp [headerImage]

theorem readTreeModel_inv {P : Platform} {bs rest : Bytes} {t : TreeModel} (h : readTreeModel P bs = .ok (t, rest)) :
    ∃ v, TreeImageOK P.maxAlloc t v ∧ bs = treeImage t v ++ rest := by
  obtain ⟨p, b1, h1, h⟩ := rd_bind_ok h
  obtain ⟨⟨hn0, hal⟩, h⟩ := rd_alloc_inv h
  obtain ⟨_, h⟩ := rd_alloc_inv h
  obtain ⟨nodes, b4, h4, h⟩ := rd_bind_ok h
  obtain ⟨stats, b5, h5, h⟩ := rd_bind_ok h
  obtain ⟨e1, hr⟩ := readTreeParam_inv h1
  have hn := readMany_length _ _ _ _ h4
  have hs := readMany_length _ _ _ _ h5
  have e4 := readMany_inv readNode_inv _ _ _ _ h4
  have e5 := readMany_inv readStat_inv _ _ _ _ h5
  have hlen : p.numNodes.toInt = nodes.length := by omega
  have hal' : nodes.length * 20 ≤ P.maxAlloc := by rw [hlen] at hal; omega
  split at h
  · rename_i hpos
    obtain ⟨v, b6, h6, h⟩ := rd_bind_ok h
    cases h
    obtain ⟨e6, hv⟩ := readWordSlice_inv h6
    refine ⟨v, ⟨hr, hlen, by dsimp only; omega, hal', hv⟩, ?_⟩
    rw [e1, e4, e5, e6]
    unfold treeImage
    rw [if_pos hpos]
    simp
  · rename_i hpos
    cases h
    refine ⟨[], ⟨hr, hlen, by dsimp only; omega, hal', by simp⟩, ?_⟩
    rw [e1, e4, e5]
    unfold treeImage
    rw [if_neg hpos]
    simp

theorem readTrees_inv {P : Platform} : ∀ (n : Nat) (bs rest : Bytes) (ts : List TreeModel), readMany (readTreeModel P) n bs = .ok (ts, rest) →
    ∃ vs : List (List (BitVec 32)), vs.length = ts.length ∧ (∀ t ∈ ts.zip vs, TreeImageOK P.maxAlloc t.1 t.2) ∧
      bs = (ts.zip vs).flatMap (fun t => treeImage t.1 t.2) ++ rest
  | 0, bs, rest, ts, h => by
    cases h
    exact ⟨[], rfl, (by intro t ht; cases ht), rfl⟩
  | n + 1, bs, rest, ts, h => by
    obtain ⟨x, b1, h1, h⟩ := rd_bind_ok h
    obtain ⟨xs', b2, h2, h⟩ := rd_bind_ok h
    cases h
    obtain ⟨v, hv, e1⟩ := readTreeModel_inv h1
    obtain ⟨vs, hl, hvs, e2⟩ := readTrees_inv n _ _ _ h2
    refine ⟨v :: vs, by simp [hl], ?_, ?_⟩
    · intro t ht
      rw [List.zip_cons_cons] at ht
      rcases List.mem_cons.1 ht with rfl | ht
      · exact hv
      · exact hvs t ht
    · rw [e1, e2]
      simp

theorem readGBTreeModel_inv {P : Platform} {bs rest : Bytes} {m : GBTreeModel} (hn : 0 ≤ m.param.numTrees.toInt)
    (h : readGBTreeModel P bs = .ok (m, rest)) : ∃ vs, GBTreeOK P.maxAlloc m vs ∧ bs = gbtreeImage m vs ++ rest := by
  obtain ⟨p, b1, h1, h⟩ := rd_bind_ok h
  obtain ⟨ts, b2, h2, h⟩ := rd_bind_ok h
  obtain ⟨e1, hr⟩ := readGBTreeParam_inv h1
  obtain ⟨vs, hl, hvs, e2⟩ := readTrees_inv _ _ _ _ h2
  have hlen := readMany_length _ _ _ _ h2
  split at h
  · obtain ⟨⟨-, hal⟩, h⟩ := rd_alloc_inv h
    obtain ⟨info, b4, h4, h⟩ := rd_bind_ok h
    cases h
    obtain ⟨e4, hi⟩ := readWords_inv h4
    dsimp only at hn
    have hlen' : p.numTrees.toInt = ts.length := by omega
    refine ⟨vs, ⟨hr, hlen', hl, hvs, by dsimp only; omega, by rw [hlen'] at hal; dsimp only; omega⟩, ?_⟩
    rw [e1, e2, e4]
    simp [gbtreeImage]
  · cases h
    dsimp only at hn
    have hlen' : ts.length = 0 := by omega
    refine ⟨vs, ⟨hr, by dsimp only; omega, hl, hvs, by dsimp only; rw [hlen']; rfl, by dsimp only; omega⟩, ?_⟩
    rw [e1, e2]
    simp [gbtreeImage, words]

theorem readGBLinearModel_inv {P : Platform} {bs rest : Bytes} {m : GBLinearModel} (h : readGBLinearModel P bs = .ok (m, rest)) :
    LinearOK P.maxAlloc m ∧ bs = linearImage m ++ rest := by
  obtain ⟨p, b1, h1, h⟩ := rd_bind_ok h
  obtain ⟨w, b2, h2, h⟩ := rd_bind_ok h
  cases h
  obtain ⟨e1, hr⟩ := readLinearParam_inv h1
  obtain ⟨e2, ho⟩ := readWordSlice_inv h2
  refine ⟨⟨hr, ho⟩, ?_⟩
  rw [e1, e2]
  simp [linearImage]

end Leaves
