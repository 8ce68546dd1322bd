import Verif.Proofs.NoPanic
import Verif.Proofs.XgInv
import Verif.Spec.XgModel

/-! # Which XGBoost files crash the loader: internals of C57 -/

namespace Leaves

open Spec XgBin

theorem rd_bind_panic {α β : Type} {r : Rd α} {f : α → Rd β} {bs : Bytes} (h : (r >>= f) bs = .panic) :
    r bs = .panic ∨ ∃ a bs', r bs = .ok (a, bs') ∧ f a bs' = .panic := by
  have h : (match r bs with | .ok (a, bs) => f a bs | .err t => .err t | .panic => .panic | .hang => .hang) = .panic := h
  cases hr : r bs with
  | ok p => obtain ⟨a, bs'⟩ := p; rw [hr] at h; exact .inr ⟨a, bs', rfl, h⟩
  | err t => rw [hr] at h; cases h
  | panic => exact .inl rfl
  | hang => rw [hr] at h; cases h

/-- never panics -/
def RdSafe {α : Type} (r : Rd α) : Prop := ∀ bs, r bs ≠ .panic

theorem RdSafe.pure {α : Type} (a : α) : RdSafe (Pure.pure a : Rd α) := fun bs h => by cases h

theorem RdSafe.bind {α β : Type} {r : Rd α} {f : α → Rd β} (h : RdSafe r) (hf : ∀ a, RdSafe (f a)) : RdSafe (r >>= f) := fun bs hb => by
  rcases rd_bind_panic hb with hb | ⟨a, bs', -, hb⟩
  · exact h _ hb
  · exact hf _ _ hb

theorem readBytes_safe (n : Nat) : RdSafe (readBytes n) := fun bs h => by
  unfold readBytes at h
  split at h <;> cases h

theorem readWord_safe : RdSafe readWord := (readBytes_safe 4).bind fun _ => RdSafe.pure _
theorem readWord64_safe : RdSafe readWord64 := (readBytes_safe 8).bind fun _ => RdSafe.pure _

theorem readMany_safe {α : Type} {r : Rd α} (h : RdSafe r) : ∀ n, RdSafe (readMany r n)
  | 0 => RdSafe.pure _
  | n + 1 => h.bind fun _ => (readMany_safe h n).bind fun _ => RdSafe.pure _

theorem readNode_safe : RdSafe readNode :=
  readWord_safe.bind fun _ => readWord_safe.bind fun _ => readWord_safe.bind fun _ => readWord_safe.bind fun _ => readWord_safe.bind fun _ =>
    RdSafe.pure _
theorem readStat_safe : RdSafe readStat :=
  readWord_safe.bind fun _ => readWord_safe.bind fun _ => readWord_safe.bind fun _ => readWord_safe.bind fun _ => RdSafe.pure _
theorem readLearner_safe : RdSafe readLearnerModelParam :=
  readWord_safe.bind fun _ => readWord_safe.bind fun _ => readWord_safe.bind fun _ => readWord_safe.bind fun _ => readWord_safe.bind fun _ =>
    (readMany_safe readWord_safe _).bind fun _ => RdSafe.pure _
theorem readGBTreeParam_safe : RdSafe readGBTreeModelParam :=
  readWord_safe.bind fun _ => readWord_safe.bind fun _ => readWord_safe.bind fun _ => readWord_safe.bind fun _ => readWord64_safe.bind fun _ =>
    readWord_safe.bind fun _ => readWord_safe.bind fun _ => (readMany_safe readWord_safe _).bind fun _ => RdSafe.pure _
theorem readTreeParam_safe : RdSafe readTreeParam :=
  readWord_safe.bind fun _ => readWord_safe.bind fun _ => readWord_safe.bind fun _ => readWord_safe.bind fun _ => readWord_safe.bind fun _ =>
    readWord_safe.bind fun _ => (readMany_safe readWord_safe _).bind fun _ => RdSafe.pure _
theorem readLinearParam_safe : RdSafe readGBLinearModelParam :=
  readWord_safe.bind fun _ => readWord_safe.bind fun _ => (readMany_safe readWord_safe _).bind fun _ => RdSafe.pure _

theorem rd_alloc_panic {β : Type} {P : Platform} {n : Int} {z : Nat} {f : Unit → Rd β} {bs : Bytes}
    (h : (lift (allocCheck P n z) >>= f) bs = .panic) : (n < 0 ∨ P.maxAlloc < n * z) ∨ (0 ≤ n ∧ f ⟨⟩ bs = .panic) := by
  unfold allocCheck at h
  by_cases hc : n < 0 ∨ n * z > P.maxAlloc
  · exact .inl hc
  · rw [if_neg hc] at h
    exact .inr ⟨by omega, h⟩

theorem readString_panic {P : Platform} {bs : Bytes} (h : readString P bs = .panic) : HugeLength P.maxAlloc 1 bs := by
  rcases rd_bind_panic h with h | ⟨size, b1, h1, h⟩
  · exact absurd h (readWord64_safe _)
  · rw [readWord64_inv h1]
    split at h
    · cases h
    · rcases rd_alloc_panic h with h | ⟨-, h⟩
      · exact ⟨size.toNat, size.isLt, by omega, List.prefix_append _ _⟩
      · exact absurd h (readBytes_safe _ _)

theorem readWordSlice_panic {P : Platform} {bs : Bytes} (h : readWordSlice P bs = .panic) : HugeLength P.maxAlloc 4 bs := by
  rcases rd_bind_panic h with h | ⟨size, b1, h1, h⟩
  · exact absurd h (readWord64_safe _)
  · rw [readWord64_inv h1]
    split at h
    · cases h
    · rcases rd_alloc_panic h with h | ⟨-, h⟩
      · exact ⟨size.toNat, size.isLt, by omega, List.prefix_append _ _⟩
      · exact absurd h (readMany_safe readWord_safe _ _)

theorem readModelHeader_panic {P : Platform} {bs : Bytes} (h : readModelHeader P bs = .panic) : HeaderHuge P.maxAlloc bs := by
  rcases rd_bind_panic h with h | ⟨p, b1, h1, h⟩
  · exact absurd h (readLearner_safe _)
  obtain ⟨e1, hr⟩ := readLearner_inv h1
  rcases rd_bind_panic h with h | ⟨o, b2, h2, h⟩
  · exact .objective p b1 hr e1 (readString_panic h)
  obtain ⟨e2, -⟩ := readString_inv h2
  rcases rd_bind_panic h with h | ⟨g, b3, h3, h⟩
  · exact .booster p o b2 hr (by rw [e1, e2, List.append_assoc]) (readString_panic h)
  · cases h

theorem readTreeModel_panic {P : Platform} {bs : Bytes} (h : readTreeModel P bs = .panic) : TreeHuge P.maxAlloc bs := by
  rcases rd_bind_panic h with h | ⟨p, b1, h1, h⟩
  · exact absurd h (readTreeParam_safe _)
  obtain ⟨e1, hr⟩ := readTreeParam_inv h1
  rcases rd_alloc_panic h with h | ⟨hn, h⟩
  · exact .nodes p b1 hr e1 h
  rcases rd_alloc_panic h with h | ⟨-, h⟩
  · exact .nodes p b1 hr e1 (.inr (by omega))
  rcases rd_bind_panic h with h | ⟨nodes, b2, h2, h⟩
  · exact absurd h (readMany_safe readNode_safe _ _)
  rcases rd_bind_panic h with h | ⟨stats, b3, h3, h⟩
  · exact absurd h (readMany_safe readStat_safe _ _)
  have hn2 := readMany_length _ _ _ _ h2
  have hs := readMany_length _ _ _ _ h3
  have e2 := readMany_inv readNode_inv _ _ _ _ h2
  have e3 := readMany_inv readStat_inv _ _ _ _ h3
  split at h
  · rename_i hpos
    rcases rd_bind_panic h with h | ⟨v, b4, h4, h⟩
    · exact .leafVector p nodes stats b3 hr (by omega) (by omega) hpos (by rw [e1, e2, e3]; simp) (readWordSlice_panic h)
    · cases h
  · cases h

theorem readTrees_panic {P : Platform} : ∀ (n : Nat) (bs : Bytes), readMany (readTreeModel P) n bs = .panic →
    ∃ (ts : List TreeModel) (vs : List (List (BitVec 32))) (rest : Bytes), vs.length = ts.length ∧
      (∀ t ∈ ts.zip vs, TreeImageOK P.maxAlloc t.1 t.2) ∧ ts.length < n ∧
      bs = (ts.zip vs).flatMap (fun t => treeImage t.1 t.2) ++ rest ∧ TreeHuge P.maxAlloc rest
  | 0, bs, h => by cases h
  | n + 1, bs, h => by
    rcases rd_bind_panic h with h | ⟨t, b1, h1, h⟩
    · exact ⟨[], [], bs, rfl, (by intro t ht; cases ht), by simp, rfl, readTreeModel_panic h⟩
    obtain ⟨v, hv, e1⟩ := readTreeModel_inv h1
    rcases rd_bind_panic h with h | ⟨ts, b2, h2, h⟩
    · obtain ⟨ts, vs, rest, hl, hok, hlt, e, hh⟩ := readTrees_panic n b1 h
      refine ⟨t :: ts, v :: vs, rest, by simp [hl], ?_, by simp; omega, by rw [e1, e]; simp, hh⟩
      intro x hx
      rw [List.zip_cons_cons] at hx
      rcases List.mem_cons.1 hx with rfl | hx
      · exact hv
      · exact hok x hx
    · cases h

theorem xgNode_createNode_safe {nodes : List Node} (h : ∀ n ∈ nodes, n.cLeft.toInt < nodes.length ∧ n.cRight.toInt < nodes.length) :
    SafeSource (xgSource nodes) nodes.length (fun _ => True) := by
  intro i hi _ a
  show xgCreateNode nodes (i : Int) a ≠ .panic ∧ ∀ nd a', xgCreateNode nodes (i : Int) a = .ok (nd, a') → _
  obtain ⟨h1, h2⟩ := h nodes[i] (List.getElem_mem hi)
  unfold xgCreateNode
  rw [idxI_lt hi]
  simp only [Res.ok_bind]
  by_cases hl : nodes[i].cLeft.toInt < 0
  · rw [if_pos hl]
    exact ⟨(by intro h; cases h), by intro _ _ h; cases h⟩
  rw [if_neg hl]
  by_cases hr : nodes[i].cRight.toInt < 0
  · rw [if_pos hr]
    exact ⟨(by intro h; cases h), by intro _ _ h; cases h⟩
  rw [if_neg hr]
  obtain ⟨l, hle⟩ := Int.eq_ofNat_of_zero_le (Int.not_lt.1 hl)
  obtain ⟨r, hre⟩ := Int.eq_ofNat_of_zero_le (Int.not_lt.1 hr)
  have hll : l < nodes.length := by omega
  have hrl : r < nodes.length := by omega
  rw [hle, hre, idxI_lt hll, idxI_lt hrl]
  simp only [Res.ok_bind, Res.pure_eq]
  refine ⟨(by intro h; cases h), fun nd a' _ => ⟨fun _ => ⟨r, ?_, hrl, trivial⟩, fun _ => ⟨l, ?_, hll, trivial⟩⟩⟩
  · show (do return (← Res.idx nodes i).cRight.toInt) = _
    rw [Res.idx_eq_ok.2 (List.getElem?_eq_getElem hi)]
    exact congrArg Res.ok hre
  · show (do return (← Res.idx nodes i).cLeft.toInt) = _
    rw [Res.idx_eq_ok.2 (List.getElem?_eq_getElem hi)]
    exact congrArg Res.ok hle

theorem xgTree_ne_panic (P : Platform) (t : TreeModel) (nf : BitVec 32) (hl : t.param.numNodes.toInt = t.nodes.length)
    (h : ¬ NodesMisfit P.maxAlloc t) : xgTreeFromTreeModel P t nf ≠ .panic := by
  unfold NodesMisfit at h
  push Not at h
  obtain ⟨hm, hc⟩ := h
  have hlt : t.param.numNodes.toInt < 2 ^ 31 := BitVec.toInt_lt
  unfold xgTreeFromTreeModel
  split
  · simp
  split
  · simp
  split
  · simp
  rename_i hz
  dsimp only
  have hpos : 0 < t.nodes.length := by omega
  split
  · rw [Res.idx_eq_ok.2 (List.getElem?_eq_getElem hpos)]
    simp
  · rw [hl]
    exact bind_ne_panic (convert_safe P (xgNode_createNode_safe hc) hpos trivial (by omega) (by omega) (by omega) (by omega) _) fun _ _ =>
      pure_ne_panic _

theorem xgConvertTrees_panic (P : Platform) (nf : BitVec 32) : ∀ ts : List TreeModel, (∀ t ∈ ts, t.param.numNodes.toInt = t.nodes.length) →
    xgConvertTrees P nf ts = .panic → ∃ t ∈ ts, NodesMisfit P.maxAlloc t
  | [], _, h => by cases h
  | t :: ts, hl, h => by
    by_contra hne
    push Not at hne
    refine absurd h ?_
    unfold xgConvertTrees
    refine bind_ne_panic (xgTree_ne_panic P t nf (hl t List.mem_cons_self) (hne t List.mem_cons_self)) fun _ _ =>
      bind_ne_panic (fun hp => ?_) fun _ _ => pure_ne_panic _
    obtain ⟨t', ht', hm⟩ := xgConvertTrees_panic P nf ts (fun t ht => hl t (List.mem_cons_of_mem _ ht)) hp
    exact hne t' (List.mem_cons_of_mem _ ht') hm

theorem xgTransform_ne_panic (n : Bytes) (k : Int) (b : Bool) : xgTransform n k b ≠ .panic := by
  unfold xgTransform
  split
  · split <;> simp
  · simp

theorem lift_panic {α : Type} {r : Res α} {bs : Bytes} (h : lift r bs = .panic) : r = .panic := by
  cases r with
  | panic => rfl
  | _ => cases h

theorem xgEnsemble_panic {P : Platform} {b : Bool} {bs : Bytes} (h : xgEnsembleFromReader P b bs = .panic) : XgMisfit P.maxAlloc bs := by
  rcases rd_bind_panic h with h | ⟨hd, b1, h1, h⟩
  · exact .header (readModelHeader_panic h)
  obtain ⟨-, e1⟩ := readModelHeader_inv h1
  split at h
  · cases h
  dsimp only at h
  split at h
  · cases h
  rcases rd_bind_panic h with h | ⟨m, b2, h2, h⟩
  · rcases rd_bind_panic h with h | ⟨p, b2, h2, h⟩
    · exact absurd h (readGBTreeParam_safe _)
    obtain ⟨e2, hr⟩ := readGBTreeParam_inv h2
    rcases rd_bind_panic h with h | ⟨ts, b3, h3, h⟩
    · obtain ⟨ts, vs, rest, hl, hok, hlt, e, hh⟩ := readTrees_panic _ _ h
      exact .tree hd p ts vs rest hr hl hok (by omega) (by rw [e1, e2, e]; simp) hh
    split at h
    · rcases rd_alloc_panic h with h | ⟨-, h⟩
      · exact .count hd p b2 hr (by rw [e1, e2, List.append_assoc]) (by omega)
      rcases rd_bind_panic h with h | ⟨info, b4, h4, h⟩
      · exact absurd h (readMany_safe readWord_safe _ _)
      · cases h
    · cases h
  split at h
  · cases h
  -- the number of trees
  have hcount : (m.param.numTrees.toInt < 0 ∨ P.maxAlloc < m.param.numTrees.toInt * 104) → XgMisfit P.maxAlloc bs := by
    intro hbad
    obtain ⟨p, b3, h3, h2⟩ := rd_bind_ok h2
    obtain ⟨e2, hr⟩ := readGBTreeParam_inv h3
    have : m.param = p := by
      obtain ⟨ts, b4, -, h2⟩ := rd_bind_ok h2
      split at h2
      · obtain ⟨-, h2⟩ := rd_alloc_inv h2
        obtain ⟨info, b5, -, h2⟩ := rd_bind_ok h2
        cases h2; rfl
      · cases h2; rfl
    rw [this] at hbad
    exact .count hd p b3 hr (by rw [e1, e2, List.append_assoc]) hbad
  by_cases hneg : m.param.numTrees.toInt < 0
  · exact hcount (.inl hneg)
  obtain ⟨vs, ok, e2⟩ := readGBTreeModel_inv (by omega) h2
  rcases rd_bind_panic h with h | ⟨wd, b3, h3, h⟩
  · unfold xgWeightDrop at h
    rcases rd_alloc_panic h with h | ⟨-, h⟩
    · exact hcount (by omega)
    split at h
    · rename_i hdart
      rcases rd_bind_panic h with h | ⟨w, b4, h4, h⟩
      · exact .weights hd m vs b2 ok hdart (by rw [e1, e2, List.append_assoc]) (readWordSlice_panic h)
      · split at h <;> cases h
    · split at h <;> cases h
  · have h := lift_panic h
    unfold xgAssemble at h
    dsimp only at h
    split at h
    · cases h
    split at h
    · cases h
    split at h
    · cases h
    by_contra hne
    refine absurd h (bind_ne_panic (xgTransform_ne_panic _ _ _) fun _ _ => ?_)
    split
    · simp
    · refine bind_ne_panic (fun ha => ?_) fun _ _ => bind_ne_panic (fun hc => ?_) fun _ _ => pure_ne_panic _
      · unfold allocCheck at ha
        split at ha
        · rename_i hbad
          exact hne (hcount hbad)
        · cases ha
      · have hnn : ∀ t ∈ m.trees, t.param.numNodes.toInt = t.nodes.length := by
          intro t ht
          obtain ⟨i, hi, rfl⟩ := List.getElem_of_mem ht
          have hiv : i < vs.length := by rw [ok.vectors]; exact hi
          have hmem : (m.trees[i], vs[i]) ∈ m.trees.zip vs := by
            rw [← List.getElem_zip (h := by simp [hiv, hi])]
            exact List.getElem_mem _
          exact (ok.each _ hmem).nodes
        obtain ⟨t, ht, hm⟩ := xgConvertTrees_panic P _ m.trees hnn hc
        exact hne (.child hd m vs b2 ok (by rw [e1, e2, List.append_assoc]) t ht hm)

theorem xgbLinear_panic {P : Platform} {b : Bool} {bs : Bytes} (h : xgbLinearFromReader P b bs = .panic) : XgLinMisfit P.maxAlloc bs := by
  rcases rd_bind_panic h with h | ⟨hd, b1, h1, h⟩
  · exact .header (readModelHeader_panic h)
  obtain ⟨-, e1⟩ := readModelHeader_inv h1
  split at h
  · cases h
  split at h
  · cases h
  rcases rd_bind_panic h with h | ⟨m, b2, h2, h⟩
  · rcases rd_bind_panic h with h | ⟨p, b2, h2, h⟩
    · exact absurd h (readLinearParam_safe _)
    obtain ⟨e2, hr⟩ := readLinearParam_inv h2
    rcases rd_bind_panic h with h | ⟨w, b3, h3, h⟩
    · exact .weights hd p b2 hr (by rw [e1, e2, List.append_assoc]) (readWordSlice_panic h)
    · cases h
  · dsimp only at h
    rcases rd_bind_panic h with h | ⟨tr, b3, h3, h⟩
    · exact absurd (lift_panic h) (xgTransform_ne_panic _ _ _)
    · cases h

end Leaves
