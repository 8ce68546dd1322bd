import Verif.Spec.Columns
import Verif.Props.Prefix
import Verif.Props.SameLeaves

/-! # C110: features may be renumbered -/

namespace Leaves
open Spec GoM

theorem moved_symm {σ : Equiv.Perm Nat} {row row' : List F64} (h : Moved σ row row') : Moved σ.symm row' row :=
  ⟨h.1.symm, fun f => by have := h.2 (σ.symm f); rw [Equiv.apply_symm_apply] at this; exact this.symm⟩

theorem keepsBelow_symm {σ : Equiv.Perm Nat} {n : Nat} (h : KeepsBelow σ n) : KeepsBelow σ.symm n :=
  fun f => by have := h (σ.symm f); rw [Equiv.apply_symm_apply] at this; exact this.symm

theorem moveColumn_symm {σ : Equiv.Perm Nat} (c : Int) : moveColumn σ.symm (moveColumn σ c) = c := by
  unfold moveColumn
  by_cases h : c < 0
  · rw [if_pos h, if_pos h]
  · rw [if_neg h, if_neg (by omega), Int.toNat_natCast, Equiv.symm_apply_apply]
    omega

theorem moveColumn_eq {σ : Equiv.Perm Nat} {c : Int} {k : Nat} : moveColumn σ c = (σ k : Nat) ↔ c = k := by
  unfold moveColumn
  by_cases h : c < 0
  · rw [if_pos h]
    omega
  · rw [if_neg h]
    constructor
    · intro h1
      have := σ.injective (by exact_mod_cast h1 : σ c.toNat = σ k)
      omega
    · rintro rfl
      simp

theorem dense_moved {σ : Equiv.Perm Nat} {vals vals' row : List F64} {ncols i : Nat} (hσ : KeepsBelow σ ncols)
    (hv : ∀ f < ncols, vals'[i * ncols + σ f]? = vals[i * ncols + f]?) (h : DenseRow vals ncols i row) :
    ∃ row', DenseRow vals' ncols i row' ∧ Moved σ row row' := by
  refine ⟨(List.range ncols).map fun f => row.getD (σ.symm f) F64.zero, ⟨by simp, fun j hj => ?_⟩, by simp [h.1], fun f => ?_⟩
  · have hj' := (keepsBelow_symm hσ j).2 hj
    obtain ⟨x, h1, h2⟩ := h.2 (σ.symm j) hj'
    have := hv (σ.symm j) hj'
    rw [Equiv.apply_symm_apply] at this
    refine ⟨x, this.trans h1, ?_⟩
    simp [hj, h2]
  · by_cases hf : f < ncols
    · obtain ⟨x, h1, h2⟩ := h.2 f hf
      simp [(hσ f).2 hf, h2]
    · have := (hσ f).not.2 hf
      rw [List.getElem?_eq_none (by simpa using this), List.getElem?_eq_none (by rw [h.1]; omega)]

theorem sparse_moved {σ : Equiv.Perm Nat} {indptr cols : List Int} {vals row : List F64} {nf i : Nat} {d : F64} (hσ : KeepsBelow σ nf)
    (h : SparseRow indptr cols vals nf d i row) :
    ∃ row', SparseRow indptr (cols.map (moveColumn σ)) vals nf d i row' ∧ Moved σ row row' := by
  obtain ⟨a, b, h1, h2, h3, h4, h5⟩ := h
  have hm : Moved σ row ((List.range nf).map fun f => row.getD (σ.symm f) F64.zero) := by
    refine ⟨by simp [h4], fun f => ?_⟩
    by_cases hf : f < nf
    · simp [(hσ f).2 hf, h4, hf]
    · have := (hσ f).not.2 hf
      rw [List.getElem?_eq_none (by simpa using this), List.getElem?_eq_none (by rw [h4]; omega)]
  refine ⟨_, ⟨a, b, h1, h2, fun j ha hb => ?_, by simp, fun k hk => ?_⟩, hm⟩
  · obtain ⟨h6, c, h7, h8⟩ := h3 j ha hb
    refine ⟨h6, moveColumn σ c, by rw [List.getElem?_map, h7]; rfl, fun hc => ?_⟩
    have hc' : c < nf := by
      by_contra hcon
      have h9 : ¬ c < 0 := by omega
      unfold moveColumn at hc
      rw [if_neg h9] at hc
      have := (hσ c.toNat).1 (by exact_mod_cast hc)
      omega
    obtain ⟨h9, v, h10⟩ := h8 hc'
    refine ⟨?_, v, h10⟩
    unfold moveColumn
    rw [if_neg (by omega)]
    omega
  · have hk' := (keepsBelow_symm hσ k).2 hk
    have hcol : ∀ j : Nat, (cols.map (moveColumn σ))[j]? = some (k : Int) ↔ cols[j]? = some ((σ.symm k : Nat) : Int) := by
      intro j
      rw [List.getElem?_map]
      cases hj : cols[j]? with
      | none => simp
      | some c =>
        have := moveColumn_eq (σ := σ) (c := c) (k := σ.symm k)
        rw [Equiv.apply_symm_apply] at this
        simpa using this
    have hrow : ((List.range nf).map fun f => row.getD (σ.symm f) F64.zero)[k]? = row[σ.symm k]? := by
      have := hm.2 (σ.symm k)
      rwa [Equiv.apply_symm_apply] at this
    rw [hrow]
    simp only [hcol, ne_eq]
    exact h5 (σ.symm k) hk'

/-- models that predict moved rows alike predict moved matrices alike -/
theorem SameMoved.of_rows {P : Platform} {σ : Equiv.Perm Nat} {e e' : Ensemble} (hf : Fits e) (hf' : Fits e')
    (hw : e.nOutputGroups = e'.nOutputGroups) (hn : e.nFeatures = e'.nFeatures) (hd : dflt e.base = dflt e'.base)
    (h : ∀ (row row' : List F64) (req : Int) (m m' : List F64), Moved σ row row' →
      ((e.predict P row req m.length).run m = (.ok ⟨⟩, m') ↔ (e'.predict P row' req m.length).run m = (.ok ⟨⟩, m'))) :
    SameMoved P σ e e' := by
  have one : ∀ {σ : Equiv.Perm Nat} {e e' : Ensemble} (_ : Fits e) (_ : Fits e') (_ : e.nOutputGroups = e'.nOutputGroups)
      (_ : e.nFeatures = e'.nFeatures) (_ : dflt e.base = dflt e'.base)
      (_ : ∀ row row' req m m', Moved σ row row' → (e.predict P row req m.length).run m = (.ok ⟨⟩, m') →
        (e'.predict P row' req m.length).run m = (.ok ⟨⟩, m')),
      (∀ (vals vals' m m' : List F64) (r ncols : Nat) (req nt nt' : Int), 0 < r → e.nOutputGroups * r < 2 ^ 63 → r ≤ 2 ^ 53 →
        KeepsBelow σ ncols → (∀ i < r, ∀ f < ncols, vals'[i * ncols + σ f]? = vals[i * ncols + f]?) →
        e.PredictDense P vals r ncols m req nt (.ok ⟨⟩, m') → e'.PredictDense P vals' r ncols m req nt' (.ok ⟨⟩, m')) ∧
      (∀ (indptr cols : List Int) (vals m m' : List F64) (r nf : Nat) (req nt nt' : Int), 0 < r → e.nOutputGroups * r < 2 ^ 63 →
        r ≤ 2 ^ 53 → indptr.length = r + 1 → e.nFeatures = nf → nf * 8 ≤ P.maxAlloc → KeepsBelow σ nf →
        e.PredictCSR P indptr cols vals m req nt (.ok ⟨⟩, m') →
        e'.PredictCSR P indptr (cols.map (moveColumn σ)) vals m req nt' (.ok ⟨⟩, m')) := by
    clear hf hf' hw hn hd h e e' σ
    intro σ e e' hf hf' hw hn hd h
    obtain ⟨w, hw1⟩ := Int.eq_ofNat_of_zero_le hf.width_nonneg
    have hw2 : e'.nOutputGroups = w := by rw [← hw, hw1]
    refine ⟨?_, ?_⟩
    · intro vals vals' m m' r ncols req nt nt' hr hwr hr2 hσ hv hp
      have hwr' : w * r < 2 ^ 63 := by rw [hw1] at hwr; exact_mod_cast hwr
      obtain ⟨outs, s, g⟩ := C14_dense_is_rowwise P e hf w r ncols hw1 hwr' hr2 vals m m' req nt hp
      have hc : 0 < ncols := ((dense_iff hf hw1 hwr' hr2).1 hp).1
      refine C14_rowwise_is_dense P e' hf' w r ncols hw2 hwr' hr2 hr hc vals' m m' req nt' outs s fun i hi => ?_
      obtain ⟨row, g1, g2⟩ := g i hi
      obtain ⟨row', g3, g4⟩ := dense_moved hσ (hv i hi) g1
      refine ⟨row', List.replicate w F64.zero, g3, by simp, ?_⟩
      simpa using h row row' req (List.replicate w F64.zero) (outs i) g4 (by simpa using g2 (List.replicate w F64.zero) (by simp))
    · intro indptr cols vals m m' r nf req nt nt' hr hwr hr2 hip hnf hmem hσ hp
      have hwr' : w * r < 2 ^ 63 := by rw [hw1] at hwr; exact_mod_cast hwr
      obtain ⟨outs, s, g⟩ := C15_csr_is_rowwise P e hf w r nf hw1 ⟨hnf, hmem⟩ hwr' hr2 indptr cols hip vals m m' req nt hp
      refine C15_rowwise_is_csr P e' hf' w r nf hw2 ⟨hn ▸ hnf, hmem⟩ hwr' hr2 hr indptr _ hip vals m m' req nt' outs s fun i hi => ?_
      obtain ⟨row, g1, g2⟩ := g i hi
      obtain ⟨row', g3, g4⟩ := sparse_moved hσ g1
      refine ⟨row', List.replicate w F64.zero, hd ▸ g3, by simp, ?_⟩
      simpa using h row row' req (List.replicate w F64.zero) (outs i) g4 (by simpa using g2 (List.replicate w F64.zero) (by simp))
  obtain ⟨a1, a2⟩ := one hf hf' hw hn hd fun row row' req m m' hm => (h row row' req m m' hm).1
  obtain ⟨b1, b2⟩ := one (σ := σ.symm) hf' hf hw.symm hn.symm hd.symm fun row row' req m m' hm =>
    (h row' row req m m' (by simpa using moved_symm hm)).2
  refine ⟨h, fun vals vals' m m' r ncols req nt nt' h1 h2 h3 h4 h5 => ⟨a1 vals vals' m m' r ncols req nt nt' h1 h2 h3 h4 h5,
      b1 vals' vals m m' r ncols req nt' nt h1 (hw ▸ h2) h3 (keepsBelow_symm h4) fun i hi f hf => ?_⟩,
    fun indptr cols vals m m' r nf req nt nt' h1 h2 h3 h4 h5 h6 h7 => ⟨a2 indptr cols vals m m' r nf req nt nt' h1 h2 h3 h4 h5 h6 h7, fun hp => ?_⟩⟩
  · have := h5 i hi (σ.symm f) ((keepsBelow_symm h4 f).2 hf)
    rw [Equiv.apply_symm_apply] at this
    exact this.symm
  · have := b2 indptr _ vals m m' r nf req nt' nt h1 (hw ▸ h2) h3 h4 (hn ▸ h5) h6 (keepsBelow_symm h7) hp
    rw [List.map_map] at this
    have hid : (moveColumn σ.symm ∘ moveColumn σ) = id := funext fun c => moveColumn_symm c
    rwa [hid, List.map_id] at this

theorem value_moved {σ : Equiv.Perm Nat} {d : TreeDesc} {out : F64 → Int} {row row' : List F64} (h : Moved σ row row') (w : F64) :
    d.Value out row w ↔ (d.moved σ).Value out row' w := by
  unfold TreeDesc.Value
  by_cases h0 : d.inner = 0
  · rw [if_pos h0, if_pos (show (d.moved σ).inner = 0 from h0)]
    rfl
  rw [if_neg h0, if_neg (show ¬ (d.moved σ).inner = 0 from h0)]
  refine exists_congr fun k => and_congr_left' (Walk.iff fun i _ b => ?_)
  unfold Goes LgSplit
  have hsf : ∀ f', (d.moved σ).arrays.splitFeatures[i]? = some f' ↔ ∃ f, d.arrays.splitFeatures[i]? = some f ∧ σ f = f' := by
    intro f'
    show (d.arrays.splitFeatures.map σ)[i]? = some f' ↔ _
    rw [List.getElem?_map]
    cases d.arrays.splitFeatures[i]? <;> simp
  constructor
  · rintro ⟨f, rule, x, ⟨dt, thr, m, h1, h2, h3⟩, h4, h5⟩
    exact ⟨σ f, rule, x, ⟨dt, thr, m, h1, (hsf _).2 ⟨f, h2, rfl⟩, h3⟩, (h.2 f).trans h4, h5⟩
  · rintro ⟨f', rule, x, ⟨dt, thr, m, h1, h2, h3⟩, h4, h5⟩
    obtain ⟨f, h6, rfl⟩ := (hsf _).1 h2
    exact ⟨f, rule, x, ⟨dt, thr, m, h1, h6, h3⟩, (h.2 f).symm.trans h4, h5⟩

theorem refRaw_moved {P : Platform} {σ : Equiv.Perm Nat} {out : F64 → Int} {ds : List TreeDesc} {K n : Nat} {avg : Bool} {row row' : List F64}
    (h : Moved σ row row') (w : List F64) : RefRaw P out ds K avg row n w ↔ RefRaw P out (ds.map (TreeDesc.moved σ)) K avg row' n w := by
  unfold RefRaw
  refine exists_congr fun v => and_congr_left' ?_
  refine forall_congr' fun i => forall_congr' fun hi => forall_congr' fun k => forall_congr' fun hk => ?_
  rw [List.getElem?_map]
  cases hd : ds[i * K + k]? with
  | none => simp
  | some d => simpa using value_moved h (v i k)

theorem shape_moved {σ : Equiv.Perm Nat} {d : TreeDesc} {i : Int} {T : BTree} (h : LgShape d.arrays i T) : LgShape (d.moved σ).arrays i T := by
  induction h with
  | leaf k => exact .leaf k
  | node i li ri l r hl hr _ _ sl sr => exact .node i li ri l r hl hr sl sr

theorem moved_ok {σ : Equiv.Perm Nat} {parse : Str → Option F64} {print : F64 → Str} {d : TreeDesc} (h : d.OK parse print)
    (hσ : ∀ f ∈ d.arrays.splitFeatures, σ f < 2 ^ 32) : (d.moved σ).OK parse print where
  numCat := h.numCat
  leafValues := h.leafValues
  leafText := h.leafText
  tree := fun h0 => by
    obtain ⟨a, b, c, e, f, g, i, j⟩ := h.tree h0
    refine ⟨shape_moved a, b, c, e, f, fun k hk => ?_, i, j⟩
    obtain ⟨f, rule, dt, thr, m, h1, h2, h3⟩ := g k hk
    refine ⟨σ f, rule, dt, thr, m, h1, ?_, h3⟩
    show (d.arrays.splitFeatures.map σ)[k]? = _
    rw [List.getElem?_map, h2]
    rfl
  left := h.left
  right := h.right
  decision := h.decision
  feature := fun h0 => by
    refine ⟨?_, fun n hn => ?_⟩
    · show d.arrays.splitFeatures.map σ ≠ []
      simpa using (h.feature h0).1
    · obtain ⟨f, hf, rfl⟩ := List.mem_map.1 (show n ∈ d.arrays.splitFeatures.map σ from hn)
      exact hσ f hf
  threshold := h.threshold
  cats := h.cats

/-- **C110, LightGBM text files**: the second file says the same as the first one with feature `σ f` in place of feature `f`. -/
theorem C110_text (P : Platform) (print : F64 → Str) (σ : Equiv.Perm Nat) (text text' rest0 rest0' rest rest' : Str) (header header' : List Str)
    (e0 e0' e1 e1' : Bool) (bs bs' : List (List Str)) (ds : List TreeDesc) (K N : Nat) (M : Int) (avg : Bool)
    (hK : 1 ≤ K ∧ K < 2 ^ 63) (hN : 1 ≤ N) (hlen : ds.length = N * K)
    (hok : ∀ d ∈ ds, d.OK P.parseFloat print ∧ d.inner * 24 ≤ P.maxAlloc) (hσ : ∀ d ∈ ds, ∀ f ∈ d.arrays.splitFeatures, σ f < 2 ^ 32)
    (hh : FileBlock text header rest0 e0) (hhl : HeaderLines header K M ds.length avg)
    (hb : FileBlocks rest0 bs rest e1) (hbl : List.Forall₂ (TreeLines print) ds bs)
    (hh' : FileBlock text' header' rest0' e0') (hhl' : HeaderLines header' K M ds.length avg)
    (hb' : FileBlocks rest0' bs' rest' e1') (hbl' : List.Forall₂ (TreeLines print) (ds.map (TreeDesc.moved σ)) bs') :
    ∃ e e', lgEnsembleFromReader P ⟨text, false⟩ false = .ok (e, ⟨rest, false⟩) ∧
      lgEnsembleFromReader P ⟨text', false⟩ false = .ok (e', ⟨rest', false⟩) ∧ SameMoved P σ e e' := by
  obtain ⟨e, l1, f1, -, t1, w1, n1, -, p1⟩ := C39_text_file P print text rest0 rest header e0 e1 bs ds K N M avg hK hN hlen hh hhl hb hbl hok
  obtain ⟨e', l2, f2, -, t2, w2, n2, -, p2⟩ := C39_text_file P print text' rest0' rest' header' e0' e1' bs' (ds.map (TreeDesc.moved σ)) K N M avg hK hN
    (by rw [List.length_map]; exact hlen) hh' (by rw [List.length_map]; exact hhl') hb' hbl' fun d hd => by
      obtain ⟨d0, h0, rfl⟩ := List.mem_map.1 hd
      exact ⟨moved_ok (hok d0 h0).1 (hσ d0 h0), (hok d0 h0).2⟩
  refine ⟨e, e', l1, l2, SameMoved.of_rows f1 f2 (w1.trans w2.symm) (n1.trans n2.symm)
    ((lg_loaded_base l1).trans (lg_loaded_base l2).symm) fun row row' req m m' hm => ?_⟩
  rw [p1, p2, n1, n2, hm.1]
  refine and_congr_right fun _ => and_congr_right fun _ => exists_congr fun n => exists_congr fun w => and_congr_right fun _ =>
    and_congr_left' (refRaw_moved hm w)

theorem nodes_moved {σ : Equiv.Perm Nat} {T : BTree} {ns ns' : List XgBin.Node} (hn : NodesMoved σ T ns ns') {row row' : List F64}
    (h : Moved σ row row') (i : Nat) (hT : i ∈ T.inner) (b : Bool) : XgGoesLe ns row i b ↔ XgGoesLe ns' row' i b := by
  unfold XgGoesLe
  by_cases hi : i < ns.length
  · have hi' : i < ns'.length := by rw [hn.1]; exact hi
    have hm := hn.2 i ns[i] ns'[i] (List.getElem?_eq_getElem hi) (List.getElem?_eq_getElem hi')
    obtain ⟨hinfo, hm⟩ := hm
    obtain ⟨hfeat, hmis⟩ := hm hT
    rw [List.getElem?_eq_getElem hi, List.getElem?_eq_getElem hi']
    have hx : row'[xgFeature ns'[i]]? = row[xgFeature ns[i]]? := by rw [hfeat]; exact h.2 _
    have hL : ∀ x, XgLeftLe ns'[i] x ↔ XgLeftLe ns[i] x := by
      intro x
      unfold XgLeftLe
      rw [hmis, hinfo]
    constructor
    · rintro ⟨n, x, h1, h2, h3⟩
      cases h1
      exact ⟨_, x, rfl, hx.trans h2, h3.trans (hL x).symm⟩
    · rintro ⟨n, x, h1, h2, h3⟩
      cases h1
      exact ⟨_, x, rfl, hx.symm.trans h2, h3.trans (hL x)⟩
  · rw [List.getElem?_eq_none (by omega), List.getElem?_eq_none (by rw [hn.1]; omega)]
    simp

theorem xgVal_moved {σ : Equiv.Perm Nat} {T : BTree} {ns ns' : List XgBin.Node} (hn : NodesMoved σ T ns ns') (k : Nat) (v : F64) :
    XgVal ns k v ↔ XgVal ns' k v := by
  unfold XgVal
  by_cases hi : k < ns.length
  · have hi' : k < ns'.length := by rw [hn.1]; exact hi
    have hm := (hn.2 k ns[k] ns'[k] (List.getElem?_eq_getElem hi) (List.getElem?_eq_getElem hi')).1
    rw [List.getElem?_eq_getElem hi, List.getElem?_eq_getElem hi']
    simp [hm]
  · rw [List.getElem?_eq_none (by omega), List.getElem?_eq_none (by rw [hn.1]; omega)]

theorem xgRefRaw_moved {P : Platform} {σ : Equiv.Perm Nat} {m m' : XgModel} {K n : Nat} (h : m.MovedTo σ m') {row row' : List F64}
    (hm : Moved σ row row') (w : List F64) : XgRefRaw P XgGoesLe m K row n w ↔ XgRefRaw P XgGoesLe m' K row' n w := by
  unfold XgRefRaw XgModel.Weight
  rw [h.shapes, h.weights, h.booster, h.score]
  refine exists_congr fun v => exists_congr fun c => and_congr_left' ?_
  refine forall_congr' fun i => forall_congr' fun hi => forall_congr' fun j => forall_congr' fun hj => ?_
  by_cases hl : i * K + j < m.gbtree.trees.length
  · have hl' : i * K + j < m'.gbtree.trees.length := by rw [h.count]; exact hl
    rw [List.getElem?_eq_getElem hl, List.getElem?_eq_getElem hl']
    have ht := fun T hT => h.trees (i * K + j) _ _ T (List.getElem?_eq_getElem hl) (List.getElem?_eq_getElem hl') hT
    constructor
    · rintro ⟨t, T, leaf, h1, h2, h3, h4⟩
      cases h1
      exact ⟨_, T, leaf, rfl, h2, (Walk.iff fun i hi b => nodes_moved (ht T h2) hm i hi b).1 h3, (xgVal_moved (ht T h2) leaf _).1 h4⟩
    · rintro ⟨t, T, leaf, h1, h2, h3, h4⟩
      cases h1
      exact ⟨_, T, leaf, rfl, h2, (Walk.iff fun i hi b => nodes_moved (ht T h2) hm i hi b).2 h3, (xgVal_moved (ht T h2) leaf _).2 h4⟩
  · rw [List.getElem?_eq_none (l := m.gbtree.trees) (by omega), List.getElem?_eq_none (l := m'.gbtree.trees) (by rw [h.count]; omega)]
    simp

/-- **C110, XGBoost files**, boosted trees and DART. -/
theorem C110_xgboost (P : Platform) (σ : Equiv.Perm Nat) (m m' : XgModel) (K N : Nat) (ok : m.OK P.maxAlloc K N) (ok' : m'.OK P.maxAlloc K N)
    (h : m.MovedTo σ m') (lt : Bool) (tr : Transform) (ho : XgObjective K m.header.nameObj lt tr) (hlog : tr = .logistic → K = 1) :
    ∃ e e', (∀ rest, xgEnsembleFromReader P lt (m.image ++ rest) = .ok (e, rest)) ∧
      (∀ rest, xgEnsembleFromReader P lt (m'.image ++ rest) = .ok (e', rest)) ∧ SameMoved P σ e e' := by
  have ho' : XgObjective K m'.header.nameObj lt tr := by rw [h.objective]; exact ho
  obtain ⟨e, l1, f1, r1, -, t1, n1, -, p1⟩ := C62_xgboost_file_le P m K N ok lt tr ho hlog
  obtain ⟨e', l2, f2, r2, -, t2, n2, -, p2⟩ := C62_xgboost_file_le P m' K N ok' lt tr ho' hlog
  have hw : e.nOutputGroups = e'.nOutputGroups := congrArg Transform.nOutputGroups (r1.trans r2.symm)
  rw [h.features] at n2
  refine ⟨e, e', l1, l2, SameMoved.of_rows f1 f2 hw (n1.trans n2.symm)
    ((xg_loaded_default ok ho l1).trans (xg_loaded_default ok' ho' l2).symm) fun row row' req s s' hm => ?_⟩
  rw [p1, p2, n1, n2, hw, hm.1]
  refine and_congr_right fun _ => and_congr_right fun _ => exists_congr fun n => exists_congr fun w => exists_congr fun out =>
    and_congr_right fun _ => and_congr_left' (xgRefRaw_moved h hm w)

theorem jWalk_moved {σ : Equiv.Perm Nat} {out : F64 → Int} {row row' : List F64} (h : Moved σ row row') {t : JRaw} {p : List Bool} {v : F64}
    (w : JWalk out row t p v) : JWalk out row' (jMoved σ t) p v := by
  induction w with
  | leaf v => exact .leaf v
  | left hs hx hl _ ih => exact .left hs ((h.2 _).trans hx) hl ih
  | right hs hx hl _ ih => exact .right hs ((h.2 _).trans hx) hl ih

theorem jMoved_symm {σ : Equiv.Perm Nat} (t : JRaw) : jMoved σ.symm (jMoved σ t) = t := by
  induction t with
  | invalid => rfl
  | leafLike v => rfl
  | split f thr d dl m ms l r ihl ihr =>
    show JRaw.split _ _ _ _ _ _ _ _ = _
    rw [ihl, ihr, Equiv.symm_apply_apply]

theorem jRefRaw_moved {P : Platform} {σ : Equiv.Perm Nat} {out : F64 → Int} {ts : List JTree} {K n : Nat} {row row' : List F64}
    (h : Moved σ row row') (w : List F64) : JRefRaw P out ts K row n w ↔ JRefRaw P out (ts.map (jTreeMoved σ)) K row' n w := by
  unfold JRefRaw
  refine exists_congr fun v => and_congr_left' ?_
  refine forall_congr' fun i => forall_congr' fun hi => forall_congr' fun k => forall_congr' fun hk => ?_
  rw [List.getElem?_map]
  cases hd : ts[i * K + k]? with
  | none => simp
  | some t =>
    constructor
    · rintro ⟨t, p, h1, h2⟩
      cases h1
      exact ⟨_, p, rfl, jWalk_moved h h2⟩
    · rintro ⟨t', p, h1, h2⟩
      cases h1
      refine ⟨_, p, rfl, ?_⟩
      have := jWalk_moved (moved_symm h) h2
      rwa [show (jTreeMoved σ t).root = jMoved σ t.root from rfl, jMoved_symm] at this

theorem jOK_moved {σ : Equiv.Perm Nat} {t : JRaw} {n : Nat} (h : JOK t n) : JOK (jMoved σ t) n := by
  induction h with
  | leaf v => exact .leaf v
  | num hm _ _ il ir => exact .num hm il ir
  | cat values hm hne h31 hw _ _ il ir => exact .cat values hm hne h31 hw il ir

theorem jLeaves_moved {σ : Equiv.Perm Nat} (t : JRaw) : jLeaves (jMoved σ t) = jLeaves t := by
  induction t with
  | invalid => rfl
  | leafLike v => rfl
  | split f thr d dl m ms l r ihl ihr =>
    show jLeaves (jMoved σ l) + jLeaves (jMoved σ r) = _
    rw [ihl, ihr]
    rfl

theorem jTreeOK_moved {σ : Equiv.Perm Nat} {t : JTree} {W : Nat} (h : JTreeOK t W) : JTreeOK (jTreeMoved σ t) W where
  objects := jOK_moved h.objects
  leaves := h.leaves.trans (by rw [← jLeaves_moved (σ := σ)]; rfl)
  cats := h.cats
  small := by rw [show (jTreeMoved σ t).root = jMoved σ t.root from rfl, jLeaves_moved]; exact h.small
  words := h.words

/-- **C110, LightGBM JSON dumps.** -/
theorem C110_json (P : Platform) (σ : Equiv.Perm Nat) (v v' : Json) (K N : Nat) (M : Int) (ts : List JTree) (doc : ModelDoc P v K M ts)
    (doc' : ModelDoc P v' K M (ts.map (jTreeMoved σ))) (nest : NestedAtMost P.jsonDepth v) (nest' : NestedAtMost P.jsonDepth v')
    (hK : 1 ≤ K) (hN : 1 ≤ N) (hlen : ts.length = N * K)
    (hok : ∀ t ∈ ts, ∃ W, JTreeOK t W ∧ jLeaves t.root * 24 ≤ P.maxAlloc ∧ 4 * W ≤ P.maxAlloc) :
    ∃ e e', lgEnsembleFromDocument P (some v) false = .ok e ∧ lgEnsembleFromDocument P (some v') false = .ok e' ∧ SameMoved P σ e e' := by
  obtain ⟨e, l1, f1, -, -, -, w1, n1, -, p1⟩ := C67_document P v K N M ts doc nest ⟨hK, hN, hlen⟩ hok
  obtain ⟨e', l2, f2, -, -, -, w2, n2, -, p2⟩ := C67_document P v' K N M _ doc' nest' ⟨hK, hN, by rw [List.length_map]; exact hlen⟩ fun t ht => by
    obtain ⟨t0, h0, rfl⟩ := List.mem_map.1 ht
    obtain ⟨W, a, b, c⟩ := hok t0 h0
    exact ⟨W, jTreeOK_moved a, by rw [show (jTreeMoved σ t0).root = jMoved σ t0.root from rfl, jLeaves_moved]; exact b, c⟩
  refine ⟨e, e', l1, l2, SameMoved.of_rows f1 f2 (w1.trans w2.symm) (n1.trans n2.symm)
    ((jDoc_loaded_base l1).trans (jDoc_loaded_base l2).symm) fun row row' req m m' hm => ?_⟩
  rw [p1, p2, n1, n2, hm.1]
  refine and_congr_right fun _ => and_congr_right fun _ => exists_congr fun n => exists_congr fun w => and_congr_right fun _ =>
    and_congr_left' (jRefRaw_moved hm w)

theorem nanToZero_moved {σ : Equiv.Perm Nat} {row row' : List F64} (h : Moved σ row row') : Moved σ (nanToZero row) (nanToZero row') :=
  ⟨by simp [nanToZero, h.1], fun f => by simp only [nanToZero, List.getElem?_map, h.2 f]⟩

theorem skNodes_moved {σ : Equiv.Perm Nat} {ns ns' : List Pickle.SkNode} (hn : List.Forall₂ (SkNodeMoved σ) ns ns') {row row' : List F64}
    (h : Moved σ row row') (i : Nat) (b : Bool) : SkGoes ns row i b ↔ SkGoes ns' row' i b := by
  unfold SkGoes
  by_cases hi : i < ns.length
  · have hi' : i < ns'.length := by rw [← hn.length_eq]; exact hi
    have hm := hn.get hi hi'
    simp only [List.get_eq_getElem] at hm
    rw [List.getElem?_eq_getElem hi, List.getElem?_eq_getElem hi']
    constructor
    · rintro ⟨n, f, x, h1, h2, h3, h4⟩
      cases h1
      exact ⟨_, σ f, x, rfl, (hm.feature f).2 h2, (h.2 f).trans h3, by rw [hm.threshold]; exact h4⟩
    · rintro ⟨n, f, x, h1, h2, h3, h4⟩
      cases h1
      refine ⟨_, σ.symm f, x, rfl, (hm.feature _).1 (by rw [Equiv.apply_symm_apply]; exact h2), ?_, by rw [← hm.threshold]; exact h4⟩
      rw [← h.2, Equiv.apply_symm_apply]
      exact h3
  · rw [List.getElem?_eq_none (by omega), List.getElem?_eq_none (by rw [← hn.length_eq]; omega)]
    simp

theorem skRefRaw_moved {P : Platform} {σ : Equiv.Perm Nat} {m m' : SkModel} {n : Nat} (h : m.MovedTo σ m') {row row' : List F64}
    (hm : Moved σ row row') (w : List F64) : SkRefRaw P m row n w ↔ SkRefRaw P m' row' n w := by
  have hg : m'.groups = m.groups := by unfold SkModel.groups; rw [h.classes]
  have hne : row ≠ [] ↔ row' ≠ [] := by rw [← List.length_pos_iff, ← List.length_pos_iff, hm.1]
  unfold SkRefRaw
  rw [hg, h.shapes, h.prior, h.learningRate]
  refine exists_congr fun v => and_congr_left' ?_
  refine forall_congr' fun i => forall_congr' fun hi => forall_congr' fun j => forall_congr' fun hj => ?_
  by_cases hl : i * m.groups + j < m.trees.length
  · have hl' : i * m.groups + j < m'.trees.length := by rw [← h.trees.length_eq]; exact hl
    have ht := h.trees.get hl hl'
    simp only [List.get_eq_getElem] at ht
    rw [List.getElem?_eq_getElem hl, List.getElem?_eq_getElem hl']
    constructor
    · rintro ⟨t, T, leaf, x, p, h1, h2, h3, h4, h5, h6⟩
      cases h1
      exact ⟨_, T, leaf, x, p, rfl, h2, hne.1 h3, (Walk.iff fun i _ b => skNodes_moved ht.1 (nanToZero_moved hm) i b).1 h4, by rw [ht.2]; exact h5, h6⟩
    · rintro ⟨t, T, leaf, x, p, h1, h2, h3, h4, h5, h6⟩
      cases h1
      exact ⟨_, T, leaf, x, p, rfl, h2, hne.2 h3, (Walk.iff fun i _ b => skNodes_moved ht.1 (nanToZero_moved hm) i b).2 h4, by rw [← ht.2]; exact h5, h6⟩
  · rw [List.getElem?_eq_none (l := m.trees) (by omega), List.getElem?_eq_none (l := m'.trees) (by rw [← h.trees.length_eq]; omega)]
    simp

/-- **C110, scikit-learn pickles.** -/
theorem C110_sklearn (P : Platform) (σ : Equiv.Perm Nat) (v v' : PyVal) (bs bs' : Pickle.Bytes) (μ μ' : Memo) (hd : Dumps P noMemo v bs μ)
    (hd' : Dumps P noMemo v' bs' μ') (M M' : SkModel) (hc : IsClassifier M v) (hc' : IsClassifier M' v') (ok : M.OK P.maxAlloc)
    (ok' : M'.OK P.maxAlloc) (h : M.MovedTo σ M') :
    ∃ e e', (∀ rest lt, skEnsembleFromReader P (bs ++ octet '.' :: rest) lt = .ok e) ∧
      (∀ rest lt, skEnsembleFromReader P (bs' ++ octet '.' :: rest) lt = .ok e') ∧ SameMoved P σ e e' := by
  obtain ⟨e, l1, f1, -, -, w1, t1, n1, -, p1⟩ := C63_sklearn_file P v bs μ hd M hc ok
  obtain ⟨e', l2, f2, -, -, w2, t2, n2, -, p2⟩ := C63_sklearn_file P v' bs' μ' hd' M' hc' ok'
  have hdf : dflt e.base = dflt e'.base := by
    obtain ⟨ts, g1, -⟩ := sk_file_loaded P hd hc ok
    obtain ⟨ts', g2, -⟩ := sk_file_loaded P hd' hc' ok'
    have g1 := (l1 [] false).symm.trans (g1 [] false)
    have g2 := (l2 [] false).symm.trans (g2 [] false)
    cases g1
    cases g2
    rfl
  have hg : M'.groups = M.groups := by unfold SkModel.groups; rw [h.classes]
  rw [hg] at w2
  rw [h.maxFeatures] at n2
  refine ⟨e, e', l1, l2, SameMoved.of_rows f1 f2 (w1.trans w2.symm) (n1.trans n2.symm) hdf fun row row' req m m' hm => ?_⟩
  rw [p1, p2, n1, n2, hm.1, hg, h.estimators]
  refine and_congr_right fun _ => and_congr_right fun _ => exists_congr fun n => exists_congr fun w => and_congr_right fun _ =>
    and_congr_left' (skRefRaw_moved h hm w)

/-! ## Examples -/

namespace ColumnsExample

open LgExample (platform)
open LgLoadExample (d1 d2 print ds_ok)

/-- the two features change places -/
def swap : Equiv.Perm Nat where
  toFun f := if f = 0 then 1 else if f = 1 then 0 else f
  invFun f := if f = 0 then 1 else if f = 1 then 0 else f
  left_inv f := by
    by_cases h0 : f = 0
    · subst h0; rfl
    · by_cases h1 : f = 1
      · subst h1; rfl
      · simp [h0, h1]
  right_inv f := by
    by_cases h0 : f = 0
    · subst h0; rfl
    · by_cases h1 : f = 1
      · subst h1; rfl
      · simp [h0, h1]

theorem moved_swap (x y : F64) : Moved swap [x, y] [y, x] := by
  refine ⟨rfl, fun f => ?_⟩
  match f with
  | 0 => rfl
  | 1 => rfl
  | f + 2 => rfl

/-- A file and the same file with its two features exchanged. The first model stores 17 for the row (5, 33), the second for (33, 5). -/
theorem C110_example : ∃ e e',
    lgEnsembleFromReader platform ⟨modelText print [d1, d2] 1 1 false ++ [], false⟩ false = .ok (e, ⟨[], false⟩) ∧
    lgEnsembleFromReader platform ⟨modelText print [d1.moved swap, d2.moved swap] 1 1 false ++ [], false⟩ false = .ok (e', ⟨[], false⟩) ∧
    SameMoved platform swap e e' ∧ (e.predict platform [F64.ofNat 5, F64.ofNat 33] 0 1).run [F64.nan] = (.ok ⟨⟩, [F64.ofNat 17]) ∧
    (e'.predict platform [F64.ofNat 33, F64.ofNat 5] 0 1).run [F64.nan] = (.ok ⟨⟩, [F64.ofNat 17]) := by
  have hσ : ∀ d ∈ [d1, d2], ∀ f ∈ d.arrays.splitFeatures, swap f < 2 ^ 32 := by decide
  obtain ⟨header, rest0, blocks, h1, h2, h3, h4⟩ := modelText_blocks (M := 1) [] 1 false (by norm_num) ds_ok
  obtain ⟨header', rest0', blocks', g1, g2, g3, g4⟩ := modelText_blocks (P := platform) (print := print) (ds := [d1, d2].map (TreeDesc.moved swap))
    (M := 1) [] 1 false (by norm_num) fun d hd => by
      obtain ⟨d0, h0, rfl⟩ := List.mem_map.1 hd
      obtain ⟨a, b, c⟩ := ds_ok d0 h0
      exact ⟨moved_ok a (hσ d0 h0), b, c⟩
  obtain ⟨e, e', l1, l2, h⟩ := C110_text platform print swap _ _ _ _ _ _ _ _ _ _ _ _ _ _ [d1, d2] 1 2 1 false (by norm_num) (by omega) rfl
    (fun d hd => ⟨(ds_ok d hd).1, (ds_ok d hd).2.2⟩) hσ h1 h2 h3 h4 g1 g2 g3 g4
  obtain ⟨e2, c1, c2⟩ := SkModelExample.of_check (r := lgEnsembleFromReader platform ⟨modelText print [d1, d2] 1 1 false ++ [], false⟩ false)
    (fun e => (e.1.predict platform [F64.ofNat 5, F64.ofNat 33] 0 1).run [F64.nan] = (.ok ⟨⟩, [F64.ofNat 17])) (by decide +kernel)
  rw [l1] at c1
  cases c1
  exact ⟨e, e', l1, l2, h, c2, (h.row _ _ 0 [F64.nan] _ (moved_swap _ _)).1 c2⟩

/-- the tree of `XgFileExample` with its two features exchanged -/
def tree1 : XgBin.TreeModel :=
  { XgFileExample.tree1 with nodes := [⟨0#32, 1#32, 2#32, 0x80000000#32, 0x3f000000#32⟩, ⟨0#32, -1#32, -1#32, 0#32, 0x3e800000#32⟩,
      ⟨0#32, 3#32, 4#32, 1#32, 0xc0000000#32⟩, ⟨2#32, -1#32, -1#32, 0#32, 0xbf800000#32⟩, ⟨2#32, -1#32, -1#32, 0#32, 0x40400000#32⟩] }

/-- the DART file of `XgFileExample` with its two features exchanged -/
def file : XgModel :=
  { XgFileExample.file 1#32 with gbtree := { (XgFileExample.file 1#32).gbtree with trees := [tree1, XgFileExample.tree2] } }

/-- The two files are as C110 wants them, and the models say the same for (0, 0.75) and (0.75, 0). -/
theorem C110_xgboost_example : (XgFileExample.file 1#32).MovedTo swap file ∧
    (∃ e, xgEnsembleFromReader Platform.demo false (XgFileExample.file 1#32).image = .ok (e, []) ∧
      (e.predict Platform.demo [F64.zero, F64.const 3 4] 0 1).run [F64.nan] = (.ok ⟨⟩, [F64.const 9 2])) ∧
    ∃ e, xgEnsembleFromReader Platform.demo false file.image = .ok (e, []) ∧
      (e.predict Platform.demo [F64.const 3 4, F64.zero] 0 1).run [F64.nan] = (.ok ⟨⟩, [F64.const 9 2]) := by
  refine ⟨⟨rfl, rfl, rfl, rfl, rfl, fun k t t' T h1 h2 h3 => ?_, rfl, rfl⟩, ?_, ?_⟩
  · match k with
    | 0 =>
      cases h1; cases h2; cases h3
      refine ⟨rfl, fun i n n' h1 h2 => ?_⟩
      match i with
      | 0 => cases h1; cases h2; unfold XgDefaultLeft; decide
      | 1 => cases h1; cases h2; unfold XgDefaultLeft; decide
      | 2 => cases h1; cases h2; unfold XgDefaultLeft; decide
      | 3 => cases h1; cases h2; unfold XgDefaultLeft; decide
      | 4 => cases h1; cases h2; unfold XgDefaultLeft; decide
      | i + 5 => cases h1
    | 1 =>
      cases h1; cases h2; cases h3
      refine ⟨rfl, fun i n n' h1 h2 => ?_⟩
      match i with
      | 0 => cases h1; cases h2; unfold XgDefaultLeft; decide
      | i + 1 => cases h1
    | k + 2 => cases h1
  · obtain ⟨⟨e, r⟩, c1, c2, c3⟩ := SkModelExample.of_check (r := xgEnsembleFromReader Platform.demo false (XgFileExample.file 1#32).image)
      (fun e => e.2 = [] ∧ (e.1.predict Platform.demo [F64.zero, F64.const 3 4] 0 1).run [F64.nan] = (.ok ⟨⟩, [F64.const 9 2])) (by decide +kernel)
    cases c2
    exact ⟨e, c1, c3⟩
  · obtain ⟨⟨e, r⟩, c1, c2, c3⟩ := SkModelExample.of_check (r := xgEnsembleFromReader Platform.demo false file.image)
      (fun e => e.2 = [] ∧ (e.1.predict Platform.demo [F64.const 3 4, F64.zero] 0 1).run [F64.nan] = (.ok ⟨⟩, [F64.const 9 2])) (by decide +kernel)
    cases c2
    exact ⟨e, c1, c3⟩

/-- a linear model with three features, all of weight 1 -/
def linear : Ensemble :=
  ⟨.lin { numFeature := 3, nRawOutputGroups := 1, baseScore := F64.zero, weights := [F64.one, F64.one, F64.one, F64.zero] }, .raw 1⟩

/-- For linear models C110 is false: the sum is rounded after every feature, so it depends on their order. A model in which all weights
are equal stays the same when its features are renumbered, but gives 0 for (1, 2^53, -2^53) and 1 for (-2^53, 2^53, 1). -/
theorem C110_linear_differs : Fits linear ∧
    (linear.predict Platform.demo [F64.one, F64.ofInt (2 ^ 53), F64.ofInt (-2 ^ 53)] 0 1).run [F64.nan] = (.ok ⟨⟩, [F64.zero]) ∧
    (linear.predict Platform.demo [F64.ofInt (-2 ^ 53), F64.ofInt (2 ^ 53), F64.one] 0 1).run [F64.nan] = (.ok ⟨⟩, [F64.one]) :=
  ⟨⟨1, 1, rfl, by decide, rfl, rfl⟩, by decide +kernel, by decide +kernel⟩

end ColumnsExample

end Leaves
