import Verif.Proofs.NoPanic
import Verif.Proofs.PredictTop
import Verif.Spec.SkFile

/-! # When scikit-learn models do not crash the loader: internals of C57 -/

namespace Leaves

open Pickle Spec

theorem skLeaf_ok (P : Platform) {values : List F64} {i : Nat} (h : i < values.length) (scale base : F64) :
    ∃ v, skLeaf P values scale base (i : Int) = .ok v := by
  unfold skLeaf
  rw [idxI_lt h]
  exact ⟨_, rfl⟩

theorem skSource_safe (P : Platform) (t : SkTree) (h : SkTreeFit P t) (scale base : F64) :
    SafeSource (skSource P t scale base) t.nodes.length (fun i => ∃ n, t.nodes[i]? = some n ∧ 0 ≤ n.leftChild) := by
  rintro i hi ⟨n, hn, hinner⟩ a
  have hmem : n ∈ t.nodes := List.mem_of_getElem? hn
  obtain ⟨l, hle, nl, hnl, hlv⟩ := h.left n hmem hinner
  obtain ⟨r, hre, nr, hnr, hrv⟩ := h.right n hmem hinner
  have hll := (List.getElem?_eq_some_iff.1 hnl).1
  have hrl := (List.getElem?_eq_some_iff.1 hnr).1
  show skCreateNode P t scale base (i : Int) a ≠ .panic ∧ ∀ nd a', skCreateNode P t scale base (i : Int) a = .ok (nd, a') → _
  have hR : (skSource P t scale base).rightChild i = .ok (r : Int) := by
    show (do return (← Res.idx t.nodes i).rightChild) = _
    rw [Res.idx_eq_ok.2 hn]
    exact congrArg Res.ok hre
  have hL : (skSource P t scale base).leftChild i = .ok (l : Int) := by
    show (do return (← Res.idx t.nodes i).leftChild) = _
    rw [Res.idx_eq_ok.2 hn]
    exact congrArg Res.ok hle
  unfold skCreateNode
  rw [Res.idxI_ofNat, Res.idx_eq_ok.2 hn]
  simp only [Res.ok_bind]
  rw [hle, hre, Res.idxI_ofNat, Res.idx_eq_ok.2 hnl, Res.idxI_ofNat, Res.idx_eq_ok.2 hnr]
  simp only [Res.ok_bind]
  by_cases h1 : nl.leftChild < 0
  · obtain ⟨v, hv⟩ := skLeaf_ok P (hlv h1) scale base
    by_cases h2 : nr.leftChild < 0
    · obtain ⟨w, hw⟩ := skLeaf_ok P (hrv h2) scale base
      simp only [if_pos h1, if_pos h2, hv, hw, Res.ok_bind, Res.pure_eq]
      refine ⟨(by intro h; cases h), fun nd a' hh => ?_⟩
      cases hh
      refine ⟨fun hf => ?_, fun hf => ?_⟩
      · simp only [hasFlag_or, Bool.or_eq_false_iff] at hf
        exact absurd hf.2 (by decide)
      · simp only [hasFlag_or, Bool.or_eq_false_iff] at hf
        exact absurd hf.1.2 (by decide)
    · simp only [if_pos h1, if_neg h2, hv, Res.ok_bind, Res.pure_eq]
      refine ⟨(by intro h; cases h), fun nd a' hh => ?_⟩
      cases hh
      refine ⟨fun _ => ⟨r, hR, hrl, nr, hnr, by omega⟩, fun hf => ?_⟩
      simp only [hasFlag_or, Bool.or_eq_false_iff] at hf
      exact absurd hf.2 (by decide)
  · by_cases h2 : nr.leftChild < 0
    · obtain ⟨w, hw⟩ := skLeaf_ok P (hrv h2) scale base
      simp only [if_neg h1, if_pos h2, hw, Res.ok_bind, Res.pure_eq]
      refine ⟨(by intro h; cases h), fun nd a' hh => ?_⟩
      cases hh
      refine ⟨fun hf => ?_, fun _ => ⟨l, hL, hll, nl, hnl, by omega⟩⟩
      simp only [hasFlag_or, Bool.or_eq_false_iff] at hf
      exact absurd hf.2 (by decide)
    · simp only [if_neg h1, if_neg h2, Res.ok_bind, Res.pure_eq]
      exact ⟨(by intro h; cases h), fun nd a' hh => ⟨fun _ => ⟨r, hR, hrl, nr, hnr, by omega⟩, fun _ => ⟨l, hL, hll, nl, hnl, by omega⟩⟩⟩

theorem lgTreeFromSklearn_ne_panic (P : Platform) (t : SkTree) (h : SkTreeFit P t) (scale base : F64) :
    lgTreeFromSklearn P t scale base ≠ .panic := by
  unfold lgTreeFromSklearn
  dsimp only
  split
  · simp
  split
  · obtain ⟨v, hv⟩ := skLeaf_ok P (i := 0) (List.length_pos_of_ne_nil h.values) scale base
    have hv' : skLeaf P t.values scale base 0 = .ok v := hv
    rw [hv']
    simp
  · rename_i hz
    refine bind_ne_panic ?_ fun _ _ => pure_ne_panic _
    have hpos : 0 < t.nodes.countP fun n => !decide (n.leftChild < 0) := Nat.pos_of_ne_zero hz
    obtain ⟨n, hn, hin⟩ := List.countP_pos_iff.1 hpos
    obtain ⟨r, hr, hr0⟩ := h.root n hn (by simpa using hin)
    have hlen : 0 < t.nodes.length := (List.getElem?_eq_some_iff.1 hr).1
    have hle : (t.nodes.countP fun n => !decide (n.leftChild < 0)) ≤ t.nodes.length := List.countP_le_length
    obtain ⟨hm1, hm2⟩ := h.memory
    rw [h.count]
    exact convert_safe P (skSource_safe P t h scale base) hlen ⟨r, hr, hr0⟩ hm1 (by omega) (by omega) (by omega) _

theorem skIteration_ne_panic (P : Platform) (es : List SkRegressor) (scale : F64) (h : ∀ e ∈ es, SkTreeFit P e.tree) :
    ∀ (bases : List F64) (first : Nat), first + bases.length ≤ es.length → skIteration P es scale (first : Int) bases ≠ .panic
  | [], _, _ => by simp [skIteration]
  | b :: bases, first, hl => by
    simp only [List.length_cons] at hl
    unfold skIteration
    rw [idxI_lt (show first < es.length by omega)]
    simp only [Res.ok_bind]
    refine bind_ne_panic (lgTreeFromSklearn_ne_panic P _ (h _ (List.getElem_mem _)) _ _) fun _ _ => ?_
    refine bind_ne_panic ?_ fun _ _ => pure_ne_panic _
    have := skIteration_ne_panic P es scale h bases (first + 1) (by omega)
    simpa using this

theorem skIterations_ne_panic (P : Platform) (es : List SkRegressor) (scale : F64) (h : ∀ e ∈ es, SkTreeFit P e.tree) :
    ∀ (n i : Nat) (bases : List F64), (i + n) * bases.length ≤ es.length → skIterations P es scale n i bases ≠ .panic
  | 0, _, _, _ => by simp [skIterations]
  | n + 1, i, bases, hl => by
    unfold skIterations
    have h1 : i * bases.length + bases.length ≤ es.length := by
      refine Nat.le_trans ?_ hl
      rw [show i + (n + 1) = n + (i + 1) by omega, Nat.add_mul, Nat.add_mul]
      omega
    refine bind_ne_panic ?_ fun _ _ => bind_ne_panic ?_ fun _ _ => pure_ne_panic _
    · have := skIteration_ne_panic P es scale h bases (i * bases.length) h1
      simpa using this
    · refine skIterations_ne_panic P es scale h n (i + 1) _ ?_
      rw [List.length_replicate, show i + 1 + n = i + (n + 1) by omega]
      exact hl

theorem skBases_ne_panic (P : Platform) (e : SkInit) (k : Int) (h0 : 0 ≤ k) (hp : k ≠ 0 → e.prior ≠ []) (hs : k * 8 ≤ P.maxAlloc) :
    skBases P e k ≠ .panic ∧ ∀ bs, skBases P e k = .ok bs → (bs.length : Int) = k := by
  unfold skBases
  have ha : allocCheck P k 8 = .ok ⟨⟩ := by
    unfold allocCheck
    rw [if_neg (by push Not; exact ⟨h0, by push_cast; omega⟩)]
  rw [ha]
  simp only [Res.ok_bind]
  split
  · split
    · rename_i hz
      refine ⟨(by intro h; cases h), fun bs hb => ?_⟩
      cases hb
      simp; omega
    · rename_i hz
      obtain ⟨x, xs, hx⟩ := List.exists_cons_of_ne_nil (hp (by omega))
      rw [hx]
      refine ⟨(by intro h; cases h), fun bs hb => ?_⟩
      cases hb
      simp; omega
  · split
    · split
      · exact ⟨(by intro h; cases h), fun bs hb => by cases hb⟩
      · rename_i hne
        refine ⟨(by intro h; cases h), fun bs hb => ?_⟩
        cases hb
        simpa using hne
    · exact ⟨(by intro h; cases h), fun bs hb => by cases hb⟩

theorem skAssemble_ne_panic (P : Platform) (g : SkBoosting) (h : SkFit P g) : skAssemble P g ≠ .panic := by
  unfold skAssemble
  dsimp only
  have h0 := h.classes
  have h1 := h.estimators
  obtain ⟨h2, h3, h4⟩ := h.size
  have hk0 : 0 ≤ (if g.nClasses = 2 then (1 : Int) else g.nClasses) := by split <;> omega
  have hkle : (if g.nClasses = 2 then (1 : Int) else g.nClasses) ≤ g.nClasses := by split <;> omega
  have hkz : (if g.nClasses = 2 then (1 : Int) else g.nClasses) ≠ 0 → g.nClasses ≠ 0 := by split <;> omega
  generalize (if g.nClasses = 2 then (1 : Int) else g.nClasses) = k at *
  split
  · simp
  split
  · simp
  rename_i hz hw
  have hw : wrap64 (g.nEstimators * k) = g.estimators.length := by simpa using hw
  have hmul : g.nEstimators * k ≤ g.nEstimators * g.nClasses := Int.mul_le_mul_of_nonneg_left hkle h1
  have hmul0 : 0 ≤ g.nEstimators * k := Int.mul_nonneg h1 hk0
  have hwr : ∀ x : Int, 0 ≤ x → x < 2 ^ 63 → wrap64 x = x := by
    intro x hx hx'
    exact wrap64_id (by omega) hx'
  rw [hwr _ hmul0 (by omega)] at hw
  obtain ⟨hb, hbl⟩ := skBases_ne_panic P g.initEstimator k hk0 (fun hk => h.prior (hkz hk)) (by omega)
  refine bind_ne_panic hb fun bases hbases => ?_
  have hlen := hbl bases hbases
  have hcc : 0 ≤ g.nEstimators * g.nClasses := Int.mul_nonneg h1 h0
  have ha : allocCheck P (wrap64 (g.nEstimators * g.nClasses)) 104 = .ok ⟨⟩ := by
    rw [hwr _ hcc h4]
    unfold allocCheck
    rw [if_neg (by push Not; exact ⟨hcc, by push_cast; omega⟩)]
  rw [ha]
  simp only [Res.ok_bind]
  refine bind_ne_panic (skIterations_ne_panic P _ _ h.trees _ _ _ ?_) fun _ _ => pure_ne_panic _
  have : ((g.nEstimators.toNat * bases.length : Nat) : Int) = g.estimators.length := by
    rw [Nat.cast_mul, hlen, Int.toNat_of_nonneg h1, hw]
  rw [Nat.zero_add]
  omega

end Leaves
