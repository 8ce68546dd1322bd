import Verif.Props.Batch
import Verif.Props.LeafLayout
import Verif.Props.Predict
import Verif.Spec.SameLeaves

/-! # C107: rows that end in the same leaves get the same predictions -/

namespace Leaves
open Spec GoM

theorem leaves_same {P : Platform} {trees : List LgTree} {G n : Nat} {row row' : List F64} {l l' : Nat → Nat → Nat}
    (hs : ∀ t ∈ trees, t.leafValues.length ≤ 2 ^ 53) (h : TreeLeaves P trees G n row l) (h' : TreeLeaves P trees G n row' l')
    (he : ∀ i < n, ∀ k < G, F64.ofNat (l i k) = F64.ofNat (l' i k)) :
    ∀ i < n, ∀ k < G, ∀ t, trees[i * G + k]? = some t → t.predict P row = t.predict P row' := by
  intro i hi k hk t ht
  obtain ⟨t1, x, h1, h2⟩ := h i hi k hk
  obtain ⟨t2, y, h3, h4⟩ := h' i hi k hk
  rw [ht] at h1 h3
  cases h1
  cases h3
  have a := C22_value_of_leaf P t row _ _ h2
  have b := C22_value_of_leaf P t row' _ _ h4
  have hm := hs t (List.mem_of_getElem? ht)
  have a' := (List.getElem?_eq_some_iff.1 a).1
  have b' := (List.getElem?_eq_some_iff.1 b).1
  have e := F64.ofNat_inj (by omega) (by omega) (he i hi k hk)
  rw [e] at a h2
  rw [a] at b
  cases b
  rw [h2, h4]

theorem values_of_same {P : Platform} {trees : List LgTree} {G n total : Nat} {row row' : List F64} {v : Nat → Nat → F64}
    (hn : n ≤ total) (h : ∀ i < total, ∀ k < G, ∀ t, trees[i * G + k]? = some t → t.predict P row = t.predict P row') :
    TreeValues P trees G n row v ↔ TreeValues P trees G n row' v := by
  refine forall_congr' fun i => forall_congr' fun hi => forall_congr' fun k => forall_congr' fun hk => exists_congr fun t => exists_congr fun j =>
    and_congr_right fun ht => ?_
  rw [h i (by omega) k hk t ht]

theorem leafs_of_same {P : Platform} {trees : List LgTree} {G n total : Nat} {row row' : List F64} {l : Nat → Nat → Nat}
    (hn : n ≤ total) (h : ∀ i < total, ∀ k < G, ∀ t, trees[i * G + k]? = some t → t.predict P row = t.predict P row') :
    TreeLeaves P trees G n row l ↔ TreeLeaves P trees G n row' l := by
  refine forall_congr' fun i => forall_congr' fun hi => forall_congr' fun k => forall_congr' fun hk => exists_congr fun t => exists_congr fun j =>
    and_congr_right fun ht => ?_
  rw [h i (by omega) k hk t ht]

/-- equal leaf vectors of all estimators give equal scores, and equal leaf vectors, of fewer -/
theorem outputs_same {P : Platform} {b : Base} (hs : SmallTrees b) {row row' : List F64} {total : Nat} {out : List F64}
    (h : IsLeafVec P b row total out) (h' : IsLeafVec P b row' total out) {n : Nat} (hn : n ≤ total) :
    (∀ w, IsRaw P b row n w ↔ IsRaw P b row' n w) ∧ ∀ w, IsLeafVec P b row n w ↔ IsLeafVec P b row' n w := by
  unfold SmallTrees at hs
  unfold IsLeafVec at h h' ⊢
  unfold IsRaw
  split at hs
  case h_3 => rename_i hc; rw [hc] at h; exact h.elim
  case h_4 => rename_i hc; rw [hc] at h; exact h.elim
  all_goals
    rename_i e hc
    rw [hc] at h h' ⊢
    obtain ⟨G, l, hG, ht, -, hl⟩ := h
    obtain ⟨G', l', hG', ht', -, hl'⟩ := h'
    have : G = G' := by rw [hG] at hG'; exact_mod_cast hG'
    subst this
    have key := leaves_same hs ht ht' fun i hi k hk => by
      have := (hl i hi k hk).symm.trans (hl' i hi k hk)
      simpa using this
    have key' : ∀ G', e.nRawOutputGroups = (G' : Nat) → G' = G := fun G' h => by rw [hG] at h; exact_mod_cast h.symm
  · constructor
    · refine fun w => exists_congr fun G' => exists_congr fun v => and_congr_right fun h => ?_
      have := key' G' h
      subst this
      rw [values_of_same hn key]
    · refine fun w => exists_congr fun G' => exists_congr fun v => and_congr_right fun h => ?_
      have := key' G' h
      subst this
      rw [leafs_of_same hn key]
  · constructor
    · refine fun w => exists_congr fun G' => exists_congr fun v => exists_congr fun c => and_congr_right fun h => ?_
      have := key' G' h
      subst this
      rw [values_of_same hn key]
    · refine fun w => exists_congr fun G' => exists_congr fun v => and_congr_right fun h => ?_
      have := key' G' h
      subst this
      rw [leafs_of_same hn key]

theorem used_le {req : Int} {total n : Nat} (h : Used req total n) : n ≤ total := by
  unfold Used at h
  split at h <;> omega

theorem leafView_eq {e el : Ensemble} {total : Nat} (ht : IsTotal e.base total) (hv : e.withLeafPredictions = .ok el) :
    el = ⟨.wrap e.base e.transform, .leafIndex (e.nRawOutputGroups * total)⟩ := by
  unfold Ensemble.withLeafPredictions Ensemble.nEstimators at hv
  rw [nEstimators_of ht] at hv
  cases hv
  rfl

theorem leafView_fits {e el : Ensemble} (hf : Fits e) (hs : SmallTrees e.base) (hv : e.withLeafPredictions = .ok el) : Fits el := by
  have hlin : ∀ l, core e.base ≠ .lin l := by
    intro l hl
    revert hs
    unfold SmallTrees
    rw [hl]
    exact id
  obtain ⟨e', he', hfl⟩ := (C24_views_fit e hf).2 hlin
  rw [hv] at he'
  cases he'
  exact hfl

theorem isOutput_same {P : Platform} {e el : Ensemble} {total : Nat} (hs : SmallTrees e.base) (ht : IsTotal e.base total)
    (hv : e.withLeafPredictions = .ok el) {row row' out : List F64} (h : IsOutput P el row total out) (h' : IsOutput P el row' total out)
    {n : Nat} (hn : n ≤ total) (w : List F64) : IsOutput P e row n w ↔ IsOutput P e row' n w := by
  rw [leafView_eq ht hv] at h h'
  have h : IsLeafVec P e.base row total out := h
  have h' : IsLeafVec P e.base row' total out := h'
  obtain ⟨a, b⟩ := outputs_same hs h h' hn
  unfold IsOutput
  split
  · exact b w
  · exact exists_congr fun u => and_congr_left fun _ => a u

/-- **C107.** If PredictLeafIndices (all estimators) stores the same for two rows, Predict stores the same for them, for every number of
estimators, with every transformation, and under every view. -/
theorem C107_same_leaves (P : Platform) (e el : Ensemble) (hf : Fits e) (hw : e.nOutputGroups < 2 ^ 63) (hs : SmallTrees e.base)
    (hv : e.withLeafPredictions = .ok el) (hwl : el.nOutputGroups < 2 ^ 63) (row row' m m1 : List F64) (rl rl' : Int)
    (h : (el.predict P row rl m.length).run m = (.ok ⟨⟩, m1)) (h' : (el.predict P row' rl' m.length).run m = (.ok ⟨⟩, m1))
    (req : Int) (s s' : List F64) :
    (e.predict P row req s.length).run s = (.ok ⟨⟩, s') ↔ (e.predict P row' req s.length).run s = (.ok ⟨⟩, s') := by
  obtain ⟨G, total, hG, hG0, ht, -⟩ := id hf
  have hel := leafView_eq ht hv
  have hfl := leafView_fits hf hs hv
  obtain ⟨-, f1, t1, n1, a1, u1, l1, out, o1, s1⟩ := (predict_spec hfl hwl).1 h
  obtain ⟨-, f2, t2, n2, a2, u2, l2, out', o2, s2⟩ := (predict_spec hfl hwl).1 h'
  have hlf : el.isLeaf := by subst hel; rfl
  have ht' : IsTotal el.base total := by subst hel; exact ht
  have e1 := IsTotal.unique a1 ht'
  have e2 := IsTotal.unique a2 ht'
  have e3 := l1 hlf
  have e4 := l2 hlf
  subst e1 e2 e3 e4
  have hGl : el.base.nRawOutputGroups = G := by subst hel; exact hG
  have q1 := output_length hGl o1
  have q2 := output_length hGl o2
  have : out = out' := by
    refine List.ext_getElem? fun j => ?_
    by_cases hj : j < out.length
    · have a := s1.2.2 j
      have b := s2.2.2 j
      rw [if_pos (by omega)] at a
      rw [if_pos (by rw [q2, ← q1]; omega)] at b
      exact a.symm.trans b
    · rw [List.getElem?_eq_none (by omega), List.getElem?_eq_none (by rw [q2, ← q1]; omega)]
  subst this
  have hnf : el.nFeatures = e.nFeatures := by subst hel; rfl
  rw [hnf] at f1 f2
  rw [predict_spec hf hw, predict_spec hf hw]
  refine and_congr_right fun _ => ?_
  have : (e.nFeatures ≤ (row.length : Int)) ↔ (e.nFeatures ≤ (row'.length : Int)) := ⟨fun _ => f2, fun _ => f1⟩
  refine and_congr this (exists_congr fun t => exists_congr fun n => and_congr_right fun ht2 => and_congr_right fun hu => and_congr_right fun _ =>
    exists_congr fun w => and_congr_left fun _ => ?_)
  have := IsTotal.unique ht2 ht
  subst this
  exact isOutput_same hs ht hv o1 o2 (used_le hu) w

theorem dense_row_unique {vals row row' : List F64} {ncols i : Nat} (h : DenseRow vals ncols i row) (h' : DenseRow vals ncols i row') :
    row = row' := by
  refine List.ext_getElem? fun j => ?_
  by_cases hj : j < ncols
  · obtain ⟨x, h1, h2⟩ := h.2 j hj
    obtain ⟨y, h3, h4⟩ := h'.2 j hj
    rw [h1] at h3
    cases h3
    rw [h2, h4]
  · rw [List.getElem?_eq_none (by rw [h.1]; omega), List.getElem?_eq_none (by rw [h'.1]; omega)]

theorem storedRows_same {m m' m1 : List F64} {w r : Nat} {outs outs' : Nat → List F64} (h : StoredRows m w r outs m1)
    (h' : StoredRows m' w r outs' m1) {i : Nat} (hi : i < r) : outs i = outs' i := by
  refine List.ext_getElem? fun k => ?_
  by_cases hk : k < w
  · rw [← h.2.2.2.1 i hi k hk, ← h'.2.2.2.1 i hi k hk]
  · rw [List.getElem?_eq_none (by rw [h.2.2.1 i hi]; omega), List.getElem?_eq_none (by rw [h'.2.2.1 i hi]; omega)]

/-- **C107, matrices.** If the leaf view stores the same for two dense matrices, so does the model itself. -/
theorem C107_dense (P : Platform) (e el : Ensemble) (hf : Fits e) (w wl r ncols ncols' : Nat) (hw : e.nOutputGroups = w)
    (hrange : w * r < 2 ^ 63) (hr : r ≤ 2 ^ 53) (hr0 : 0 < r) (hs : SmallTrees e.base) (hv : e.withLeafPredictions = .ok el)
    (hwl : el.nOutputGroups = wl) (hrangel : wl * r < 2 ^ 63) (vals vals' m m' m1 : List F64) (rl rl' nl nl' : Int)
    (h : el.PredictDense P vals r ncols m rl nl (.ok ⟨⟩, m1)) (h' : el.PredictDense P vals' r ncols' m' rl' nl' (.ok ⟨⟩, m1))
    (req nt nt' : Int) (s s' : List F64) (hp : e.PredictDense P vals r ncols s req nt (.ok ⟨⟩, s')) :
    e.PredictDense P vals' r ncols' s req nt' (.ok ⟨⟩, s') := by
  have hlt : ∀ u : Nat, u * r < 2 ^ 63 → u < 2 ^ 63 := fun u h => lt_of_le_of_lt (Nat.le_mul_of_pos_right u hr0) h
  have hfl := leafView_fits hf hs hv
  have hwlt := hlt w hrange
  have hwllt := hlt wl hrangel
  obtain ⟨lo, ls, l1⟩ := C14_dense_is_rowwise P el hfl wl r ncols hwl hrangel hr vals m m1 rl nl h
  obtain ⟨lo', ls', l1'⟩ := C14_dense_is_rowwise P el hfl wl r ncols' hwl hrangel hr vals' m' m1 rl' nl' h'
  obtain ⟨outs, hst, h1⟩ := C14_dense_is_rowwise P e hf w r ncols hw hrange hr vals s s' req nt hp
  have hc : 0 < ncols' := ((dense_iff hfl hwl hrangel hr).1 h').1
  refine C14_rowwise_is_dense P e hf w r ncols' hw hrange hr hr0 hc vals' s s' req nt' outs hst fun i hi => ?_
  obtain ⟨row, d, h2⟩ := h1 i hi
  obtain ⟨row1, d1, h3⟩ := l1 i hi
  obtain ⟨row2, d2, h4⟩ := l1' i hi
  have := dense_row_unique d d1
  subst this
  have a := h3 (List.replicate wl F64.zero) (by simp)
  have b := h4 (List.replicate wl F64.zero) (by simp)
  rw [← storedRows_same ls ls' hi] at b
  refine ⟨row2, List.replicate w F64.zero, d2, by simp, ?_⟩
  have key := C107_same_leaves P e el hf (by rw [hw]; omega) hs hv (by rw [hwl]; omega) row row2 (List.replicate wl F64.zero) (lo i) rl rl'
    (by simpa using a) (by simpa using b) req (List.replicate w F64.zero) (outs i)
  rw [List.length_replicate] at key
  exact key.1 (h2 _ (by simp))

/-- **C107, sparse matrices.** -/
theorem C107_csr (P : Platform) (e el : Ensemble) (hf : Fits e) (w wl r nf : Nat) (hw : e.nOutputGroups = w)
    (hnf : e.nFeatures = nf ∧ nf * 8 ≤ P.maxAlloc) (hrange : w * r < 2 ^ 63) (hr : r ≤ 2 ^ 53) (hr0 : 0 < r) (hs : SmallTrees e.base)
    (hv : e.withLeafPredictions = .ok el) (hwl : el.nOutputGroups = wl) (hrangel : wl * r < 2 ^ 63)
    (indptr indptr' cols cols' : List Int) (hp : indptr.length = r + 1) (hp' : indptr'.length = r + 1) (vals vals' m m' m1 : List F64)
    (rl rl' nl nl' : Int) (h : el.PredictCSR P indptr cols vals m rl nl (.ok ⟨⟩, m1))
    (h' : el.PredictCSR P indptr' cols' vals' m' rl' nl' (.ok ⟨⟩, m1))
    (req nt nt' : Int) (s s' : List F64) (hpr : e.PredictCSR P indptr cols vals s req nt (.ok ⟨⟩, s')) :
    e.PredictCSR P indptr' cols' vals' s req nt' (.ok ⟨⟩, s') := by
  have hlt : ∀ u : Nat, u * r < 2 ^ 63 → u < 2 ^ 63 := fun u h => lt_of_le_of_lt (Nat.le_mul_of_pos_right u hr0) h
  have hfl := leafView_fits hf hs hv
  have hwlt := hlt w hrange
  have hwllt := hlt wl hrangel
  obtain ⟨G, total, -, -, ht, -⟩ := id hf
  have hel := leafView_eq ht hv
  have hnfl : el.nFeatures = nf ∧ nf * 8 ≤ P.maxAlloc := ⟨by rw [← hnf.1]; subst hel; rfl, hnf.2⟩
  have hdf : dflt el.base = dflt e.base := by subst hel; rfl
  obtain ⟨lo, ls, l1⟩ := C15_csr_is_rowwise P el hfl wl r nf hwl hnfl hrangel hr indptr cols hp vals m m1 rl nl h
  obtain ⟨lo', ls', l1'⟩ := C15_csr_is_rowwise P el hfl wl r nf hwl hnfl hrangel hr indptr' cols' hp' vals' m' m1 rl' nl' h'
  obtain ⟨outs, hst, h1⟩ := C15_csr_is_rowwise P e hf w r nf hw hnf hrange hr indptr cols hp vals s s' req nt hpr
  refine C15_rowwise_is_csr P e hf w r nf hw hnf hrange hr hr0 indptr' cols' hp' vals' s s' req nt' outs hst fun i hi => ?_
  obtain ⟨row, d, h2⟩ := h1 i hi
  obtain ⟨row1, d1, h3⟩ := l1 i hi
  obtain ⟨row2, d2, h4⟩ := l1' i hi
  rw [hdf] at d1 d2
  have := SparseRow.unique d d1
  subst this
  have a := h3 (List.replicate wl F64.zero) (by simp)
  have b := h4 (List.replicate wl F64.zero) (by simp)
  rw [← storedRows_same ls ls' hi] at b
  refine ⟨row2, List.replicate w F64.zero, d2, by simp, ?_⟩
  have key := C107_same_leaves P e el hf (by rw [hw]; omega) hs hv (by rw [hwl]; omega) row row2 (List.replicate wl F64.zero) (lo i) rl rl'
    (by simpa using a) (by simpa using b) req (List.replicate w F64.zero) (outs i)
  rw [List.length_replicate] at key
  exact key.1 (h2 _ (by simp))

namespace SameLeavesExample
open PredictExample

theorem small : SmallTrees lg.base := by
  intro t ht
  have : t.leafValues.length = 2 := by
    have ht : t ∈ trees := ht
    simp only [trees, List.mem_cons, List.not_mem_nil, or_false] at ht
    rcases ht with rfl | rfl | rfl | rfl <;> rfl
  omega

/-- The rows (7, 0) and (9, 3) end in the same four leaves; so they get the same scores. -/
example (req : Int) (s s' : List F64) :
    (lg.predict Platform.demo [F64.ofNat 7, F64.zero] req s.length).run s = (.ok ⟨⟩, s') ↔
    (lg.predict Platform.demo [F64.ofNat 9, F64.ofNat 3] req s.length).run s = (.ok ⟨⟩, s') :=
  C107_same_leaves Platform.demo lg _ lg_fits (by decide) small rfl (by decide) [F64.ofNat 7, F64.zero] [F64.ofNat 9, F64.ofNat 3]
    [F64.nan, F64.nan, F64.nan, F64.nan] [F64.one, F64.one, F64.one, F64.one] 0 0 (by decide +kernel) (by decide +kernel) req s s'

/-- The other way round does not hold: rows in different leaves may get the same scores. -/
theorem C107_converse_fails : ∃ (e el : Ensemble) (x y l l' s : F64), Fits e ∧ e.withLeafPredictions = .ok el ∧ l ≠ l' ∧
    (el.predict Platform.demo [x] 0 1).run [F64.zero] = (.ok ⟨⟩, [l]) ∧ (el.predict Platform.demo [y] 0 1).run [F64.zero] = (.ok ⟨⟩, [l']) ∧
    (e.predict Platform.demo [x] 0 1).run [F64.zero] = (.ok ⟨⟩, [s]) ∧ (e.predict Platform.demo [y] 0 1).run [F64.zero] = (.ok ⟨⟩, [s]) :=
  ⟨⟨.lg { trees := [stump F64.one F64.one], maxFeatureIdx := 0, nRawOutputGroups := 1, name := "lightgbm.gbdt" }, .raw 1⟩, _,
    F64.ofNat 3, F64.ofNat 7, F64.zero, F64.one, F64.one, ⟨1, 1, rfl, by decide, ⟨1, rfl, by decide, by decide⟩, rfl⟩, rfl, by decide +kernel,
    by decide +kernel, by decide +kernel, by decide +kernel, by decide +kernel⟩

end SameLeavesExample
end Leaves
