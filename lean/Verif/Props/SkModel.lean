import Verif.Proofs.SkModel
import Verif.Props.SkTree
import Verif.Props.Pickle
import Verif.Props.XgFile

/-! # C55, C56, C63, C64: scikit-learn models -/

namespace Leaves

open Pickle Spec

/-! ### the trees of an accepted model -/

theorem skIteration_get {P : Platform} {es : List SkRegressor} {lr : F64} : ∀ (bases : List F64) (first : Int) (ts : List LgTree),
    skIteration P es lr first bases = .ok ts → ts.length = bases.length ∧
      ∀ (j : Nat) (b : F64), bases[j]? = some b → ∃ est t, Res.idxI es (first + j) = .ok est ∧ ts[j]? = some t ∧
        lgTreeFromSklearn P est.tree lr b = .ok t
  | [], first, ts, h => by cases h; exact ⟨rfl, fun j b hb => by simp at hb⟩
  | base :: bases, first, ts, h => by
    rw [skIteration] at h
    obtain ⟨est, h1, h⟩ := Res.bind_eq_ok.1 h
    obtain ⟨t, h2, h⟩ := Res.bind_eq_ok.1 h
    obtain ⟨ts', h3, h⟩ := Res.bind_eq_ok.1 h
    cases h
    obtain ⟨l, g⟩ := skIteration_get bases (first + 1) ts' h3
    refine ⟨by simp [l], fun j b hb => ?_⟩
    cases j with
    | zero => cases hb; exact ⟨est, t, by simpa using h1, rfl, h2⟩
    | succ j =>
      obtain ⟨est', t', k1, k2, k3⟩ := g j b (by simpa using hb)
      refine ⟨est', t', ?_, by simpa using k2, k3⟩
      rw [← k1]; congr 1; push_cast; ring

theorem skIterations_get {P : Platform} {es : List SkRegressor} {lr : F64} {K : Nat} : ∀ (n i0 : Nat) (bases : List F64) (ts : List LgTree),
    bases.length = K → skIterations P es lr n i0 bases = .ok ts → ts.length = n * K ∧
      ∀ (i k : Nat) (b : F64), i < n → bases[k]? = some b → ∃ est t, es[(i0 + i) * K + k]? = some est ∧ ts[i * K + k]? = some t ∧
        lgTreeFromSklearn P est.tree lr (if i = 0 then b else F64.zero) = .ok t
  | 0, i0, bases, ts, hl, h => by cases h; exact ⟨by simp, fun i k b hi => absurd hi (by omega)⟩
  | n + 1, i0, bases, ts, hl, h => by
    rw [skIterations] at h
    obtain ⟨ts1, h1, h⟩ := Res.bind_eq_ok.1 h
    obtain ⟨ts2, h2, h⟩ := Res.bind_eq_ok.1 h
    cases h
    obtain ⟨l1, g1⟩ := skIteration_get _ _ _ h1
    obtain ⟨l2, g2⟩ := skIterations_get n (i0 + 1) _ ts2 (by rw [List.length_replicate, hl]) h2
    rw [hl] at l1
    refine ⟨by rw [List.length_append, l1, l2, Nat.succ_mul]; omega, fun i k b hi hb => ?_⟩
    have hk : k < K := by rw [← hl]; exact (List.getElem?_eq_some_iff.1 hb).1
    cases i with
    | zero =>
      obtain ⟨est, t, k1, k2, k3⟩ := g1 k b hb
      refine ⟨est, t, ?_, by rw [Nat.zero_mul, Nat.zero_add, List.getElem?_append_left (by omega)]; exact k2, by simpa using k3⟩
      rw [hl, show ((i0 * K + k : Int)) = ((i0 * K + k : Nat) : Int) by push_cast; ring, Res.idxI_ofNat] at k1
      exact Res.idx_eq_ok.1 k1
    | succ i =>
      obtain ⟨est, t, k1, k2, k3⟩ := g2 i k F64.zero (by omega) (by rw [List.getElem?_replicate, hl, if_pos hk])
      refine ⟨est, t, by rw [← k1]; congr 1; ring, ?_, by simpa using k3⟩
      rw [List.getElem?_append_right (by rw [l1, Nat.succ_mul]; omega), l1, ← k2]
      congr 1
      rw [Nat.succ_mul]; omega

theorem skIteration_ok {P : Platform} {es : List SkRegressor} {lr : F64} : ∀ (bases : List F64) (first : Nat),
    (∀ (j : Nat) (b : F64), bases[j]? = some b → ∃ est t, es[first + j]? = some est ∧ lgTreeFromSklearn P est.tree lr b = .ok t) →
    ∃ ts, skIteration P es lr first bases = .ok ts
  | [], first, h => ⟨[], rfl⟩
  | base :: bases, first, h => by
    obtain ⟨est, t, h1, h2⟩ := h 0 base rfl
    obtain ⟨ts, h3⟩ := skIteration_ok bases (first + 1) fun j b hb => by
      obtain ⟨est, t, k1, k2⟩ := h (j + 1) b (by simpa using hb)
      exact ⟨est, t, by rw [← k1]; congr 1; ring, k2⟩
    refine ⟨t :: ts, ?_⟩
    rw [skIteration, Res.idxI_ofNat, Res.idx_eq_ok.2 (by simpa using h1), Res.ok_bind, h2, Res.ok_bind,
      show ((first : Int) + 1) = ((first + 1 : Nat) : Int) by push_cast; rfl, h3]
    rfl

theorem skIterations_ok {P : Platform} {es : List SkRegressor} {lr : F64} {K : Nat} : ∀ (n i0 : Nat) (bases : List F64), bases.length = K →
    (∀ (i k : Nat) (b : F64), i < n → k < K → ∃ est t, es[(i0 + i) * K + k]? = some est ∧ lgTreeFromSklearn P est.tree lr b = .ok t) →
    ∃ ts, skIterations P es lr n i0 bases = .ok ts
  | 0, i0, bases, hl, h => ⟨[], rfl⟩
  | n + 1, i0, bases, hl, h => by
    obtain ⟨ts1, h1⟩ := skIteration_ok (P := P) (es := es) (lr := lr) bases (i0 * K) fun j b hb =>
      h 0 j b (by omega) (by rw [← hl]; exact (List.getElem?_eq_some_iff.1 hb).1)
    obtain ⟨ts2, h2⟩ := skIterations_ok (P := P) (es := es) (lr := lr) n (i0 + 1) (List.replicate bases.length F64.zero)
      (by rw [List.length_replicate, hl]) fun i k b hi hk => by
        obtain ⟨est, t, k1, k2⟩ := h (i + 1) k b (by omega) hk
        exact ⟨est, t, by rw [← k1]; congr 1; ring, k2⟩
    refine ⟨ts1 ++ ts2, ?_⟩
    rw [skIterations, show ((i0 : Int) * (bases.length : Int)) = ((i0 * K : Nat) : Int) by rw [hl]; push_cast; rfl, h1, Res.ok_bind, h2]
    rfl

theorem skBases_length {P : Platform} {e : SkInit} {n : Int} {bs : List F64} (h : skBases P e n = .ok bs) : (bs.length : Int) = n := by
  unfold skBases at h
  obtain ⟨u, h1, h⟩ := Res.bind_eq_ok.1 h
  have hn : 0 ≤ n := by
    by_contra hc
    rw [allocCheck, if_pos (Or.inl (by omega))] at h1
    cases h1
  split at h
  · split at h
    · cases h; simp; omega
    · obtain ⟨p, -, h⟩ := Res.bind_eq_ok.1 h
      cases h
      rw [List.length_replicate]; omega
  · split at h
    · split at h
      · cases h
      · cases h; omega
    · cases h

/-- what is known of a model that was accepted -/
theorem skAssemble_inv {P : Platform} {g : SkBoosting} {ens : Ensemble} (h : skAssemble P g = .ok ens) :
    ∃ (K : Nat) (bases : List F64) (ts : List LgTree), (K : Int) = (if g.nClasses = 2 then 1 else g.nClasses) ∧ g.nEstimators ≠ 0 ∧
      skBases P g.initEstimator K = .ok bases ∧ bases.length = K ∧
      skIterations P g.estimators g.learningRate g.nEstimators.toNat 0 bases = .ok ts ∧
      ens = ⟨.lg { trees := ts, maxFeatureIdx := wrap64 (g.maxFeatures - 1), nRawOutputGroups := K, name := "sklearn.ensemble.GradientBoostingClassifier", averageOutput := false }, .raw K⟩ := by
  unfold skAssemble at h
  dsimp only at h
  by_cases h0 : g.nEstimators = 0
  · rw [if_pos h0] at h; cases h
  rw [if_neg h0] at h
  generalize hG : (if g.nClasses = 2 then 1 else g.nClasses) = G at h ⊢
  by_cases hw : wrap64 (g.nEstimators * G) ≠ g.estimators.length
  · rw [if_pos hw] at h; cases h
  rw [if_neg hw] at h
  obtain ⟨bases, h1, h⟩ := Res.bind_eq_ok.1 h
  obtain ⟨-, -, h⟩ := Res.bind_eq_ok.1 h
  obtain ⟨ts, h2, h⟩ := Res.bind_eq_ok.1 h
  have hl := skBases_length h1
  cases h
  refine ⟨bases.length, bases, ts, hl, h0, by rw [hl]; exact h1, rfl, h2, by rw [hl]⟩

/-- C56, for every input: a loaded model has as many trees as estimators times groups, and never two groups (two classes
need only one). What is missing for the full property: the model may be empty, see `SkModelExample.C56_no_groups` and
`SkModelExample.C56_negative_estimators`. -/
theorem C56_consistent_partial (P : Platform) (input : Bytes) (lt : Bool) (ens : Ensemble)
    (h : skEnsembleFromReader P input lt = .ok ens) :
    ens.nRawOutputGroups ≠ 2 ∧ 0 ≤ ens.nRawOutputGroups ∧ ∃ e, ens.base = .lg e ∧ ens.transform = .raw e.nRawOutputGroups ∧
      (e.trees ≠ [] → 1 ≤ ens.nRawOutputGroups ∧ Fits ens ∧
        ∃ N : Nat, 1 ≤ N ∧ ens.nEstimators = .ok (N : Int) ∧ (e.trees.length : Int) = N * ens.nRawOutputGroups) := by
  unfold skEnsembleFromReader at h
  obtain ⟨⟨res, m⟩, -, h⟩ := Res.bind_eq_ok.1 h
  obtain ⟨g, -, h⟩ := Res.bind_eq_ok.1 h
  obtain ⟨K, bases, ts, hK, h0, h1, h2, h3, rfl⟩ := skAssemble_inv h
  obtain ⟨l1, -⟩ := skIterations_get _ _ _ _ h2 h3
  refine ⟨?_, ?_, _, rfl, rfl, fun hne => ?_⟩
  · show (K : Int) ≠ 2
    rw [hK]; split <;> omega
  · show 0 ≤ (K : Int); omega
  · have hpos : 0 < ts.length := List.length_pos_of_ne_nil hne
    rw [l1] at hpos
    have hK1 : 1 ≤ K := Nat.pos_of_mul_pos_left hpos
    have hN1 : 1 ≤ g.nEstimators.toNat := Nat.pos_of_mul_pos_right hpos
    have hdiv : ts.length / K = g.nEstimators.toNat := by rw [l1, Nat.mul_div_cancel _ (by omega)]
    refine ⟨by show 1 ≤ (K : Int); omega, ⟨K, g.nEstimators.toNat, rfl, by omega, ⟨K, rfl, by omega, hdiv.symm⟩, rfl⟩,
      g.nEstimators.toNat, hN1, ?_, ?_⟩
    · show (if (K : Int) = 0 then Res.panic else _ : Res Int) = _
      rw [if_neg (by omega)]
      show Res.ok (Int.tdiv (ts.length : Int) (K : Int)) = _
      rw [Int.tdiv_eq_ediv_of_nonneg (by omega), ← Int.natCast_ediv, hdiv]
    · show (ts.length : Int) = _
      rw [l1]; push_cast; rfl

/-! ### whole files -/

/-- the loaded tree `t'` gives the scaled value of the leaf that the file's own arrays lead to, and numbers the leaves -/
def SkTreeMeans (P : Platform) (t' : LgTree) (t : SkTree) (T : BTree) (lr base : F64) : Prop :=
  (∀ fvals v, (∃ j, t'.predict P fvals = .ok (v, j)) ↔
    ∃ k x, fvals ≠ [] ∧ Walk (SkGoes t.nodes (nanToZero fvals)) T k ∧ t.values[k]? = some x ∧ v = P.mulAdd x lr base) ∧
  t'.nLeaves = (if T.isLeaf then 2 else T.leaves.length) ∧
  ∃ idx : Nat → Nat, ((T.leaves.map idx).Perm (List.range T.leaves.length) ∧ ∀ k ∈ T.leaves, T.counted[idx k]? = some k) ∧
    ∀ fvals j, (∃ v, t'.predict P fvals = .ok (v, j)) ↔ ∃ k, fvals ≠ [] ∧ Walk (SkGoes t.nodes (nanToZero fvals)) T k ∧ j = idx k

theorem sk_tree_loaded (P : Platform) {t : SkTree} {T : BTree} (lr base : F64) (h : SkTreeOK t T) (ha : t.nodes.length * 24 ≤ P.maxAlloc) :
    ∃ t', lgTreeFromSklearn P t lr base = .ok t' ∧ SkTreeMeans P t' t T lr base := by
  cases T with
  | node i l r =>
    obtain ⟨t', h1, h2⟩ := C07_sk_tree_value_nan P t _ lr base h rfl ha
    obtain ⟨t'', h1', h3, -, idx, hi, hj, h4⟩ := sk_load P lr base h rfl ha
    rw [h1] at h1'
    cases h1'
    have hne : ∀ {k : Nat} {fvals : List F64}, Walk (SkGoes t.nodes (nanToZero fvals)) (.node i l r) k → fvals ≠ [] := by
      rintro k _ hw rfl
      cases hw with
      | left hg _ => exact absurd hg (by simp [SkGoes, nanToZero])
      | right hg _ => exact absurd hg (by simp [SkGoes, nanToZero])
    refine ⟨t', h1, fun fvals v => ?_, h3, idx, ⟨perm_range_of_inj (List.nodup_append.1 h.distinct).2.1 hi hj.1, hj.2⟩, fun fvals j => ?_⟩
    · rw [h2]
      exact exists_congr fun k => exists_congr fun x => ⟨fun hw => ⟨hne hw.1, hw⟩, fun hw => hw.2⟩
    · constructor
      · rintro ⟨v, hv⟩
        obtain ⟨k, w, rfl, _⟩ := ((h4 fvals).2 v j).1 hv
        exact ⟨k, hne w, w, rfl⟩
      · rintro ⟨k, -, w, rfl⟩
        obtain ⟨n, hn, _⟩ := SkShape.leaves_lt h.shape k (Leaves.Walk.mem_leaves w)
        have hkv : k < t.values.length := by rw [h.values]; exact (List.getElem?_eq_some_iff.1 hn).1
        exact ⟨_, ((h4 fvals).2 _ _).2 ⟨k, w, rfl, _, List.getElem?_eq_getElem hkv, rfl⟩⟩
  | leaf k =>
    obtain ⟨t', x, h1, hx, h2⟩ := C07_sk_single_leaf P t k lr base h
    obtain ⟨rfl, v0, -, h3⟩ := sk_load_leaf P lr base h
    rw [h1] at h3
    cases h3
    have hnone : ∀ v j, ({ nodes := [⟨F64.zero, 0, 0, 0, Flag.leftLeaf ||| Flag.rightLeaf⟩], leafValues := [v0] } : LgTree).predict P [] ≠ .ok (v, j) := by
      intro v j hj
      have := single_leaf_nLeaves hj
      simp [LgTree.nLeaves] at this
    refine ⟨_, h1, fun fvals v => ?_, rfl, fun _ => 0, ⟨by simp [BTree.leaves], by simp [BTree.leaves, BTree.counted]⟩, fun fvals j => ?_⟩
    · by_cases hne : fvals = []
      · subst hne
        exact ⟨fun ⟨j, hj⟩ => absurd hj (hnone v j), fun ⟨_, _, hn, _⟩ => absurd rfl hn⟩
      · rw [h2 fvals hne]
        constructor
        · rintro ⟨j, hj⟩
          cases hj
          exact ⟨0, x, hne, .leaf 0, hx, rfl⟩
        · rintro ⟨k, y, -, hw, hy, rfl⟩
          cases hw
          rw [hx] at hy
          cases hy
          exact ⟨0, rfl⟩
    · by_cases hne : fvals = []
      · subst hne
        exact ⟨fun ⟨v, hj⟩ => absurd hj (hnone v j), fun ⟨_, hn, _⟩ => absurd rfl hn⟩
      · rw [h2 fvals hne]
        constructor
        · rintro ⟨v, hv⟩
          cases hv
          exact ⟨0, hne, .leaf 0, rfl⟩
        · rintro ⟨k, -, -, rfl⟩
          exact ⟨_, rfl⟩

/-- the loaded classifier -/
def skBase (ts : List LgTree) (M : SkModel) : Base :=
  .lg { trees := ts, maxFeatureIdx := wrap64 (M.maxFeatures - 1), nRawOutputGroups := M.groups, name := "sklearn.ensemble.GradientBoostingClassifier", averageOutput := false }

theorem sk_file_loaded (P : Platform) {v : PyVal} {bs : Bytes} {μ : Memo} (hd : Dumps P noMemo v bs μ) {M : SkModel}
    (hc : IsClassifier M v) (ok : M.OK P.maxAlloc) :
    ∃ ts, (∀ rest lt, skEnsembleFromReader P (bs ++ octet '.' :: rest) lt = .ok ⟨skBase ts M, .raw M.groups⟩) ∧
      ts.length = M.estimators * M.groups ∧ M.prior.length = M.groups ∧
      ∀ i k p, i < M.estimators → M.prior[k]? = some p → ∃ t' t T, ts[i * M.groups + k]? = some t' ∧ M.trees[i * M.groups + k]? = some t ∧
        M.shapes[i * M.groups + k]? = some T ∧ SkTreeMeans P t' t T M.learningRate (if i = 0 then p else F64.zero) := by
  obtain ⟨c1, c2, c3⟩ := ok.counts
  have hgr : 1 ≤ M.groups ∧ M.groups ≤ M.classes := by unfold SkModel.groups; split <;> omega
  have hint := ok.int
  have hmul : M.estimators * M.groups ≤ M.estimators * M.classes := Nat.mul_le_mul_left _ hgr.2
  have hidx : ∀ {i k : Nat}, i < M.estimators → k < M.groups → i * M.groups + k < M.estimators * M.groups := by
    intro i k hi hk
    calc i * M.groups + k < i * M.groups + M.groups := by omega
      _ = (i + 1) * M.groups := by ring
      _ ≤ M.estimators * M.groups := Nat.mul_le_mul_right _ (by omega)
  have hsl : M.shapes.length = M.estimators * M.groups := by rw [← ok.trees.length_eq, c3]
  have htree : ∀ {i : Nat}, i < M.estimators * M.groups → ∃ t T, M.trees[i]? = some t ∧ M.shapes[i]? = some T ∧ SkTreeOK t T ∧
      t.nodes.length * 24 ≤ P.maxAlloc := by
    intro i hi
    exact ⟨M.trees[i]'(by omega), M.shapes[i]'(by omega), List.getElem?_eq_getElem _, List.getElem?_eq_getElem _,
      ok.trees.get (by omega) (by omega), (ok.treeAlloc _ (List.getElem_mem _)).1⟩
  -- any accepted bytes give the same parsed object, so the trees are fixed by the model alone
  have hbytes : ∀ rest lt, ∃ g, skEnsembleFromReader P (bs ++ octet '.' :: rest) lt = skAssemble P g ∧ g.nClasses = M.classes ∧
      g.nEstimators = M.estimators ∧ g.maxFeatures = M.maxFeatures ∧ g.learningRate = M.learningRate ∧
      g.estimators.map SkRegressor.tree = M.trees ∧ skBases P g.initEstimator M.groups = .ok M.prior := by
    intro rest lt
    obtain ⟨x, m, h1, h2⟩ := decode_dumps P v bs rest μ hd
    obtain ⟨g, h3, h4⟩ := parse_classifier hc ok h2
    refine ⟨g, ?_, h4⟩
    unfold skEnsembleFromReader
    rw [h1, Res.ok_bind]
    dsimp only
    rw [h3, Res.ok_bind]
  have hload : ∀ g : SkBoosting, g.nClasses = M.classes → g.nEstimators = M.estimators → g.maxFeatures = M.maxFeatures →
      g.learningRate = M.learningRate → g.estimators.map SkRegressor.tree = M.trees → skBases P g.initEstimator M.groups = .ok M.prior →
      ∃ ts, skAssemble P g = .ok ⟨skBase ts M, .raw M.groups⟩ ∧ skIterations P g.estimators M.learningRate M.estimators 0 M.prior = .ok ts := by
    intro g e1 e2 e3 e4 e5 e6
    have hp : M.prior.length = M.groups := by exact_mod_cast skBases_length e6
    have hel : g.estimators.length = M.estimators * M.groups := by rw [← c3, ← e5, List.length_map]
    obtain ⟨ts, h1⟩ := skIterations_ok (P := P) (es := g.estimators) (lr := M.learningRate) (K := M.groups) M.estimators 0 M.prior hp (by
      intro i k b hi hk
      have hx := hidx hi hk
      obtain ⟨t, T, k1, k2, k3, k4⟩ := htree hx
      obtain ⟨t', k5, -⟩ := sk_tree_loaded P M.learningRate b k3 k4
      rw [← e5, List.getElem?_map, Option.map_eq_some_iff] at k1
      obtain ⟨est, k1, rfl⟩ := k1
      exact ⟨est, t', by rw [Nat.zero_add]; exact k1, k5⟩)
    refine ⟨ts, ?_, h1⟩
    have hG : (if g.nClasses = 2 then 1 else g.nClasses) = (M.groups : Int) := by
      rw [e1]; unfold SkModel.groups; split <;> split <;> omega
    unfold skAssemble
    dsimp only
    rw [hG, e2, if_neg (by omega), hel]
    have hw1 : wrap64 ((M.estimators : Int) * (M.groups : Int)) = ((M.estimators * M.groups : Nat) : Int) := by
      rw [← Nat.cast_mul]; exact wrap64_small (by omega)
    have hw2 : wrap64 ((M.estimators : Int) * g.nClasses) = ((M.estimators * M.classes : Nat) : Int) := by
      rw [e1, ← Nat.cast_mul]; exact wrap64_small (by omega)
    rw [hw1, if_neg (by simp), e6, Res.ok_bind, hw2, allocCheck_int (by omega) (by have := ok.alloc.2; rw [← Nat.cast_mul]; exact_mod_cast (by omega : M.estimators * M.classes * 104 ≤ P.maxAlloc)), Res.ok_bind, e4, Int.toNat_natCast, h1, e3]
    rfl
  -- the trees do not depend on which parsed object they came from
  have hsame : ∀ (es es' : List SkRegressor), es.map SkRegressor.tree = es'.map SkRegressor.tree → ∀ n i0 b,
      skIterations P es M.learningRate n i0 b = skIterations P es' M.learningRate n i0 b := by
    intro es es' he
    have hi : ∀ (b : List F64) (f : Int), skIteration P es M.learningRate f b = skIteration P es' M.learningRate f b := by
      intro b
      induction b with
      | nil => intro f; rfl
      | cons x b ih =>
        intro f
        rw [skIteration, skIteration]
        have hx : (Res.idxI es f >>= fun est => lgTreeFromSklearn P est.tree M.learningRate x) =
            (Res.idxI es' f >>= fun est => lgTreeFromSklearn P est.tree M.learningRate x) := by
          unfold Res.idxI
          split
          · rfl
          · have := congrArg (fun l => l[f.toNat]?) he
            simp only [List.getElem?_map] at this
            unfold Res.idx
            cases h1 : es[f.toNat]? <;> cases h2 : es'[f.toNat]? <;> rw [h1, h2] at this <;> simp at this
            simp only [Res.ok_bind, this]
        rw [ih]
        generalize Res.idxI es f = A at hx ⊢
        generalize Res.idxI es' f = B at hx ⊢
        have := congrArg (fun r => r >>= fun t => skIteration P es' M.learningRate (f + 1) b >>= fun ts => (pure (t :: ts) : Res (List LgTree))) hx
        simpa only [bind_assoc] using this
    intro n
    induction n with
    | zero => intro i0 b; rfl
    | succ n ih => intro i0 b; rw [skIterations, skIterations, hi, ih]
  obtain ⟨g, hg, e1, e2, e3, e4, e5, e6⟩ := hbytes [] false
  obtain ⟨ts, h1, h2⟩ := hload g e1 e2 e3 e4 e5 e6
  have hp : M.prior.length = M.groups := by exact_mod_cast skBases_length e6
  obtain ⟨l1, l2⟩ := skIterations_get _ _ _ _ hp h2
  refine ⟨ts, ?_, l1, hp, ?_⟩
  · intro rest lt
    obtain ⟨g', hg', e1', e2', e3', e4', e5', e6'⟩ := hbytes rest lt
    obtain ⟨ts', h1', h2'⟩ := hload g' e1' e2' e3' e4' e5' e6'
    rw [hsame _ g.estimators (by rw [e5, e5']), h2] at h2'
    cases h2'
    rw [hg', h1']
  · intro i k p hi hk
    have hkl : k < M.groups := by rw [← hp]; exact (List.getElem?_eq_some_iff.1 hk).1
    obtain ⟨t, T, k1, k2, k3, k4⟩ := htree (hidx hi hkl)
    obtain ⟨est, t', j1, j2, j3⟩ := l2 i k p hi hk
    rw [Nat.zero_add] at j1
    have : est.tree = t := by
      have h := k1
      rw [← e5, List.getElem?_map, j1] at h
      simpa using h
    rw [this] at j3
    obtain ⟨t'', m1, m2⟩ := sk_tree_loaded P M.learningRate (if i = 0 then p else F64.zero) k3 k4
    rw [j3] at m1
    cases m1
    exact ⟨t', t, T, j2, k1, k2, m2⟩

theorem sk_raw (P : Platform) (M : SkModel) (ts : List LgTree) (hp : M.prior.length = M.groups)
    (hmean : ∀ i k p, i < M.estimators → M.prior[k]? = some p → ∃ t' t T, ts[i * M.groups + k]? = some t' ∧ M.trees[i * M.groups + k]? = some t ∧
        M.shapes[i * M.groups + k]? = some T ∧ SkTreeMeans P t' t T M.learningRate (if i = 0 then p else F64.zero))
    (fvals : List F64) (n : Nat) (hn : n ≤ M.estimators) (w : List F64) :
    IsRaw P (skBase ts M) fvals n w ↔ SkRefRaw P M fvals n w := by
  have hval : ∀ v : Nat → Nat → F64, TreeValues P ts M.groups n fvals v ↔
      (∀ i < n, ∀ k < M.groups, ∃ t T leaf x p, M.trees[i * M.groups + k]? = some t ∧ M.shapes[i * M.groups + k]? = some T ∧
        fvals ≠ [] ∧ Walk (SkGoes t.nodes (nanToZero fvals)) T leaf ∧ t.values[leaf]? = some x ∧ M.prior[k]? = some p ∧
        v i k = P.mulAdd x M.learningRate (if i = 0 then p else F64.zero)) := by
    intro v
    unfold TreeValues
    refine forall_congr' fun i => forall_congr' fun hi => forall_congr' fun k => forall_congr' fun hk => ?_
    have e0 : M.prior[k]? = some (M.prior[k]'(by omega)) := List.getElem?_eq_getElem _
    obtain ⟨t', t, T, e1, e2, e3, hm⟩ := hmean i k _ (by omega) e0
    have hm := hm.1 fvals (v i k)
    constructor
    · rintro ⟨t0, j, h1, h2⟩
      rw [e1] at h1
      cases h1
      obtain ⟨leaf, x, h3, h4, h5, h6⟩ := hm.1 ⟨j, h2⟩
      exact ⟨t, T, leaf, x, _, e2, e3, h3, h4, h5, e0, h6⟩
    · rintro ⟨t0, T0, leaf, x, p, h1, h2, h3, h4, h5, h6, h7⟩
      rw [e2] at h1
      rw [e3] at h2
      rw [e0] at h6
      cases h1; cases h2; cases h6
      obtain ⟨j, hj⟩ := hm.2 ⟨leaf, x, h3, h4, h5, h7⟩
      exact ⟨t', j, e1, hj⟩
  constructor
  · rintro ⟨G, v, hG, hv, rfl⟩
    have hG : (M.groups : Int) = G := hG
    have hG : M.groups = G := by exact_mod_cast hG
    subst hG
    exact ⟨v, (hval v).1 hv, rfl⟩
  · rintro ⟨v, hv, rfl⟩
    exact ⟨M.groups, v, rfl, (hval v).2 hv, rfl⟩

/-- C63: every protocol-0 pickle of a fitted gradient boosting classifier loads, whatever follows it and whether or not a
transformation is asked for, and predicts the sums of scaled leaf values found by walking the file's own arrays. C55: the prior
of a group is part of the first estimator's value and of no other. -/
theorem C63_sklearn_file (P : Platform) (v : PyVal) (bs : Bytes) (μ : Memo) (hd : Dumps P noMemo v bs μ) (M : SkModel)
    (hc : IsClassifier M v) (ok : M.OK P.maxAlloc) :
    ∃ ens, (∀ rest lt, skEnsembleFromReader P (bs ++ octet '.' :: rest) lt = .ok ens) ∧ Fits ens ∧ ens.transform = .raw M.groups ∧
      ens.nRawOutputGroups = M.groups ∧ ens.nOutputGroups = M.groups ∧ ens.nEstimators = .ok M.estimators ∧
      ens.nFeatures = (if 2 ≤ M.maxFeatures then M.maxFeatures else 0) ∧
      (∀ fvals n w, n ≤ M.estimators → (IsRaw P ens.base fvals n w ↔ SkRefRaw P M fvals n w)) ∧
      ∀ fvals req s s', ((ens.predict P fvals req s.length).run s = (.ok ⟨⟩, s') ↔
        (M.groups ≤ s.length ∧ ens.nFeatures ≤ fvals.length ∧ ∃ n w, Used req M.estimators n ∧ SkRefRaw P M fvals n w ∧ Stored s 0 w s')) := by
  obtain ⟨c1, c2, c3⟩ := ok.counts
  have hgr : 1 ≤ M.groups ∧ M.groups ≤ M.classes := by unfold SkModel.groups; split <;> omega
  have hint := ok.int
  have hmul : 1 * M.groups ≤ M.estimators * M.classes := Nat.mul_le_mul c2 hgr.2
  obtain ⟨ts, h1, hl, hp, hmean⟩ := sk_file_loaded P hd hc ok
  have hN : ts.length / M.groups = M.estimators := by rw [hl, Nat.mul_div_cancel _ (by omega)]
  have htot : ∀ total, IsTotal (skBase ts M) total ↔ total = M.estimators := by
    intro total
    constructor
    · rintro ⟨G, hG, -, rfl⟩
      have hG : (M.groups : Int) = G := hG
      have hG : M.groups = G := by exact_mod_cast hG
      subst hG
      exact hN
    · rintro rfl
      exact ⟨M.groups, rfl, by omega, hN.symm⟩
  have hfit : Fits ⟨skBase ts M, .raw M.groups⟩ := ⟨M.groups, M.estimators, rfl, hgr.1, (htot _).2 rfl, rfl⟩
  have hraw := fun fvals n w hn => sk_raw P M ts hp hmean fvals n hn w
  refine ⟨_, h1, hfit, rfl, rfl, rfl, ?_, ?_, hraw, ?_⟩
  · show goDiv (ts.length : Int) (M.groups : Int) = .ok (M.estimators : Int)
    unfold goDiv
    rw [if_neg (by omega), hl]
    push_cast
    rw [Int.mul_tdiv_cancel _ (by omega)]
  · obtain ⟨h1, h2⟩ := ok.features
    show (if wrap64 (M.maxFeatures - 1) > 0 then wrap64 (wrap64 (M.maxFeatures - 1) + 1) else 0) = _
    rw [wrap64_id (i := M.maxFeatures - 1) (by omega) (by omega), wrap64_id (i := M.maxFeatures - 1 + 1) (by omega) (by omega)]
    split <;> split <;> omega
  · intro fvals req s s'
    rw [predict_of_raw P _ hfit (by show (M.groups : Int) < 2 ^ 63; omega) M.estimators htot (by intro k; simp) fvals
      (fun n w hn => hraw fvals n w hn) req s s']
    refine and_congr (show (M.groups : Int) ≤ (s.length : Int) ↔ _ from Int.ofNat_le) (and_congr Iff.rfl (exists_congr fun n => exists_congr fun w => ?_))
    dsimp only [IsTransformed]
    constructor
    · rintro ⟨out, a, b, rfl, c⟩; exact ⟨a, b, c⟩
    · rintro ⟨a, b, c⟩; exact ⟨w, a, b, rfl, c⟩

/-- C55, for every accepted object, well-formed or not: the tree of estimator `i` and group `k` is made from the file's tree with
the prior of the group if `i = 0`, and with zero otherwise. -/
theorem C55_first_only (P : Platform) (g : SkBoosting) (ens : Ensemble) (h : skAssemble P g = .ok ens) :
    ∃ (K : Nat) (prior : List F64) (e : LgEnsemble), ens.base = .lg e ∧ e.nRawOutputGroups = K ∧ prior.length = K ∧
      skBases P g.initEstimator K = .ok prior ∧ ∀ (i k : Nat) (p : F64), (i : Int) < g.nEstimators → prior[k]? = some p →
        ∃ est t, g.estimators[i * K + k]? = some est ∧ e.trees[i * K + k]? = some t ∧
          lgTreeFromSklearn P est.tree g.learningRate (if i = 0 then p else F64.zero) = .ok t := by
  obtain ⟨K, bases, ts, -, -, h1, h2, h3, rfl⟩ := skAssemble_inv h
  obtain ⟨-, l2⟩ := skIterations_get _ _ _ _ h2 h3
  refine ⟨K, bases, _, rfl, rfl, h2, h1, fun i k p hi hp => ?_⟩
  obtain ⟨est, t, a, b, c⟩ := l2 i k p (by omega) hp
  exact ⟨est, t, by rw [Nat.zero_add] at a; exact a, b, c⟩

theorem accumulate_succ (step : Nat → F64 → F64) (n : Nat) (a : F64) :
    accumulate step (n + 1) a = accumulate (fun i => step (i + 1)) n (step 0 a) := by
  unfold accumulate
  rw [List.range_succ_eq_map, List.foldl_cons, List.foldl_map]

/-- C55: with `n + 1` estimators, the raw score of a group is the scaled value of the first estimator's leaf plus the prior,
plus the scaled values of the other estimators' leaves. -/
theorem C55_prior_once (P : Platform) (v : PyVal) (bs : Bytes) (μ : Memo) (hd : Dumps P noMemo v bs μ) (M : SkModel)
    (hc : IsClassifier M v) (ok : M.OK P.maxAlloc) (fvals : List F64) (n : Nat) (hn : n < M.estimators) :
    ∃ ens, (∀ rest lt, skEnsembleFromReader P (bs ++ octet '.' :: rest) lt = .ok ens) ∧
      ∀ w, IsRaw P ens.base fvals (n + 1) w ↔ ∃ x : Nat → Nat → F64,
        (∀ i ≤ n, ∀ k < M.groups, ∃ t T leaf, M.trees[i * M.groups + k]? = some t ∧ M.shapes[i * M.groups + k]? = some T ∧
          fvals ≠ [] ∧ Walk (SkGoes t.nodes (nanToZero fvals)) T leaf ∧ t.values[leaf]? = some (x i k)) ∧
        w.length = M.groups ∧ ∀ k < M.groups, ∃ p, M.prior[k]? = some p ∧
          w[k]? = some (accumulate (fun i acc => P.mulAdd (P.mulAdd (x (i + 1) k) M.learningRate F64.zero) F64.one acc) n
            (P.mulAdd (P.mulAdd (x 0 k) M.learningRate p) F64.one F64.zero)) := by
  obtain ⟨ens, h1, -, -, -, -, -, -, hraw, -⟩ := C63_sklearn_file P v bs μ hd M hc ok
  refine ⟨ens, h1, fun w => ?_⟩
  rw [hraw fvals (n + 1) w (by omega)]
  constructor
  · rintro ⟨y, hy, rfl⟩
    choose! t T leaf x p a1 a2 a3 a4 a5 a6 a7 using hy
    refine ⟨x, fun i hi k hk => ⟨t i (by omega) k hk, T i (by omega) k hk, leaf i k, a1 i (by omega) k hk, a2 i (by omega) k hk, a3 i (by omega) k hk,
      a4 i (by omega) k hk, a5 i (by omega) k hk⟩, by simp, fun k hk => ⟨p 0 k, a6 0 (by omega) k hk, ?_⟩⟩
    rw [List.getElem?_map, List.getElem?_range hk, Option.map_some, accumulate_succ, a7 0 (by omega) k hk, if_pos rfl]
    congr 1
    unfold accumulate
    refine List.foldl_ext _ _ _ fun acc i hi => ?_
    dsimp only
    rw [a7 (i + 1) (by have := List.mem_range.1 hi; omega) k hk, if_neg (by omega)]
  · rintro ⟨x, hx, hl, hw⟩
    choose! p b1 b2 using hw
    refine ⟨fun i k => P.mulAdd (x i k) M.learningRate (if i = 0 then p k else F64.zero), fun i hi k hk => ?_, ?_⟩
    · obtain ⟨t, T, leaf, a1, a2, a3, a4, a5⟩ := hx i (by omega) k hk
      exact ⟨t, T, leaf, x i k, p k, a1, a2, a3, a4, a5, b1 k hk, rfl⟩
    · refine List.ext_getElem? fun k => ?_
      by_cases hk : k < M.groups
      · rw [b2 k hk, List.getElem?_map, List.getElem?_range hk, Option.map_some, accumulate_succ]
        simp
      · rw [List.getElem?_eq_none (by omega), List.getElem?_eq_none (by simp; omega)]

/-- C64, for classifiers that consider every feature for each split (`max_features` left at its default) and have at least two:
`NFeatures` is the number of features of the training data. What is missing: other values of `max_features`, for which it is
false (`SkModelExample.C64_features_wrong`). -/
theorem C64_features_partial (P : Platform) (v : PyVal) (bs : Bytes) (μ : Memo) (hd : Dumps P noMemo v bs μ) (M : SkModel)
    (hc : IsClassifier M v) (ok : M.OK P.maxAlloc) (kvs : PyMap) (F : Nat)
    (hi : IsInstance "sklearn.ensemble.gradient_boosting" "GradientBoostingClassifier" kvs v)
    (_ : kvs.attr "n_features_" = some (.int F)) (hm : kvs.attr "max_features_" = some (.int F)) (h2 : 2 ≤ F) :
    ∃ ens, (∀ rest lt, skEnsembleFromReader P (bs ++ octet '.' :: rest) lt = .ok ens) ∧ ens.nFeatures = F := by
  obtain ⟨ens, h1, -, -, -, -, -, h4, -⟩ := C63_sklearn_file P v bs μ hd M hc ok
  obtain ⟨kvs', loss, init, classes, labels, ests, dtype, e, list, ⟨a, b, hi'⟩, -, -, -, -, -, -, -, hm', -⟩ := hc
  obtain ⟨a', b', rfl⟩ := hi
  cases hi'
  rw [hm] at hm'
  have hF : (F : Int) = M.maxFeatures := by simpa using hm'
  exact ⟨ens, h1, by rw [hF, h4, if_pos (by omega)]⟩

/-! ### examples -/

namespace SkModelExample

/-- a dtype -/
def dtype (t : String) : PyVal := .reduce (pyName "numpy" "dtype") (.ofList [pyStr t, .int 0, .int 1])
/-- a bytes object -/
def bytes (bs : Bytes) : PyVal := .reduce (pyName "_codecs" "encode") (.ofList [.str bs, pyStr "latin1"])
/-- an array -/
def array (shape : List Int) (t : String) (data : PyVal) : PyVal :=
  .build (pyName "numpy.core.multiarray" "_reconstruct") (.ofList [pyName "numpy" "ndarray", .tuple (.ofList [.int 0]), pyStr "b"])
    (.tuple (.ofList [.int 1, .tuple (.ofList (shape.map PyVal.int)), dtype t, .int 0, data]))
/-- a scalar -/
def scalar (t : String) (bs : Bytes) : PyVal :=
  .reduce (pyName "numpy.core.multiarray" "scalar") (.ofList [dtype t, bytes bs])
/-- an instance -/
def inst (modul name : String) (kvs : PyMap) : PyVal :=
  .build (pyName "copy_reg" "_reconstructor") (.ofList [pyName modul name, pyName "__builtin__" "object", .none]) (.dict kvs)
/-- a dict -/
def items : List (String × PyVal) → PyMap
  | [] => .nil
  | (k, v) :: kvs => .cons (octets k.toList) v (items kvs)

/-- a leaf's fields -/
def leafWords : NodeWords := ⟨-1, -1, -2, 0xc000000000000000, 0, 1, 0x3ff0000000000000⟩
/-- the fields of `SkExample.tree` -/
def nodeWords : List NodeWords :=
  [⟨1, 4, 1, 0x3fe0000000000000, 0, 1, 0x3ff0000000000000⟩, ⟨2, 3, 0, 0x4008000000000000, 0, 1, 0x3ff0000000000000⟩,
    leafWords, leafWords, leafWords]
/-- 0, 0, 10, 20, 30 -/
def valueWords : List (BitVec 64) := [0, 0, 0x4024000000000000, 0x4034000000000000, 0x403e000000000000]

/-- `SkExample.tree` -/
def tree : PyVal :=
  .build (pyName "sklearn.tree._tree" "Tree") (.ofList [.int 2, array [1] "i8" (bytes (field64 1)), .int 1])
    (.dict (items [("max_depth", .int 2), ("node_count", .int 5), ("nodes", array [5] "V56" (bytes (nodeWords.flatMap NodeWords.record))),
      ("values", array [5, 1, 1] "f8" (bytes (valueWords.flatMap field64)))]))

/-- a regressor with this tree -/
def regressor : PyVal :=
  inst "sklearn.tree.tree" "DecisionTreeRegressor"
    (items [("n_classes_", scalar "i8" (field64 1)), ("max_features_", .int 2), ("n_outputs_", .int 1), ("tree_", tree)])

/-- log odds 5 -/
def init : PyVal :=
  inst "sklearn.ensemble.gradient_boosting" "LogOddsEstimator" (items [("prior", scalar "f8" (field64 0x4014000000000000))])

/-- a classifier with learning rate 2, trained on two features -/
def classifier (classes estimators groups maxFeatures : Int) (list : List PyVal) : PyVal :=
  inst "sklearn.ensemble.gradient_boosting" "GradientBoostingClassifier"
    (items [("n_classes_", .int classes), ("learning_rate", .float (F64.ofNat 2)), ("loss", pyStr "deviance"), ("init_", init),
      ("classes_", array [2] "i8" (bytes (field64 0 ++ field64 1))), ("n_features_", .int 2), ("max_features_", .int maxFeatures),
      ("n_estimators", .int estimators), ("estimators_", array [estimators, groups] "O" (.list (.ofList list)))])

/-- the text of the learning rate -/
def print : F64 → Str := fun _ => "2".toList

/-- two classes, two estimators -/
def model (maxFeatures : Int) : SkModel where
  classes := 2
  estimators := 2
  maxFeatures := maxFeatures
  learningRate := F64.ofNat 2
  prior := [F64.ofNat 5]
  trees := [SkExample.tree, SkExample.tree]
  shapes := [SkExample.shape, SkExample.shape]

/-- the classifier -/
def value (maxFeatures : Int) : PyVal := classifier 2 2 1 maxFeatures [regressor, regressor]

theorem is_array (shape : List Int) (t : String) (data : PyVal) : IsArray shape t (octet '<') data (array shape t data) :=
  ⟨_, _, _, _, .plain _ _ rfl, rfl⟩

theorem is_tree : IsTree SkExample.tree tree := by
  refine ⟨_, _, _, _, _, rfl, ⟨[1], _, is_array _ _ _, ?_, by decide⟩, rfl, rfl, ⟨_, _, nodeWords, _, is_array _ _ _, rfl, by decide +kernel⟩, rfl,
    ⟨_, _, _, _, is_array _ _ _, rfl, valueWords, by decide +kernel, Or.inl ⟨rfl, rfl⟩⟩⟩
  show IsBytes (field64 1 ++ []) _
  rw [List.append_nil]
  rfl

theorem is_regressor : IsRegressor SkExample.tree regressor :=
  ⟨_, _, _, _, _, _, ⟨_, _, rfl⟩, rfl, ⟨_, _, .plain _ _ rfl, rfl, rfl⟩, rfl, rfl, rfl, is_tree⟩

theorem is_classifier (maxFeatures : Int) : IsClassifier (model maxFeatures) (value maxFeatures) := by
  refine ⟨_, octets "deviance".toList, _, _, [0, 1], _, "O", octet '<', .ofList [regressor, regressor], ⟨_, _, rfl⟩, rfl, rfl, rfl, rfl, ?_, rfl,
    ⟨[0, 1], _, is_array _ _ _, ?_, by decide⟩, rfl, rfl, rfl, is_array _ _ _, .cons is_regressor (.cons is_regressor .nil)⟩
  · exact .logOdds _ _ _ (octet '<') _ (F64.ofNat 5) ⟨_, _, rfl⟩ rfl ⟨_, _, .plain _ _ rfl, rfl, rfl⟩
      ⟨[0x4014000000000000], by decide +kernel, Or.inl ⟨rfl, by simp⟩⟩
  · show IsBytes ([0, 1].flatMap field64) _
    simp [IsBytes, bytes]

theorem model_ok (maxFeatures : Int) (h : -2 ^ 63 < maxFeatures ∧ maxFeatures < 2 ^ 63 := by decide) : (model maxFeatures).OK Platform.demo.maxAlloc where
  counts := ⟨by show 1 ≤ 2; omega, by show 1 ≤ 2; omega, rfl⟩
  trees := .cons SkExample.tree_ok (.cons SkExample.tree_ok .nil)
  alloc := ⟨by show 2 * 8 ≤ 2 ^ 32; norm_num, by show 2 * 2 * 112 ≤ 2 ^ 32; norm_num⟩
  int := by show 2 * 2 < 2 ^ 63; norm_num
  features := h
  treeAlloc := by
    intro t ht
    have : t = SkExample.tree := by simpa [model] using ht
    subst this
    decide

theorem writable (maxFeatures : Int) (h : IsInt64 maxFeatures) : (value maxFeatures).Writable Platform.demo print := by
  repeat' first
    | exact trivial
    | exact h
    | exact ⟨by decide, by decide⟩
    | exact ⟨by decide, by decide +kernel⟩
    | apply And.intro

/-- a case of C63 and C55 -/
example : ∃ ens, (∀ rest lt, skEnsembleFromReader Platform.demo ((value 2).dump print ++ octet '.' :: rest) lt = .ok ens) ∧
    ens.nRawOutputGroups = 1 ∧ ens.nEstimators = .ok 2 ∧ ens.nFeatures = 2 := by
  obtain ⟨ens, h1, -, -, h2, -, h3, h4, -⟩ := C63_sklearn_file Platform.demo _ _ _ (dump_dumps _ (writable 2 ⟨by decide, by decide⟩)) _
    (is_classifier 2) (model_ok 2)
  exact ⟨ens, h1, h2, h3, h4.trans (if_pos (by decide))⟩

theorem row_walk : Walk (SkGoes SkExample.tree.nodes (nanToZero [F64.zero, F64.zero])) SkExample.shape 2 :=
  .left ⟨_, 1, F64.zero, rfl, rfl, rfl, by simp only [true_iff]; exact (F64.le_iff _ _).1 (by decide +kernel)⟩
    (.left ⟨_, 0, F64.zero, rfl, rfl, rfl, by simp only [true_iff]; exact (F64.le_iff _ _).1 (by decide +kernel)⟩ (.leaf 2))

/-- two leaves of value 10, scaled by 2, and the prior 5 once -/
theorem row_raw (maxFeatures : Int) : SkRefRaw Platform.demo (model maxFeatures) [F64.zero, F64.zero] 2 [F64.ofNat 45] := by
  refine ⟨fun i _ => if i = 0 then F64.ofNat 25 else F64.ofNat 20, fun i hi k hk => ?_, ?_⟩
  · have hk : k = 0 := by have : k < 1 := hk; omega
    subst hk
    have : i = 0 ∨ i = 1 := by omega
    rcases this with rfl | rfl
    · exact ⟨SkExample.tree, SkExample.shape, 2, F64.ofNat 10, F64.ofNat 5, rfl, rfl, by simp, row_walk, rfl, rfl,
        (by decide +kernel : F64.ofNat 25 = Platform.demo.mulAdd (F64.ofNat 10) (F64.ofNat 2) (F64.ofNat 5))⟩
    · exact ⟨SkExample.tree, SkExample.shape, 2, F64.ofNat 10, F64.ofNat 5, rfl, rfl, by simp, row_walk, rfl, rfl,
        (by decide +kernel : F64.ofNat 20 = Platform.demo.mulAdd (F64.ofNat 10) (F64.ofNat 2) F64.zero)⟩
  · show [F64.ofNat 45] = [Platform.demo.mulAdd (F64.ofNat 20) F64.one (Platform.demo.mulAdd (F64.ofNat 25) F64.one F64.zero)]
    decide +kernel

/-- a case of C64's theorem -/
example : ∃ ens, (∀ rest lt, skEnsembleFromReader Platform.demo ((value 2).dump print ++ octet '.' :: rest) lt = .ok ens) ∧ ens.nFeatures = (2 : Nat) :=
  C64_features_partial Platform.demo _ _ _ (dump_dumps _ (writable 2 ⟨by decide, by decide⟩)) _ (is_classifier 2) (model_ok 2) _ 2 ⟨_, _, rfl⟩
    rfl rfl (by decide)

/-- the prediction for this row -/
example : ∃ ens, skEnsembleFromReader Platform.demo ((value 2).dump print ++ [octet '.']) false = .ok ens ∧
    (ens.predict Platform.demo [F64.zero, F64.zero] 0 1).run [F64.zero] = (.ok ⟨⟩, [F64.ofNat 45]) := by
  obtain ⟨ens, h1, -, -, -, -, -, h4, -, h5⟩ := C63_sklearn_file Platform.demo _ _ _ (dump_dumps _ (writable 2 ⟨by decide, by decide⟩)) _
    (is_classifier 2) (model_ok 2)
  refine ⟨ens, h1 [] false, (h5 _ 0 [F64.zero] _).2 ⟨by decide, ?_, 2, _, (rfl : 2 = 2), row_raw 2, ?_⟩⟩
  · rw [h4, if_pos (by decide)]; decide
  · refine ⟨by decide, rfl, fun j => ?_⟩
    cases j with
    | zero => rfl
    | succ j => simp

theorem of_check {α : Type} {r : Res α} (f : α → Prop) [DecidablePred f] (h : (match r with | .ok a => decide (f a) | _ => false) = true) :
    ∃ a, r = .ok a ∧ f a := by
  cases r with
  | ok a => exact ⟨a, rfl, of_decide_eq_true h⟩
  | _ => cases h

/-- C64 is false: the model was trained on two features (`n_features_`, and its trees use both), but `NFeatures` follows
`max_features_`, the number of features considered for a split: it is 0 here, and a row of one value, which is too short, is not
refused but crashes the program. -/
theorem C64_features_wrong : ∃ kvs ens, IsInstance "sklearn.ensemble.gradient_boosting" "GradientBoostingClassifier" kvs (value 1) ∧
    kvs.attr "n_features_" = some (.int 2) ∧ IsClassifier (model 1) (value 1) ∧ (model 1).OK Platform.demo.maxAlloc ∧
    skEnsembleFromReader Platform.demo ((value 1).dump print ++ [octet '.']) false = .ok ens ∧ ens.nFeatures = 0 ∧
    ∃ s, (ens.predict Platform.demo [F64.zero] 0 1).run [F64.zero] = (.panic, s) := by
  obtain ⟨ens, h, hc⟩ := of_check (r := skEnsembleFromReader Platform.demo ((value 1).dump print ++ [octet '.']) false)
    (fun ens => ens.nFeatures = 0 ∧ ((ens.predict Platform.demo [F64.zero] 0 1).run [F64.zero]).1 = .panic) (by decide +kernel)
  exact ⟨_, ens, ⟨_, _, rfl⟩, rfl, is_classifier 1, model_ok 1, h, hc.1, _, Prod.ext hc.2 rfl⟩

/-- C56 is false: a pickle with no classes loads, as a model without outputs whose `NEstimators` crashes. -/
theorem C56_no_groups : ∃ ens, skEnsembleFromReader Platform.demo ((classifier 0 1 0 2 []).dump print ++ [octet '.']) false = .ok ens ∧
    ens.nRawOutputGroups = 0 ∧ ens.nEstimators = .panic := by
  refine ⟨⟨.lg { trees := [], maxFeatureIdx := 1, nRawOutputGroups := 0, name := "sklearn.ensemble.GradientBoostingClassifier", averageOutput := false }, .raw 0⟩, ?_, rfl, rfl⟩
  decide +kernel

/-- C56 is false: a pickle with a negative number of estimators whose product with the number of classes overflows loads as a
model without trees. -/
theorem C56_negative_estimators : ∃ ens, skEnsembleFromReader Platform.demo
      ((classifier 4 (-4611686018427387904) 4 2 []).dump print ++ [octet '.']) false = .ok ens ∧
    ens.nRawOutputGroups = 4 ∧ ens.nEstimators = .ok 0 := by
  refine ⟨⟨.lg { trees := [], maxFeatureIdx := 1, nRawOutputGroups := 4, name := "sklearn.ensemble.GradientBoostingClassifier", averageOutput := false }, .raw 4⟩, ?_, rfl, rfl⟩
  decide +kernel

end SkModelExample

end Leaves
