import Verif.Props.Written

/-! # C136 for scikit-learn models -/

namespace Leaves
open Spec Pickle

theorem sk_leaf_values {P : Platform} {t : SkTree} {scale base : F64} {T : LgTree} (h : lgTreeFromSklearn P t scale base = .ok T) :
    ∀ v ∈ T.leafValues, ∃ x ∈ t.values, v = P.mulAdd x scale base := by
  have hleaf : ∀ {i : Int} {v : F64}, skLeaf P t.values scale base i = .ok v → ∃ x ∈ t.values, v = P.mulAdd x scale base := by
    intro i v h
    unfold skLeaf at h
    obtain ⟨x, hx, h⟩ := Res.bind_eq_ok.1 h
    cases h
    exact ⟨x, idxI_mem hx, rfl⟩
  unfold lgTreeFromSklearn at h
  dsimp only at h
  split at h
  · cases h
  split at h
  · obtain ⟨w, hw, h⟩ := Res.bind_eq_ok.1 h
    cases h
    intro v hv
    obtain rfl := List.mem_singleton.1 hv
    exact hleaf hw
  · obtain ⟨⟨nodes, leafValues⟩, hc, h⟩ := Res.bind_eq_ok.1 h
    cases h
    refine convert_keeps (S := skSource P t scale base) (I := fun vs => ∀ v ∈ vs, ∃ x ∈ t.values, v = P.mulAdd x scale base) ?_ (by simp) hc
    intro i aux node aux' h hI
    change skCreateNode P t scale base i aux = _ at h
    unfold skCreateNode at h
    obtain ⟨ref, -, h⟩ := Res.bind_eq_ok.1 h
    obtain ⟨l, -, h⟩ := Res.bind_eq_ok.1 h
    have happ : ∀ (vs : List F64) (i : Int) (w : F64), skLeaf P t.values scale base i = .ok w → (∀ v ∈ vs, ∃ x ∈ t.values, v = P.mulAdd x scale base) →
        ∀ v ∈ vs ++ [w], ∃ x ∈ t.values, v = P.mulAdd x scale base := by
      intro vs i w hw hvs v hv
      rcases List.mem_append.1 hv with hv | hv
      · exact hvs v hv
      · obtain rfl := List.mem_singleton.1 hv
        exact hleaf hw
    have last : ∀ (n : LgNode) (vs : List F64), (∀ v ∈ vs, ∃ x ∈ t.values, v = P.mulAdd x scale base) →
        (pure (n, vs) : Res (LgNode × List F64)) = .ok (node, aux') → ∀ v ∈ aux', ∃ x ∈ t.values, v = P.mulAdd x scale base := by
      intro n vs hvs h
      cases h
      exact hvs
    dsimp only at h
    split at h
    · obtain ⟨w, hw, h⟩ := Res.bind_eq_ok.1 h
      simp only [Res.pure_eq, Res.ok_bind] at h
      obtain ⟨r, -, h⟩ := Res.bind_eq_ok.1 h
      split at h
      · obtain ⟨w2, hw2, h⟩ := Res.bind_eq_ok.1 h
        exact last _ _ (happ _ _ _ hw2 (happ _ _ _ hw hI)) h
      · exact last _ _ (happ _ _ _ hw hI) h
    · simp only [Res.pure_eq, Res.ok_bind] at h
      obtain ⟨r, -, h⟩ := Res.bind_eq_ok.1 h
      split at h
      · obtain ⟨w2, hw2, h⟩ := Res.bind_eq_ok.1 h
        exact last _ _ (happ _ _ _ hw2 hI) h
      · exact last _ _ hI h

/-- **C136.** The same for scikit-learn: whatever pickle is accepted and has trees is a classifier, and the scores that the model predicts are sums of
values of its trees times the learning rate, where the first estimator adds the prior scores. -/
theorem C136_sklearn (P : Platform) (v : PyVal) (bs rest : Bytes) (μ : Memo) (hd : Dumps P noMemo v bs μ) (lt : Bool) (ens : Ensemble) (e : LgEnsemble)
    (h : skEnsembleFromReader P (bs ++ octet '.' :: rest) lt = .ok ens) (he : ens.base = .lg e) (hne : e.trees ≠ []) :
    ∃ M, HasClassifier M v ∧ ens.nRawOutputGroups = M.groups ∧
      ∀ row req m m', (ens.predict P row req m.length).run m = (.ok ⟨⟩, m') →
        ∃ (n : Nat) (x : Nat → Nat → F64), Used req M.estimators n ∧
          (∀ i < n, ∀ k < M.groups, ∃ t p y, M.trees[i * M.groups + k]? = some t ∧ M.prior[k]? = some p ∧ y ∈ t.values ∧
            x i k = P.mulAdd y M.learningRate (if i = 0 then p else F64.zero)) ∧
          Stored m 0 ((List.range M.groups).map fun k => accumulate (fun i acc => P.mulAdd (x i k) F64.one acc) n F64.zero) m' := by
  obtain ⟨pv, mc, h1, h2⟩ := decode_dumps P v bs rest μ hd
  unfold skEnsembleFromReader at h
  rw [h1, Res.ok_bind] at h
  obtain ⟨g, h3, h4⟩ := Res.bind_eq_ok.1 h
  obtain ⟨M, hM, hgr, -, -, hG1, hG63, htr, hav, hlen, hall⟩ := parseSkBoosting_inv h2 h3 h4 he hne
  refine ⟨M, hM, hgr, fun row req m m' hm => ?_⟩
  obtain ⟨b, tr⟩ := ens
  dsimp only at he htr
  subst he htr
  have hg : e.nRawOutputGroups = M.groups := hgr
  have hfit : Fits ⟨.lg e, .raw M.groups⟩ := ⟨M.groups, e.trees.length / M.groups, hg, hG1, ⟨M.groups, hg, hG1, rfl⟩, rfl⟩
  obtain ⟨total, n, w, ht, hu, hw, -, hst⟩ := C10_raw_prediction P _ M.groups hfit hG63 row req m m' hm
  obtain ⟨G', x, hG', hv, rfl⟩ := hw
  obtain rfl : M.groups = G' := Int.ofNat.inj (hg.symm.trans hG')
  obtain ⟨G'', hG'', -, rfl⟩ := ht
  obtain rfl : M.groups = G'' := Int.ofNat.inj (hg.symm.trans hG'')
  have hN : e.trees.length / M.groups = M.estimators := by rw [hlen]; exact Nat.mul_div_cancel _ (by omega)
  rw [hN] at hu
  have hn : n ≤ M.estimators := by
    unfold Used at hu
    split at hu <;> omega
  refine ⟨n, x, hu, fun i hi k hk => ?_, ?_⟩
  · obtain ⟨T, j, g5, g6⟩ := hv i hi k hk
    obtain ⟨t, T', p, k1, k2, k3, k4⟩ := hall i k (by omega) hk
    rw [g5] at k2
    cases k2
    obtain ⟨y, hy, hxy⟩ := sk_leaf_values k4 _ (List.mem_of_getElem? (predict_value g6))
    exact ⟨t, p, y, k1, k3, hy, hxy⟩
  · simpa only [hav, if_false, Bool.false_eq_true] using hst

namespace WrittenExample
open SkModelExample

/-- The theorem applies to the classifier of `SkModelExample`: its score for this row is a sum of values of its trees times the learning rate and the prior. -/
theorem C136_sklearn_example : ∃ (M : SkModel) (m' : List F64) (n : Nat) (x : Nat → Nat → F64), HasClassifier M (value 2) ∧ m' ≠ [F64.nan] ∧
    (∀ i < n, ∀ k < M.groups, ∃ t p y, M.trees[i * M.groups + k]? = some t ∧ M.prior[k]? = some p ∧ y ∈ t.values ∧
      x i k = Platform.demo.mulAdd y M.learningRate (if i = 0 then p else F64.zero)) ∧
    Stored [F64.nan] 0 ((List.range M.groups).map fun k => accumulate (fun i acc => Platform.demo.mulAdd (x i k) F64.one acc) n F64.zero) m' := by
  obtain ⟨ens, h, hc, hp⟩ := of_check (r := skEnsembleFromReader Platform.demo ((value 2).dump print ++ [octet '.']) false)
    (fun ens => (match ens.base with | .lg e => !e.trees.isEmpty | _ => false) = true ∧
      (let o := (ens.predict Platform.demo [F64.zero, F64.one] 0 [F64.nan].length).run [F64.nan]; o.1 = .ok ⟨⟩ ∧ o.2 ≠ [F64.nan])) (by decide +kernel)
  cases he : ens.base with
  | lg e =>
    rw [he] at hc
    have hc : e.trees ≠ [] := by
      intro h
      dsimp only at hc
      rw [h] at hc
      cases hc
    obtain ⟨M, hM, -, hall⟩ := C136_sklearn Platform.demo _ _ [] _ (dump_dumps _ (writable 2 ⟨by decide, by decide⟩)) false ens e h he hc
    obtain ⟨n, x, -, h1, h2⟩ := hall [F64.zero, F64.one] 0 [F64.nan] _ (Prod.ext hp.1 rfl)
    exact ⟨M, _, n, x, hM, hp.2, h1, h2⟩
  | _ => rw [he] at hc; cases hc

end WrittenExample

end Leaves
