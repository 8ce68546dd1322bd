import Verif.Proofs.PredictTop
import Verif.Proofs.F64Arith

/-!
# C10-C13, C21, C24, C27-C30, C44, C45: what Predict and PredictSingle store

`Spec/Output.lean` says what the output vector is, without loops or memory; `Stored` says where it goes.
`Fits` is the one assumption about the model: the output width its transformation announces is the width the model
produces. `(e.predict P fvals req m.length).run m` is the call `e.Predict(fvals, req, predictions)` on a slice with
contents `m`; its result is the outcome and the slice's final contents. Output widths are Go ints (below 2^63).
-/

namespace Leaves

open Spec GoM

/-! ### C10, C12 -/

/-- C12: Predict succeeds exactly when the slice and the row are long enough, leaf views use all estimators, and the
specified output exists (every tree it needs can be evaluated); then the output is stored at the beginning of the
slice and nothing else changes. -/
theorem C12_predict_iff (P : Platform) (e : Ensemble) (hf : Fits e) (hw : e.nOutputGroups < 2 ^ 63) (fvals : List F64)
    (req : Int) (m m' : List F64) :
    (e.predict P fvals req m.length).run m = (.ok ⟨⟩, m') ↔
      e.nOutputGroups ≤ m.length ∧ e.nFeatures ≤ fvals.length ∧ ∃ total n, IsTotal e.base total ∧ Used req total n ∧
        ((∃ k, e.transform = .leafIndex k) → n = total) ∧ ∃ out, IsOutput P e fvals n out ∧ Stored m 0 out m' := by
  rw [predict_spec hf hw]
  simp only [isLeaf_iff]

/-- C12: a successful Predict overwrites exactly the first `NOutputGroups()` elements. -/
theorem C12_window (P : Platform) (e : Ensemble) (hf : Fits e) (hw : e.nOutputGroups < 2 ^ 63) (fvals : List F64)
    (req : Int) (m m' : List F64) (h : (e.predict P fvals req m.length).run m = (.ok ⟨⟩, m')) :
    m'.length = m.length ∧ (∀ j : Nat, e.nOutputGroups ≤ (j : Int) → m'[j]? = m[j]?) ∧
      ∃ n out, IsOutput P e fvals n out ∧ (out.length : Int) = e.nOutputGroups ∧
        ∀ j : Nat, (j : Int) < e.nOutputGroups → m'[j]? = out[j]? := by
  obtain ⟨_, _, total, n, ht, hu, hl, out, ho, hs⟩ := (predict_spec hf hw).1 h
  obtain ⟨G, _, hG, _⟩ := id hf
  have hlen := output_length hG ho
  have hwe := width_eq hf hG ht
  have hout : (out.length : Int) = e.nOutputGroups := by
    by_cases hleaf : e.isLeaf
    · rw [hl hleaf] at hlen; omega
    · rw [hlen, ← hwe]
      obtain ⟨b, t⟩ := e
      cases t with
      | leafIndex k => exact absurd (isLeaf_iff.2 ⟨k, rfl⟩) hleaf
      | _ => rfl
  obtain ⟨h1, h2, h3⟩ := hs
  refine ⟨h2, fun j hj => ?_, n, out, ho, hout, fun j hj => ?_⟩
  · rw [h3, if_neg (by omega)]
  · rw [h3, if_pos (by omega), Nat.sub_zero]

/-- C12: a Predict that returns an error changes nothing (for any model whatsoever). -/
theorem C12_error_changes_nothing (P : Platform) (e : Ensemble) (fvals : List F64) (req : Int) (len : Nat) (m m' : List F64)
    (tag : String) (h : (e.predict P fvals req len).run m = (.err tag, m')) : m' = m := by
  unfold Ensemble.predict at h
  split at h
  · exact (Prod.mk.inj h).2.symm
  · split at h
    · exact (Prod.mk.inj h).2.symm
    · cases h1 : e.base.adjustNEstimators req with
      | err t => rw [h1] at h; exact (Prod.mk.inj h).2.symm
      | panic => rw [h1] at h; cases (Prod.mk.inj h).1
      | hang => rw [h1] at h; cases (Prod.mk.inj h).1
      | ok n =>
        rw [h1, ofRes_ok, ret_bind] at h
        cases h2 : e.checkNEstimators n with
        | err t => rw [h2] at h; exact (Prod.mk.inj h).2.symm
        | panic => rw [h2] at h; cases (Prod.mk.inj h).1
        | hang => rw [h2] at h; cases (Prod.mk.inj h).1
        | ok _ =>
          rw [h2, ofRes_ok, ret_bind] at h
          exact absurd (congrArg Prod.fst h) (NoErr.run (pit_noErr ..) m tag)

/-- C12: exactly the documented rejections, before anything is stored. -/
theorem C12_rejections (P : Platform) (e : Ensemble) (hf : Fits e) (hw : e.nOutputGroups < 2 ^ 63) (fvals : List F64)
    (req : Int) (m : List F64) (total n : Nat) (ht : IsTotal e.base total) (hu : Used req total n) :
    (∃ tag, (e.predict P fvals req m.length).run m = (.err tag, m)) ↔
      e.nOutputGroups > m.length ∨ e.nFeatures > fvals.length ∨ ((∃ k, e.transform = .leafIndex k) ∧ n ≠ total) := by
  rw [← isLeaf_iff]
  constructor
  · rintro ⟨tag, h⟩
    by_contra hc
    push Not at hc
    obtain ⟨G, _, hG, hG0, _⟩ := id hf
    have hwe := width_eq hf hG ht
    rw [predict_unfold hw (by omega) hc.1 hc.2.1 ht hu hc.2.2] at h
    exact NoErr.run (pit_noErr ..) m tag (congrArg Prod.fst h)
  · exact predict_rejects hf hw ht hu

/-- C10: the raw scores are the specified ordered sums (`Spec.IsRaw`). -/
theorem C10_raw_prediction (P : Platform) (b : Base) (G : Nat) (hf : Fits ⟨b, .raw G⟩) (hw : G < 2 ^ 63) (fvals : List F64)
    (req : Int) (m m' : List F64) (h : ((Ensemble.mk b (.raw G)).predict P fvals req m.length).run m = (.ok ⟨⟩, m')) :
    ∃ total n w, IsTotal b total ∧ Used req total n ∧ IsRaw P b fvals n w ∧ w.length = G ∧ Stored m 0 w m' := by
  obtain ⟨_, _, total, n, ht, hu, hl, out, ho, hs⟩ := (predict_spec hf (by simpa [Ensemble.nOutputGroups, Transform.nOutputGroups] using (by exact_mod_cast hw))).1 h
  obtain ⟨w, hw1, hw2⟩ := ho
  obtain rfl : out = w := hw2
  obtain ⟨G', _, hG', _, _, hm⟩ := id hf
  have hm : (G : Int) = G' := hm
  exact ⟨total, n, out, ht, hu, hw1, by have := IsRaw.length hG' hw1; omega, hs⟩

/-- C10: for LightGBM and scikit-learn models without averaging, score `k` is `((0 + v_0) + v_1) + … + v_{n-1}` in
float64, `v_i` the value of the tree of estimator `i` and group `k`, whether or not the platform fuses `x*y+z`. -/
theorem C10_tree_sum (P : Platform) (hP : P.MulAddOK) (e : LgEnsemble) (ha : e.averageOutput = false) (fvals : List F64)
    (n : Nat) (w : List F64) (h : IsRaw P (.lg e) fvals n w) (k : Nat) (hk : (k : Int) < e.nRawOutputGroups) :
    ∃ (G : Nat) (v : Nat → F64), e.nRawOutputGroups = G ∧
      (∀ i < n, ∃ t j, e.trees[i * G + k]? = some t ∧ t.predict P fvals = .ok (v i, j)) ∧
      w[k]? = some (((List.range n).map v).foldl F64.add F64.zero) := by
  obtain ⟨G, v, hG, hv, rfl⟩ := h
  refine ⟨G, fun i => v i k, hG, fun i hi => hv i hi k (by omega), ?_⟩
  rw [List.getElem?_map, List.getElem?_range (by omega)]
  simp only [Option.map_some, ha, Bool.false_eq_true, if_false, accumulate, hP.one, List.foldl_map]

/-- C44: for XGBoost tree models, score `k` starts from the base score and adds value times drop weight of every tree of
group `k`, in order. -/
theorem C44_weighted_sum (P : Platform) (e : XgEnsemble) (fvals : List F64)
    (n : Nat) (w : List F64) (h : IsRaw P (.xg e) fvals n w) (k : Nat) (hk : (k : Int) < e.nRawOutputGroups) :
    ∃ (G : Nat) (v c : Nat → F64), e.nRawOutputGroups = G ∧
      (∀ i < n, ∃ t j, e.trees[i * G + k]? = some t ∧ t.predict P fvals = .ok (v i, j)) ∧
      (∀ i < n, e.weightDrop[i * G + k]? = some (c i)) ∧
      w[k]? = some ((List.range n).foldl (fun acc i => P.mulAdd (v i) (c i) acc) e.baseScore) := by
  obtain ⟨G, v, c, hG, hv, hc, rfl⟩ := h
  refine ⟨G, fun i => v i k, fun i => c i k, hG, fun i hi => hv i hi k (by omega), fun i hi => hc i hi k (by omega), ?_⟩
  rw [List.getElem?_map, List.getElem?_range (by omega)]
  rfl

/-- C44: when all weights are 1 the tree values themselves are added. -/
theorem C44_unit_weights (P : Platform) (hP : P.MulAddOK) (e : XgEnsemble) (h1 : ∀ c ∈ e.weightDrop, c = F64.one)
    (fvals : List F64) (n : Nat) (w : List F64) (h : IsRaw P (.xg e) fvals n w) (k : Nat) (hk : (k : Int) < e.nRawOutputGroups) :
    ∃ (G : Nat) (v : Nat → F64), e.nRawOutputGroups = G ∧
      (∀ i < n, ∃ t j, e.trees[i * G + k]? = some t ∧ t.predict P fvals = .ok (v i, j)) ∧
      w[k]? = some (((List.range n).map v).foldl F64.add e.baseScore) := by
  obtain ⟨G, v, c, hG, hv, hc, hw⟩ := C44_weighted_sum P e fvals n w h k hk
  refine ⟨G, v, hG, hv, ?_⟩
  rw [hw, List.foldl_map]
  congr 1
  have : ∀ (l : List Nat), (∀ i ∈ l, i < n) → ∀ z, l.foldl (fun acc i => P.mulAdd (v i) (c i) acc) z =
      l.foldl (fun acc i => F64.add acc (v i)) z := by
    intro l
    induction l with
    | nil => intro _ z; rfl
    | cons i l ih =>
      intro hl z
      simp only [List.foldl_cons]
      rw [h1 _ (List.mem_of_getElem? (hc i (hl i (by simp)))), hP.one, ih (fun j hj => hl j (by simp [hj]))]
  exact this _ (fun i hi => List.mem_range.1 hi) _

/-- C45: score `k` of a gblinear model is base score plus bias of group `k` plus feature times weight in feature
order; the weights are stored feature by feature, `G` groups each, biases last. -/
theorem C45_linear_sum (P : Platform) (e : XgLinear) (fvals : List F64)
    (n : Nat) (w : List F64) (h : IsRaw P (.lin e) fvals n w) (k : Nat) (hk : (k : Int) < e.nRawOutputGroups) :
    ∃ (G F : Nat) (x c : Nat → F64) (bias : F64), e.nRawOutputGroups = G ∧ e.numFeature = F ∧
      (∀ i < F, fvals[i]? = some (x i)) ∧ (∀ i < F, e.weights[i * G + k]? = some (c i)) ∧ e.weights[F * G + k]? = some bias ∧
      w[k]? = some ((List.range F).foldl (fun acc i => P.mulAdd (x i) (c i) acc) (F64.add e.baseScore bias)) := by
  obtain ⟨G, F, x, c, bias, hG, hF, hx, hc, hb, rfl⟩ := h
  refine ⟨G, F, x, fun i => c i k, bias k, hG, hF, hx, fun i hi => ?_, ?_, ?_⟩
  · rw [Nat.mul_comm]; exact hc i hi k (by omega)
  · rw [Nat.mul_comm]; exact hb k (by omega)
  rw [List.getElem?_map, List.getElem?_range (by omega)]
  rfl

/-- C30: an averaging forest adds tree value times `1/n` for the `n` estimators used, whatever the number stored. -/
theorem C30_average_over_used (P : Platform) (e : LgEnsemble) (ha : e.averageOutput = true) (fvals : List F64)
    (n : Nat) (w : List F64) (h : IsRaw P (.lg e) fvals n w) (k : Nat) (hk : (k : Int) < e.nRawOutputGroups) :
    ∃ (G : Nat) (v : Nat → F64), e.nRawOutputGroups = G ∧
      (∀ i < n, ∃ t j, e.trees[i * G + k]? = some t ∧ t.predict P fvals = .ok (v i, j)) ∧
      w[k]? = some ((List.range n).foldl (fun acc i => P.mulAdd (v i) (F64.div F64.one (F64.ofNat n)) acc) F64.zero) := by
  obtain ⟨G, v, hG, hv, rfl⟩ := h
  refine ⟨G, fun i => v i k, hG, fun i hi => hv i hi k (by omega), ?_⟩
  rw [List.getElem?_map, List.getElem?_range (by omega)]
  simp only [Option.map_some, ha, if_true, accumulate]

/-! ### C11 -/

/-- C11: a request that is not positive or not below the number of estimators is the same as asking for all of them. -/
theorem C11_all_estimators (P : Platform) (e : Ensemble) (total : Nat) (ht : IsTotal e.base total) (req : Int)
    (hr : req ≤ 0 ∨ total ≤ req) (fvals : List F64) (len : Nat) :
    e.predict P fvals req len = e.predict P fvals total len ∧ e.predictSingle P fvals req = e.predictSingle P fvals total := by
  have h1 : Used req total total := by unfold Used; rw [if_neg (by omega)]
  have h2 : Used total total total := by unfold Used; rw [if_neg (by omega)]
  unfold Ensemble.predict Ensemble.predictSingle
  rw [adjust_of ht h1, adjust_of ht h2]
  exact ⟨rfl, rfl⟩

/-- C11: linear models ignore the request. -/
theorem C11_linear_ignores (P : Platform) (e : XgLinear) (t : Transform) (req req' : Int) (fvals : List F64) (len : Nat) :
    (Ensemble.mk (.lin e) t).predict P fvals req len = (Ensemble.mk (.lin e) t).predict P fvals req' len ∧
    (Ensemble.mk (.lin e) t).predictSingle P fvals req = (Ensemble.mk (.lin e) t).predictSingle P fvals req' := ⟨rfl, rfl⟩

namespace Spec

/-- the model consisting of the first `n` estimators only -/
def firstEstimators (n : Nat) : Base → Base
  | .lg e => .lg { e with trees := e.trees.take (n * e.nRawOutputGroups.toNat) }
  | .xg e => .xg { e with trees := e.trees.take (n * e.nRawOutputGroups.toNat) }
  | .lin e => .lin e
  | .wrap b t => .wrap (firstEstimators n b) t

end Spec

theorem firstEstimators_groups (n : Nat) (b : Base) : (firstEstimators n b).nRawOutputGroups = b.nRawOutputGroups := by
  induction b with
  | wrap b t ih => exact ih
  | _ => rfl

theorem firstEstimators_features (n : Nat) (b : Base) : (firstEstimators n b).nFeatures = b.nFeatures := by
  induction b with
  | wrap b t ih => exact ih
  | _ => rfl

theorem treeValues_take {P : Platform} {trees : List LgTree} {G n : Nat} {fvals : List F64} {v : Nat → Nat → F64} :
    TreeValues P (trees.take (n * G)) G n fvals v ↔ TreeValues P trees G n fvals v := by
  unfold TreeValues
  refine forall₂_congr fun i hi => forall₂_congr fun k hk => ?_
  rw [List.getElem?_take, if_pos (cell_lt (G := n) (n := G) hi hk)]

theorem firstEstimators_raw {P : Platform} {b : Base} {fvals : List F64} {n : Nat} {w : List F64} :
    IsRaw P (firstEstimators n b) fvals n w ↔ IsRaw P b fvals n w := by
  induction b with
  | wrap b t ih => exact ih
  | lin e => rfl
  | lg e =>
    show (∃ _, _) ↔ (∃ _, _)
    constructor
    · rintro ⟨G, v, hG, hv, rfl⟩
      have hG' : e.nRawOutputGroups = G := hG
      simp only [hG', Int.toNat_natCast] at hv
      exact ⟨G, v, hG, treeValues_take.1 hv, rfl⟩
    · rintro ⟨G, v, hG, hv, rfl⟩
      refine ⟨G, v, hG, ?_, rfl⟩
      simp only [hG, Int.toNat_natCast]
      exact treeValues_take.2 hv
  | xg e =>
    show (∃ _, _) ↔ (∃ _, _)
    constructor
    · rintro ⟨G, v, c, hG, hv, hc, rfl⟩
      have hG' : e.nRawOutputGroups = G := hG
      simp only [hG', Int.toNat_natCast] at hv
      exact ⟨G, v, c, hG, treeValues_take.1 hv, hc, rfl⟩
    · rintro ⟨G, v, c, hG, hv, hc, rfl⟩
      refine ⟨G, v, c, hG, ?_, hc, rfl⟩
      simp only [hG, Int.toNat_natCast]
      exact treeValues_take.2 hv

theorem firstEstimators_total {b : Base} {total n : Nat} (ht : IsTotal b total) (hn : n ≤ total) (hl : ∀ e, core b ≠ .lin e) :
    IsTotal (firstEstimators n b) n := by
  have aux : ∀ (trees : List LgTree) (G : Nat), 0 < G → total = trees.length / G → n = (trees.take (n * G)).length / G := by
    intro trees G hG h
    have : n * G ≤ trees.length := by
      subst h
      exact (Nat.mul_le_mul_right _ hn).trans (Nat.div_mul_le_self _ _)
    rw [List.length_take, Nat.min_eq_left this, Nat.mul_div_cancel _ hG]
  induction b with
  | wrap b t ih => exact ih ht hl
  | lin e => exact absurd rfl (hl e)
  | lg e =>
    obtain ⟨G, hG, hG0, h⟩ := ht
    exact ⟨G, hG, hG0, by simp only [hG, Int.toNat_natCast]; exact aux _ _ hG0 h⟩
  | xg e =>
    obtain ⟨G, hG, hG0, h⟩ := ht
    exact ⟨G, hG, hG0, by simp only [hG, Int.toNat_natCast]; exact aux _ _ hG0 h⟩

theorem core_firstEstimators {n : Nat} {b : Base} {l : XgLinear} (h : core (firstEstimators n b) = .lin l) : core b = .lin l := by
  induction b with
  | wrap b t ih => exact ih h
  | lin e => exact h
  | lg e => cases h
  | xg e => cases h

/-- C11: a request `0 < req < total` predicts exactly as the model made of the first `req` estimators does (all views
except leaf indices, which reject it: C29). -/
theorem C11_first_estimators (P : Platform) (e : Ensemble) (hf : Fits e) (hw : e.nOutputGroups < 2 ^ 63)
    (hleaf : ∀ k, e.transform ≠ .leafIndex k) (hlin : ∀ l, core e.base ≠ .lin l) (total n : Nat) (ht : IsTotal e.base total)
    (hn : 0 < n) (hlt : n < total) (fvals : List F64) (m m' : List F64) :
    (e.predict P fvals n m.length).run m = (.ok ⟨⟩, m') ↔
    (({ e with base := firstEstimators n e.base } : Ensemble).predict P fvals 0 m.length).run m = (.ok ⟨⟩, m') := by
  obtain ⟨b, t⟩ := e
  simp only at ht hleaf hlin ⊢
  have hn' := firstEstimators_total ht (Nat.le_of_lt hlt) hlin
  have hf' : Fits ⟨firstEstimators n b, t⟩ := by
    obtain ⟨G, _, hG, hG0, _, hm⟩ := id hf
    refine ⟨G, n, by simp only; rw [firstEstimators_groups]; exact hG, hG0, hn', ?_⟩
    cases t with
    | leafIndex k => exact absurd rfl (hleaf k)
    | _ => exact hm
  have hnl : ¬ Ensemble.isLeaf ⟨b, t⟩ := fun h => by obtain ⟨k, hk⟩ := isLeaf_iff.1 h; exact hleaf k hk
  have hnl' : ¬ Ensemble.isLeaf ⟨firstEstimators n b, t⟩ := hnl
  have hout : ∀ out, IsOutput P ⟨firstEstimators n b, t⟩ fvals n out ↔ IsOutput P ⟨b, t⟩ fvals n out := by
    intro out
    cases t with
    | leafIndex k => exact absurd rfl (hleaf k)
    | raw k => simp only [IsOutput, firstEstimators_raw]
    | logistic => simp only [IsOutput, firstEstimators_raw]
    | softmax k => simp only [IsOutput, firstEstimators_raw]
    | exponential => simp only [IsOutput, firstEstimators_raw]
  have hu : Used n total n := by unfold Used; rw [if_pos (by omega)]
  have hu' : Used 0 n n := by unfold Used; rw [if_neg (by omega)]
  rw [predict_spec hf hw, predict_spec hf' hw]
  have h1 : (Ensemble.mk (firstEstimators n b) t).nFeatures = (Ensemble.mk b t).nFeatures := firstEstimators_features n b
  have h2 : (Ensemble.mk (firstEstimators n b) t).nOutputGroups = (Ensemble.mk b t).nOutputGroups := rfl
  rw [h1, h2]
  refine and_congr_right fun _ => and_congr_right fun _ => ?_
  constructor
  · rintro ⟨total', n', ht', hu1, _, out, ho, hs⟩
    have := IsTotal.unique ht ht'
    subst this
    have := Used.unique hu hu1
    subst this
    exact ⟨n, n, hn', hu', fun h => absurd h hnl', out, (hout out).2 ho, hs⟩
  · rintro ⟨total', n', ht', hu1, _, out, ho, hs⟩
    have := IsTotal.unique hn' ht'
    subst this
    have := Used.unique hu' hu1
    subst this
    exact ⟨total, n, ht, hu, fun h => absurd h hnl, out, (hout out).1 ho, hs⟩

/-! ### C13 -/

/-- C13: PredictSingle is Predict into a fresh one-element slice, with errors turned into 0.0. -/
theorem C13_predict_single (P : Platform) (e : Ensemble) (h1 : e.nOutputGroups = 1) (fvals : List F64) (req : Int) :
    e.predictSingle P fvals req =
      match (e.predict P fvals req 1).run [F64.zero] with
      | (.ok _, m) => Res.idx m 0
      | (.err _, _) => .ok F64.zero
      | (.panic, _) => .panic
      | (.hang, _) => .hang := by
  unfold Ensemble.predictSingle Ensemble.predict
  have hlen : ¬ (((1 : Nat) : Int) < wrap64 (1 * 1)) := by decide
  rw [if_neg (by omega), h1, if_neg hlen]
  by_cases hfeat : e.nFeatures > fvals.length
  · rw [if_pos hfeat, if_pos hfeat]; rfl
  · rw [if_neg hfeat, if_neg hfeat]
    cases hadj : e.base.adjustNEstimators req with
    | err t => exact absurd hadj (adjust_ne_err _ _ _)
    | panic => rfl
    | hang => rfl
    | ok n =>
      rw [Res.ok_bind, ofRes_ok, ret_bind]
      cases e.checkNEstimators n with
      | err t => rfl
      | panic => rfl
      | hang => rfl
      | ok _ =>
        rw [ofRes_ok, ret_bind]
        dsimp only
        have hne := NoErr.run (pit_noErr P e fvals n 0) [F64.zero]
        unfold runLocal
        rcases hr : (e.predictInnerAndTransform P fvals n 0).run [F64.zero] with ⟨r, m⟩
        rw [hr] at hne
        cases r with
        | err t => exact absurd rfl (hne t)
        | _ => rfl

/-- C13: with a fitting model the slice need not be fresh. -/
theorem C13_any_buffer (P : Platform) (e : Ensemble) (hf : Fits e) (h1 : e.nOutputGroups = 1) (fvals : List F64) (req : Int)
    (old x : F64) (h : (e.predict P fvals req 1).run [old] = (.ok ⟨⟩, [x])) : e.predictSingle P fvals req = .ok x := by
  have hw : e.nOutputGroups < 2 ^ 63 := by omega
  have h' := (predict_spec (m := [old]) hf hw).1 h
  obtain ⟨g1, g2, total, n, ht, hu, hl, out, ho, hs⟩ := h'
  obtain ⟨s1, s2, s3⟩ := hs
  obtain ⟨G, _, hG, _⟩ := id hf
  have hwid := width_eq hf hG ht
  have hlen : out.length = 1 := by
    have hlen := output_length hG ho
    by_cases hleaf : e.isLeaf
    · rw [hl hleaf] at hlen; omega
    · have : (width e G n) = width e G total := by
        obtain ⟨b, t⟩ := e
        cases t with
        | leafIndex k => exact absurd (isLeaf_iff.2 ⟨k, rfl⟩) hleaf
        | _ => rfl
      omega
  have h0 : (e.predict P fvals req 1).run [F64.zero] = (.ok ⟨⟩, [x]) := by
    refine (predict_spec (m := [F64.zero]) hf hw).2 ⟨by simpa using g1, g2, total, n, ht, hu, hl, out, ho, ?_⟩
    refine ⟨by simp [hlen], rfl, fun j => ?_⟩
    rw [s3 j, hlen]
    by_cases hj : j < 1
    · rw [if_pos (by omega), if_pos (by omega)]
    · rw [if_neg (by omega), if_neg (by omega), List.getElem?_eq_none (by simp; omega), List.getElem?_eq_none (by simp; omega)]
  rw [C13_predict_single P e h1, h0]
  rfl

/-- C13: several output groups, or too short a row: quietly 0.0. -/
theorem C13_quiet_zero (P : Platform) (e : Ensemble) (fvals : List F64) (req : Int)
    (h : e.nOutputGroups ≠ 1 ∨ e.nFeatures > fvals.length) : e.predictSingle P fvals req = .ok F64.zero := by
  unfold Ensemble.predictSingle
  by_cases h1 : e.nOutputGroups ≠ 1
  · rw [if_pos h1]
  · rw [if_neg h1, if_pos (h.resolve_left h1)]

/-! ### C21 -/

/-- C21: outcome and output values do not depend on what the slice held before. -/
theorem C21_buffer_independent (P : Platform) (e : Ensemble) (hf : Fits e) (hw : e.nOutputGroups < 2 ^ 63) (fvals : List F64)
    (req : Int) (m1 m2 m1' : List F64) (hlen : e.nOutputGroups ≤ m2.length)
    (h : (e.predict P fvals req m1.length).run m1 = (.ok ⟨⟩, m1')) :
    ∃ m2', (e.predict P fvals req m2.length).run m2 = (.ok ⟨⟩, m2') ∧
      ∀ j : Nat, (j : Int) < e.nOutputGroups → m1'[j]? = m2'[j]? := by
  obtain ⟨g1, g2, total, n, ht, hu, hl, out, ho, hs⟩ := (predict_spec hf hw).1 h
  obtain ⟨G, _, hG, _⟩ := id hf
  have hwid := width_eq hf hG ht
  have hmono := width_mono (e := e) (G := G) (Used.le hu)
  have hol := output_length hG ho
  obtain ⟨pre, w, post, rfl, hp, hwl⟩ := cut (m := m2) (s := 0) (k := out.length) (by omega)
  have hs2 : Stored (pre ++ w ++ post) 0 out (pre ++ out ++ post) := by
    rw [← hp]; exact (stored_iff hwl.symm).2 rfl
  refine ⟨pre ++ out ++ post, (predict_spec hf hw).2 ⟨hlen, g2, total, n, ht, hu, hl, out, ho, hs2⟩, fun j hj => ?_⟩
  have hc := C12_window P e hf hw fvals req m1 m1' h
  obtain ⟨_, _, n', out', ho', hl', hv'⟩ := hc
  have hout : (out.length : Int) = e.nOutputGroups := by
    by_cases hleaf : e.isLeaf
    · rw [hl hleaf] at hol; omega
    · have : (width e G n) = width e G total := by
        obtain ⟨b, t⟩ := e
        cases t with
        | leafIndex k => exact absurd (isLeaf_iff.2 ⟨k, rfl⟩) hleaf
        | _ => rfl
      omega
  rw [hs.2.2 j, hs2.2.2 j, if_pos (by omega), if_pos (by omega)]

/-! ### C24 -/

namespace Spec

/-- the two views -/
inductive View where
  | raw
  | leaf

end Spec

/-- build a view: EnsembleWithRawPredictions / EnsembleWithLeafPredictions -/
def view : View → Ensemble → Res Ensemble
  | .raw, e => .ok e.withRawPredictions
  | .leaf, e => e.withLeafPredictions

/-- build nested views, innermost first -/
def views : List View → Ensemble → Res Ensemble
  | [], e => .ok e
  | v :: vs, e => do views vs (← view v e)

/-- everything observable about a base model is unchanged by wrapping -/
structure SameModel (a b : Base) : Prop where
  nEstimators : a.nEstimators = b.nEstimators
  groups : a.nRawOutputGroups = b.nRawOutputGroups
  features : a.nFeatures = b.nFeatures
  name : a.name = b.name
  nLeaves : a.nLeaves = b.nLeaves
  adjust : a.adjustNEstimators = b.adjustNEstimators
  inner : ∀ P, a.predictInner P = b.predictInner P
  leaves : ∀ P, a.predictLeafIndicesInner P = b.predictLeafIndicesInner P
  reset : a.resetFVals = b.resetFVals

theorem SameModel.refl (a : Base) : SameModel a a := ⟨rfl, rfl, rfl, rfl, rfl, rfl, fun _ => rfl, fun _ => rfl, rfl⟩
theorem SameModel.wrap {a b : Base} (h : SameModel a b) (t : Transform) : SameModel (.wrap a t) b :=
  ⟨h.nEstimators, h.groups, h.features, h.name, h.nLeaves, h.adjust, h.inner, h.leaves, h.reset⟩

theorem views_same : ∀ (vs : List View) (e e' : Ensemble) (b : Base), SameModel e.base b → views vs e = .ok e' →
    SameModel e'.base b := by
  intro vs
  induction vs with
  | nil => intro e e' b h he; cases he; exact h
  | cons v vs ih =>
    intro e e' b h he
    rw [views, Res.bind_eq_ok] at he
    obtain ⟨e1, h1, h2⟩ := he
    refine ih e1 e' b ?_ h2
    cases v with
    | raw => cases h1; exact h.wrap _
    | leaf =>
      unfold view Ensemble.withLeafPredictions at h1
      rw [Res.bind_eq_ok] at h1
      obtain ⟨n, _, h1⟩ := h1
      cases h1
      exact h.wrap _

/-- C24: whatever views are below, the outermost view alone decides what is predicted: it behaves exactly as the same
view of the original ensemble; metadata other than the output width and transformation is the original's. -/
theorem C24_outermost_view (vs : List View) (v : View) (e e1 e2 e3 : Ensemble) (h1 : views vs e = .ok e1)
    (h2 : view v e1 = .ok e2) (h3 : view v e = .ok e3) :
    (∀ P fvals req len, e2.predict P fvals req len = e3.predict P fvals req len) ∧
    (∀ P fvals req, e2.predictSingle P fvals req = e3.predictSingle P fvals req) ∧
    e2.nOutputGroups = e3.nOutputGroups ∧ e2.transform = e3.transform ∧
    e2.nEstimators = e.nEstimators ∧ e2.nRawOutputGroups = e.nRawOutputGroups ∧ e2.nFeatures = e.nFeatures ∧
    e2.nLeaves = e.nLeaves ∧ e2.name = e.name := by
  have hs1 := views_same vs e e1 e.base (SameModel.refl _) h1
  have hs2 : SameModel e2.base e.base := views_same [v] e1 e2 e.base hs1 (by rw [views, h2]; rfl)
  have hs3 : SameModel e3.base e.base := views_same [v] e e3 e.base (SameModel.refl _) (by rw [views, h3]; rfl)
  have ht : e2.transform = e3.transform := by
    cases v with
    | raw =>
      cases h2; cases h3
      show Transform.raw _ = Transform.raw _
      congr 1
      exact hs1.groups
    | leaf =>
      unfold view Ensemble.withLeafPredictions at h2 h3
      rw [Res.bind_eq_ok] at h2 h3
      obtain ⟨n, h2, h2'⟩ := h2
      obtain ⟨n', h3, h3'⟩ := h3
      have : e1.nEstimators = e.nEstimators := hs1.nEstimators
      rw [this, h3] at h2
      cases h2; cases h2'; cases h3'
      show Transform.leafIndex _ = Transform.leafIndex _
      congr 2
      exact hs1.groups
  have hpit : ∀ P fvals n s, e2.predictInnerAndTransform P fvals n s = e3.predictInnerAndTransform P fvals n s := by
    intro P fvals n s
    unfold Ensemble.predictInnerAndTransform Ensemble.nRawOutputGroups
    rw [ht, hs2.inner, hs3.inner, hs2.leaves, hs3.leaves, hs2.groups, hs3.groups]
  have hcheck : ∀ n, e2.checkNEstimators n = e3.checkNEstimators n := by
    intro n
    unfold Ensemble.checkNEstimators Ensemble.nEstimators
    rw [ht, hs2.nEstimators, hs3.nEstimators]
  have hout : e2.nOutputGroups = e3.nOutputGroups := by unfold Ensemble.nOutputGroups; rw [ht]
  have hfeat : e2.nFeatures = e3.nFeatures := hs2.features.trans hs3.features.symm
  refine ⟨fun P fvals req len => ?_, fun P fvals req => ?_, hout, ht, hs2.nEstimators, hs2.groups, hs2.features, hs2.nLeaves,
    hs2.name⟩
  · unfold Ensemble.predict
    simp only [hout, hfeat, hs2.adjust, hs3.adjust, hcheck, hpit]
  · unfold Ensemble.predictSingle
    simp only [hout, hfeat, hs2.adjust, hs3.adjust, hcheck, hpit]

/-- C24: a raw view of a fitting ensemble fits; so does a leaf view of a fitting tree ensemble. -/
theorem C24_views_fit (e : Ensemble) (hf : Fits e) : Fits e.withRawPredictions ∧
    ((∀ l, core e.base ≠ .lin l) → ∃ e', e.withLeafPredictions = .ok e' ∧ Fits e') := by
  obtain ⟨G, total, hG, hG0, ht, _⟩ := hf
  refine ⟨⟨G, total, hG, hG0, ht, hG⟩, fun hl => ?_⟩
  refine ⟨{ base := .wrap e.base e.transform, transform := .leafIndex (e.nRawOutputGroups * total) }, ?_, G, total, hG, hG0,
    ht, ?_, hl⟩
  · unfold Ensemble.withLeafPredictions Ensemble.nEstimators; rw [nEstimators_of ht]; rfl
  show e.base.nRawOutputGroups * (total : Int) = _
  rw [hG]

/-! ### C27 -/

namespace Spec

/-- the name of a transformation -/
def transformName : Transform → String
  | .raw _ => "raw"
  | .logistic => "logistic"
  | .softmax _ => "softmax"
  | .leafIndex _ => "leaf_index"
  | .exponential => "exponential"

end Spec

/-- C27, except for the exponential transformation: both names are right. Missing: `exponential`, for which the claim is
false (`C27_exponential_misnamed`). -/
theorem C27_names_partial (t : Transform) (h : t ≠ .exponential) :
    t.name = .ok (transformName t) ∧ TransformType.name t.type = .ok (transformName t) := by
  cases t with
  | exponential => exact absurd rfl h
  | raw n => exact ⟨rfl, rfl⟩
  | logistic => exact ⟨rfl, rfl⟩
  | softmax n => exact ⟨rfl, rfl⟩
  | leafIndex n => exact ⟨rfl, rfl⟩

/-- C27 is false: the exponential transformation calls itself "logistic", and asking for the name of its type crashes. -/
theorem C27_exponential_misnamed :
    Transform.exponential.name = .ok "logistic" ∧ TransformType.name Transform.exponential.type = .panic := by decide

/-! ### C28 -/

/-- C28 for fitting models: when Predict returns nil the output is the transformed raw score vector. -/
theorem C28_transform_applied_partial (P : Platform) (e : Ensemble) (hf : Fits e) (hw : e.nOutputGroups < 2 ^ 63)
    (hleaf : ∀ k, e.transform ≠ .leafIndex k) (fvals : List F64) (req : Int) (m m' : List F64)
    (h : (e.predict P fvals req m.length).run m = (.ok ⟨⟩, m')) :
    ∃ n w out, IsRaw P e.base fvals n w ∧ IsTransformed P e.transform w out ∧ Stored m 0 out m' := by
  obtain ⟨_, _, total, n, ht, hu, hl, out, ho, hs⟩ := (predict_spec hf hw).1 h
  obtain ⟨b, t⟩ := e
  cases t with
  | leafIndex k => exact absurd rfl (hleaf k)
  | raw k => obtain ⟨w, h1, h2⟩ := ho; exact ⟨n, w, out, h1, h2, hs⟩
  | logistic => obtain ⟨w, h1, h2⟩ := ho; exact ⟨n, w, out, h1, h2, hs⟩
  | exponential => obtain ⟨w, h1, h2⟩ := ho; exact ⟨n, w, out, h1, h2, hs⟩
  | softmax k => obtain ⟨w, h1, h2⟩ := ho; exact ⟨n, w, out, h1, h2, hs⟩

/-! ### C29 -/

/-- C29: a leaf view rejects `0 < req < total` and touches nothing; every other request is the same as asking for all
estimators. -/
theorem C29_leaf_needs_all (P : Platform) (e : Ensemble) (hf : Fits e) (hw : e.nOutputGroups < 2 ^ 63)
    (hleaf : ∃ k, e.transform = .leafIndex k) (total : Nat) (ht : IsTotal e.base total) (fvals : List F64) (req : Int) (m : List F64) :
    (0 < req ∧ req < total → ∃ tag, (e.predict P fvals req m.length).run m = (.err tag, m)) ∧
    (¬ (0 < req ∧ req < total) → e.predict P fvals req m.length = e.predict P fvals total m.length) := by
  constructor
  · intro hr
    obtain ⟨n, hu⟩ := Used.exists req total
    have hu' := hu
    unfold Used at hu'
    rw [if_pos hr] at hu'
    exact predict_rejects hf hw ht hu (Or.inr (Or.inr ⟨isLeaf_iff.2 hleaf, by omega⟩))
  · intro hr
    exact (C11_all_estimators P e total ht req (by omega) fvals m.length).1

/-! ### Concrete models -/

namespace PredictExample

/-- one split: feature 0 `<= 5` gives `a`, else `b` -/
def stump (a b : F64) : LgTree :=
  { nodes := [{ threshold := F64.ofNat 5, left := 0, right := 1, feature := 0, flags := Flag.leftLeaf ||| Flag.rightLeaf }],
    leafValues := [a, b] }

def trees : List LgTree := [stump (F64.ofNat 1) (F64.ofNat 2), stump (F64.ofNat 10) (F64.ofNat 20),
  stump (F64.ofNat 100) (F64.ofNat 200), stump (F64.ofNat 1000) (F64.ofNat 2000)]

/-- two groups, two estimators -/
def lgm : LgEnsemble := { trees := trees, maxFeatureIdx := 1, nRawOutputGroups := 2, name := "lightgbm.gbdt" }
def lg : Ensemble := ⟨.lg lgm, .raw 2⟩

theorem lg_fits : Fits lg := ⟨2, 2, rfl, by decide, ⟨2, rfl, by decide, by decide⟩, rfl⟩

/-- the hypotheses of C10, C12, C21 hold for a run of this model; the third element is untouched -/
example : (lg.predict Platform.demo [F64.ofNat 7, F64.zero] 0 3).run [F64.ofNat 9, F64.ofNat 9, F64.ofNat 9] =
    (.ok ⟨⟩, [F64.ofNat 202, F64.ofNat 2020, F64.ofNat 9]) := by decide +kernel

/-- one estimator only (C11) -/
example : (lg.predict Platform.demo [F64.ofNat 7, F64.zero] 1 2).run [F64.nan, F64.nan] =
    (.ok ⟨⟩, [F64.ofNat 2, F64.ofNat 20]) := by decide +kernel

/-- too short a slice, too short a row (C12) -/
example : (lg.predict Platform.demo [F64.ofNat 7, F64.zero] 0 1).run [F64.nan] = (.err "predictions slice too short", [F64.nan]) ∧
    (lg.predict Platform.demo [F64.ofNat 7] 0 2).run [F64.nan, F64.nan] = (.err "incorrect number of features", [F64.nan, F64.nan]) := by
  decide +kernel

/-- leaf view (C24, C29): four values, group by group -/
example : ∃ e, lg.withLeafPredictions = .ok e ∧ e.nOutputGroups = 4 ∧ Fits e ∧
    (e.predict Platform.demo [F64.ofNat 7, F64.zero] 0 4).run [F64.nan, F64.nan, F64.nan, F64.nan] =
      (.ok ⟨⟩, [F64.one, F64.one, F64.one, F64.one]) ∧
    (e.predict Platform.demo [F64.ofNat 7, F64.zero] 1 4).run [F64.nan, F64.nan, F64.nan, F64.nan] =
      (.err "while predicting leaf indices all estimators should be used", [F64.nan, F64.nan, F64.nan, F64.nan]) :=
  ⟨_, rfl, by decide +kernel, ⟨2, 2, rfl, by decide, ⟨2, rfl, by decide, by decide⟩, rfl, fun l h => by cases h⟩,
    by decide +kernel, by decide +kernel⟩

/-- one group with the logistic transformation: PredictSingle (C13); on the demo platform `exp (-2222) = 0`, `exp (-22) = 1` -/
def lg1 : Ensemble := ⟨.lg { lgm with nRawOutputGroups := 1 }, .logistic⟩

theorem lg1_fits : Fits lg1 := ⟨1, 4, rfl, by decide, ⟨1, rfl, by decide, by decide⟩, rfl⟩

example : lg1.predictSingle Platform.demo [F64.ofNat 7, F64.zero] 0 = .ok F64.one ∧
    lg1.predictSingle Platform.demo [F64.ofNat 7, F64.zero] 2 = .ok (F64.div F64.one (F64.ofNat 2)) ∧
    lg1.predictSingle Platform.demo [F64.ofNat 7] 0 = .ok F64.zero ∧ lg.predictSingle Platform.demo [F64.ofNat 7, F64.zero] 0 = .ok F64.zero := by
  decide +kernel

/-- averaging forest (C30): with one of two estimators the weight is 1, with both 1/2 -/
def rf : Ensemble := ⟨.lg { lgm with averageOutput := true }, .raw 2⟩

example : (rf.predict Platform.demo [F64.ofNat 7, F64.zero] 1 2).run [F64.nan, F64.nan] =
      (.ok ⟨⟩, [F64.ofNat 2, F64.ofNat 20]) ∧
    (rf.predict Platform.demo [F64.ofNat 7, F64.zero] 2 2).run [F64.nan, F64.nan] =
      (.ok ⟨⟩, [F64.ofNat 101, F64.ofNat 1010]) := by decide +kernel

/-- drop weights (C44): estimator 0 has weight 1, estimator 1 weight 3 -/
def dart : Ensemble := ⟨.xg {
  trees := trees, maxFeatureIdx := 1, nRawOutputGroups := 2, baseScore := F64.ofNat 50000, name := "dart",
  weightDrop := [F64.one, F64.one, F64.ofNat 3, F64.ofNat 3] }, .raw 2⟩

example : Fits dart ∧ (dart.predict Platform.demo [F64.ofNat 7, F64.zero] 0 2).run [F64.nan, F64.nan] =
    (.ok ⟨⟩, [F64.ofNat 50602, F64.ofNat 56020]) :=
  ⟨⟨2, 2, rfl, by decide, ⟨2, rfl, by decide, by decide⟩, rfl⟩, by decide +kernel⟩

/-- a linear model (C45): two features, two groups -/
def linear : Ensemble := ⟨.lin {
  numFeature := 2, nRawOutputGroups := 2, baseScore := F64.ofNat 1000,
  weights := [F64.ofNat 1, F64.ofNat 2, F64.ofNat 3, F64.ofNat 4, F64.ofNat 100, F64.ofNat 200] }, .raw 2⟩

example : Fits linear ∧ (linear.predict Platform.demo [F64.ofNat 10, F64.ofNat 1] 0 2).run [F64.nan, F64.nan] =
    (.ok ⟨⟩, [F64.ofNat 1113, F64.ofNat 1224]) :=
  ⟨⟨2, 1, rfl, by decide, rfl, rfl⟩, by decide +kernel⟩

/-- C21 is false for leaf views of linear models: Predict reports success and leaves the old contents. -/
theorem C21_linear_leaf_view_stale : ∃ e, linear.withLeafPredictions = .ok e ∧ ∀ x y : F64,
    (e.predict Platform.demo [F64.ofNat 10, F64.ofNat 1] 0 2).run [x, y] = (.ok ⟨⟩, [x, y]) :=
  ⟨_, rfl, fun _ _ => rfl⟩

/-- C28 is false for an ensemble with two raw scores and a logistic transformation (a LightGBM file with
`objective=binary` and `num_class=2` loads as one): Predict reports success and stores nothing. -/
theorem C28_logistic_two_groups_stores_nothing (x : F64) :
    ((Ensemble.mk (.lg lgm) .logistic).predict Platform.demo [F64.ofNat 7, F64.zero] 0 1).run [x] = (.ok ⟨⟩, [x]) := by
  have h : ((Base.lg lgm).predictInner Platform.demo [F64.ofNat 7, F64.zero] 2 0).runLocal [F64.zero, F64.zero] =
      .ok [F64.ofNat 202, F64.ofNat 2020] := by decide +kernel
  have hu := predict_unfold (P := Platform.demo) (e := ⟨.lg lgm, .logistic⟩) (fvals := [F64.ofNat 7, F64.zero]) (req := 0) (len := 1)
    (total := 2) (n := 2) (by decide) (by decide) (by decide) (by decide) ⟨2, rfl, by decide, by decide⟩
    (by unfold Used; decide) (by intro h; cases h)
  rw [hu, pit_proper (by trivial), show (Base.lg lgm).nRawOutputGroups = ((2 : Nat) : Int) from rfl, makeSlice_ok, ofRes_ok,
    ret_bind, show List.replicate 2 F64.zero = [F64.zero, F64.zero] from rfl]
  rw [show ((2 : Nat) : Int) = 2 from rfl, h]
  rfl

end PredictExample

end Leaves
