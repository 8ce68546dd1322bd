import Verif.Props.Batch
import Verif.Spec.Relevant

/-!
# C73, C74: what a prediction depends on

Rows that agree on the features that the model tests are not distinguished; features beyond those a successful prediction was made
from are ignored; one more estimator adds one more tree per group.
-/

namespace Leaves

open Spec GoM

theorem idx_same {row row' : List F64} {f : Nat} (h : SameAt row row' f) : Res.idx row f = Res.idx row' f := by
  unfold Res.idx
  rw [h]

theorem predictLoop_same (P : Platform) (t : LgTree) (row row' : List F64) (h : ∀ f, TreeTests t f → SameAt row row' f) :
    ∀ fuel idx, t.predictLoop P row fuel idx = t.predictLoop P row' fuel idx
  | 0, _ => rfl
  | fuel + 1, idx => by
    unfold LgTree.predictLoop
    cases hn : Res.idx t.nodes idx with
    | ok node =>
      have hm : node ∈ t.nodes := List.mem_of_getElem? (Res.idx_eq_ok.1 hn)
      simp only [Res.ok_bind]
      rw [idx_same (h _ ⟨node, hm, rfl⟩), predictLoop_same P t row row' h fuel, predictLoop_same P t row row' h fuel]
    | _ => rfl

theorem tree_same (P : Platform) (t : LgTree) (row row' : List F64) (h : ∀ f, TreeTests t f → SameAt row row' f) :
    t.predict P row = t.predict P row' := by
  unfold LgTree.predict
  rw [predictLoop_same P t row row' h]

theorem bind_idxI_congr {α β : Type} {l : List α} {i : Int} {f g : α → GoM β} (h : ∀ a ∈ l, f a = g a) :
    (ofRes (Res.idxI l i) >>= f) = (ofRes (Res.idxI l i) >>= g) := by
  cases hr : Res.idxI l i with
  | ok a =>
    refine h a ?_
    unfold Res.idxI at hr
    split at hr
    · cases hr
    · exact List.mem_of_getElem? (Res.idx_eq_ok.1 hr)
  | _ => rfl

theorem forRange_congr {f g : Nat → GoM Unit} : ∀ (c s : Nat), (∀ k, s ≤ k → k < s + c → f k = g k) → forRange f s c = forRange g s c
  | 0, _, _ => rfl
  | c + 1, s, h => by
    unfold forRange
    rw [h s (by omega) (by omega), forRange_congr c (s + 1) fun k h1 h2 => h k (by omega) (by omega)]

theorem inner_same (P : Platform) (b : Base) (row row' : List F64) (h : ∀ f, Tests b f → SameAt row row' f) (n s : Int) :
    b.predictInner P row n s = b.predictInner P row' n s := by
  induction b with
  | wrap b t ih => exact ih h
  | lg e =>
    show LgEnsemble.predictInner .. = LgEnsemble.predictInner ..
    unfold LgEnsemble.predictInner
    refine bind_congr fun _ => forRange_congr _ _ fun i _ _ => forRange_congr _ _ fun k _ _ => bind_idxI_congr fun t ht => ?_
    rw [tree_same P t row row' fun f hf => h f ⟨t, ht, hf⟩]
  | xg e =>
    show XgEnsemble.predictInner .. = XgEnsemble.predictInner ..
    unfold XgEnsemble.predictInner
    refine bind_congr fun _ => forRange_congr _ _ fun i _ _ => forRange_congr _ _ fun k _ _ => bind_idxI_congr fun t ht => ?_
    rw [tree_same P t row row' fun f hf => h f ⟨t, ht, hf⟩]
  | lin e =>
    show XgLinear.predictInner .. = XgLinear.predictInner ..
    unfold XgLinear.predictInner
    refine forRange_congr _ _ fun k _ _ => bind_congr fun _ => bind_congr fun _ => forRange_congr _ _ fun i _ hi => bind_congr fun _ => ?_
    rw [idx_same (h i (show (i : Int) < e.numFeature by omega))]

theorem leaf_same (P : Platform) (b : Base) (row row' : List F64) (h : ∀ f, Tests b f → SameAt row row' f) (n s : Int) :
    b.predictLeafIndicesInner P row n s = b.predictLeafIndicesInner P row' n s := by
  induction b with
  | wrap b t ih => exact ih h
  | lin e => rfl
  | lg e =>
    show leafIndicesInner .. = leafIndicesInner ..
    unfold leafIndicesInner
    refine bind_congr fun _ => forRange_congr _ _ fun i _ _ => forRange_congr _ _ fun k _ _ => bind_idxI_congr fun t ht => ?_
    rw [tree_same P t row row' fun f hf => h f ⟨t, ht, hf⟩]
  | xg e =>
    show leafIndicesInner .. = leafIndicesInner ..
    unfold leafIndicesInner
    refine bind_congr fun _ => forRange_congr _ _ fun i _ _ => forRange_congr _ _ fun k _ _ => bind_idxI_congr fun t ht => ?_
    rw [tree_same P t row row' fun f hf => h f ⟨t, ht, hf⟩]

theorem pit_same (P : Platform) (e : Ensemble) (row row' : List F64) (h : ∀ f, Tests e.base f → SameAt row row' f) (n s : Int) :
    e.predictInnerAndTransform P row n s = e.predictInnerAndTransform P row' n s := by
  unfold Ensemble.predictInnerAndTransform
  simp only [inner_same P e.base row row' h, leaf_same P e.base row row' h]

/-- C73: for every model, Predict does the same (result, error or crash, access by access) for two rows that are long enough and agree
on the features the model tests. -/
theorem C73_untested (P : Platform) (e : Ensemble) (row row' : List F64) (h : ∀ f, Tests e.base f → SameAt row row' f)
    (hl : e.nFeatures ≤ row.length) (hl' : e.nFeatures ≤ row'.length) (req : Int) (len : Nat) :
    e.predict P row req len = e.predict P row' req len := by
  unfold Ensemble.predict
  rw [if_neg (show ¬ e.nFeatures > (row.length : Int) by omega), if_neg (show ¬ e.nFeatures > (row'.length : Int) by omega)]
  simp only [pit_same P e row row' h]

/-- C73: so does PredictSingle. -/
theorem C73_untested_single (P : Platform) (e : Ensemble) (row row' : List F64) (h : ∀ f, Tests e.base f → SameAt row row' f)
    (hl : e.nFeatures ≤ row.length) (hl' : e.nFeatures ≤ row'.length) (req : Int) :
    e.predictSingle P row req = e.predictSingle P row' req := by
  unfold Ensemble.predictSingle
  rw [if_neg (show ¬ e.nFeatures > (row.length : Int) by omega), if_neg (show ¬ e.nFeatures > (row'.length : Int) by omega)]
  simp only [pit_same P e row row' h]

/-! ### surplus features -/

theorem predictLoop_more (P : Platform) (t : LgTree) (row extra : List F64) : ∀ fuel idx r, t.predictLoop P row fuel idx = .ok r →
    t.predictLoop P (row ++ extra) fuel idx = .ok r
  | 0, _, _, h => by cases h
  | fuel + 1, idx, r, h => by
    unfold LgTree.predictLoop at h ⊢
    obtain ⟨node, hn, h1⟩ := Res.bind_eq_ok.1 h
    obtain ⟨x, hx, h2⟩ := Res.bind_eq_ok.1 h1
    have hx' : Res.idx (row ++ extra) node.feature = .ok x := by
      rw [Res.idx_eq_ok] at hx ⊢
      rw [List.getElem?_append_left (List.getElem?_eq_some_iff.1 hx).1]
      exact hx
    rw [hn, Res.ok_bind, hx', Res.ok_bind]
    obtain ⟨left, hd, h3⟩ := Res.bind_eq_ok.1 h2
    rw [hd, Res.ok_bind]
    split at h3
    · rename_i hl
      rw [if_pos hl]
      split at h3
      · rename_i hf
        rw [if_pos hf]
        exact h3
      · rename_i hf
        rw [if_neg hf]
        exact predictLoop_more P t row extra fuel _ r h3
    · rename_i hl
      rw [if_neg hl]
      split at h3
      · rename_i hf
        rw [if_pos hf]
        exact h3
      · rename_i hf
        rw [if_neg hf]
        exact predictLoop_more P t row extra fuel _ r h3

theorem tree_more (P : Platform) (t : LgTree) (row extra : List F64) (r : F64 × Nat) (h : t.predict P row = .ok r) :
    t.predict P (row ++ extra) = .ok r := by
  unfold LgTree.predict at h ⊢
  split at h
  · rename_i h0
    rw [if_pos h0]
    exact h
  · rename_i h0
    rw [if_neg h0]
    exact predictLoop_more P t row extra _ _ _ h

theorem raw_more {P : Platform} {b : Base} {row : List F64} {n : Nat} {w : List F64} (extra : List F64) (h : IsRaw P b row n w) :
    IsRaw P b (row ++ extra) n w := by
  unfold IsRaw at h ⊢
  split at h
  · obtain ⟨G, v, h1, h2, h3⟩ := h
    refine ⟨G, v, h1, fun i hi k hk => ?_, h3⟩
    obtain ⟨t, j, h4, h5⟩ := h2 i hi k hk
    exact ⟨t, j, h4, tree_more P t row extra _ h5⟩
  · obtain ⟨G, v, c, h1, h2, h3⟩ := h
    refine ⟨G, v, c, h1, fun i hi k hk => ?_, h3⟩
    obtain ⟨t, j, h4, h5⟩ := h2 i hi k hk
    exact ⟨t, j, h4, tree_more P t row extra _ h5⟩
  · obtain ⟨G, F, x, c, bias, h1, h2, h3, h4⟩ := h
    refine ⟨G, F, x, c, bias, h1, h2, fun i hi => ?_, h4⟩
    have := h3 i hi
    rw [List.getElem?_append_left (List.getElem?_eq_some_iff.1 this).1]
    exact this
  · exact h

theorem leafVec_more {P : Platform} {b : Base} {row : List F64} {n : Nat} {w : List F64} (extra : List F64) (h : IsLeafVec P b row n w) :
    IsLeafVec P b (row ++ extra) n w := by
  have aux : ∀ {trees : List LgTree} {G : Nat} {l : Nat → Nat → Nat}, TreeLeaves P trees G n row l → TreeLeaves P trees G n (row ++ extra) l := by
    intro trees G l h i hi k hk
    obtain ⟨t, x, h4, h5⟩ := h i hi k hk
    exact ⟨t, x, h4, tree_more P t row extra _ h5⟩
  unfold IsLeafVec at h ⊢
  split at h
  · obtain ⟨G, l, h1, h2, h3⟩ := h
    exact ⟨G, l, h1, aux h2, h3⟩
  · obtain ⟨G, l, h1, h2, h3⟩ := h
    exact ⟨G, l, h1, aux h2, h3⟩
  · exact h

theorem output_more {P : Platform} {e : Ensemble} {row : List F64} {n : Nat} {out : List F64} (extra : List F64) (h : IsOutput P e row n out) :
    IsOutput P e (row ++ extra) n out := by
  unfold IsOutput at h ⊢
  split at h
  · exact leafVec_more extra h
  · obtain ⟨w, h1, h2⟩ := h
    exact ⟨w, raw_more extra h1, h2⟩

/-- C73: values after those a successful Predict was made from change nothing. -/
theorem C73_surplus (P : Platform) (e : Ensemble) (hf : Fits e) (hw : e.nOutputGroups < 2 ^ 63) (row extra : List F64) (req : Int)
    (m m' : List F64) (h : (e.predict P row req m.length).run m = (.ok ⟨⟩, m')) :
    (e.predict P (row ++ extra) req m.length).run m = (.ok ⟨⟩, m') := by
  rw [C12_predict_iff P e hf hw] at h ⊢
  obtain ⟨h1, h2, total, n, ht, hu, hl, out, ho, hs⟩ := h
  refine ⟨h1, ?_, total, n, ht, hu, hl, out, output_more extra ho, hs⟩
  rw [List.length_append]
  omega

/-- C73: in a successful PredictDense, columns appended to the matrix change nothing. -/
theorem C73_wider_matrix (P : Platform) (e : Ensemble) (hf : Fits e) (w r ncols ncols' : Nat) (hw : e.nOutputGroups = w)
    (hrange : w * r < 2 ^ 63) (hr : r ≤ 2 ^ 53) (hr0 : 0 < r) (hc : 0 < ncols') (vals vals' m m' : List F64) (req nt nt' : Int)
    (hv : ∀ i < r, ∀ row, DenseRow vals ncols i row → ∃ extra, DenseRow vals' ncols' i (row ++ extra))
    (h : e.PredictDense P vals r ncols m req nt (.ok ⟨⟩, m')) : e.PredictDense P vals' r ncols' m req nt' (.ok ⟨⟩, m') := by
  obtain ⟨outs, hs, h1⟩ := C14_dense_is_rowwise P e hf w r ncols hw hrange hr vals m m' req nt h
  refine C14_rowwise_is_dense P e hf w r ncols' hw hrange hr hr0 hc vals' m m' req nt' outs hs fun i hi => ?_
  obtain ⟨row, h2, h3⟩ := h1 i hi
  obtain ⟨extra, h4⟩ := hv i hi row h2
  have hwlt : w < 2 ^ 63 := lt_of_le_of_lt (Nat.le_mul_of_pos_right w (by omega)) hrange
  refine ⟨_, List.replicate w F64.zero, h4, by simp, ?_⟩
  have := C73_surplus P e hf (by omega) row extra req _ _ (by rw [List.length_replicate]; exact h3 (List.replicate w F64.zero) (by simp))
  rwa [List.length_replicate] at this

/-! ### one more estimator -/

theorem accumulate_add_one (f : Nat → F64 → F64) (n : Nat) (z : F64) : accumulate f (n + 1) z = f n (accumulate f n z) := by
  simp only [accumulate, List.range_succ, List.foldl_append, List.foldl_cons, List.foldl_nil]

theorem accumulate_congr {f g : Nat → F64 → F64} {n : Nat} (z : F64) (h : ∀ i < n, ∀ x, f i x = g i x) : accumulate f n z = accumulate g n z := by
  induction n with
  | zero => rfl
  | succ n ih => rw [accumulate_add_one, accumulate_add_one, h n (by omega), ih fun i hi => h i (by omega)]

theorem treeValues_unique {P : Platform} {trees : List LgTree} {G n n' : Nat} {row : List F64} {v v' : Nat → Nat → F64}
    (h : TreeValues P trees G n row v) (h' : TreeValues P trees G n' row v') (i : Nat) (hi : i < n) (hi' : i < n') (k : Nat) (hk : k < G) :
    v i k = v' i k := by
  obtain ⟨t, j, h1, h2⟩ := h i hi k hk
  obtain ⟨t', j', h1', h2'⟩ := h' i hi' k hk
  rw [h1] at h1'
  cases h1'
  rw [h2] at h2'
  exact congrArg Prod.fst (Res.ok.inj h2')

theorem core_groups (b : Base) : (core b).nRawOutputGroups = b.nRawOutputGroups := by
  induction b with
  | wrap b t ih => exact ih
  | _ => rfl

/-- the raw scores that Predict stores -/
theorem raw_at {P : Platform} {b : Base} {G : Nat} (hf : Fits ⟨b, .raw G⟩) (hw : G < 2 ^ 63) {total n : Nat} (ht : IsTotal b total)
    (hu : 0 < n) (hn : n ≤ total) {row m m' : List F64} (h : ((⟨b, .raw G⟩ : Ensemble).predict P row n m.length).run m = (.ok ⟨⟩, m')) :
    ∃ w, IsRaw P b row n w ∧ ∀ k < G, m'[k]? = w[k]? := by
  obtain ⟨total', n', w, ht', hu', hr, hl, hs⟩ := C10_raw_prediction P b G hf hw row n m m' h
  have := IsTotal.unique ht ht'
  subst this
  have hn' : n' = n := by
    unfold Used at hu'
    split at hu' <;> omega
  subst hn'
  refine ⟨w, hr, fun k hk => ?_⟩
  rw [hs.2.2, if_pos (by omega), Nat.sub_zero]

/-- C74: for LightGBM and scikit-learn models without averaging, the raw scores with one more estimator are the raw scores plus the
values of that estimator's trees. -/
theorem C74_next_estimator (P : Platform) (hP : P.MulAddOK) (b : Base) (e : LgEnsemble) (hb : core b = .lg e) (ha : e.averageOutput = false)
    (G : Nat) (hf : Fits ⟨b, .raw G⟩) (hw : G < 2 ^ 63) (total n : Nat) (ht : IsTotal b total) (hn : 0 < n) (hlt : n < total)
    (row m m1 m2 : List F64) (h1 : ((⟨b, .raw G⟩ : Ensemble).predict P row n m.length).run m = (.ok ⟨⟩, m1))
    (h2 : ((⟨b, .raw G⟩ : Ensemble).predict P row (n + 1 : Nat) m.length).run m = (.ok ⟨⟩, m2)) (k : Nat) (hk : k < G) :
    ∃ (t : LgTree) (v : F64) (leaf : Nat) (x : F64), e.trees[n * G + k]? = some t ∧ t.predict P row = .ok (v, leaf) ∧
      m1[k]? = some x ∧ m2[k]? = some (F64.add x v) := by
  obtain ⟨w1, r1, g1⟩ := raw_at hf hw ht hn (by omega) h1
  obtain ⟨w2, r2, g2⟩ := raw_at hf hw ht (by omega) (by omega) h2
  have hG : e.nRawOutputGroups = G := by
    obtain ⟨G', _, hG', _, _, hm⟩ := hf
    have : b.nRawOutputGroups = e.nRawOutputGroups := by rw [← core_groups b, hb]; rfl
    simp only at hm hG'
    omega
  unfold IsRaw at r1 r2
  rw [hb] at r1 r2
  obtain ⟨G1, v1, e1, t1, rfl⟩ := r1
  obtain ⟨G2, v2, e2, t2, rfl⟩ := r2
  obtain rfl : G = G1 := by omega
  obtain rfl : G = G2 := by omega
  obtain ⟨t, leaf, ht, hp⟩ := t2 n (by omega) k hk
  have hx := g1 k hk
  rw [List.getElem?_map, List.getElem?_range hk, Option.map_some] at hx
  refine ⟨t, _, leaf, _, ht, hp, hx, ?_⟩
  · rw [g2 k hk, List.getElem?_map, List.getElem?_range hk, Option.map_some, accumulate_add_one]
    simp only [ha, Bool.false_eq_true, if_false, hP.one]
    rw [accumulate_congr _ fun i hi x => by rw [treeValues_unique t2 t1 i (by omega) hi k hk]]

/-- C74: for XGBoost tree models, the values are multiplied by the trees' weights. -/
theorem C74_next_estimator_xg (P : Platform) (b : Base) (e : XgEnsemble) (hb : core b = .xg e)
    (G : Nat) (hf : Fits ⟨b, .raw G⟩) (hw : G < 2 ^ 63) (total n : Nat) (ht : IsTotal b total) (hn : 0 < n) (hlt : n < total)
    (row m m1 m2 : List F64) (h1 : ((⟨b, .raw G⟩ : Ensemble).predict P row n m.length).run m = (.ok ⟨⟩, m1))
    (h2 : ((⟨b, .raw G⟩ : Ensemble).predict P row (n + 1 : Nat) m.length).run m = (.ok ⟨⟩, m2)) (k : Nat) (hk : k < G) :
    ∃ (t : LgTree) (v c : F64) (leaf : Nat) (x : F64), e.trees[n * G + k]? = some t ∧ t.predict P row = .ok (v, leaf) ∧
      e.weightDrop[n * G + k]? = some c ∧ m1[k]? = some x ∧ m2[k]? = some (P.mulAdd v c x) := by
  obtain ⟨w1, r1, g1⟩ := raw_at hf hw ht hn (by omega) h1
  obtain ⟨w2, r2, g2⟩ := raw_at hf hw ht (by omega) (by omega) h2
  have hG : e.nRawOutputGroups = G := by
    obtain ⟨G', _, hG', _, _, hm⟩ := hf
    have : b.nRawOutputGroups = e.nRawOutputGroups := by rw [← core_groups b, hb]; rfl
    simp only at hm hG'
    omega
  unfold IsRaw at r1 r2
  rw [hb] at r1 r2
  obtain ⟨G1, v1, c1, e1, t1, d1, rfl⟩ := r1
  obtain ⟨G2, v2, c2, e2, t2, d2, rfl⟩ := r2
  obtain rfl : G = G1 := by omega
  obtain rfl : G = G2 := by omega
  obtain ⟨t, leaf, ht, hp⟩ := t2 n (by omega) k hk
  have hx := g1 k hk
  rw [List.getElem?_map, List.getElem?_range hk, Option.map_some] at hx
  refine ⟨t, _, _, leaf, _, ht, hp, d2 n (by omega) k hk, hx, ?_⟩
  · rw [g2 k hk, List.getElem?_map, List.getElem?_range hk, Option.map_some, accumulate_add_one]
    rw [accumulate_congr _ fun i hi x => by
      rw [treeValues_unique t2 t1 i (by omega) hi k hk, Option.some.inj ((d2 i (by omega) k hk).symm.trans (d1 i hi k hk))]]

namespace RelevantExample

open PredictExample

/-- the trees of `lg` test feature 0 only: C73 applies to rows that differ in feature 1 and in their length -/
example (x y z : F64) (req : Int) (len : Nat) : lg.predict Platform.demo [x, y] req len = lg.predict Platform.demo [x, z, y] req len := by
  refine C73_untested Platform.demo lg _ _ ?_ (by simp; decide) (by simp; decide) req len
  rintro f ⟨t, ht, node, hn, rfl⟩
  have : ∀ t ∈ trees, ∀ node ∈ t.nodes, node.feature = 0 := by decide
  rw [this t ht node hn]
  rfl

/-- … and its result does depend on feature 0 -/
example : (lg.predict Platform.demo [F64.ofNat 7, F64.zero] 0 2).run [F64.nan, F64.nan] ≠
    (lg.predict Platform.demo [F64.ofNat 3, F64.zero] 0 2).run [F64.nan, F64.nan] := by decide +kernel

/-- C74: with one estimator 2 and 20, with two 202 and 2020; weighted: 50002 and 50020, then 600 and 6000 more -/
example : (lg.predict Platform.demo [F64.ofNat 7, F64.zero] 1 2).run [F64.nan, F64.nan] = (.ok ⟨⟩, [F64.ofNat 2, F64.ofNat 20]) ∧
    (lg.predict Platform.demo [F64.ofNat 7, F64.zero] 2 2).run [F64.nan, F64.nan] = (.ok ⟨⟩, [F64.ofNat 202, F64.ofNat 2020]) ∧
    (dart.predict Platform.demo [F64.ofNat 7, F64.zero] 1 2).run [F64.nan, F64.nan] = (.ok ⟨⟩, [F64.ofNat 50002, F64.ofNat 50020]) ∧
    (dart.predict Platform.demo [F64.ofNat 7, F64.zero] 2 2).run [F64.nan, F64.nan] = (.ok ⟨⟩, [F64.ofNat 50602, F64.ofNat 56020]) := by
  decide +kernel

end RelevantExample

end Leaves
