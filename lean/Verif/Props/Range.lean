import Verif.Props.Monotone
import Verif.Props.Accuracy
import Verif.Spec.Range

/-!
# C86: scores stay within the bounds of the leaf values

No row can get a score outside the scores computed from the smallest and the largest leaf value of every tree, rounding included, and
models whose leaf values are ordinary numbers never predict NaN.
-/

namespace Leaves

open Spec GoM

/-! ### bounds -/

theorem NLe.of_le {x y : F64} (h : Le x y) : NLe x y := fun _ _ => (F64.le_iff _ _).2 h

theorem NLe.refl (x : F64) : NLe x x := fun h _ => F64.le_refl h

theorem atLeast_of {m l w m' : List F64} (hs : Stored m 0 w m') (h : List.Forall₂ NLe l w) : AtLeast l m' := by
  intro k a ha
  have hk : k < l.length := (List.getElem?_eq_some_iff.1 ha).1
  have hk' : k < w.length := h.length_eq ▸ hk
  refine ⟨w[k], (stored_get hs hk').trans (List.getElem?_eq_getElem hk'), fun h1 h2 => (F64.le_iff _ _).1 ?_⟩
  rw [List.getElem?_eq_getElem hk] at ha
  cases ha
  exact (List.forall₂_iff_get.1 h).2 k hk hk' h1 h2

theorem atMost_of {m l w m' : List F64} (hs : Stored m 0 w m') (h : List.Forall₂ NLe w l) : AtMost l m' := by
  intro k a ha
  have hk : k < l.length := (List.getElem?_eq_some_iff.1 ha).1
  have hk' : k < w.length := h.length_eq ▸ hk
  refine ⟨w[k], (stored_get hs hk').trans (List.getElem?_eq_getElem hk'), fun h1 h2 => (F64.le_iff _ _).1 ?_⟩
  rw [List.getElem?_eq_getElem hk] at ha
  cases ha
  exact (List.forall₂_iff_get.1 h).2 k hk' hk h2 h1

theorem forall₂_range {R : F64 → F64 → Prop} {K : Nat} {f g : Nat → F64} (h : ∀ k < K, R (f k) (g k)) :
    List.Forall₂ R ((List.range K).map f) ((List.range K).map g) := by
  rw [List.forall₂_map_left_iff, List.forall₂_map_right_iff, List.forall₂_same]
  exact fun k hk => h k (List.mem_range.1 hk)

/-! ### LightGBM -/

theorem TreeDesc.Value.mem {d : TreeDesc} {out : F64 → Int} {row : List F64} {v : F64} (h : d.Value out row v) : v ∈ d.leafValues := by
  unfold TreeDesc.Value at h
  split at h
  · exact List.mem_of_getElem? h
  · obtain ⟨k, -, h⟩ := h
    exact List.mem_of_getElem? h

/-- **C86, LightGBM text files.** If the leaf values of tree `j` lie between `lo j` and `hi j`, every raw score lies between the scores
of the models in which tree `j` always returns `lo j`, or `hi j`. Averaging forests need a platform that fuses `x*y + z` everywhere or
nowhere. -/
theorem C86_text_file (P : Platform) (print : F64 → Str) (text rest0 rest : Str) (header : List Str) (e0 e1 : Bool)
    (bs : List (List Str)) (ds : List TreeDesc) (K N : Nat) (M : Int) (avg : Bool)
    (hK : 1 ≤ K ∧ K < 2 ^ 63) (hN : 1 ≤ N) (hlen : ds.length = N * K)
    (hh : FileBlock text header rest0 e0) (hhl : HeaderLines header K M ds.length avg)
    (hb : FileBlocks rest0 bs rest e1) (hbl : List.Forall₂ (TreeLines print) ds bs)
    (hok : ∀ d ∈ ds, d.OK P.parseFloat print ∧ d.inner * 24 ≤ P.maxAlloc)
    (hP : P.MulAddOK ∧ (avg = true → Uniform P)) (lo hi : Nat → F64)
    (hv : ∀ (j : Nat) d, ds[j]? = some d → ∀ v ∈ d.leafValues, Le (lo j) v ∧ Le v (hi j)) :
    ∃ ens, lgEnsembleFromReader P ⟨text, false⟩ false = .ok (ens, ⟨rest, false⟩) ∧
      ∀ row req m m', (ens.predict P row req m.length).run m = (.ok ⟨⟩, m') →
        ∃ n, Used req N n ∧ AtLeast (lgConstant P lo K avg n) m' ∧ AtMost (lgConstant P hi K avg n) m' := by
  obtain ⟨ens, h1, -, -, -, -, -, -, h2⟩ := C39_text_file P print text rest0 rest header e0 e1 bs ds K N M avg hK hN hlen hh hhl hb hbl hok
  refine ⟨ens, h1, fun row req m m' hm => ?_⟩
  obtain ⟨-, -, n, w, hu, ⟨v, hw, rfl⟩, hs⟩ := (h2 _ _ _ _).1 hm
  have hc : ∀ i < n, MonoAt P (if avg then F64.div F64.one (F64.ofNat n) else F64.one) := fun i hi => by
    split
    next e => exact monoAt_nonneg (hP.2 e) (zero_le_share n (by omega))
    next => exact monoAt_one hP.1
  have hin : ∀ i < n, ∀ k < K, Le (lo (i * K + k)) (v i k) ∧ Le (v i k) (hi (i * K + k)) := fun i hi k hk => by
    obtain ⟨d, hd, hv'⟩ := hw i hi k hk
    exact hv _ d hd _ (TreeDesc.Value.mem hv')
  exact ⟨n, hu,
    atLeast_of hs (forall₂_range fun k hk => accumulate_mono (c := fun _ => _) hc (fun i hi => .of_le (hin i hi k hk).1) (.refl _)),
    atMost_of hs (forall₂_range fun k hk => accumulate_mono (c := fun _ => _) hc (fun i hi => .of_le (hin i hi k hk).2) (.refl _))⟩

/-- **C86, JSON dumps of LightGBM models.** -/
theorem C86_json_file (P : Platform) (d : JEnsemble) (K N : Nat) (M : Int) (ts : List JTree) (ok : JEnsembleOK d P.maxAlloc K N M ts)
    (hK : K < 2 ^ 63) (hP : P.MulAddOK) (lo hi : Nat → F64)
    (hv : ∀ (j : Nat) t, ts[j]? = some t → ∀ v ∈ jValues t.root, Le (lo j) v ∧ Le v (hi j)) :
    ∃ ens, lgEnsembleFromJSON P (some d) false = .ok ens ∧
      ∀ row req m m', (ens.predict P row req m.length).run m = (.ok ⟨⟩, m') →
        ∃ n, Used req N n ∧ AtLeast (lgConstant P lo K false n) m' ∧ AtMost (lgConstant P hi K false n) m' := by
  obtain ⟨ens, h1, -, -, -, -, -, -, -, h2⟩ := C67_json_file P d K N M ts ok hK
  refine ⟨ens, h1, fun row req m m' hm => ?_⟩
  obtain ⟨-, -, n, w, hu, ⟨v, hw, rfl⟩, hs⟩ := (h2 _ _ _ _).1 hm
  have hin : ∀ i < n, ∀ k < K, Le (lo (i * K + k)) (v i k) ∧ Le (v i k) (hi (i * K + k)) := fun i hi k hk => by
    obtain ⟨t, p, ht, hv'⟩ := hw i hi k hk
    exact hv _ t ht _ (jwalk_mem hv')
  exact ⟨n, hu,
    atLeast_of hs (forall₂_range fun k hk =>
      accumulate_mono (c := fun _ => F64.one) (fun _ _ => monoAt_one hP) (fun i hi => .of_le (hin i hi k hk).1) (.refl _)),
    atMost_of hs (forall₂_range fun k hk =>
      accumulate_mono (c := fun _ => F64.one) (fun _ _ => monoAt_one hP) (fun i hi => .of_le (hin i hi k hk).2) (.refl _))⟩

/-! ### XGBoost -/

theorem forall₂_ordered {l w : List F64} (h : List.Forall₂ NLe l w) : List.Forall₂ (NOrdered true) l w :=
  h.imp fun _ _ h h1 h2 => (F64.le_iff _ _).1 (h h1 h2)

theorem forall₂_nle {l w : List F64} (h : List.Forall₂ (NOrdered true) l w) : List.Forall₂ NLe l w :=
  h.imp fun _ _ h h1 h2 => (F64.le_iff _ _).2 (h h1 h2)

theorem Weight.unique {m : XgModel} {i : Nat} {c c' : F64} (h : m.Weight i c) (h' : m.Weight i c') : c = c' := by
  unfold XgModel.Weight at h h'
  split at h
  next e =>
    rw [if_pos e] at h'
    obtain ⟨b, hb, e1⟩ := h
    obtain ⟨b', hb', e2⟩ := h'
    cases hb.symm.trans hb'
    rw [e1, e2]
  next e =>
    rw [if_neg e] at h'
    rw [h, h']

/-- **C86, XGBoost files.** If the leaf values of tree `j` lie between `lo j` and `hi j`, every prediction lies between what would be
predicted if tree `j` always returned `lo j`, or `hi j`, be it a raw score or a probability. For 'dart' the tree weights must not be
negative and the platform must fuse `x*y + z` everywhere or nowhere. -/
theorem C86_xgboost_file (P : Platform) (m : XgModel) (K N : Nat) (ok : m.OK P.maxAlloc K N) (lt : Bool) (tr : Transform)
    (ho : XgObjective K m.header.nameObj lt tr) (hlog : tr = .logistic → K = 1)
    (hP : P.MulAddOK ∧ (m.dart = true → Uniform P ∧ ∀ b ∈ m.weights, Le F64.zero (F64.ofBits32 b)))
    (hexp : tr = .logistic → ExpNonneg P ∧ ExpMono P ∧ P.exp F64.nan = F64.nan) (lo hi c : Nat → F64)
    (hc : ∀ j < N * K, m.Weight j (c j))
    (hv : ∀ (j : Nat) t T, m.gbtree.trees[j]? = some t → m.shapes[j]? = some T →
      ∀ leaf ∈ T.leaves, ∀ v, XgVal t.nodes leaf v → Le (lo j) v ∧ Le v (hi j)) :
    ∃ ens, (∀ rest, xgEnsembleFromReader P lt (m.image ++ rest) = .ok (ens, rest)) ∧
      ∀ row req s s', (ens.predict P row req s.length).run s = (.ok ⟨⟩, s') →
        ∃ n, Used req N n ∧ ∃ l h, IsTransformed P tr (xgConstant P m lo c K n) l ∧ IsTransformed P tr (xgConstant P m hi c K n) h ∧
          AtLeast l s' ∧ AtMost h s' := by
  obtain ⟨ens, h1, -, -, -, -, -, -, h2⟩ := C62_xgboost_file_le P m K N ok lt tr ho hlog
  refine ⟨ens, h1, fun row req s s' hs1 => ?_⟩
  obtain ⟨-, -, n, w, out, hu, ⟨v, c', hw, hc', rfl⟩, ht, hs⟩ := (h2 _ _ _ _).1 hs1
  have hnN := (Used.pos hu ok.counts.2.1).2
  have hj : ∀ i < n, ∀ k < K, i * K + k < N * K := fun i hi k hk => by
    have : (i + 1) * K ≤ N * K := Nat.mul_le_mul_right _ (by omega)
    rw [Nat.add_mul, Nat.one_mul] at this
    omega
  have he : ∀ i < n, ∀ k < K, c' i k = c (i * K + k) := fun i hi k hk => Weight.unique (hc' i hi k hk) (hc _ (hj i hi k hk))
  have hmono : ∀ k < K, ∀ i < n, MonoAt P (c (i * K + k)) := fun k hk i hi => by
    have := hc _ (hj i hi k hk)
    unfold XgModel.Weight at this
    split at this
    next e =>
      obtain ⟨b, hb, e2⟩ := this
      rw [e2]
      exact monoAt_nonneg (hP.2 e).1 ((F64.le_iff _ _).2 ((hP.2 e).2 b (List.mem_of_getElem? hb)))
    next =>
      rw [this]
      exact monoAt_one hP.1
  have hin : ∀ i < n, ∀ k < K, Le (lo (i * K + k)) (v i k) ∧ Le (v i k) (hi (i * K + k)) := fun i hi k hk => by
    obtain ⟨t, T, leaf, ht, hT, hwk, hval⟩ := hw i hi k hk
    exact hv _ t T ht hT leaf (Walk.mem hwk) _ hval
  have hcc : ∀ k < K, accumulate (fun i acc => P.mulAdd (v i k) (c' i k) acc) n (F64.ofBits32 m.header.param.baseScore) =
      accumulate (fun i acc => P.mulAdd (v i k) (c (i * K + k)) acc) n (F64.ofBits32 m.header.param.baseScore) :=
    fun k hk => accumulate_congr _ fun i hi z => by rw [he i hi k hk]
  have hL : List.Forall₂ NLe (xgConstant P m lo c K n) ((List.range K).map fun k =>
      accumulate (fun i acc => P.mulAdd (v i k) (c' i k) acc) n (F64.ofBits32 m.header.param.baseScore)) :=
    forall₂_range fun k hk => by
      rw [hcc k hk]
      exact accumulate_mono (c := fun i => c (i * K + k)) (hmono k hk) (fun i hi => .of_le (hin i hi k hk).1) (.refl _)
  have hH : List.Forall₂ NLe ((List.range K).map fun k =>
      accumulate (fun i acc => P.mulAdd (v i k) (c' i k) acc) n (F64.ofBits32 m.header.param.baseScore)) (xgConstant P m hi c K n) :=
    forall₂_range fun k hk => by
      rw [hcc k hk]
      exact accumulate_mono (c := fun i => c (i * K + k)) (hmono k hk) (fun i hi => .of_le (hin i hi k hk).2) (.refl _)
  refine ⟨n, hu, ?_⟩
  cases ho with
  | raw =>
    obtain rfl : out = _ := ht
    exact ⟨_, _, rfl, rfl, atLeast_of hs hL, atMost_of hs hH⟩
  | logistic =>
    obtain ⟨e1, e2, e3⟩ := hexp rfl
    obtain rfl := hlog rfl
    have one : ∀ b, IsTransformed P .logistic (xgConstant P m b c 1 n) [_] := fun b => ⟨_, rfl, rfl⟩
    exact ⟨_, _, one lo, one hi, atLeast_of hs (forall₂_nle (logistic_ordered e1 e2 e3 (forall₂_ordered hL) (one lo) ht)),
      atMost_of hs (forall₂_nle (logistic_ordered e1 e2 e3 (forall₂_ordered hH) ht (one hi)))⟩

/-! ### scikit-learn -/

theorem mulAdd_nle {P : Platform} {c x x' z : F64} (hc : MonoAt P c) (hx : Le x x') (hz : z ≠ F64.nan) : NLe (P.mulAdd x c z) (P.mulAdd x' c z) :=
  fun h h' => hc.mono _ _ _ _ ((F64.le_iff _ _).2 hx) (F64.le_refl hz) h h'

/-- **C86, scikit-learn pickles.** If the leaf values of tree `j` lie between `lo j` and `hi j`, every raw score lies between the scores
of the models in which tree `j` always returns `lo j`, or `hi j`. The learning rate must not be negative, and the platform must fuse
`x*y + z` everywhere or nowhere. -/
theorem C86_sklearn_file (P : Platform) (v : PyVal) (bs : Pickle.Bytes) (μ : Memo) (hd : Dumps P noMemo v bs μ) (M : SkModel)
    (hc : IsClassifier M v) (ok : M.OK P.maxAlloc) (hP : Uniform P) (hlr : Le F64.zero M.learningRate) (lo hi prior : Nat → F64)
    (hp : ∀ k < M.groups, M.prior[k]? = some (prior k))
    (hv : ∀ (j : Nat) t T, M.trees[j]? = some t → M.shapes[j]? = some T →
      ∀ leaf ∈ T.leaves, ∀ v, t.values[leaf]? = some v → Le (lo j) v ∧ Le v (hi j)) :
    ∃ ens, (∀ rest lt, skEnsembleFromReader P (bs ++ octet '.' :: rest) lt = .ok ens) ∧
      ∀ row req s s', (ens.predict P row req s.length).run s = (.ok ⟨⟩, s') →
        ∃ n, Used req M.estimators n ∧ AtLeast (skConstant P M lo prior n) s' ∧ AtMost (skConstant P M hi prior n) s' := by
  obtain ⟨ens, h1, -, -, -, -, -, -, -, h2⟩ := C63_sklearn_file P v bs μ hd M hc ok
  refine ⟨ens, h1, fun row req s s' hs1 => ?_⟩
  obtain ⟨-, -, n, w, hu, ⟨v, hw, rfl⟩, hs⟩ := (h2 _ _ _ _).1 hs1
  have hlr' := monoAt_nonneg hP ((F64.le_iff _ _).2 hlr)
  have hin : ∀ i < n, ∀ k < M.groups, NLe (P.mulAdd (lo (i * M.groups + k)) M.learningRate (if i = 0 then prior k else F64.zero)) (v i k) ∧
      NLe (v i k) (P.mulAdd (hi (i * M.groups + k)) M.learningRate (if i = 0 then prior k else F64.zero)) := fun i hi k hk => by
    obtain ⟨t, T, leaf, x, p, ht, hT, -, hwk, hval, hpk, e⟩ := hw i hi k hk
    obtain ⟨b1, b2⟩ := hv _ t T ht hT leaf (Walk.mem hwk) _ hval
    cases (hp k hk).symm.trans hpk
    rw [e]
    by_cases hz : (if i = 0 then prior k else F64.zero) = F64.nan
    · rw [hz]
      exact ⟨fun h => absurd (hlr'.strict _) h, fun h => absurd (hlr'.strict _) h⟩
    · exact ⟨mulAdd_nle hlr' b1 hz, mulAdd_nle hlr' b2 hz⟩
  exact ⟨n, hu,
    atLeast_of hs (forall₂_range fun k hk =>
      accumulate_mono (c := fun _ => F64.one) (fun _ _ => monoAt_one (Uniform.ok hP)) (fun i hi => (hin i hi k hk).1) (.refl _)),
    atMost_of hs (forall₂_range fun k hk =>
      accumulate_mono (c := fun _ => F64.one) (fun _ _ => monoAt_one (Uniform.ok hP)) (fun i hi => (hin i hi k hk).2) (.refl _))⟩

/-! ### no NaN -/

theorem add_ordinary {x y : F64} {q : ℚ} (hx : x ≠ F64.nan) (hy : IsVal y q) : F64.add x y ≠ F64.nan := by
  cases y with
  | nan => simp [IsVal, value] at hy
  | inf s => cases s <;> simp [IsVal, value, pt] at hy
  | fin s m h =>
    cases x with
    | nan => exact absurd rfl hx
    | inf t => exact fun h => by cases h
    | fin t k h' => exact F64.ofScaled_ne_nan _ _ _

theorem accumulate_ordinary {P : Platform} (hP : P.MulAddOK) {v : Nat → F64} {z : F64} (hz : z ≠ F64.nan) : ∀ {n : Nat},
    (∀ i < n, ∃ q, IsVal (v i) q) → accumulate (fun i acc => P.mulAdd (v i) F64.one acc) n z ≠ F64.nan
  | 0, _ => hz
  | n + 1, h => by
    obtain ⟨q, hq⟩ := h n (by omega)
    rw [accumulate_add_one, hP.one]
    exact add_ordinary (accumulate_ordinary hP hz fun i hi => h i (by omega)) hq

/-- **C86, LightGBM text files, NaN.** Sums of leaf values that are ordinary numbers are never NaN, whatever is in the row. -/
theorem C86_text_number (P : Platform) (print : F64 → Str) (text rest0 rest : Str) (header : List Str) (e0 e1 : Bool)
    (bs : List (List Str)) (ds : List TreeDesc) (K N : Nat) (M : Int)
    (hK : 1 ≤ K ∧ K < 2 ^ 63) (hN : 1 ≤ N) (hlen : ds.length = N * K)
    (hh : FileBlock text header rest0 e0) (hhl : HeaderLines header K M ds.length false)
    (hb : FileBlocks rest0 bs rest e1) (hbl : List.Forall₂ (TreeLines print) ds bs)
    (hok : ∀ d ∈ ds, d.OK P.parseFloat print ∧ d.inner * 24 ≤ P.maxAlloc)
    (hP : P.MulAddOK) (hv : ∀ d ∈ ds, ∀ v ∈ d.leafValues, ∃ q, IsVal v q) :
    ∃ ens, lgEnsembleFromReader P ⟨text, false⟩ false = .ok (ens, ⟨rest, false⟩) ∧
      ∀ row req m m', (ens.predict P row req m.length).run m = (.ok ⟨⟩, m') → ∀ k < K, ∃ y, m'[k]? = some y ∧ y ≠ F64.nan := by
  obtain ⟨ens, h1, -, -, -, -, -, -, h2⟩ := C39_text_file P print text rest0 rest header e0 e1 bs ds K N M false hK hN hlen hh hhl hb hbl hok
  refine ⟨ens, h1, fun row req m m' hm k hk => ?_⟩
  obtain ⟨-, -, n, w, hu, ⟨v, hw, rfl⟩, hs⟩ := (h2 _ _ _ _).1 hm
  refine ⟨_, (stored_get hs (by simpa using hk)).trans (range_get hk), ?_⟩
  refine accumulate_ordinary hP (by decide) fun i hi => ?_
  obtain ⟨d, hd, hv'⟩ := hw i hi k hk
  exact hv d (List.mem_of_getElem? hd) _ (TreeDesc.Value.mem hv')

/-- **C86, JSON dumps of LightGBM models, NaN.** -/
theorem C86_json_number (P : Platform) (d : JEnsemble) (K N : Nat) (M : Int) (ts : List JTree) (ok : JEnsembleOK d P.maxAlloc K N M ts)
    (hK : K < 2 ^ 63) (hP : P.MulAddOK) (hv : ∀ t ∈ ts, ∀ v ∈ jValues t.root, ∃ q, IsVal v q) :
    ∃ ens, lgEnsembleFromJSON P (some d) false = .ok ens ∧
      ∀ row req m m', (ens.predict P row req m.length).run m = (.ok ⟨⟩, m') → ∀ k < K, ∃ y, m'[k]? = some y ∧ y ≠ F64.nan := by
  obtain ⟨ens, h1, -, -, -, -, -, -, -, h2⟩ := C67_json_file P d K N M ts ok hK
  refine ⟨ens, h1, fun row req m m' hm k hk => ?_⟩
  obtain ⟨-, -, n, w, hu, ⟨v, hw, rfl⟩, hs⟩ := (h2 _ _ _ _).1 hm
  refine ⟨_, (stored_get hs (by simpa using hk)).trans (range_get hk), ?_⟩
  refine accumulate_ordinary hP (by decide) fun i hi => ?_
  obtain ⟨t, p, ht, hv'⟩ := hw i hi k hk
  exact hv t (List.mem_of_getElem? ht) _ (jwalk_mem hv')

/-- **C86, XGBoost files, NaN.** Without tree weights ('gbtree'), a base score that is not NaN and leaf values that are ordinary numbers
give raw scores that are not NaN, and probabilities. -/
theorem C86_xgboost_number (P : Platform) (m : XgModel) (K N : Nat) (ok : m.OK P.maxAlloc K N) (hdart : m.dart = false) (lt : Bool)
    (tr : Transform) (ho : XgObjective K m.header.nameObj lt tr) (hlog : tr = .logistic → K = 1 ∧ ExpNonneg P) (hP : P.MulAddOK)
    (hbase : F64.ofBits32 m.header.param.baseScore ≠ F64.nan)
    (hv : ∀ (j : Nat) t T, m.gbtree.trees[j]? = some t → m.shapes[j]? = some T →
      ∀ leaf ∈ T.leaves, ∀ v, XgVal t.nodes leaf v → ∃ q, IsVal v q) :
    ∃ ens, (∀ rest, xgEnsembleFromReader P lt (m.image ++ rest) = .ok (ens, rest)) ∧
      ∀ row req s s', (ens.predict P row req s.length).run s = (.ok ⟨⟩, s') →
        ∀ k < K, ∃ y, s'[k]? = some y ∧ y ≠ F64.nan ∧ (tr = .logistic → IsProbability y) := by
  obtain ⟨ens, h1, -, -, -, -, -, -, h2⟩ := C62_xgboost_file_le P m K N ok lt tr ho fun h => (hlog h).1
  refine ⟨ens, h1, fun row req s s' hs1 k hk => ?_⟩
  obtain ⟨-, -, n, w, out, hu, ⟨v, c, hw, hc, rfl⟩, ht, hs⟩ := (h2 _ _ _ _).1 hs1
  have hn : ∀ k < K, accumulate (fun i acc => P.mulAdd (v i k) (c i k) acc) n (F64.ofBits32 m.header.param.baseScore) ≠ F64.nan :=
    fun k hk => by
    have : ∀ i < n, ∀ z, P.mulAdd (v i k) (c i k) z = P.mulAdd (v i k) F64.one z := fun i hi z => by
      have := hc i hi k hk
      unfold XgModel.Weight at this
      rw [if_neg (by rw [hdart]; exact Bool.false_ne_true)] at this
      rw [this]
    rw [accumulate_congr _ this]
    refine accumulate_ordinary hP hbase fun i hi => ?_
    obtain ⟨t, T, leaf, ht, hT, hwk, hval⟩ := hw i hi k hk
    exact hv _ t T ht hT leaf (Walk.mem hwk) _ hval
  cases ho with
  | raw =>
    obtain rfl : out = _ := ht
    exact ⟨_, (stored_get hs (by simpa using hk)).trans (range_get hk), hn k hk, fun h => by cases h⟩
  | logistic =>
    obtain ⟨rfl, hexp⟩ := hlog rfl
    obtain rfl : k = 0 := by omega
    obtain ⟨z, rfl, hz⟩ := C25_range P hexp _ (hn 0 hk) out ht
    exact ⟨z, (stored_get hs (by simp)).trans rfl, Le.right_ne_nan hz.1, fun _ => hz⟩

/-! ### concrete models -/

namespace RangeExample

open LgExample (platform)
open LgLoadExample (d1 d2 print)
open MonotoneExample (ordered_of_le)

/-- The leaf values of the first tree lie between 10 and 40; the other tree is a single leaf. -/
def lo : Nat → F64
  | 0 => F64.ofNat 10
  | _ => (d2.leafValues[0]?).getD F64.zero

def hi : Nat → F64
  | 0 => F64.ofNat 40
  | _ => (d2.leafValues[0]?).getD F64.zero

theorem bounds : ∀ (j : Nat) d, [d1, d2][j]? = some d → ∀ v ∈ d.leafValues, Le (lo j) v ∧ Le v (hi j) := by
  have e1 : ∀ v ∈ d1.leafValues, F64.le (lo 0) v = true ∧ F64.le v (hi 0) = true := by decide +kernel
  have e2 : ∀ v ∈ d2.leafValues, F64.le (lo 1) v = true ∧ F64.le v (hi 1) = true := by decide +kernel
  intro j d hd v hv
  rw [← F64.le_iff, ← F64.le_iff]
  match j with
  | 0 => cases hd; exact e1 v hv
  | 1 => cases hd; exact e2 v hv
  | j + 2 => cases hd

/-- The theorem applies to the text of these two trees, one for each of two groups, and the bounds are 10 and 40 for the first. -/
example (tail : Str) : ∃ ens,
    lgEnsembleFromReader platform ⟨modelText print [d1, d2] 2 1 false ++ tail, false⟩ false = .ok (ens, ⟨tail, false⟩) ∧
    ∀ row req m m', (ens.predict platform row req m.length).run m = (.ok ⟨⟩, m') →
        ∃ n, Used req 1 n ∧ AtLeast (lgConstant platform lo 2 false n) m' ∧ AtMost (lgConstant platform hi 2 false n) m' := by
  obtain ⟨header, rest0, blocks, h1, h2, h3, h4⟩ := modelText_blocks (M := 1) tail 2 false (by norm_num) LgLoadExample.ds_ok
  exact C86_text_file platform print _ _ tail _ false false _ [d1, d2] 2 1 1 false (by norm_num) le_rfl rfl h1 h2 h3 h4
    (fun d hd => ⟨(LgLoadExample.ds_ok d hd).1, (LgLoadExample.ds_ok d hd).2.2⟩) ⟨fun _ _ _ => .inl rfl, fun h => by cases h⟩ lo hi bounds

example : (lgConstant platform lo 2 false 1)[0]? = some (F64.ofNat 10) ∧ (lgConstant platform hi 2 false 1)[0]? = some (F64.ofNat 40) := by
  decide +kernel

/-- The same trees as nested objects. -/
example : ∃ ens, lgEnsembleFromJSON platform (some (JsonModelExample.doc 2 [JsonModelExample.t1, JsonModelExample.t2])) false = .ok ens ∧
    ∀ row req m m', (ens.predict platform row req m.length).run m = (.ok ⟨⟩, m') →
        ∃ n, Used req 1 n ∧ AtLeast (lgConstant platform lo 2 false n) m' ∧ AtMost (lgConstant platform hi 2 false n) m' := by
  refine C86_json_file platform _ 2 1 1 _ JsonModelExample.doc_ok (by norm_num) (fun _ _ _ => .inl rfl) lo hi ?_
  have e1 : ∀ v ∈ jValues JsonModelExample.t1.root, F64.le (lo 0) v = true ∧ F64.le v (hi 0) = true := by decide +kernel
  have e2 : ∀ v ∈ jValues JsonModelExample.t2.root, F64.le (lo 1) v = true ∧ F64.le v (hi 1) = true := by decide +kernel
  intro j d hd v hv
  rw [← F64.le_iff, ← F64.le_iff]
  match j with
  | 0 => cases hd; exact e1 v hv
  | 1 => cases hd; exact e2 v hv
  | j + 2 => cases hd

theorem isVal_of_fin {x : F64} (h : (match x with | .fin _ _ _ => true | _ => false) = true) : ∃ q, IsVal x q := by
  cases x with
  | fin s m hm => cases s <;> exact ⟨_, rfl⟩
  | inf s => cases h
  | nan => cases h

/-- No row gives NaN. -/
example : ∃ ens, lgEnsembleFromJSON platform (some (JsonModelExample.doc 2 [JsonModelExample.t1, JsonModelExample.t2])) false = .ok ens ∧
    ∀ row req m m', (ens.predict platform row req m.length).run m = (.ok ⟨⟩, m') → ∀ k < 2, ∃ y, m'[k]? = some y ∧ y ≠ F64.nan := by
  refine C86_json_number platform _ 2 1 1 _ JsonModelExample.doc_ok (by norm_num) (fun _ _ _ => .inl rfl) fun t ht v hv => isVal_of_fin ?_
  have : ∀ t ∈ [JsonModelExample.t1, JsonModelExample.t2], ∀ v ∈ jValues t.root,
      (match v with | .fin _ _ _ => true | _ => false) = true := by decide +kernel
  exact this t ht v hv

/-- The two trees of the 'dart' file, with weights 1 and 0.5. -/
def c : Nat → F64
  | 0 => F64.ofBits32 0x3f800000#32
  | _ => F64.ofBits32 0x3f000000#32

def xlo : Nat → F64
  | 0 => F64.neg F64.one
  | _ => F64.ofNat 2

def xhi : Nat → F64
  | 0 => F64.ofNat 3
  | _ => F64.ofNat 2

example : ∃ ens, (∀ rest, xgEnsembleFromReader Platform.demo false ((XgFileExample.file 1#32).image ++ rest) = .ok (ens, rest)) ∧
    ∀ row req s s', (ens.predict Platform.demo row req s.length).run s = (.ok ⟨⟩, s') →
      ∃ n, Used req 2 n ∧ ∃ l h, IsTransformed Platform.demo (.raw 1) (xgConstant Platform.demo (XgFileExample.file 1#32) xlo c 1 n) l ∧
        IsTransformed Platform.demo (.raw 1) (xgConstant Platform.demo (XgFileExample.file 1#32) xhi c 1 n) h ∧ AtLeast l s' ∧ AtMost h s' := by
  refine C86_xgboost_file Platform.demo (XgFileExample.file 1#32) 1 2 XgFileExample.file_ok false (.raw 1) .raw (fun h => by cases h)
    ⟨fun _ _ _ => .inl rfl, fun _ => ⟨.inl fun _ _ _ => rfl, fun b hb => (F64.le_iff _ _).1 ?_⟩⟩ (fun h => by cases h) xlo xhi c ?_ ?_
  · have : b = 0x3f800000#32 ∨ b = 0x3f000000#32 := by simpa [XgFileExample.file] using hb
    rcases this with rfl | rfl <;> decide +kernel
  · intro j hj
    match j with
    | 0 => exact ⟨_, rfl, rfl⟩
    | 1 => exact ⟨_, rfl, rfl⟩
    | j + 2 => omega
  · intro j t T ht hT leaf hl v hv
    obtain ⟨n, hn, rfl⟩ := hv
    rw [← F64.le_iff, ← F64.le_iff]
    match j with
    | 0 =>
      cases ht
      cases hT
      have : ∀ leaf ∈ XgExample.tree.leaves, ∀ n ∈ XgFileExample.tree1.nodes[leaf]?,
        F64.le (xlo 0) (F64.ofBits32 n.info) = true ∧ F64.le (F64.ofBits32 n.info) (xhi 0) = true := by decide +kernel
      exact this leaf hl n hn
    | 1 =>
      cases ht
      cases hT
      have : ∀ leaf ∈ (BTree.leaf 0).leaves, ∀ n ∈ XgFileExample.tree2.nodes[leaf]?,
        F64.le (xlo 1) (F64.ofBits32 n.info) = true ∧ F64.le (F64.ofBits32 n.info) (xhi 1) = true := by decide +kernel
      exact this leaf hl n hn
    | j + 2 => cases ht

/-- The classifier of `SkModelExample`: leaf values 10, 20 and 30, learning rate 2, prior 5. -/
example : ∃ ens, (∀ rest lt, skEnsembleFromReader Platform.demo ((SkModelExample.value 2).dump SkModelExample.print ++ octet '.' :: rest) lt = .ok ens) ∧
    ∀ row req s s', (ens.predict Platform.demo row req s.length).run s = (.ok ⟨⟩, s') →
      ∃ n, Used req 2 n ∧ AtLeast (skConstant Platform.demo (SkModelExample.model 2) (fun _ => F64.ofNat 10) (fun _ => F64.ofNat 5) n) s' ∧
        AtMost (skConstant Platform.demo (SkModelExample.model 2) (fun _ => F64.ofNat 30) (fun _ => F64.ofNat 5) n) s' := by
  refine C86_sklearn_file Platform.demo _ _ _ (dump_dumps _ (SkModelExample.writable 2 ⟨by decide, by decide⟩)) _
    (SkModelExample.is_classifier 2) (SkModelExample.model_ok 2) (.inl fun _ _ _ => rfl) ((F64.le_iff _ _).1 (by decide +kernel)) _ _ _ ?_ ?_
  · intro k hk
    obtain rfl : k = 0 := Nat.lt_one_iff.1 hk
    rfl
  · have : ∀ leaf ∈ SkExample.shape.leaves, ∀ v ∈ SkExample.tree.values[leaf]?,
      F64.le (F64.ofNat 10) v = true ∧ F64.le v (F64.ofNat 30) = true := by decide +kernel
    intro j t T ht hT leaf hl v hv
    rw [← F64.le_iff, ← F64.le_iff]
    match j with
    | 0 => cases ht; cases hT; exact this leaf hl v hv
    | 1 => cases ht; cases hT; exact this leaf hl v hv
    | j + 2 => cases ht

example : skConstant Platform.demo (SkModelExample.model 2) (fun _ => F64.ofNat 10) (fun _ => F64.ofNat 5) 2 = [F64.ofNat 45] ∧
    skConstant Platform.demo (SkModelExample.model 2) (fun _ => F64.ofNat 30) (fun _ => F64.ofNat 5) 2 = [F64.ofNat 125] := by
  decide +kernel

/-- The condition on NaN is needed: two trees with infinite leaf values of opposite signs sum up to NaN. -/
example : lgConstant Platform.demo (fun j => F64.inf (j == 1)) 1 false 2 = [F64.nan] := by decide +kernel

end RangeExample

end Leaves
