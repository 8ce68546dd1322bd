import Verif.Props.LgLoad
import Verif.Props.XgFile
import Verif.Props.SkModel
import Verif.Props.JsonModel
import Verif.Proofs.SumAccuracy

/-!
# C82: how accurate predictions are

Every stored raw score is compared with the exact sum (or average) of the leaf values that the file and the row determine. The statements
concern scores that are finite numbers; a score is infinite or NaN if a leaf value is, or if a partial sum overflows.
-/

namespace Leaves

open Spec GoM

theorem stored_get {m w m' : List F64} (hs : Stored m 0 w m') {k : Nat} (hk : k < w.length) : m'[k]? = w[k]? := by
  rw [hs.2.2 k, if_pos (by omega)]; rfl

theorem Used.pos {req : Int} {N n : Nat} (h : Used req N n) (hN : 1 ≤ N) : 1 ≤ n ∧ n ≤ N := by
  unfold Used at h
  split at h <;> omega

theorem range_get {f : Nat → F64} {K k : Nat} (hk : k < K) : ((List.range K).map f)[k]? = some (f k) := by
  simp [hk]

/-- **C82, LightGBM text files.** -/
theorem C82_text_file (P : Platform) (print : F64 → Str) (text rest0 rest : Str) (header : List Str) (e0 e1 : Bool)
    (bs : List (List Str)) (ds : List TreeDesc) (K N : Nat) (M : Int) (avg : Bool)
    (hK : 1 ≤ K ∧ K < 2 ^ 63) (hN : 1 ≤ N) (hlen : ds.length = N * K)
    (hh : FileBlock text header rest0 e0) (hhl : HeaderLines header K M ds.length avg)
    (hb : FileBlocks rest0 bs rest e1) (hbl : List.Forall₂ (TreeLines print) ds bs)
    (hok : ∀ d ∈ ds, d.OK P.parseFloat print ∧ d.inner * 24 ≤ P.maxAlloc) (hP : P.MulAddOK) (hs : N + 2 ≤ 2 ^ 52) :
    ∃ ens, lgEnsembleFromReader P ⟨text, false⟩ false = .ok (ens, ⟨rest, false⟩) ∧
      ∀ row req m m', (ens.predict P row req m.length).run m = (.ok ⟨⟩, m') → ∃ n, Used req N n ∧
        ∀ k < K, ∃ y, m'[k]? = some y ∧ ∀ q, IsVal y q →
          ∃ x : Nat → ℚ, (∀ i < n, ∃ d v, ds[i * K + k]? = some d ∧ d.Value P.out row v ∧ IsVal v (x i)) ∧
            if avg then Near (n + 2) n ((∑ i ∈ Finset.range n, |x i|) / n) ((∑ i ∈ Finset.range n, x i) / n) q
            else Near n 0 (∑ i ∈ Finset.range n, |x i|) (∑ i ∈ Finset.range n, x i) q := by
  obtain ⟨ens, h1, -, -, -, -, -, -, h2⟩ := C39_text_file P print text rest0 rest header e0 e1 bs ds K N M avg hK hN hlen hh hhl hb hbl hok
  refine ⟨ens, h1, fun row req m m' hm => ?_⟩
  obtain ⟨-, -, n, w, hu, ⟨v, hv, rfl⟩, hst⟩ := (h2 _ _ _ _).1 hm
  obtain ⟨n1, n2⟩ := Used.pos hu hN
  refine ⟨n, hu, fun k hk => ⟨_, (stored_get hst (by simpa using hk)).trans (range_get hk), fun q hq => ?_⟩⟩
  cases avg with
  | false =>
    simp only [Bool.false_eq_true, if_false] at hq
    obtain ⟨x, hx, hn⟩ := near_sum hP (by omega) hq
    exact ⟨x, fun i hi => (hv i hi k hk).imp fun d hd => ⟨_, hd.1, hd.2, hx i hi⟩, by rw [if_neg Bool.false_ne_true]; exact hn⟩
  | true =>
    simp only [if_true] at hq
    obtain ⟨x, hx, hn⟩ := near_average hP n1 (by omega) hq
    exact ⟨x, fun i hi => (hv i hi k hk).imp fun d hd => ⟨_, hd.1, hd.2, hx i hi⟩, by rw [if_pos rfl]; exact hn⟩

/-- **C82, XGBoost trees.** The exact score is the base score plus the weighted leaf values. -/
theorem C82_xgboost_file (P : Platform) (m : XgModel) (K N : Nat) (ok : m.OK P.maxAlloc K N) (hP : P.MulAddOK) (hs : N + 1 ≤ 2 ^ 52) :
    ∃ ens, (∀ rest, xgEnsembleFromReader P false (m.image ++ rest) = .ok (ens, rest)) ∧
      ∀ row req s s', (ens.predict P row req s.length).run s = (.ok ⟨⟩, s') → ∃ n, Used req N n ∧
        ∀ k < K, ∃ y, s'[k]? = some y ∧ ∀ q, IsVal y q →
          ∃ (x w : Nat → ℚ) (b : ℚ), IsVal (F64.ofBits32 m.header.param.baseScore) b ∧
            (∀ i < n, ∃ t T leaf v c, m.gbtree.trees[i * K + k]? = some t ∧ m.shapes[i * K + k]? = some T ∧
              Walk (XgGoesLe t.nodes row) T leaf ∧ XgVal t.nodes leaf v ∧ m.Weight (i * K + k) c ∧ IsVal v (x i) ∧ IsVal c (w i)) ∧
            Near (n + 1) n (|b| + ∑ i ∈ Finset.range n, |w i * x i|) (b + ∑ i ∈ Finset.range n, w i * x i) q := by
  obtain ⟨ens, h1, -, -, -, -, -, -, h2⟩ := C62_xgboost_file_le P m K N ok false (.raw K) .raw (fun h => by cases h)
  refine ⟨ens, h1, fun row req s s' hm => ?_⟩
  obtain ⟨-, -, n, w, out, hu, ⟨v, c, hv, hc, rfl⟩, ht, hst⟩ := (h2 _ _ _ _).1 hm
  obtain rfl := show out = _ from ht
  obtain ⟨-, n2⟩ := Used.pos hu ok.counts.2.1
  refine ⟨n, hu, fun k hk => ⟨_, (stored_get hst (by simpa using hk)).trans (range_get hk), fun q hq => ?_⟩⟩
  obtain ⟨x, w, b, hx, hb, hn⟩ := near_weighted hP (by omega) hq
  refine ⟨x, w, b, hb, fun i hi => ?_, hn⟩
  obtain ⟨t, T, leaf, a1, a2, a3, a4⟩ := hv i hi k hk
  exact ⟨t, T, leaf, _, _, a1, a2, a3, a4, hc i hi k hk, (hx i hi).1, (hx i hi).2⟩

/-- **C82, linear XGBoost models.** The exact score is the base score plus the bias plus the weighted features. -/
theorem C82_linear_file (P : Platform) (m : XgLinFile) (K F : Nat) (ok : m.OK P.maxAlloc K F) (hP : P.MulAddOK) (hs : F + 2 ≤ 2 ^ 52) :
    ∃ ens, (∀ rest, xgbLinearFromReader P false (m.image ++ rest) = .ok (ens, rest)) ∧
      ∀ row req s s', (ens.predict P row req s.length).run s = (.ok ⟨⟩, s') →
        ∀ k < K, ∃ y, s'[k]? = some y ∧ ∀ q, IsVal y q →
          ∃ (x w : Nat → ℚ) (b b' : ℚ), IsVal (F64.ofBits32 m.header.param.baseScore) b ∧
            (∃ u, m.linear.weights[F * K + k]? = some u ∧ IsVal (F64.ofBits32 u) b') ∧
            (∀ i < F, ∃ v u, row[i]? = some v ∧ m.linear.weights[i * K + k]? = some u ∧ IsVal v (x i) ∧ IsVal (F64.ofBits32 u) (w i)) ∧
            Near (F + 2) F (|b| + |b'| + ∑ i ∈ Finset.range F, |w i * x i|) (b + b' + ∑ i ∈ Finset.range F, w i * x i) q := by
  obtain ⟨ens, h1, -, -, -, -, -, -, h2⟩ := C62_linear_file P m K F ok false (.raw K) .raw (fun h => by cases h)
  refine ⟨ens, h1, fun row req s s' hm => ?_⟩
  obtain ⟨-, -, w, out, ⟨v, c, hv, hc, rfl⟩, ht, hst⟩ := (h2 _ _ _ _).1 hm
  obtain rfl := show out = _ from ht
  refine fun k hk => ⟨_, (stored_get hst (by simpa using hk)).trans (range_get hk), fun q hq => ?_⟩
  obtain ⟨x, w, b, b', hx, hb, hb', hn⟩ := near_biased hP hs hq
  obtain ⟨u, hu, e⟩ := hc F le_rfl k hk
  refine ⟨x, w, b, b', hb, ⟨u, hu, e ▸ hb'⟩, fun i hi => ?_, hn⟩
  obtain ⟨u, hu, e⟩ := hc i (by omega) k hk
  exact ⟨_, u, hv i hi, hu, (hx i hi).1, e ▸ (hx i hi).2⟩

/-- **C82, scikit-learn pickles.** The exact score is the prior plus the learning rate times the leaf values. -/
theorem C82_sklearn_file (P : Platform) (v : PyVal) (bs : Pickle.Bytes) (μ : Memo) (hd : Dumps P noMemo v bs μ) (M : SkModel)
    (hc : IsClassifier M v) (ok : M.OK P.maxAlloc) (hP : P.MulAddOK) (hs : M.estimators + 2 ≤ 2 ^ 52) :
    ∃ ens, (∀ rest lt, skEnsembleFromReader P (bs ++ octet '.' :: rest) lt = .ok ens) ∧
      ∀ row req s s', (ens.predict P row req s.length).run s = (.ok ⟨⟩, s') → ∃ n, Used req M.estimators n ∧
        ∀ k < M.groups, ∃ y, s'[k]? = some y ∧ ∀ q, IsVal y q →
          ∃ (x : Nat → ℚ) (b w : ℚ), IsVal M.learningRate w ∧ (∃ p, M.prior[k]? = some p ∧ IsVal p b) ∧
            (∀ i < n, ∃ t T leaf v, M.trees[i * M.groups + k]? = some t ∧ M.shapes[i * M.groups + k]? = some T ∧
              Walk (SkGoes t.nodes (nanToZero row)) T leaf ∧ t.values[leaf]? = some v ∧ IsVal v (x i)) ∧
            Near (n + 2) n (|b| + ∑ i ∈ Finset.range n, |w * x i|) (b + ∑ i ∈ Finset.range n, w * x i) q := by
  obtain ⟨ens, h1, -, -, -, -, -, -, -, h2⟩ := C63_sklearn_file P v bs μ hd M hc ok
  refine ⟨ens, h1, fun row req s s' hm => ?_⟩
  obtain ⟨-, -, n, w, hu, ⟨v, hv, rfl⟩, hst⟩ := (h2 _ _ _ _).1 hm
  obtain ⟨n1, n2⟩ := Used.pos hu ok.counts.2.1
  refine ⟨n, hu, fun k hk => ⟨_, (stored_get hst (by simpa using hk)).trans (range_get hk), fun q hq => ?_⟩⟩
  have hv' : ∀ i, ∃ a, i < n → ∃ t T leaf p, M.trees[i * M.groups + k]? = some t ∧ M.shapes[i * M.groups + k]? = some T ∧
      Walk (SkGoes t.nodes (nanToZero row)) T leaf ∧ t.values[leaf]? = some a ∧ M.prior[k]? = some p ∧
      v i k = P.mulAdd a M.learningRate (if i = 0 then p else F64.zero) := by
    intro i
    by_cases hi : i < n
    · obtain ⟨t, T, leaf, a, p, b1, b2, -, b3, b4, b5, b6⟩ := hv i hi k hk
      exact ⟨a, fun _ => ⟨t, T, leaf, p, b1, b2, b3, b4, b5, b6⟩⟩
    · exact ⟨F64.zero, fun h => absurd h hi⟩
  choose a ha using hv'
  obtain ⟨_, _, _, p, -, -, -, -, hp, -⟩ := ha 0 n1
  have hq' : IsVal (accumulate (fun i acc => P.mulAdd (P.mulAdd (a i) M.learningRate (if i = 0 then p else F64.zero)) F64.one acc) n F64.zero) q := by
    have e : accumulate (fun i acc => P.mulAdd (v i k) F64.one acc) n F64.zero =
        accumulate (fun i acc => P.mulAdd (P.mulAdd (a i) M.learningRate (if i = 0 then p else F64.zero)) F64.one acc) n F64.zero := by
      unfold accumulate
      refine List.foldl_ext _ _ _ fun z i hi => ?_
      obtain ⟨_, _, _, p', -, -, -, -, hp', e⟩ := ha i (List.mem_range.1 hi)
      cases hp.symm.trans hp'
      show P.mulAdd (v i k) F64.one z = _
      rw [e]
    rwa [← e]
  obtain ⟨x, b, w, hx, hw, hb, hn⟩ := near_scaled hP (by omega) n1 hq'
  refine ⟨x, b, w, hw, ⟨p, hp, hb⟩, fun i hi => ?_, hn⟩
  obtain ⟨t, T, leaf, p', b1, b2, b3, b4, -, -⟩ := ha i hi
  exact ⟨t, T, leaf, _, b1, b2, b3, b4, hx i hi⟩

/-- **C82, JSON dumps of LightGBM models.** The exact score is the sum of the leaf values. -/
theorem C82_json_file (P : Platform) (d : JEnsemble) (K N : Nat) (M : Int) (ts : List JTree) (ok : JEnsembleOK d P.maxAlloc K N M ts)
    (hK : K < 2 ^ 63) (hP : P.MulAddOK) (hs : N ≤ 2 ^ 52) :
    ∃ ens, lgEnsembleFromJSON P (some d) false = .ok ens ∧
      ∀ row req m m', (ens.predict P row req m.length).run m = (.ok ⟨⟩, m') → ∃ n, Used req N n ∧
        ∀ k < K, ∃ y, m'[k]? = some y ∧ ∀ q, IsVal y q →
          ∃ x : Nat → ℚ, (∀ i < n, ∃ t p v, ts[i * K + k]? = some t ∧ JWalk P.out row t.root p v ∧ IsVal v (x i)) ∧
            Near n 0 (∑ i ∈ Finset.range n, |x i|) (∑ i ∈ Finset.range n, x i) q := by
  obtain ⟨ens, h1, -, -, -, -, -, -, -, h2⟩ := C67_json_file P d K N M ts ok hK
  refine ⟨ens, h1, fun row req m m' hm => ?_⟩
  obtain ⟨-, -, n, w, hu, ⟨v, hv, rfl⟩, hst⟩ := (h2 _ _ _ _).1 hm
  have n2 : n ≤ N := by unfold Used at hu; split at hu <;> omega
  refine ⟨n, hu, fun k hk => ⟨_, (stored_get hst (by simpa using hk)).trans (range_get hk), fun q hq => ?_⟩⟩
  obtain ⟨x, hx, hn⟩ := near_sum hP (by omega) hq
  refine ⟨x, fun i hi => ?_, hn⟩
  obtain ⟨t, p, ht, hw⟩ := hv i hi k hk
  exact ⟨t, p, _, ht, hw, hx i hi⟩

/-! ### concrete cases -/

namespace AccuracyExample

open LgExample (platform)
open LgLoadExample (d1 d2 print)

/-- Two trees, two groups, any row. -/
example (tail : Str) : ∃ ens,
    lgEnsembleFromReader platform ⟨modelText print [d1, d2] 2 1 false ++ tail, false⟩ false = .ok (ens, ⟨tail, false⟩) ∧
      ∀ row req m m', (ens.predict platform row req m.length).run m = (.ok ⟨⟩, m') → ∃ n, Used req 1 n ∧
        ∀ k < 2, ∃ y, m'[k]? = some y ∧ ∀ q, IsVal y q →
          ∃ x : Nat → ℚ, (∀ i < n, ∃ d v, [d1, d2][i * 2 + k]? = some d ∧ d.Value platform.out row v ∧ IsVal v (x i)) ∧
            Near n 0 (∑ i ∈ Finset.range n, |x i|) (∑ i ∈ Finset.range n, x i) q := by
  obtain ⟨header, rest0, blocks, h1, h2, h3, h4⟩ := modelText_blocks (M := 1) tail 2 false (by norm_num) LgLoadExample.ds_ok
  have := C82_text_file platform print _ _ tail _ false false _ [d1, d2] 2 1 1 false (by norm_num) le_rfl rfl h1 h2 h3 h4
    (fun d hd => ⟨(LgLoadExample.ds_ok d hd).1, (LgLoadExample.ds_ok d hd).2.2⟩) (fun _ _ _ => .inl rfl) (by norm_num)
  simpa only [Bool.false_eq_true, if_false] using this

/-- A 'dart' file. -/
example := C82_xgboost_file Platform.demo (XgFileExample.file 1#32) 1 2 XgFileExample.file_ok (fun _ _ _ => .inl rfl) (by norm_num)

/-- A linear file. -/
example := C82_linear_file Platform.demo XgFileExample.linFile 1 2 XgFileExample.linFile_ok (fun _ _ _ => .inl rfl) (by norm_num)

/-- A pickle. -/
example := C82_sklearn_file Platform.demo _ _ _ (dump_dumps _ (SkModelExample.writable 2 ⟨by decide, by decide⟩)) _
  (SkModelExample.is_classifier 2) (SkModelExample.model_ok 2) (fun _ _ _ => .inl rfl) (by decide)

/-- A JSON dump. -/
example := C82_json_file platform _ 2 1 1 _ JsonModelExample.doc_ok (by norm_num) (fun _ _ _ => .inl rfl) (by norm_num)

/-- a forest of six single leaves, each with the value 1 -/
def forestText : Str :=
"tree
version=v3
num_class=1
num_tree_per_iteration=1
max_feature_idx=1
tree_sizes=0 0 0 0 0 0
average_output

num_leaves=1
num_cat=0
leaf_value=1

num_leaves=1
num_cat=0
leaf_value=1

num_leaves=1
num_cat=0
leaf_value=1

num_leaves=1
num_cat=0
leaf_value=1

num_leaves=1
num_cat=0
leaf_value=1

num_leaves=1
num_cat=0
leaf_value=1

".toList

/-- The bounds cannot be replaced by equality: the average of six leaves of value 1 is less than 1. -/
theorem C82_average_inexact : ∃ ens y, lgEnsembleFromReader platform ⟨forestText, false⟩ false = .ok (ens, ⟨[], false⟩) ∧
    (ens.predict platform [F64.zero, F64.zero] 0 1).run [F64.zero] = (.ok ⟨⟩, [y]) ∧ Lt y F64.one := by
  let t : LgTree := { nodes := [], leafValues := [F64.ofNat 1] }
  let lgm : LgEnsemble :=
    { trees := [t, t, t, t, t, t], maxFeatureIdx := 1, nRawOutputGroups := 1, name := "lightgbm.rf", averageOutput := true }
  refine ⟨⟨.lg lgm, .raw 1⟩, F64.fin false (unit - unit / 2 ^ 53) (by decide +kernel), by decide +kernel, by decide +kernel,
    (F64.lt_iff _ _).1 (by decide +kernel)⟩

end AccuracyExample

end Leaves
