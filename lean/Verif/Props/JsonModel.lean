import Verif.Props.JsonTree
import Verif.Props.Evaluate
import Verif.Spec.JsonModel

/-!
# C67, C68, C09 for LightGBM JSON dumps
-/

namespace Leaves

open Spec

/-- the loaded tree `t'` means the object `t`: values, number of leaves, and a numbering of the leaf objects -/
def JTreeMeans (P : Platform) (t' : LgTree) (t : JTree) : Prop :=
  (∀ fvals v, (∃ j, t'.predict P fvals = .ok (v, j)) ↔ ∃ p, JWalk P.out fvals t.root p v) ∧
  t'.nLeaves = jLeaves t.root ∧ ∃ idx, ((jPaths t.root).map idx).Perm (List.range (jLeaves t.root)) ∧
    ∀ fvals j, (∃ v, t'.predict P fvals = .ok (v, j)) ↔ ∃ p v, JWalk P.out fvals t.root p v ∧ j = idx p

theorem jReadTrees_loaded (P : Platform) : ∀ (ts : List JTree),
    (∀ t ∈ ts, ∃ W, JTreeOK t W ∧ jLeaves t.root * 24 ≤ P.maxAlloc ∧ 4 * W ≤ P.maxAlloc) →
    ∃ ts', jReadTrees P (ts.map some) = .ok ts' ∧ List.Forall₂ (JTreeMeans P) ts' ts
  | [], _ => ⟨[], rfl, .nil⟩
  | t :: ts, h => by
    obtain ⟨W, h1, h2, h3⟩ := h t (by simp)
    obtain ⟨t', ht, hm⟩ := C05_json_tree_value P t W h1 h2 h3
    obtain ⟨t1, idx, ht1, hp, hi⟩ := C61_json_leaf_indices P t W h1 h2 h3
    rw [ht] at ht1
    cases ht1
    obtain ⟨t1, ht1, hn⟩ := C23_json_leaf_count P t W h1 h2 h3
    rw [ht] at ht1
    cases ht1
    have hl : ∀ fvals j, (∃ v, t'.predict P fvals = .ok (v, j)) ↔ ∃ p v, JWalk P.out fvals t.root p v ∧ j = idx p := by
      intro fvals j
      simp only [hi]
      exact exists_comm
    obtain ⟨ts', hts, hms⟩ := jReadTrees_loaded P ts fun x hx => h x (by simp [hx])
    refine ⟨t' :: ts', ?_, .cons ⟨hm, hn, idx, hp, hl⟩ hms⟩
    rw [List.map_cons, jReadTrees, ht, Res.ok_bind, hts]
    rfl

/-- the base model of a JSON dump -/
def jBase (ts : List LgTree) (M : Int) (K : Nat) : Base :=
  .lg { trees := ts, maxFeatureIdx := M, nRawOutputGroups := K, name := "lightgbm.gbdt" }

/-- the dump loads, and the loaded trees mean those of the dump -/
theorem j_file_loaded (P : Platform) (d : JEnsemble) (K N : Nat) (M : Int) (ts : List JTree) (ok : JEnsembleOK d P.maxAlloc K N M ts) :
    ∃ ts', lgEnsembleFromJSON P (some d) false = .ok ⟨jBase ts' M K, .raw K⟩ ∧ List.Forall₂ (JTreeMeans P) ts' ts := by
  obtain ⟨c1, c2, hlen⟩ := ok.counts
  obtain ⟨ts', hts, hmean⟩ := jReadTrees_loaded P ts ok.treesOK
  have hpos : 0 < N * K := Nat.mul_pos c2 c1
  refine ⟨ts', ?_, hmean⟩
  unfold lgEnsembleFromJSON
  rw [if_neg (by simp)]
  dsimp only
  rw [if_neg (by simp [ok.name]), if_neg (by simp [ok.version]), if_neg (by rw [ok.numClasses, ok.perIteration]; simp),
    if_neg (by rw [ok.numClasses]; omega), if_neg (by rw [ok.perIteration]; omega), ok.trees,
    if_neg (by rw [List.length_map, hlen]; omega), if_neg, hts, ok.numClasses, ok.maxFeature.1]
  · rfl
  · rw [List.length_map, hlen, ok.numClasses]
    push_cast
    rw [Int.mul_tmod_left]
    simp

/-- C67: a well-formed JSON dump loads, reports its groups, estimators and features, and its raw scores are the sums of the values
found by walking the nested objects. -/
theorem C67_json_file (P : Platform) (d : JEnsemble) (K N : Nat) (M : Int) (ts : List JTree) (ok : JEnsembleOK d P.maxAlloc K N M ts)
    (hK : K < 2 ^ 63) :
    ∃ ens, lgEnsembleFromJSON P (some d) false = .ok ens ∧ Fits ens ∧ ens.transform = .raw K ∧
      ens.nRawOutputGroups = K ∧ ens.nEstimators = .ok N ∧ ens.nOutputGroups = K ∧
      ens.nFeatures = (if 0 < M then M + 1 else 0) ∧
      (∀ fvals n w, n ≤ N → (IsRaw P ens.base fvals n w ↔ JRefRaw P P.out ts K fvals n w)) ∧
      ∀ fvals req m m', ((ens.predict P fvals req m.length).run m = (.ok ⟨⟩, m') ↔
        (K ≤ m.length ∧ ens.nFeatures ≤ fvals.length ∧ ∃ n w, Used req N n ∧ JRefRaw P P.out ts K fvals n w ∧ Stored m 0 w m')) := by
  obtain ⟨c1, c2, hlen⟩ := ok.counts
  obtain ⟨ts', hload, hmean⟩ := j_file_loaded P d K N M ts ok
  have hl : ts'.length = N * K := by rw [hmean.length_eq, hlen]
  have hfit : Fits ⟨jBase ts' M K, .raw K⟩ := C38_lg_json_fits P _ _ _ hload
  have hN : ts'.length / K = N := by rw [hl, Nat.mul_div_cancel _ (by omega)]
  have htot : ∀ total, IsTotal (jBase ts' M K) total ↔ total = N := by
    intro total
    constructor
    · rintro ⟨G, hG, -, rfl⟩
      have hG : (K : Int) = G := hG
      have hG : K = G := by exact_mod_cast hG
      subst hG
      exact hN
    · rintro rfl
      exact ⟨K, rfl, by omega, hN.symm⟩
  have hraw : ∀ fvals n w, n ≤ N → (IsRaw P (jBase ts' M K) fvals n w ↔ JRefRaw P P.out ts K fvals n w) := by
    intro fvals n w hn
    have hval : ∀ v : Nat → Nat → F64, TreeValues P ts' K n fvals v ↔
        ∀ i < n, ∀ k < K, ∃ t p, ts[i * K + k]? = some t ∧ JWalk P.out fvals t.root p (v i k) := by
      intro v
      unfold TreeValues
      refine forall_congr' fun i => forall_congr' fun hi => forall_congr' fun k => forall_congr' fun hk => ?_
      have hidx := tree_pos hlen hn hi hk
      have hidx' := tree_pos hl hn hi hk
      have hm := (List.forall₂_iff_get.1 hmean).2 (i * K + k) hidx' hidx
      constructor
      · rintro ⟨t, j, h1, h2⟩
        rw [List.getElem?_eq_getElem hidx'] at h1
        cases h1
        obtain ⟨p, hp⟩ := (hm.1 fvals (v i k)).1 ⟨j, h2⟩
        exact ⟨ts[i * K + k], p, List.getElem?_eq_getElem hidx, hp⟩
      · rintro ⟨t, p, h1, h2⟩
        rw [List.getElem?_eq_getElem hidx] at h1
        cases h1
        obtain ⟨j, hj⟩ := (hm.1 fvals (v i k)).2 ⟨p, h2⟩
        exact ⟨ts'[i * K + k], j, List.getElem?_eq_getElem hidx', hj⟩
    constructor
    · rintro ⟨G, v, hG, hv, hw⟩
      have hG : (K : Int) = G := hG
      have : K = G := by exact_mod_cast hG
      subst this
      exact ⟨v, (hval v).1 hv, hw⟩
    · rintro ⟨v, hv, hw⟩
      exact ⟨K, v, rfl, (hval v).2 hv, hw⟩
  refine ⟨_, hload, hfit, rfl, rfl, ?_, rfl, ?_, hraw, ?_⟩
  · show goDiv (ts'.length : Int) (K : Int) = .ok (N : Int)
    unfold goDiv
    rw [if_neg (by omega), hl]
    push_cast
    rw [Int.mul_tdiv_cancel _ (by omega)]
  · have := ok.maxFeature.2
    show (if M > 0 then wrap64 (M + 1) else 0) = _
    split
    · rw [wrap64_id (by omega) (by omega)]
    · rfl
  · intro fvals req s s'
    rw [predict_of_raw P _ hfit (by show (K : Int) < 2 ^ 63; omega) N htot (by intro k; simp) fvals
      (fun n w hn => hraw fvals n w hn) req s s']
    refine and_congr (show (K : Int) ≤ (s.length : Int) ↔ _ from Int.ofNat_le) (and_congr Iff.rfl (exists_congr fun n => exists_congr fun w => ?_))
    dsimp only [IsTransformed]
    constructor
    · rintro ⟨out, a, b, rfl, c⟩; exact ⟨a, b, c⟩
    · rintro ⟨a, b, c⟩; exact ⟨w, a, b, rfl, c⟩

theorem jwalk_exists {out : F64 → Int} {fvals : List F64} {raw : JRaw} {W : Nat} (ok : JOK raw W) (n : Nat) (hf : JFeatures n raw)
    (hn : n ≤ fvals.length) : ∃ v p, JWalk out fvals raw p v := by
  classical
  have step : ∀ {f : Nat} {thr : JVal} {d : Str} {dl : Bool} {m : Char} {ms : Str} {l r : JRaw} {rule : Rule}
      (_ : JSplit thr d dl (m :: ms) rule) (_ : f < n) (_ : ∃ v p, JWalk out fvals l p v) (_ : ∃ v p, JWalk out fvals r p v),
      ∃ v p, JWalk out fvals (.split f thr d dl m ms l r) p v := by
    intro f thr d dl m ms l r rule hs hfn ⟨v, p, hl⟩ ⟨v', p', hr⟩
    have hx : fvals[f]? = some fvals[f] := List.getElem?_eq_getElem (by omega)
    by_cases h : rule.Left out fvals[f]
    · exact ⟨v, _, .left hs hx h hl⟩
    · exact ⟨v', _, .right hs hx h hr⟩
  induction ok with
  | leaf v => exact ⟨v, [], .leaf v⟩
  | num hm _ _ ihl ihr => exact step (.num _ _ _ _ hm) hf.1 (ihl hf.2.1) (ihr hf.2.2)
  | cat values hm hne _ _ _ _ ihl ihr => exact step (.cat values _ _ _ hm hne) hf.1 (ihl hf.2.1) (ihr hf.2.2)

/-- C09, C66 for LightGBM JSON dumps: a well-formed dump whose split features are at most `max_feature_idx` loads, and for every
row of at least `max_feature_idx + 1` values `Predict` returns without an error. -/
theorem C09_json_file (P : Platform) (d : JEnsemble) (K N : Nat) (M : Int) (ts : List JTree) (ok : JEnsembleOK d P.maxAlloc K N M ts)
    (hK : K < 2 ^ 63) (hr : ∀ t ∈ ts, JFeatures (M + 1).toNat t.root) :
    ∃ ens, lgEnsembleFromJSON P (some d) false = .ok ens ∧
      ∀ fvals req m, M < fvals.length → K ≤ m.length → ∃ m', (ens.predict P fvals req m.length).run m = (.ok ⟨⟩, m') := by
  obtain ⟨ens, h1, -, -, -, -, -, h2, -, h3⟩ := C67_json_file P d K N M ts ok hK
  refine ⟨ens, h1, fun fvals req m hf hm => ?_⟩
  obtain ⟨n, hu, hn⟩ := used_exists req N
  have hv : ∀ i < n, ∀ k < K, ∃ x t p, ts[i * K + k]? = some t ∧ JWalk P.out fvals t.root p x := by
    intro i hi k hk
    have hpos := tree_pos ok.counts.2.2 hn hi hk
    have hmem := List.getElem_mem hpos
    obtain ⟨W, hW, -⟩ := ok.treesOK _ hmem
    obtain ⟨x, p, hx⟩ := jwalk_exists (out := P.out) hW.objects _ (hr _ hmem) (show (M + 1).toNat ≤ fvals.length by omega)
    exact ⟨x, _, p, List.getElem?_eq_getElem hpos, hx⟩
  choose! v hv using hv
  obtain ⟨w, hraw, hw⟩ : ∃ w, JRefRaw P P.out ts K fvals n w ∧ w.length = K := ⟨_, ⟨v, hv, rfl⟩, by rw [List.length_map, List.length_range]⟩
  obtain ⟨m', hs⟩ := stored_exists m w (by omega)
  exact ⟨m', (h3 fvals req m m').2 ⟨hm, by rw [h2]; split <;> omega, n, w, hu, hraw, hs⟩⟩

/-! ## C68: text and JSON -/

theorem sameNode_walk {out : F64 → Int} {fvals : List F64} {a : LgArrays} {lv : List F64} {T : BTree} {raw : JRaw} (h : SameNode a lv T raw)
    (w : F64) : (∃ k, Walk (Goes out (LgSplit a) fvals) T k ∧ lv[k]? = some w) ↔ ∃ p, JWalk out fvals raw p w := by
  induction h with
  | leaf k v hv =>
    constructor
    · rintro ⟨k', h, h'⟩
      cases h
      rw [hv] at h'
      cases h'
      exact ⟨[], .leaf _⟩
    · rintro ⟨p, h⟩
      cases h
      exact ⟨k, .leaf k, hv⟩
  | @node i f l r thr d dl m ms jl jr rule ht hj _ _ ihl ihr =>
    constructor
    · rintro ⟨k, h, hk⟩
      cases h with
      | left hg hw =>
        obtain ⟨f', rule', x, hs, hx, hb⟩ := hg
        obtain ⟨rfl, rfl⟩ := LgSplit.unique i _ _ _ _ ht hs
        obtain ⟨p, hp⟩ := ihl.1 ⟨k, hw, hk⟩
        exact ⟨_, .left hj hx (hb.1 rfl) hp⟩
      | right hg hw =>
        obtain ⟨f', rule', x, hs, hx, hb⟩ := hg
        obtain ⟨rfl, rfl⟩ := LgSplit.unique i _ _ _ _ ht hs
        obtain ⟨p, hp⟩ := ihr.1 ⟨k, hw, hk⟩
        exact ⟨_, .right hj hx (fun hl => by simpa using hb.2 hl) hp⟩
    · rintro ⟨p, h⟩
      cases h with
      | left hs hx hl hw =>
        cases JSplit.unique hj hs
        obtain ⟨k, hk, hv⟩ := ihl.2 ⟨_, hw⟩
        exact ⟨k, .left ⟨f, rule, _, ht, hx, by simpa using hl⟩ hk, hv⟩
      | right hs hx hl hw =>
        cases JSplit.unique hj hs
        obtain ⟨k, hk, hv⟩ := ihr.2 ⟨_, hw⟩
        exact ⟨k, .right ⟨f, rule, _, ht, hx, by simpa using hl⟩ hk, hv⟩

theorem sameTree_value {out : F64 → Int} {fvals : List F64} {d : TreeDesc} {t : JTree} (h : SameTree d t) (w : F64) :
    d.Value out fvals w ↔ ∃ p, JWalk out fvals t.root p w := by
  unfold SameTree at h
  unfold TreeDesc.Value
  split at h
  · rename_i h0
    rw [if_pos h0]
    obtain ⟨v, hv, hr⟩ := h
    rw [hr]
    constructor
    · intro h; rw [hv] at h; cases h; exact ⟨[], .leaf _⟩
    · rintro ⟨p, h⟩; cases h; exact hv
  · rename_i h0
    rw [if_neg h0]
    exact sameNode_walk h w

theorem same_raw (P : Platform) {ds : List TreeDesc} {ts : List JTree} (h : List.Forall₂ SameTree ds ts) (K : Nat) (fvals : List F64) (n : Nat)
    (w : List F64) : RefRaw P P.out ds K false fvals n w ↔ JRefRaw P P.out ts K fvals n w := by
  unfold RefRaw JRefRaw
  refine exists_congr fun v => and_congr (forall_congr' fun i => forall_congr' fun _ => forall_congr' fun k => forall_congr' fun _ => ?_) (by simp)
  constructor
  · rintro ⟨d, h1, h2⟩
    obtain ⟨hi, rfl⟩ := List.getElem?_eq_some_iff.1 h1
    have hi' : i * K + k < ts.length := by rw [← h.length_eq]; exact hi
    obtain ⟨p, hp⟩ := (sameTree_value ((List.forall₂_iff_get.1 h).2 _ hi hi') _).1 h2
    exact ⟨_, p, List.getElem?_eq_getElem hi', hp⟩
  · rintro ⟨t, p, h1, h2⟩
    obtain ⟨hi, rfl⟩ := List.getElem?_eq_some_iff.1 h1
    have hi' : i * K + k < ds.length := by rw [h.length_eq]; exact hi
    exact ⟨_, List.getElem?_eq_getElem hi', (sameTree_value ((List.forall₂_iff_get.1 h).2 _ hi' hi) _).2 ⟨p, h2⟩⟩

/-- C68: a text file without `average_output` and a JSON dump of the same model load as models with the same predictions, for every
row, number of estimators and output slice. What is missing: averaging forests, for which it is false (`C68_forest_fails`). -/
theorem C68_text_json_partial (P : Platform) (print : F64 → Str) (text rest0 rest : Str) (header : List Str) (e0 e1 : Bool)
    (bs : List (List Str)) (ds : List TreeDesc) (K N : Nat) (M : Int)
    (hK : 1 ≤ K ∧ K < 2 ^ 63) (hN : 1 ≤ N) (hlen : ds.length = N * K)
    (hh : FileBlock text header rest0 e0) (hhl : HeaderLines header K M ds.length false)
    (hb : FileBlocks rest0 bs rest e1) (hbl : List.Forall₂ (TreeLines print) ds bs)
    (hok : ∀ d ∈ ds, d.OK P.parseFloat print ∧ d.inner * 24 ≤ P.maxAlloc)
    (doc : JEnsemble) (ts : List JTree) (jok : JEnsembleOK doc P.maxAlloc K N M ts) (same : List.Forall₂ SameTree ds ts) :
    ∃ ens ens', lgEnsembleFromReader P ⟨text, false⟩ false = .ok (ens, ⟨rest, false⟩) ∧ lgEnsembleFromJSON P (some doc) false = .ok ens' ∧
      ens.nOutputGroups = ens'.nOutputGroups ∧ ens.nFeatures = ens'.nFeatures ∧ ens.nEstimators = ens'.nEstimators ∧
      ∀ fvals req m m', (ens.predict P fvals req m.length).run m = (.ok ⟨⟩, m') ↔ (ens'.predict P fvals req m.length).run m = (.ok ⟨⟩, m') := by
  obtain ⟨ens, a1, -, a2, a3, a4, a5, -, a6⟩ := C39_text_file P print text rest0 rest header e0 e1 bs ds K N M false hK hN hlen hh hhl hb hbl hok
  obtain ⟨ens', b1, -, -, b2, b3, b4, b5, -, b6⟩ := C67_json_file P doc K N M ts jok hK.2
  refine ⟨ens, ens', a1, b1, a4.trans b4.symm, a5.trans b5.symm, a3.trans b3.symm, fun fvals req m m' => ?_⟩
  rw [a6, b6, a5, b5]
  simp only [same_raw P same]

namespace JsonModelExample

open LgLoadExample (d1 d2 print ds_ok)
open LgExample (platform)

/-- the first tree of `LgLoadExample` as nested objects -/
def root1 : JRaw :=
  .split 0 (.num (F64.ofNat 5)) "<=".toList true 'N' "aN".toList
    (.split 1 (.str "1||33".toList) "==".toList false 'N' "one".toList (.leafLike (some (F64.ofNat 10))) (.leafLike (some (F64.ofNat 20))))
    (.split 0 (.num (F64.ofNat 9)) "<=".toList true 'N' "one".toList (.leafLike (some (F64.ofNat 30))) (.leafLike (some (F64.ofNat 40))))

/-- the first tree -/
def t1 : JTree := ⟨4, 1, root1⟩
/-- the second tree, a leaf -/
def t2 : JTree := ⟨1, 0, .leafLike (some (F64.ofNat 7))⟩
/-- a document with these trees -/
def doc (K : Int) (ts : List JTree) : JEnsemble := ⟨"tree".toList, "v2".toList, K, K, 1, ts.map some⟩

theorem t1_ok : JTreeOK t1 2 where
  objects := by
    refine .num (a := 2) (b := 0) (mis := .nan) (.inr (.inr ⟨rfl, rfl⟩)) ?_ ?_
    · exact .cat (w := 2) (a := 0) (b := 0) (mis := .none) [1, 33] (.inl ⟨rfl, rfl⟩) (by simp) (by decide) (by decide) (.leaf _) (.leaf _)
    · exact .num (a := 0) (b := 0) (mis := .none) (.inl ⟨rfl, rfl⟩) (.leaf _) (.leaf _)
  leaves := by decide
  cats := fun _ => by decide
  small := by decide
  words := by decide

theorem t2_ok : JTreeOK t2 0 where
  objects := .leaf _
  leaves := by decide
  cats := fun h => absurd h (by decide)
  small := by decide
  words := by decide

theorem doc_ok : JEnsembleOK (doc 2 [t1, t2]) platform.maxAlloc 2 1 1 [t1, t2] where
  name := rfl
  version := rfl
  numClasses := rfl
  perIteration := rfl
  maxFeature := ⟨rfl, by decide⟩
  trees := rfl
  counts := by decide
  treesOK := by
    intro t ht
    simp only [List.mem_cons, List.not_mem_nil, or_false] at ht
    rcases ht with rfl | rfl
    · exact ⟨2, t1_ok, by decide, by decide⟩
    · exact ⟨0, t2_ok, by decide, by decide⟩

theorem members : Member [2#32, 2#32] = (· ∈ [1, 33]) := by
  funext n
  apply propext
  by_cases h : n < 64
  · revert n; decide
  · constructor
    · rintro ⟨w, hw, -⟩
      have : n / 32 < 2 := (List.getElem?_eq_some_iff.1 hw).1
      omega
    · intro hn
      simp only [List.mem_cons, List.not_mem_nil, or_false] at hn
      omega

theorem same : List.Forall₂ SameTree [d1, d2] [t1, t2] := by
  refine .cons ?_ (.cons ⟨F64.ofNat 7, rfl, rfl⟩ .nil)
  show SameNode LgExample.arrays d1.leafValues LgExample.tree root1
  refine .node (.num ⟨.nan, true, F64.ofNat 5⟩) ⟨10, _, .nan, rfl, rfl, rfl, by unfold MissingOf; decide, .inl ⟨by norm_num, rfl⟩⟩
    (.num _ _ _ _ (.inr (.inr ⟨rfl, rfl⟩))) ?_ ?_
  · refine .node (.cat .none (· ∈ [1, 33])) ⟨1, _, .none, rfl, rfl, rfl, by unfold MissingOf; decide, .inr ⟨by norm_num, 0, [2#32, 2#32],
        F64.isVal_ofNat (by norm_num), ⟨0, 2, rfl, rfl, by norm_num, by decide, rfl⟩, by rw [members]⟩⟩
      (.cat [1, 33] false _ .none (.inl ⟨rfl, rfl⟩) (by simp)) (.leaf 0 _ rfl) (.leaf 1 _ rfl)
  · exact .node (.num ⟨.none, true, F64.ofNat 9⟩) ⟨2, _, .none, rfl, rfl, rfl, by unfold MissingOf; decide, .inl ⟨by norm_num, rfl⟩⟩
      (.num _ _ _ _ (.inl ⟨rfl, rfl⟩)) (.leaf 2 _ rfl) (.leaf 3 _ rfl)

/-- The theorems apply: the text and the JSON document of `LgLoadExample` predict the same. -/
example : ∃ ens ens', lgEnsembleFromReader platform ⟨modelText print [d1, d2] 2 1 false ++ [], false⟩ false = .ok (ens, ⟨[], false⟩) ∧
    lgEnsembleFromJSON platform (some (doc 2 [t1, t2])) false = .ok ens' ∧
    ∀ fvals req m m', (ens.predict platform fvals req m.length).run m = (.ok ⟨⟩, m') ↔ (ens'.predict platform fvals req m.length).run m = (.ok ⟨⟩, m') := by
  obtain ⟨header, rest0, blocks, h1, h2, h3, h4⟩ := modelText_blocks (P := platform) [] 2 (M := 1) false (by norm_num) ds_ok
  obtain ⟨ens, ens', a, b, -, -, -, c⟩ := C68_text_json_partial platform print _ _ [] _ false false _ [d1, d2] 2 1 1 (by norm_num) le_rfl rfl h1 h2 h3 h4
    (fun d hd => ⟨(ds_ok d hd).1, (ds_ok d hd).2.2⟩) _ _ doc_ok same
  exact ⟨ens, ens', a, b, c⟩

/-- every row of two values can be evaluated -/
example : ∃ ens, lgEnsembleFromJSON platform (some (doc 2 [t1, t2])) false = .ok ens ∧
      ∀ fvals req m, (1 : Int) < fvals.length → 2 ≤ m.length → ∃ m', (ens.predict platform fvals req m.length).run m = (.ok ⟨⟩, m') :=
  C09_json_file platform _ 2 1 1 _ doc_ok (by norm_num) (by
    intro t ht
    simp only [List.mem_cons, List.not_mem_nil, or_false] at ht
    rcases ht with rfl | rfl
    · simp [t1, root1, JFeatures]
    · trivial)

/-- C68 is false for averaging forests: a forest of two leaves of value 7 predicts 7 when loaded from text (`average_output`) and
14 when loaded from JSON, which the loader takes for a boosted model. -/
theorem C68_forest_fails : List.Forall₂ SameTree [d2, d2] [t2, t2] ∧ JEnsembleOK (doc 1 [t2, t2]) platform.maxAlloc 1 2 1 [t2, t2] ∧
    (∃ ens r, lgEnsembleFromReader platform ⟨modelText print [d2, d2] 1 1 true, false⟩ false = .ok (ens, r) ∧
      ens.predictSingle platform [F64.zero, F64.zero] 0 = .ok (F64.ofNat 7)) ∧
    ∃ ens, lgEnsembleFromJSON platform (some (doc 1 [t2, t2])) false = .ok ens ∧
      ens.predictSingle platform [F64.zero, F64.zero] 0 = .ok (F64.ofNat 14) := by
  refine ⟨.cons ⟨F64.ofNat 7, rfl, rfl⟩ (.cons ⟨F64.ofNat 7, rfl, rfl⟩ .nil), ⟨rfl, rfl, rfl, rfl, ⟨rfl, by decide⟩, rfl, by decide, ?_⟩, ?_, ?_⟩
  · intro t ht
    simp only [List.mem_cons, List.not_mem_nil, or_false, or_self] at ht
    subst ht
    exact ⟨0, t2_ok, by decide, by decide⟩
  · obtain ⟨x, h, hc⟩ := SkModelExample.of_check (r := lgEnsembleFromReader platform ⟨modelText print [d2, d2] 1 1 true, false⟩ false)
      (fun x => x.1.predictSingle platform [F64.zero, F64.zero] 0 = .ok (F64.ofNat 7)) (by decide +kernel)
    exact ⟨x.1, x.2, h, hc⟩
  · exact SkModelExample.of_check (r := lgEnsembleFromJSON platform (some (doc 1 [t2, t2])) false)
      (fun ens => ens.predictSingle platform [F64.zero, F64.zero] 0 = .ok (F64.ofNat 14)) (by decide +kernel)

end JsonModelExample

end Leaves
