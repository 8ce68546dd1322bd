import Verif.Spec.SameSplits
import Verif.Props.LeafOrder
import Verif.Props.Lookup
import Verif.Props.Prefix
import Verif.Props.Machines
import Verif.Props.Scale

/-! # C134: leaf numbers depend on the splits only -/

namespace Leaves
open Spec

theorem leafOutput_mono {reach reach' : Nat → Nat → Nat → Prop} {K N : Nat} {w : List F64} (h : ∀ i < N, ∀ k < K, ∀ j, reach i k j → reach' i k j)
    (hw : LeafOutput reach K N w) : LeafOutput reach' K N w := by
  obtain ⟨l, h1, h2, h3⟩ := hw
  exact ⟨l, fun i hi k hk => h i hi k hk _ (h1 i hi k hk), h2, h3⟩

/-- two models with the same leaf numbers have the same leaf views -/
theorem same_leaf_views {P : Platform} {e e' : Ensemble} {K N : Nat} {count count' : Nat → Nat → Nat → Prop}
    {reach reach' : List F64 → Nat → Nat → Nat → Prop} (h : LeafView P e K N count reach) (h' : LeafView P e' K N count' reach')
    (hf : Fits e) (hf' : Fits e') (hl : ∀ l, core e.base ≠ .lin l) (hl' : ∀ l, core e'.base ≠ .lin l)
    (hn : e.nFeatures = e'.nFeatures) (hd : dflt e.base = dflt e'.base)
    (hr : ∀ row, ∀ i < N, ∀ k < K, ∀ j, reach row i k j ↔ reach' row i k j) :
    ∃ view view', e.withLeafPredictions = .ok view ∧ e'.withLeafPredictions = .ok view' ∧ ∀ req, SameFor P view req view' req := by
  obtain ⟨view, v1, v2, -, -, v3, -, v4⟩ := h
  obtain ⟨view', w1, w2, -, -, w3, -, w4⟩ := h'
  obtain ⟨a, a1, a2⟩ := (C24_views_fit e hf).2 hl
  obtain ⟨b, b1, b2⟩ := (C24_views_fit e' hf').2 hl'
  have a3 := a1.symm.trans v1
  cases a3
  have b3 := b1.symm.trans w1
  cases b3
  have dv : ∀ {e view : Ensemble}, e.withLeafPredictions = .ok view → dflt view.base = dflt e.base := by
    intro e view h
    unfold Ensemble.withLeafPredictions at h
    obtain ⟨n, -, h⟩ := Res.bind_eq_ok.1 h
    cases h
    rfl
  refine ⟨view, view', v1, w1, fun req => SameFor.of_rows a2 b2 (v2.trans w2.symm) (by rw [v3, w3, hn]) (by rw [dv v1, dv w1, hd]) fun row m m' => ?_⟩
  rw [v4, w4, hn]
  refine and_congr Iff.rfl (and_congr Iff.rfl (and_congr Iff.rfl (exists_congr fun w => and_congr_left fun _ => ?_)))
  exact ⟨leafOutput_mono fun i hi k hk j => (hr row i hi k hk j).1, leafOutput_mono fun i hi k hk j => (hr row i hi k hk j).2⟩

theorem Spec.TreeDesc.SameSplits.leaf {d d' : TreeDesc} (h : d.SameSplits d') (out : F64 → Int) (row : List F64) (j : Nat) :
    d'.Leaf out row j ↔ d.Leaf out row j := by
  unfold TreeDesc.Leaf
  rw [h.inner, h.arrays, h.tree, h.leaves]

theorem sameSplits_get {ds ds' : List TreeDesc} (h : List.Forall₂ TreeDesc.SameSplits ds ds') (out : F64 → Int) (row : List F64) (p j : Nat) :
    (∃ d, ds[p]? = some d ∧ d.Leaf out row j) ↔ ∃ d, ds'[p]? = some d ∧ d.Leaf out row j := by
  by_cases hp : p < ds.length
  · have hp' : p < ds'.length := by rw [← h.length_eq]; exact hp
    have hs := h.get hp hp'
    rw [List.getElem?_eq_getElem hp, List.getElem?_eq_getElem hp']
    constructor
    · rintro ⟨d, e, hd⟩
      cases e
      exact ⟨_, rfl, (hs.leaf out row j).2 hd⟩
    · rintro ⟨d, e, hd⟩
      cases e
      exact ⟨_, rfl, (hs.leaf out row j).1 hd⟩
  · have hp' : ¬ p < ds'.length := by rw [← h.length_eq]; exact hp
    rw [List.getElem?_eq_none (by omega), List.getElem?_eq_none (by omega)]

/-- **C134, LightGBM text files.** Two files that differ in the values of leaves (and in averaging) only give the same leaf numbers: for every row, and for
whole matrices with any numbers of threads. The predictions of the second model can be computed from the leaf numbers of the first. -/
theorem C134_text (P : Platform) (print : F64 → Str) (text text' rest0 rest0' rest rest' : Str) (header header' : List Str)
    (e0 e0' e1 e1' : Bool) (bs bs' : List (List Str)) (ds ds' : List TreeDesc) (K N : Nat) (M : Int) (avg avg' : Bool)
    (hK : 1 ≤ K ∧ K < 2 ^ 63) (hN : 1 ≤ N) (hlen : ds.length = N * K) (hsmall : ds.length < 2 ^ 63)
    (hsame : List.Forall₂ TreeDesc.SameSplits ds ds')
    (hok : ∀ d ∈ ds, d.OK P.parseFloat print ∧ d.inner * 24 ≤ P.maxAlloc)
    (hok' : ∀ d ∈ ds', d.OK P.parseFloat print ∧ d.inner * 24 ≤ P.maxAlloc)
    (hh : FileBlock text header rest0 e0) (hhl : HeaderLines header K M ds.length avg)
    (hb : FileBlocks rest0 bs rest e1) (hbl : List.Forall₂ (TreeLines print) ds bs)
    (hh' : FileBlock text' header' rest0' e0') (hhl' : HeaderLines header' K M ds'.length avg')
    (hb' : FileBlocks rest0' bs' rest' e1') (hbl' : List.Forall₂ (TreeLines print) ds' bs') :
    ∃ e e' view view', lgEnsembleFromReader P ⟨text, false⟩ false = .ok (e, ⟨rest, false⟩) ∧
      lgEnsembleFromReader P ⟨text', false⟩ false = .ok (e', ⟨rest', false⟩) ∧
      e.withLeafPredictions = .ok view ∧ e'.withLeafPredictions = .ok view' ∧ (∀ req, SameFor P view req view' req) ∧
      ∀ row req s s', (view.predict P row req s.length).run s = (.ok ⟨⟩, s') →
        ∃ x : Nat → Nat → F64, (∀ i < N, ∀ k < K, LookedUp ds' K N s' i k (x i k)) ∧
          ∀ req n m, Used req N n → K ≤ m.length → ∃ m', (e'.predict P row req m.length).run m = (.ok ⟨⟩, m') ∧
            Stored m 0 ((List.range K).map fun k => accumulate
              (fun i acc => P.mulAdd (x i k) (if avg' then F64.div F64.one (F64.ofNat n) else F64.one) acc) n F64.zero) m' := by
  have hl' : ds'.length = ds.length := hsame.length_eq.symm
  obtain ⟨e, a1, a2, -, -, -, a3, -⟩ := C39_text_file P print text rest0 rest header e0 e1 bs ds K N M avg hK hN hlen hh hhl hb hbl hok
  obtain ⟨e', b1, b2, -, -, -, b3, -⟩ := C39_text_file P print text' rest0' rest' header' e0' e1' bs' ds' K N M avg' hK hN (by rw [hl', hlen]) hh' hhl' hb' hbl' hok'
  obtain ⟨f, c1, c2⟩ := C81_text_file P print text rest0 rest header e0 e1 bs ds K N M avg hK hN hlen hsmall hh hhl hb hbl hok
  obtain ⟨f', d1, d2⟩ := C81_text_file P print text' rest0' rest' header' e0' e1' bs' ds' K N M avg' hK hN (by rw [hl', hlen]) (by rw [hl']; exact hsmall) hh' hhl' hb' hbl' hok'
  obtain ⟨g', view1, g1, g2, g3⟩ := C129_text P print text' rest0' rest' header' e0' e1' bs' ds' K N M avg' hK hN (by rw [hl', hlen]) (by rw [hl']; exact hsmall) hh' hhl' hb' hbl' hok'
  obtain ⟨ts, t1, -⟩ := lg_file_loaded P print text rest0 rest header e0 e1 bs ds K N M avg hK hN hlen hh hhl hb hbl hok
  obtain ⟨ts', t2, -⟩ := lg_file_loaded P print text' rest0' rest' header' e0' e1' bs' ds' K N M avg' hK hN (by rw [hl', hlen]) hh' hhl' hb' hbl' hok'
  have q := a1.symm.trans c1
  cases q
  have q := a1.symm.trans t1
  cases q
  have q := b1.symm.trans d1
  cases q
  have q := b1.symm.trans g1
  cases q
  have q := b1.symm.trans t2
  cases q
  obtain ⟨view, view', v1, v2, hv⟩ := same_leaf_views c2 d2 a2 b2 (fun l h => by cases h) (fun l h => by cases h) (a3.trans b3.symm)
    ((lg_loaded_base a1).trans (lg_loaded_base b1).symm) fun row i _ k _ j => sameSplits_get hsame P.out row _ j
  have q := v2.symm.trans g2
  cases q
  exact ⟨_, _, view, view1, a1, b1, v1, v2, hv, fun row req s s' h => g3 row req s s' ((hv req).row row s s' |>.1 h)⟩

/-- **C134, XGBoost files.** Two files with the same splits give the same leaf numbers, whatever the values of leaves, the base score, the objective, the
booster and the weights of trees are. -/
theorem C134_xgboost (P : Platform) (m m' : XgModel) (K N : Nat) (ok : m.OK P.maxAlloc K N) (ok' : m'.OK P.maxAlloc K N) (hs : m.SameSplits m')
    (lt lt' : Bool) (tr tr' : Transform) (ho : XgObjective K m.header.nameObj lt tr) (ho' : XgObjective K m'.header.nameObj lt' tr')
    (hlog : tr = .logistic → K = 1) (hlog' : tr' = .logistic → K = 1) :
    ∃ e e' view view', (∀ rest, xgEnsembleFromReader P lt (m.image ++ rest) = .ok (e, rest)) ∧
      (∀ rest, xgEnsembleFromReader P lt' (m'.image ++ rest) = .ok (e', rest)) ∧
      e.withLeafPredictions = .ok view ∧ e'.withLeafPredictions = .ok view' ∧ ∀ req, SameFor P view req view' req := by
  obtain ⟨e, a1, a2, -, -, -, a3, -⟩ := C62_xgboost_file_le P m K N ok lt tr ho hlog
  obtain ⟨e', b1, b2, -, -, -, b3, -⟩ := C62_xgboost_file_le P m' K N ok' lt' tr' ho' hlog'
  obtain ⟨f, c1, c2⟩ := C133_xgboost P m K N ok lt tr ho hlog
  obtain ⟨f', d1, d2⟩ := C133_xgboost P m' K N ok' lt' tr' ho' hlog'
  obtain ⟨ts, t1, -⟩ := xg_file_loaded P m K N ok lt tr ((xgTransform_iff _ _ _ _).2 ho)
  obtain ⟨ts', t2, -⟩ := xg_file_loaded P m' K N ok' lt' tr' ((xgTransform_iff _ _ _ _).2 ho')
  have q := (a1 []).symm.trans (c1 [])
  cases q
  have q := (a1 []).symm.trans (t1.decode [])
  cases q
  have q := (b1 []).symm.trans (d1 [])
  cases q
  have q := (b1 []).symm.trans (t2.decode [])
  cases q
  obtain ⟨view, view', v1, v2, hv⟩ := same_leaf_views c2 d2 a2 b2 (fun l h => by cases h) (fun l h => by cases h)
    (by rw [a3, b3, hs.features]) ((xg_loaded_default ok ho a1).trans (xg_loaded_default ok' ho' b1).symm) fun row i hi k hk j => by
      obtain ⟨-, -, hlen⟩ := ok.counts
      obtain ⟨-, -, hlen'⟩ := ok'.counts
      have h1 := tree_pos hlen le_rfl hi hk
      have h2 := tree_pos hlen' le_rfl hi hk
      rw [List.getElem?_eq_getElem h1, List.getElem?_eq_getElem h2, hs.shapes]
      constructor
      · rintro ⟨t, T, leaf, e1, e2, w, e3⟩
        cases e1
        refine ⟨_, T, leaf, rfl, e2, (Walk.iff fun n hn b => ?_).1 w, e3⟩
        unfold XgGoesLe
        rw [hs.nodes _ _ _ T (List.getElem?_eq_getElem h1) (List.getElem?_eq_getElem h2) e2 n hn]
      · rintro ⟨t, T, leaf, e1, e2, w, e3⟩
        cases e1
        refine ⟨_, T, leaf, rfl, e2, (Walk.iff fun n hn b => ?_).1 w, e3⟩
        unfold XgGoesLe
        rw [hs.nodes _ _ _ T (List.getElem?_eq_getElem h1) (List.getElem?_eq_getElem h2) e2 n hn]
  exact ⟨_, _, view, view', a1, b1, v1, v2, hv⟩

/-- **C134, scikit-learn files.** The same for two classifiers, whatever the values of leaves, the learning rate and the initial estimator are. -/
theorem C134_sklearn (P : Platform) (v v' : PyVal) (bs bs' : Pickle.Bytes) (μ μ' : Memo) (hd : Dumps P noMemo v bs μ) (hd' : Dumps P noMemo v' bs' μ')
    (M M' : SkModel) (hc : IsClassifier M v) (hc' : IsClassifier M' v') (ok : M.OK P.maxAlloc) (ok' : M'.OK P.maxAlloc) (hs : M.SameSplits M') :
    ∃ e e' view view', (∀ rest lt, skEnsembleFromReader P (bs ++ octet '.' :: rest) lt = .ok e) ∧
      (∀ rest lt, skEnsembleFromReader P (bs' ++ octet '.' :: rest) lt = .ok e') ∧
      e.withLeafPredictions = .ok view ∧ e'.withLeafPredictions = .ok view' ∧ ∀ req, SameFor P view req view' req := by
  obtain ⟨e, a1, a2, -, -, -, -, a3, -⟩ := C63_sklearn_file P v bs μ hd M hc ok
  obtain ⟨e', b1, b2, -, -, -, -, b3, -⟩ := C63_sklearn_file P v' bs' μ' hd' M' hc' ok'
  obtain ⟨f, c1, c2⟩ := C133_sklearn P v bs μ hd M hc ok
  obtain ⟨f', d1, d2⟩ := C133_sklearn P v' bs' μ' hd' M' hc' ok'
  rw [hs.groups, hs.estimators] at d2
  obtain ⟨ts, t1, hl, -⟩ := sk_file_loaded P hd hc ok
  obtain ⟨ts', t2, hl', -⟩ := sk_file_loaded P hd' hc' ok'
  have q := (a1 [] false).symm.trans (c1 [] false)
  cases q
  have q := (a1 [] false).symm.trans (t1 [] false)
  cases q
  have q := (b1 [] false).symm.trans (d1 [] false)
  cases q
  have q := (b1 [] false).symm.trans (t2 [] false)
  cases q
  have hN : M.trees.length = M.estimators * M.groups := ok.counts.2.2
  have hN' : M'.trees.length = M.estimators * M.groups := by rw [ok'.counts.2.2, hs.groups, hs.estimators]
  obtain ⟨view, view', v1, v2, hv⟩ := same_leaf_views c2 d2 a2 b2 (fun l h => by cases h) (fun l h => by cases h)
    (by rw [a3, b3, hs.features]) rfl fun row i hi k hk j => by
      have h1 := tree_pos hN le_rfl hi hk
      have h2 := tree_pos hN' le_rfl hi hk
      rw [List.getElem?_eq_getElem h1, List.getElem?_eq_getElem h2, hs.shapes]
      constructor
      · rintro ⟨t, T, leaf, e1, e2, hne, w, e3⟩
        cases e1
        refine ⟨_, T, leaf, rfl, e2, hne, (Walk.iff fun n hn b => ?_).1 w, e3⟩
        unfold SkGoes
        rw [hs.nodes _ _ _ T (List.getElem?_eq_getElem h1) (List.getElem?_eq_getElem h2) e2 n hn]
      · rintro ⟨t, T, leaf, e1, e2, hne, w, e3⟩
        cases e1
        refine ⟨_, T, leaf, rfl, e2, hne, (Walk.iff fun n hn b => ?_).1 w, e3⟩
        unfold SkGoes
        rw [hs.nodes _ _ _ T (List.getElem?_eq_getElem h1) (List.getElem?_eq_getElem h2) e2 n hn]
  exact ⟨_, _, view, view', a1, b1, v1, v2, hv⟩

namespace SameSplitsExample
open LgLoadExample (print)
open LgExample (platform)
open ScaleExample (low high lows_ok highs_ok xfile xfile_ok)
open XgFileExample (file file_ok)

/-- Two trees as two iterations, and the same with other leaf values and averaged. -/
theorem C134_example : ∃ e e' view view',
    lgEnsembleFromReader platform ⟨modelText print [low, low] 1 1 false ++ [], false⟩ false = .ok (e, ⟨[], false⟩) ∧
    lgEnsembleFromReader platform ⟨modelText print [high, high] 1 1 true ++ [], false⟩ false = .ok (e', ⟨[], false⟩) ∧
    e.withLeafPredictions = .ok view ∧ e'.withLeafPredictions = .ok view' ∧ (∀ req, SameFor platform view req view' req) := by
  obtain ⟨_, _, _, h1, h2, h3, h4⟩ := modelText_blocks (M := 1) [] 1 false (by norm_num) lows_ok
  obtain ⟨_, _, _, g1, g2, g3, g4⟩ := modelText_blocks (M := 1) [] 1 true (by norm_num) highs_ok
  have hs : low.SameSplits high := ⟨rfl, rfl, rfl, rfl⟩
  obtain ⟨e, e', view, view', r1, r2, r3, r4, r5, -⟩ := C134_text platform print _ _ _ _ _ _ _ _ _ _ _ _ _ _ [low, low] [high, high] 1 2 1 false true
    (by norm_num) (by omega) rfl (by norm_num) (.cons hs (.cons hs .nil)) (fun d hd => ⟨(lows_ok d hd).1, (lows_ok d hd).2.2⟩)
    (fun d hd => ⟨(highs_ok d hd).1, (highs_ok d hd).2.2⟩) h1 h2 h3 h4 g1 g2 g3 g4
  exact ⟨e, e', view, view', r1, r2, r3, r4, r5⟩

theorem xsame : (file 1#32).SameSplits xfile where
  features := rfl
  shapes := rfl
  nodes := by
    intro k t t' T h1 h2 h3
    match k with
    | 0 => cases h1; cases h2; cases h3; decide
    | 1 => cases h1; cases h2; cases h3; decide
    | k + 2 => cases h1

/-- The theorem applies to the DART file of the other examples and the file with other leaf values and another base score. -/
theorem C134_xgboost_example : ∃ e e' view view', (∀ rest, xgEnsembleFromReader Platform.demo false ((file 1#32).image ++ rest) = .ok (e, rest)) ∧
    (∀ rest, xgEnsembleFromReader Platform.demo false (xfile.image ++ rest) = .ok (e', rest)) ∧
    e.withLeafPredictions = .ok view ∧ e'.withLeafPredictions = .ok view' ∧ ∀ req, SameFor Platform.demo view req view' req :=
  C134_xgboost Platform.demo (file 1#32) xfile 1 2 file_ok xfile_ok xsame false false (.raw 1) (.raw 1) .raw .raw (fun h => by cases h) (fun h => by cases h)

/-- the scikit-learn classifier of the other examples, with learning rate 3 instead of 2 -/
def faster : PyVal :=
  SkModelExample.inst "sklearn.ensemble.gradient_boosting" "GradientBoostingClassifier"
    (SkModelExample.items [("n_classes_", .int 2), ("learning_rate", .float (F64.ofNat 3)), ("loss", pyStr "deviance"), ("init_", SkModelExample.init),
      ("classes_", SkModelExample.array [2] "i8" (SkModelExample.bytes (field64 0 ++ field64 1))), ("n_features_", .int 2), ("max_features_", .int 2),
      ("n_estimators", .int 2), ("estimators_", SkModelExample.array [2, 1] "O" (.list (.ofList [SkModelExample.regressor, SkModelExample.regressor])))])

/-- what it describes -/
def fasterModel : SkModel := { SkModelExample.model 2 with learningRate := F64.ofNat 3 }

theorem faster_classifier : IsClassifier fasterModel faster := by
  refine ⟨_, octets "deviance".toList, _, _, [0, 1], _, "O", octet '<', .ofList [SkModelExample.regressor, SkModelExample.regressor], ⟨_, _, rfl⟩, rfl, rfl, rfl, rfl, ?_, rfl,
    ⟨[0, 1], _, SkModelExample.is_array _ _ _, ?_, by decide⟩, rfl, rfl, rfl, SkModelExample.is_array _ _ _, .cons SkModelExample.is_regressor (.cons SkModelExample.is_regressor .nil)⟩
  · exact .logOdds _ _ _ (octet '<') _ (F64.ofNat 5) ⟨_, _, rfl⟩ rfl ⟨_, _, .plain _ _ rfl, rfl, rfl⟩
      ⟨[0x4014000000000000], by decide +kernel, Or.inl ⟨rfl, by simp⟩⟩
  · show IsBytes ([0, 1].flatMap field64) _
    simp [IsBytes, SkModelExample.bytes]

theorem faster_writable : faster.Writable Platform.demo (fun _ => "3".toList) := by
  repeat' first
    | exact trivial
    | exact ⟨by decide, by decide⟩
    | exact ⟨by decide, by decide +kernel⟩
    | apply And.intro

theorem faster_ok : fasterModel.OK Platform.demo.maxAlloc :=
  let h := SkModelExample.model_ok 2
  ⟨h.counts, h.trees, h.alloc, h.int, h.features, h.treeAlloc⟩

/-- The theorem applies to these two classifiers. -/
theorem C134_sklearn_example : ∃ e e' view view',
    (∀ rest lt, skEnsembleFromReader Platform.demo ((SkModelExample.value 2).dump SkModelExample.print ++ octet '.' :: rest) lt = .ok e) ∧
    (∀ rest lt, skEnsembleFromReader Platform.demo (faster.dump (fun _ => "3".toList) ++ octet '.' :: rest) lt = .ok e') ∧
    e.withLeafPredictions = .ok view ∧ e'.withLeafPredictions = .ok view' ∧ ∀ req, SameFor Platform.demo view req view' req :=
  C134_sklearn Platform.demo _ _ _ _ _ _ (dump_dumps (μ := noMemo) _ (SkModelExample.writable 2 ⟨by decide, by decide⟩)) (dump_dumps (μ := noMemo) _ faster_writable) _ _
    (SkModelExample.is_classifier 2) faster_classifier (SkModelExample.model_ok 2) faster_ok
    ⟨rfl, rfl, rfl, rfl, fun _ _ _ _ h h' _ _ _ => by cases h.symm.trans h'; rfl⟩

end SameSplitsExample

end Leaves
