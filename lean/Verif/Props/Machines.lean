import Verif.Proofs.Machines
import Verif.Model.Strconv
import Verif.Props.Classify
import Verif.Props.JsonDoc
import Verif.Props.LgLoad
import Verif.Props.SkModel
import Verif.Props.XgFile

/-!
# C100: predictions are the same on every machine

The same file is loaded on two machines and the same rows are predicted. LightGBM boosted models and XGBoost trees (with and without
DART weights) give bit for bit the same predictions; linear XGBoost models do for float32 rows. Averaging forests, scikit-learn models
and categories that are not int32 numbers are exceptions.
-/

namespace Leaves

open Spec

theorem Spec.Fits.width_nonneg {e : Ensemble} (h : Fits e) : 0 ≤ e.nOutputGroups := by
  obtain ⟨G, total, -, -, -, h⟩ := h
  obtain ⟨b, t⟩ := e
  cases t with
  | raw n => exact (show n = (G : Int) from h) ▸ Int.natCast_nonneg G
  | logistic => exact Int.one_nonneg
  | exponential => exact Int.one_nonneg
  | softmax n => exact (show n = (G : Int) from h) ▸ Int.natCast_nonneg G
  | leafIndex n => exact (show n = (G : Int) * total from h.1) ▸ Int.mul_nonneg (Int.natCast_nonneg G) (Int.natCast_nonneg total)

theorem lg_loaded_base {P : Platform} {r r' : Reader} {lt : Bool} {e : Ensemble} (h : lgEnsembleFromReader P r lt = .ok (e, r')) :
    dflt e.base = F64.zero := by
  unfold lgEnsembleFromReader at h
  obtain ⟨⟨params, r1⟩, -, h⟩ := Res.bind_eq_ok.1 h
  obtain ⟨-, -, h⟩ := Res.bind_eq_ok.1 h
  obtain ⟨n, -, h⟩ := Res.bind_eq_ok.1 h
  obtain ⟨k, -, h⟩ := Res.bind_eq_ok.1 h
  split at h
  · cases h
  split at h
  · cases h
  split at h
  · cases h
  obtain ⟨f, -, h⟩ := Res.bind_eq_ok.1 h
  obtain ⟨s, -, h⟩ := Res.bind_eq_ok.1 h
  extract_lets nTrees at h
  generalize (if params.contains "average_output".toList then "lightgbm.rf" else "lightgbm.gbdt") = name at h
  split at h
  · cases h
  split at h
  · cases h
  obtain ⟨t, -, h⟩ := Res.bind_eq_ok.1 h
  obtain ⟨⟨ts, r2⟩, -, h⟩ := Res.bind_eq_ok.1 h
  cases h
  rfl

/-! ## LightGBM -/

theorem refRaw_machines {P Q : Platform} (hP : P.MulAddOK) (hQ : Q.MulAddOK) {ds : List TreeDesc} {K : Nat} {row : List F64} {n : Nat}
    {w : List F64} (hd : ∀ d ∈ ds, d.DefiniteOn row) (h : RefRaw P P.out ds K false row n w) : RefRaw Q Q.out ds K false row n w := by
  obtain ⟨v, h1, rfl⟩ := h
  refine ⟨v, fun i hi k hk => ?_, ?_⟩
  · obtain ⟨d, g1, g2⟩ := h1 i hi k hk
    exact ⟨d, g1, value_definite (hd d (List.mem_of_getElem? g1)) _ _ g2⟩
  · refine List.map_congr_left fun k _ => accumulate_steps (fun i _ a => ?_) _
    simp only [Bool.false_eq_true, if_false]
    rw [hP.one, hQ.one]

/-- **C100, LightGBM text files** without `average_output`: the predictions on any two machines are the same, for rows whose values
are definite wherever the model splits by category. -/
theorem C100_lightgbm (P Q : Platform) (hP : P.MulAddOK) (hQ : Q.MulAddOK) (print : F64 → Str) (text rest0 rest : Str)
    (header : List Str) (e0 e1 : Bool) (bs : List (List Str)) (ds : List TreeDesc) (K N : Nat) (M : Int)
    (hK : 1 ≤ K ∧ K < 2 ^ 63) (hN : 1 ≤ N) (hlen : ds.length = N * K)
    (hh : FileBlock text header rest0 e0) (hhl : HeaderLines header K M ds.length false)
    (hb : FileBlocks rest0 bs rest e1) (hbl : List.Forall₂ (TreeLines print) ds bs)
    (okP : ∀ d ∈ ds, d.OK P.parseFloat print ∧ d.inner * 24 ≤ P.maxAlloc)
    (okQ : ∀ d ∈ ds, d.OK Q.parseFloat print ∧ d.inner * 24 ≤ Q.maxAlloc) :
    ∃ e e', lgEnsembleFromReader P ⟨text, false⟩ false = .ok (e, ⟨rest, false⟩) ∧
      lgEnsembleFromReader Q ⟨text, false⟩ false = .ok (e', ⟨rest, false⟩) ∧
      Interchangeable P e Q e' fun row => ∀ d ∈ ds, d.DefiniteOn row := by
  obtain ⟨e, l1, f1, -, -, w1, n1, -, p1⟩ := C39_text_file P print text rest0 rest header e0 e1 bs ds K N M false hK hN hlen hh hhl hb hbl okP
  obtain ⟨e', l2, f2, -, -, w2, n2, -, p2⟩ := C39_text_file Q print text rest0 rest header e0 e1 bs ds K N M false hK hN hlen hh hhl hb hbl okQ
  have hd : dflt e.base = dflt e'.base := (lg_loaded_base l1).trans (lg_loaded_base l2).symm
  have hn : e.nFeatures = e'.nFeatures := n1.trans n2.symm
  refine ⟨e, e', l1, l2, Transfers.of_rows f1 f2 (w1.trans w2.symm) hn hd f1.width_nonneg fun row req m m' hr h => ?_,
    Transfers.of_rows f2 f1 (w2.trans w1.symm) hn.symm hd.symm f2.width_nonneg fun row req m m' hr h => ?_⟩
  · obtain ⟨a1, a2, n, w, a3, a4, a5⟩ := (p1 _ _ _ _).1 h
    exact (p2 _ _ _ _).2 ⟨a1, hn ▸ a2, n, w, a3, refRaw_machines hP hQ hr a4, a5⟩
  · obtain ⟨a1, a2, n, w, a3, a4, a5⟩ := (p2 _ _ _ _).1 h
    exact (p1 _ _ _ _).2 ⟨a1, hn ▸ a2, n, w, a3, refRaw_machines hQ hP hr a4, a5⟩

/-- **C100, LightGBM text files with their transformation**: the same, on machines that agree on `math.Exp`. -/
theorem C100_objective (P Q : Platform) (hP : P.MulAddOK) (hQ : Q.MulAddOK) (hexp : P.exp = Q.exp) (print : F64 → Str)
    (text rest0 rest : Str) (header : List Str) (e0 e1 : Bool) (bs : List (List Str)) (ds : List TreeDesc) (K N : Nat) (M : Int)
    (objective : Str) (tr : Transform) (hK : 1 ≤ K ∧ K < 2 ^ 63) (hN : 1 ≤ N) (hlen : ds.length = N * K)
    (hh : FileBlock text header rest0 e0) (hhl : HeaderLines header K M ds.length false)
    (hobj : Bound header "objective".toList objective) (htr : Objective K objective tr) (h1 : tr = .logistic ∨ tr = .exponential → K = 1)
    (hb : FileBlocks rest0 bs rest e1) (hbl : List.Forall₂ (TreeLines print) ds bs)
    (okP : ∀ d ∈ ds, d.OK P.parseFloat print ∧ d.inner * 24 ≤ P.maxAlloc)
    (okQ : ∀ d ∈ ds, d.OK Q.parseFloat print ∧ d.inner * 24 ≤ Q.maxAlloc) :
    ∃ e e', lgEnsembleFromReader P ⟨text, false⟩ true = .ok (e, ⟨rest, false⟩) ∧
      lgEnsembleFromReader Q ⟨text, false⟩ true = .ok (e', ⟨rest, false⟩) ∧
      Interchangeable P e Q e' fun row => ∀ d ∈ ds, d.DefiniteOn row := by
  obtain ⟨e, l1, f1, t1, -, -, n1, p1⟩ :=
    C88_text_objective P print text rest0 rest header e0 e1 bs ds K N M objective tr hK hN hlen hh hhl hobj htr h1 hb hbl okP
  obtain ⟨e', l2, f2, t2, -, -, n2, p2⟩ :=
    C88_text_objective Q print text rest0 rest header e0 e1 bs ds K N M objective tr hK hN hlen hh hhl hobj htr h1 hb hbl okQ
  have hd : dflt e.base = dflt e'.base := (lg_loaded_base l1).trans (lg_loaded_base l2).symm
  have hn : e.nFeatures = e'.nFeatures := n1.trans n2.symm
  have hw : e.nOutputGroups = e'.nOutputGroups := congrArg Transform.nOutputGroups (t1.trans t2.symm)
  refine ⟨e, e', l1, l2, Transfers.of_rows f1 f2 hw hn hd f1.width_nonneg fun row req m m' hr h => ?_,
    Transfers.of_rows f2 f1 hw.symm hn.symm hd.symm f2.width_nonneg fun row req m m' hr h => ?_⟩
  · obtain ⟨a1, a2, n, w, out, a3, a4, a5, a6⟩ := (p1 _ _ _ _).1 h
    exact (p2 _ _ _ _).2 ⟨hw ▸ a1, hn ▸ a2, n, w, out, a3, refRaw_machines hP hQ hr a4, transformed_exp hexp a5, a6⟩
  · obtain ⟨a1, a2, n, w, out, a3, a4, a5, a6⟩ := (p2 _ _ _ _).1 h
    exact (p1 _ _ _ _).2 ⟨hw ▸ a1, hn ▸ a2, n, w, out, a3, refRaw_machines hQ hP hr a4, transformed_exp hexp.symm a5, a6⟩

theorem jRefRaw_machines {P Q : Platform} (hP : P.MulAddOK) (hQ : Q.MulAddOK) {ts : List JTree} {K : Nat} {row : List F64} {n : Nat}
    {w : List F64} (hd : ∀ t ∈ ts, JDefiniteOn row t.root) (h : JRefRaw P P.out ts K row n w) : JRefRaw Q Q.out ts K row n w := by
  obtain ⟨v, h1, rfl⟩ := h
  refine ⟨v, fun i hi k hk => ?_, ?_⟩
  · obtain ⟨t, p, g1, g2⟩ := h1 i hi k hk
    exact ⟨t, p, g1, jWalk_definite g2 (hd t (List.mem_of_getElem? g1))⟩
  · refine List.map_congr_left fun k _ => accumulate_steps (fun i _ a => ?_) _
    rw [hP.one, hQ.one]

theorem jDoc_loaded_base {P : Platform} {v : Json} {e : Ensemble} (h : lgEnsembleFromDocument P (some v) false = .ok e) :
    dflt e.base = F64.zero := by
  unfold lgEnsembleFromDocument lgEnsembleFromJSON at h
  simp only [Bool.false_eq_true, if_false] at h
  split at h
  · cases h
  repeat' (split at h; · cases h)
  obtain ⟨ts, -, h⟩ := Res.bind_eq_ok.1 h
  cases h
  rfl

/-- **C100, LightGBM JSON dumps.** -/
theorem C100_json (P Q : Platform) (hP : P.MulAddOK) (hQ : Q.MulAddOK) (v : Json) (K N : Nat) (M : Int) (ts : List JTree)
    (docP : ModelDoc P v K M ts) (docQ : ModelDoc Q v K M ts) (nestP : NestedAtMost P.jsonDepth v) (nestQ : NestedAtMost Q.jsonDepth v)
    (counts : 1 ≤ K ∧ 1 ≤ N ∧ ts.length = N * K)
    (okP : ∀ t ∈ ts, ∃ W, JTreeOK t W ∧ jLeaves t.root * 24 ≤ P.maxAlloc ∧ 4 * W ≤ P.maxAlloc)
    (okQ : ∀ t ∈ ts, ∃ W, JTreeOK t W ∧ jLeaves t.root * 24 ≤ Q.maxAlloc ∧ 4 * W ≤ Q.maxAlloc) :
    ∃ e e', lgEnsembleFromDocument P (some v) false = .ok e ∧ lgEnsembleFromDocument Q (some v) false = .ok e' ∧
      Interchangeable P e Q e' fun row => ∀ t ∈ ts, JDefiniteOn row t.root := by
  obtain ⟨e, l1, f1, -, -, -, w1, n1, -, p1⟩ := C67_document P v K N M ts docP nestP counts okP
  obtain ⟨e', l2, f2, -, -, -, w2, n2, -, p2⟩ := C67_document Q v K N M ts docQ nestQ counts okQ
  have hd : dflt e.base = dflt e'.base := (jDoc_loaded_base l1).trans (jDoc_loaded_base l2).symm
  have hn : e.nFeatures = e'.nFeatures := n1.trans n2.symm
  refine ⟨e, e', l1, l2, Transfers.of_rows f1 f2 (w1.trans w2.symm) hn hd f1.width_nonneg fun row req m m' hr h => ?_,
    Transfers.of_rows f2 f1 (w2.trans w1.symm) hn.symm hd.symm f2.width_nonneg fun row req m m' hr h => ?_⟩
  · obtain ⟨a1, a2, n, w, a3, a4, a5⟩ := (p1 _ _ _ _).1 h
    exact (p2 _ _ _ _).2 ⟨a1, hn ▸ a2, n, w, a3, jRefRaw_machines hP hQ hr a4, a5⟩
  · obtain ⟨a1, a2, n, w, a3, a4, a5⟩ := (p2 _ _ _ _).1 h
    exact (p1 _ _ _ _).2 ⟨a1, hn ▸ a2, n, w, a3, jRefRaw_machines hQ hP hr a4, a5⟩

/-! ## XGBoost -/

theorem xgRefRaw_machines {P Q : Platform} (hP : P.MulAddOK) (hQ : Q.MulAddOK) {goes : List XgBin.Node → List F64 → Nat → Bool → Prop}
    {m : XgModel} {K : Nat} {row : List F64} {n : Nat} {w : List F64} (h : XgRefRaw P goes m K row n w) : XgRefRaw Q goes m K row n w := by
  obtain ⟨v, c, h1, h2, rfl⟩ := h
  refine ⟨v, c, h1, h2, List.map_congr_left fun k hk => accumulate_steps (fun i hi a => ?_) _⟩
  have hk := List.mem_range.1 hk
  obtain ⟨t, T, leaf, -, -, -, g⟩ := h1 i hi k hk
  have hc := h2 i hi k hk
  unfold XgModel.Weight at hc
  split at hc
  · obtain ⟨b, -, hb⟩ := hc
    obtain ⟨nd, -, hv⟩ := g
    rw [hb, hv, hP.float32, hQ.float32]
  · rw [hc, hP.one, hQ.one]

theorem xg_loaded_default {P : Platform} {m : XgModel} {K N : Nat} (ok : m.OK P.maxAlloc K N) {lt : Bool} {tr : Transform}
    (ho : XgObjective K m.header.nameObj lt tr) {e : Ensemble} (h : ∀ rest, xgEnsembleFromReader P lt (m.image ++ rest) = .ok (e, rest)) :
    dflt e.base = F64.nan := by
  obtain ⟨ts, hc, -⟩ := xg_file_loaded P m K N ok lt tr ((xgTransform_iff _ _ _ _).2 ho)
  have := (h []).symm.trans (hc.decode [])
  cases this
  rfl

/-- **C100, XGBoost trees**, boosted or DART: the predictions on any two machines are the same, for all rows. A tree value and a DART
weight are float32 numbers, so their product is exact and it does not matter whether it is rounded. -/
theorem C100_xgboost (P Q : Platform) (hP : P.MulAddOK) (hQ : Q.MulAddOK) (m : XgModel) (K N : Nat) (okP : m.OK P.maxAlloc K N)
    (okQ : m.OK Q.maxAlloc K N) (lt : Bool) (hexp : lt = true → P.exp = Q.exp) (tr : Transform) (ho : XgObjective K m.header.nameObj lt tr)
    (hlog : tr = .logistic → K = 1) :
    ∃ e e', (∀ rest, xgEnsembleFromReader P lt (m.image ++ rest) = .ok (e, rest)) ∧
      (∀ rest, xgEnsembleFromReader Q lt (m.image ++ rest) = .ok (e', rest)) ∧ Interchangeable P e Q e' fun _ => True := by
  obtain ⟨e, l1, f1, t1, -, -, n1, -, p1⟩ := C62_xgboost_file_le P m K N okP lt tr ho hlog
  obtain ⟨e', l2, f2, t2, -, -, n2, -, p2⟩ := C62_xgboost_file_le Q m K N okQ lt tr ho hlog
  have hd : dflt e.base = dflt e'.base := (xg_loaded_default okP ho l1).trans (xg_loaded_default okQ ho l2).symm
  have hn : e.nFeatures = e'.nFeatures := n1.trans n2.symm
  have hw : e.nOutputGroups = e'.nOutputGroups := congrArg Transform.nOutputGroups (t1.trans t2.symm)
  have ht : ∀ {P Q : Platform}, (lt = true → P.exp = Q.exp) → ∀ {w out}, IsTransformed P tr w out → IsTransformed Q tr w out := by
    intro P Q hexp w out h
    cases ho with
    | raw => exact h
    | logistic => exact transformed_exp (hexp rfl) h
  refine ⟨e, e', l1, l2, Transfers.of_rows f1 f2 hw hn hd f1.width_nonneg fun row req m m' _ h => ?_,
    Transfers.of_rows f2 f1 hw.symm hn.symm hd.symm f2.width_nonneg fun row req m m' _ h => ?_⟩
  · obtain ⟨a1, a2, n, w, out, a3, a4, a5, a6⟩ := (p1 _ _ _ _).1 h
    exact (p2 _ _ _ _).2 ⟨hw ▸ a1, hn ▸ a2, n, w, out, a3, xgRefRaw_machines hP hQ a4, ht hexp a5, a6⟩
  · obtain ⟨a1, a2, n, w, out, a3, a4, a5, a6⟩ := (p2 _ _ _ _).1 h
    exact (p1 _ _ _ _).2 ⟨hw ▸ a1, hn ▸ a2, n, w, out, a3, xgRefRaw_machines hQ hP a4, ht (fun h => (hexp h).symm) a5, a6⟩

theorem xgLinRaw_machines {P Q : Platform} (hP : P.MulAddOK) (hQ : Q.MulAddOK) {m : XgLinFile} {K F : Nat} {row w : List F64}
    (hr : ∀ x ∈ row, IsFloat32 x) (h : XgLinRaw P m K F row w) : XgLinRaw Q m K F row w := by
  obtain ⟨x, c, h1, h2, rfl⟩ := h
  refine ⟨x, c, h1, h2, List.map_congr_left fun k hk => accumulate_steps (fun i hi a => ?_) _⟩
  obtain ⟨b, -, hb⟩ := h2 i hi.le k (List.mem_range.1 hk)
  obtain ⟨y, hy⟩ := hr _ (List.mem_of_getElem? (h1 i hi))
  rw [hb, hy, hP.float32, hQ.float32]

/-- **C100, linear XGBoost models**: the same for rows of float32 numbers. For other rows it is false (`C100_linear_differs`). -/
theorem C100_linear_partial (P Q : Platform) (hP : P.MulAddOK) (hQ : Q.MulAddOK) (m : XgLinFile) (K F : Nat) (okP : m.OK P.maxAlloc K F)
    (okQ : m.OK Q.maxAlloc K F) (lt : Bool) (hexp : lt = true → P.exp = Q.exp) (tr : Transform) (ho : XgObjective K m.header.nameObj lt tr)
    (hlog : tr = .logistic → K = 1) :
    ∃ e e', (∀ rest, xgbLinearFromReader P lt (m.image ++ rest) = .ok (e, rest)) ∧
      (∀ rest, xgbLinearFromReader Q lt (m.image ++ rest) = .ok (e', rest)) ∧ Interchangeable P e Q e' fun row => ∀ x ∈ row, IsFloat32 x := by
  obtain ⟨e, l1, f1, t1, -, -, n1, -, p1⟩ := C62_linear_file P m K F okP lt tr ho hlog
  obtain ⟨e', l2, f2, t2, -, -, n2, -, p2⟩ := C62_linear_file Q m K F okQ lt tr ho hlog
  have hd : dflt e.base = dflt e'.base := by
    have g1 := (l1 []).symm.trans ((xg_linear_loaded P m K F okP lt tr ((xgTransform_iff _ _ _ _).2 ho)).decode [])
    have g2 := (l2 []).symm.trans ((xg_linear_loaded Q m K F okQ lt tr ((xgTransform_iff _ _ _ _).2 ho)).decode [])
    cases g1
    cases g2
    rfl
  have hn : e.nFeatures = e'.nFeatures := n1.trans n2.symm
  have hw : e.nOutputGroups = e'.nOutputGroups := congrArg Transform.nOutputGroups (t1.trans t2.symm)
  have ht : ∀ {P Q : Platform}, (lt = true → P.exp = Q.exp) → ∀ {w out}, IsTransformed P tr w out → IsTransformed Q tr w out := by
    intro P Q hexp w out h
    cases ho with
    | raw => exact h
    | logistic => exact transformed_exp (hexp rfl) h
  refine ⟨e, e', l1, l2, Transfers.of_rows f1 f2 hw hn hd f1.width_nonneg fun row req m m' hr h => ?_,
    Transfers.of_rows f2 f1 hw.symm hn.symm hd.symm f2.width_nonneg fun row req m m' hr h => ?_⟩
  · obtain ⟨a1, a2, w, out, a4, a5, a6⟩ := (p1 _ _ _ _).1 h
    exact (p2 _ _ _ _).2 ⟨hw ▸ a1, a2, w, out, xgLinRaw_machines hP hQ hr a4, ht hexp a5, a6⟩
  · obtain ⟨a1, a2, w, out, a4, a5, a6⟩ := (p2 _ _ _ _).1 h
    exact (p1 _ _ _ _).2 ⟨hw ▸ a1, a2, w, out, xgLinRaw_machines hQ hP hr a4, ht (fun h => (hexp h).symm) a5, a6⟩

/-! ## scikit-learn -/

theorem skRefRaw_machines {P Q : Platform} (hP : P.MulAddOK) (hQ : Q.MulAddOK) {M : SkModel} (h1 : M.learningRate = F64.one)
    {row : List F64} {n : Nat} {w : List F64} (h : SkRefRaw P M row n w) : SkRefRaw Q M row n w := by
  obtain ⟨v, g, rfl⟩ := h
  refine ⟨v, fun i hi k hk => ?_, List.map_congr_left fun k _ => accumulate_steps (fun i _ a => ?_) _⟩
  · obtain ⟨t, T, leaf, x, p, g1, g2, g3, g4, g5, g6, g7⟩ := g i hi k hk
    exact ⟨t, T, leaf, x, p, g1, g2, g3, g4, g5, g6, by rw [g7, h1, hP.one, hQ.one]⟩
  · rw [hP.one, hQ.one]

/-- **C100, scikit-learn pickles** with learning rate one. With another learning rate, which the loader multiplies into the leaf values,
it is false (`C100_sklearn_differs`). -/
theorem C100_sklearn_partial (P Q : Platform) (hP : P.MulAddOK) (hQ : Q.MulAddOK) (v : PyVal) (bs : Pickle.Bytes) (μ μ' : Memo)
    (hdP : Dumps P noMemo v bs μ) (hdQ : Dumps Q noMemo v bs μ') (M : SkModel) (hc : IsClassifier M v) (okP : M.OK P.maxAlloc)
    (okQ : M.OK Q.maxAlloc) (h1 : M.learningRate = F64.one) :
    ∃ e e', (∀ rest lt, skEnsembleFromReader P (bs ++ octet '.' :: rest) lt = .ok e) ∧
      (∀ rest lt, skEnsembleFromReader Q (bs ++ octet '.' :: rest) lt = .ok e') ∧ Interchangeable P e Q e' fun _ => True := by
  obtain ⟨e, l1, f1, -, -, w1, -, n1, -, p1⟩ := C63_sklearn_file P v bs μ hdP M hc okP
  obtain ⟨e', l2, f2, -, -, w2, -, n2, -, p2⟩ := C63_sklearn_file Q v bs μ' hdQ M hc okQ
  have hd : dflt e.base = dflt e'.base := by
    obtain ⟨ts, g1, -⟩ := sk_file_loaded P hdP hc okP
    obtain ⟨ts', g2, -⟩ := sk_file_loaded Q hdQ hc okQ
    have g1 := (l1 [] false).symm.trans (g1 [] false)
    have g2 := (l2 [] false).symm.trans (g2 [] false)
    cases g1
    cases g2
    rfl
  have hn : e.nFeatures = e'.nFeatures := n1.trans n2.symm
  refine ⟨e, e', l1, l2, Transfers.of_rows f1 f2 (w1.trans w2.symm) hn hd f1.width_nonneg fun row req m m' hr h => ?_,
    Transfers.of_rows f2 f1 (w2.trans w1.symm) hn.symm hd.symm f2.width_nonneg fun row req m m' hr h => ?_⟩
  · obtain ⟨a1, a2, n, w, a3, a4, a5⟩ := (p1 _ _ _ _).1 h
    exact (p2 _ _ _ _).2 ⟨a1, hn ▸ a2, n, w, a3, skRefRaw_machines hP hQ h1 a4, a5⟩
  · obtain ⟨a1, a2, n, w, a3, a4, a5⟩ := (p2 _ _ _ _).1 h
    exact (p1 _ _ _ _).2 ⟨a1, hn ▸ a2, n, w, a3, skRefRaw_machines hQ hP h1 a4, a5⟩

/-! ## Where the machine matters -/

namespace MachinesExample

open XgFileExample (file file_ok linFile linFile_ok)

/-- multiplications and additions are separate; an `int32` of a number without one is the smallest -/
def amd64 : Platform := { Platform.demo with parseFloat := Strconv.parseFloat }

/-- multiplications and additions are fused; `int32` of NaN is zero, of large numbers the nearest -/
def arm64 : Platform := { amd64 with
  mulAdd := F64.fma
  i32Out := fun x => if x.isNaN then 0 else if F64.le F64.zero x then BitVec.intMax 32 else BitVec.intMin 32 }

theorem amd64_ok : amd64.MulAddOK := fun _ _ _ => .inl rfl
theorem arm64_ok : arm64.MulAddOK := fun _ _ _ => .inr rfl

/-- load with `load`, predict a row -/
def outcome (load : Platform → Res Ensemble) (row : List F64) (P : Platform) : Res (List F64) :=
  match load P with
  | .ok e => match (e.predict P row 0 1).run [F64.zero] with
    | (.ok _, out) => .ok out
    | (.err t, _) => .err t
    | (.panic, _) => .panic
    | (.hang, _) => .hang
  | .err t => .err t
  | .panic => .panic
  | .hang => .hang

theorem outcome_ok {load : Platform → Res Ensemble} {row : List F64} {P : Platform} {out : List F64} (h : outcome load row P = .ok out) :
    ∃ e, load P = .ok e ∧ (e.predict P row 0 1).run [F64.zero] = (.ok ⟨⟩, out) := by
  unfold outcome at h
  split at h
  · rename_i e he
    refine ⟨e, he, ?_⟩
    split at h
    · rename_i hr
      cases h
      exact hr
    all_goals cases h
  all_goals cases h

/-- the ensemble of a reader's result -/
def justEnsemble {α : Type} : Res (Ensemble × α) → Res Ensemble
  | .ok (e, _) => .ok e
  | .err t => .err t
  | .panic => .panic
  | .hang => .hang

/-- a forest of three single leaves -/
def forestText : Str :=
"tree
version=v3
num_class=1
num_tree_per_iteration=1
max_feature_idx=0
average_output
tree_sizes=0 0 0

num_leaves=1
num_cat=0
leaf_value=0.1

num_leaves=1
num_cat=0
leaf_value=0.2

num_leaves=1
num_cat=0
leaf_value=0.3

".toList

/-- **C100 is false for averaging forests**: the mean of 0.1, 0.2 and 0.3 is 0.2 on one machine and less on the other. -/
theorem C100_average_differs : ∃ e e', justEnsemble (lgEnsembleFromReader amd64 ⟨forestText, false⟩ false) = .ok e ∧
    justEnsemble (lgEnsembleFromReader arm64 ⟨forestText, false⟩ false) = .ok e' ∧
    (e.predict amd64 [F64.zero] 0 1).run [F64.zero] = (.ok ⟨⟩, [F64.const 2 10]) ∧
    (e'.predict arm64 [F64.zero] 0 1).run [F64.zero] = (.ok ⟨⟩, [F64.const 19999999999999998 100000000000000000]) ∧
    F64.const 2 10 ≠ F64.const 19999999999999998 100000000000000000 := by
  obtain ⟨e, h1, h2⟩ := outcome_ok (load := fun P => justEnsemble (lgEnsembleFromReader P ⟨forestText, false⟩ false)) (row := [F64.zero])
    (P := amd64) (out := [F64.const 2 10]) (by decide +kernel)
  obtain ⟨e', h1', h2'⟩ := outcome_ok (load := fun P => justEnsemble (lgEnsembleFromReader P ⟨forestText, false⟩ false)) (row := [F64.zero])
    (P := arm64) (out := [F64.const 19999999999999998 100000000000000000]) (by decide +kernel)
  exact ⟨e, e', h1, h1', h2, h2', by decide +kernel⟩

/-- a split that sends category 0 to the left and has no missing values -/
def categoryText : Str :=
"tree
version=v3
num_class=1
num_tree_per_iteration=1
max_feature_idx=0
tree_sizes=0

num_leaves=2
num_cat=1
split_feature=0
threshold=0
decision_type=1
left_child=-1
right_child=-2
cat_boundaries=0 1
cat_threshold=1
leaf_value=1 2

".toList

/-- **C100 is false for rows that are not definite**: NaN is category 0 on one machine and no category on the other. -/
theorem C100_category_differs : ∃ e e', justEnsemble (lgEnsembleFromReader amd64 ⟨categoryText, false⟩ false) = .ok e ∧
    justEnsemble (lgEnsembleFromReader arm64 ⟨categoryText, false⟩ false) = .ok e' ∧
    (e.predict amd64 [F64.nan] 0 1).run [F64.zero] = (.ok ⟨⟩, [F64.ofNat 2]) ∧
    (e'.predict arm64 [F64.nan] 0 1).run [F64.zero] = (.ok ⟨⟩, [F64.ofNat 1]) := by
  obtain ⟨e, h1, h2⟩ := outcome_ok (load := fun P => justEnsemble (lgEnsembleFromReader P ⟨categoryText, false⟩ false)) (row := [F64.nan])
    (P := amd64) (out := [F64.ofNat 2]) (by decide +kernel)
  obtain ⟨e', h1', h2'⟩ := outcome_ok (load := fun P => justEnsemble (lgEnsembleFromReader P ⟨categoryText, false⟩ false)) (row := [F64.nan])
    (P := arm64) (out := [F64.ofNat 1]) (by decide +kernel)
  exact ⟨e, e', h1, h1', h2, h2'⟩

/-- a linear model: 0.5 - 1 + 0.1 x -/
def tenthFile : XgLinFile where
  header := { XgFileExample.header "gblinear" with param := ⟨0x3f000000#32, 1#32, 0#32, 0#32, 0#32, List.replicate 29 0#32⟩ }
  linear := ⟨⟨1#32, 1#32, List.replicate 32 0#32⟩, [0x3dcccccd#32, 0xbf800000#32]⟩

/-- **C100 is false for linear models and rows of float64 numbers.** -/
theorem C100_linear_differs : ∃ e e' x y, justEnsemble (xgbLinearFromReader amd64 false tenthFile.image) = .ok e ∧
    justEnsemble (xgbLinearFromReader arm64 false tenthFile.image) = .ok e' ∧
    (e.predict amd64 [F64.const 11 10] 0 1).run [F64.zero] = (.ok ⟨⟩, [x]) ∧
    (e'.predict arm64 [F64.const 11 10] 0 1).run [F64.zero] = (.ok ⟨⟩, [y]) ∧ x ≠ y ∧ x.isNaN = false ∧ y.isNaN = false := by
  have h : ∃ x y, outcome (fun P => justEnsemble (xgbLinearFromReader P false tenthFile.image)) [F64.const 11 10] amd64 = .ok [x] ∧
      outcome (fun P => justEnsemble (xgbLinearFromReader P false tenthFile.image)) [F64.const 11 10] arm64 = .ok [y] ∧ x ≠ y ∧
      x.isNaN = false ∧ y.isNaN = false := by
    let c := F64.mul (F64.const 11 10) (F64.ofBits32 0x3dcccccd#32)
    exact ⟨F64.add c (F64.neg (F64.const 1 2)), F64.fma (F64.const 11 10) (F64.ofBits32 0x3dcccccd#32) (F64.neg (F64.const 1 2)),
      by decide +kernel, by decide +kernel, by decide +kernel, by decide +kernel, by decide +kernel⟩
  obtain ⟨x, y, h1, h2, h3⟩ := h
  obtain ⟨e, g1, g2⟩ := outcome_ok h1
  obtain ⟨e', g1', g2'⟩ := outcome_ok h2
  exact ⟨e, e', x, y, g1, g1', g2, g2', h3⟩

/-! ### scikit-learn -/

open SkModelExample (inst items scalar array bytes dtype leafWords)

/-- a tree of one leaf with value 3 -/
def leafTree : PyVal :=
  .build (pyName "sklearn.tree._tree" "Tree") (.ofList [.int 1, array [1] "i8" (bytes (field64 1)), .int 1])
    (.dict (items [("max_depth", .int 0), ("node_count", .int 1), ("nodes", array [1] "V56" (bytes leafWords.record)),
      ("values", array [1, 1, 1] "f8" (bytes (field64 0x4008000000000000)))]))

/-- a classifier with learning rate 0.1, log odds 0.3 and one leaf of value 3 -/
def tenthClassifier : PyVal :=
  inst "sklearn.ensemble.gradient_boosting" "GradientBoostingClassifier"
    (items [("n_classes_", .int 2), ("learning_rate", .float (F64.const 1 10)), ("loss", pyStr "deviance"),
      ("init_", inst "sklearn.ensemble.gradient_boosting" "LogOddsEstimator" (items [("prior", scalar "f8" (field64 0x3fd3333333333333))])),
      ("classes_", array [2] "i8" (bytes (field64 0 ++ field64 1))), ("n_features_", .int 1), ("max_features_", .int 1),
      ("n_estimators", .int 1), ("estimators_", array [1, 1] "O" (.list (.ofList [
        inst "sklearn.tree.tree" "DecisionTreeRegressor"
          (items [("n_classes_", scalar "i8" (field64 1)), ("max_features_", .int 1), ("n_outputs_", .int 1), ("tree_", leafTree)])])))])

/-- its pickle -/
def tenthPickle : Pickle.Bytes := tenthClassifier.dump (fun _ => "0.1".toList) ++ [octet '.']

/-- **C100 is false for scikit-learn models**: the score is 0.6000000000000001 on one machine and 0.6 on the other. -/
theorem C100_sklearn_differs : ∃ e e', skEnsembleFromReader amd64 tenthPickle false = .ok e ∧
    skEnsembleFromReader arm64 tenthPickle false = .ok e' ∧
    (e.predict amd64 [F64.zero] 0 1).run [F64.zero] = (.ok ⟨⟩, [F64.const 6000000000000001 10000000000000000]) ∧
    (e'.predict arm64 [F64.zero] 0 1).run [F64.zero] = (.ok ⟨⟩, [F64.const 6 10]) ∧
    F64.const 6000000000000001 10000000000000000 ≠ F64.const 6 10 := by
  obtain ⟨e, h1, h2⟩ := outcome_ok (load := fun P => skEnsembleFromReader P tenthPickle false) (row := [F64.zero])
    (P := amd64) (out := [F64.const 6000000000000001 10000000000000000]) (by decide +kernel)
  obtain ⟨e', h1', h2'⟩ := outcome_ok (load := fun P => skEnsembleFromReader P tenthPickle false) (row := [F64.zero])
    (P := arm64) (out := [F64.const 6 10]) (by decide +kernel)
  exact ⟨e, e', h1, h1', h2, h2', by decide +kernel⟩

/-! ## The theorems apply -/

/-- another machine for the models of `LgLoadExample` -/
def other : Platform := { LgExample.platform with mulAdd := F64.fma, i32Out := arm64.i32Out }

open LgLoadExample (d1 d2 print) in
/-- the LightGBM file of C39 predicts the same for definite rows -/
example : ∃ e e', lgEnsembleFromReader LgExample.platform ⟨modelText print [d1, d2] 2 1 false, false⟩ false = .ok (e, ⟨[], false⟩) ∧
    lgEnsembleFromReader other ⟨modelText print [d1, d2] 2 1 false, false⟩ false = .ok (e', ⟨[], false⟩) ∧
    Interchangeable LgExample.platform e other e' fun row => ∀ d ∈ [d1, d2], d.DefiniteOn row := by
  obtain ⟨header, rest0, blocks, h1, h2, h3, h4⟩ := modelText_blocks (P := LgExample.platform) (print := print) (ds := [d1, d2]) [] 2 (M := 1) false
    (by norm_num) LgLoadExample.ds_ok
  rw [List.append_nil] at h1
  exact C100_lightgbm _ _ (fun _ _ _ => .inl rfl) (fun _ _ _ => .inr rfl) print _ _ _ _ _ _ _ [d1, d2] 2 1 1 (by norm_num) le_rfl rfl h1 h2 h3 h4
    (fun d hd => ⟨(LgLoadExample.ds_ok d hd).1, (LgLoadExample.ds_ok d hd).2.2⟩)
    (fun d hd => ⟨(LgLoadExample.ds_ok d hd).1, (LgLoadExample.ds_ok d hd).2.2⟩)

open LgLoadExample (d1 d2) in
/-- a definite row -/
example : ∀ d ∈ [d1, d2], d.DefiniteOn [F64.ofNat 5, F64.ofNat 33] := by
  intro d hd h0 i hi f m set x hs hx
  have hx := List.mem_of_getElem? hx
  simp only [List.mem_cons, List.not_mem_nil, or_false] at hx
  rcases hx with rfl | rfl
  · exact .inr ⟨_, F64.isVal_ofNat (by norm_num), by norm_num [truncQ], by norm_num [truncQ]⟩
  · exact .inr ⟨_, F64.isVal_ofNat (by norm_num), by norm_num [truncQ], by norm_num [truncQ]⟩

open SkModelExample (regressor is_regressor is_array print) in
/-- a classifier with learning rate 1 -/
def oneClassifier : PyVal :=
  inst "sklearn.ensemble.gradient_boosting" "GradientBoostingClassifier"
    (items [("n_classes_", .int 2), ("learning_rate", .float F64.one), ("loss", pyStr "deviance"), ("init_", SkModelExample.init),
      ("classes_", array [2] "i8" (bytes (field64 0 ++ field64 1))), ("n_features_", .int 2), ("max_features_", .int 2),
      ("n_estimators", .int 2), ("estimators_", array [2, 1] "O" (.list (.ofList [SkModelExample.regressor, SkModelExample.regressor])))])

/-- the same -/
def oneModel : SkModel := { SkModelExample.model 2 with learningRate := F64.one }

theorem one_is : IsClassifier oneModel oneClassifier := by
  refine ⟨_, octets "deviance".toList, _, _, [0, 1], _, "O", octet '<', .ofList [SkModelExample.regressor, SkModelExample.regressor],
    ⟨_, _, rfl⟩, rfl, rfl, rfl, rfl, ?_, rfl, ⟨[0, 1], _, SkModelExample.is_array _ _ _, ?_, by decide⟩, rfl, rfl, rfl,
    SkModelExample.is_array _ _ _, .cons SkModelExample.is_regressor (.cons SkModelExample.is_regressor .nil)⟩
  · exact .logOdds _ _ _ (octet '<') _ (F64.ofNat 5) ⟨_, _, rfl⟩ rfl ⟨_, _, .plain _ _ rfl, rfl, rfl⟩
      ⟨[0x4014000000000000], by decide +kernel, Or.inl ⟨rfl, by simp⟩⟩
  · show IsBytes ([0, 1].flatMap field64) _
    simp [IsBytes, bytes]

theorem one_writable (P : Platform) (h : P.parseFloat "1".toList = some F64.one) : oneClassifier.Writable P fun _ => "1".toList := by
  repeat' first
    | exact trivial
    | exact ⟨by decide, by decide⟩
    | exact ⟨by decide, h⟩
    | apply And.intro

/-- a scikit-learn model with learning rate 1 predicts the same on both machines -/
example : ∃ e e', (∀ rest lt, skEnsembleFromReader amd64 (oneClassifier.dump (fun _ => "1".toList) ++ octet '.' :: rest) lt = .ok e) ∧
    (∀ rest lt, skEnsembleFromReader arm64 (oneClassifier.dump (fun _ => "1".toList) ++ octet '.' :: rest) lt = .ok e') ∧
    Interchangeable amd64 e arm64 e' fun _ => True := by
  have ok : oneModel.OK amd64.maxAlloc := by
    obtain ⟨a, b, c, d, e, f⟩ := SkModelExample.model_ok 2
    exact ⟨a, b, c, d, e, f⟩
  exact C100_sklearn_partial amd64 arm64 amd64_ok arm64_ok _ _ _ _ (dump_dumps _ (one_writable amd64 (by decide +kernel)))
    (dump_dumps _ (one_writable arm64 (by decide +kernel))) oneModel one_is ok ok rfl

/-- the DART file of C62 predicts the same on both machines -/
example : ∃ e e', (∀ rest, xgEnsembleFromReader amd64 true ((file 1#32).image ++ rest) = .ok (e, rest)) ∧
    (∀ rest, xgEnsembleFromReader arm64 true ((file 1#32).image ++ rest) = .ok (e', rest)) ∧ Interchangeable amd64 e arm64 e' fun _ => True :=
  C100_xgboost amd64 arm64 amd64_ok arm64_ok (file 1#32) 1 2 file_ok file_ok true (fun _ => rfl) .logistic (.logistic rfl) (fun _ => rfl)

/-- the linear file of C62 predicts the same for float32 rows -/
example : ∃ e e', (∀ rest, xgbLinearFromReader amd64 false (linFile.image ++ rest) = .ok (e, rest)) ∧
    (∀ rest, xgbLinearFromReader arm64 false (linFile.image ++ rest) = .ok (e', rest)) ∧
    Interchangeable amd64 e arm64 e' fun row => ∀ x ∈ row, IsFloat32 x :=
  C100_linear_partial amd64 arm64 amd64_ok arm64_ok linFile 1 2 linFile_ok linFile_ok false (fun h => nomatch h) (.raw 1) .raw (fun h => nomatch h)

/-- the JSON dump of C67 predicts the same for definite rows -/
example : ∃ e e', lgEnsembleFromDocument LgExample.platform (some JsonDocExample.modelDoc) false = .ok e ∧
    lgEnsembleFromDocument LgExample.platform (some JsonDocExample.modelDoc) false = .ok e' ∧
    Interchangeable LgExample.platform e LgExample.platform e' fun row => ∀ t ∈ [JsonModelExample.t1, JsonModelExample.t2], JDefiniteOn row t.root := by
  have ok : ∀ t ∈ [JsonModelExample.t1, JsonModelExample.t2], ∃ W, JTreeOK t W ∧ jLeaves t.root * 24 ≤ LgExample.platform.maxAlloc ∧
      4 * W ≤ LgExample.platform.maxAlloc := by
    intro t ht
    simp only [List.mem_cons, List.not_mem_nil, or_false] at ht
    rcases ht with rfl | rfl
    · exact ⟨2, JsonModelExample.t1_ok, by decide, by decide⟩
    · exact ⟨0, JsonModelExample.t2_ok, by decide, by decide⟩
  exact C100_json _ _ (fun _ _ _ => .inl rfl) (fun _ _ _ => .inl rfl) _ 2 1 1 _ JsonDocExample.model_doc JsonDocExample.model_doc
    JsonDocExample.model_nested JsonDocExample.model_nested (by decide) ok ok

end MachinesExample

end Leaves
