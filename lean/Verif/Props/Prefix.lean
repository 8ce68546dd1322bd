import Verif.Spec.Prefix
import Verif.Props.Machines

/-!
# C103: asking for fewer estimators is the same as loading a model with fewer of them

A model can be cut down when it is saved (LightGBM's `num_iteration`, an earlier stop of the training) or when it is used, by the
parameter `nEstimators`. Both give the same predictions, for files of every format.
-/

namespace Leaves
open Spec GoM

/-- models that predict rows alike predict matrices alike -/
theorem SameFor.of_rows {P : Platform} {e e' : Ensemble} {req req' : Int} (hf : Fits e) (hf' : Fits e')
    (hw : e.nOutputGroups = e'.nOutputGroups) (hn : e.nFeatures = e'.nFeatures) (hd : dflt e.base = dflt e'.base)
    (h : ∀ row m m', (e.predict P row req m.length).run m = (.ok ⟨⟩, m') ↔ (e'.predict P row req' m.length).run m = (.ok ⟨⟩, m')) :
    SameFor P e req e' req' := by
  have one : ∀ {e e' : Ensemble} {req req' : Int} (_ : Fits e) (_ : Fits e') (_ : e.nOutputGroups = e'.nOutputGroups)
      (_ : e.nFeatures = e'.nFeatures) (_ : dflt e.base = dflt e'.base)
      (_ : ∀ row m m', (e.predict P row req m.length).run m = (.ok ⟨⟩, m') → (e'.predict P row req' m.length).run m = (.ok ⟨⟩, m')),
      (∀ (vals m m' : List F64) (r ncols : Nat) (nt nt' : Int), 0 < r → e.nOutputGroups * r < 2 ^ 63 → r ≤ 2 ^ 53 →
        e.PredictDense P vals r ncols m req nt (.ok ⟨⟩, m') → e'.PredictDense P vals r ncols m req' nt' (.ok ⟨⟩, m')) ∧
      (∀ (indptr cols : List Int) (vals m m' : List F64) (r nf : Nat) (nt nt' : Int), 0 < r → e.nOutputGroups * r < 2 ^ 63 →
        r ≤ 2 ^ 53 → indptr.length = r + 1 → e.nFeatures = nf → nf * 8 ≤ P.maxAlloc →
        e.PredictCSR P indptr cols vals m req nt (.ok ⟨⟩, m') → e'.PredictCSR P indptr cols vals m req' nt' (.ok ⟨⟩, m')) := by
    clear hf hf' hw hn hd h e e' req req'
    intro e e' req req' hf hf' hw hn hd h
    obtain ⟨w, hw1⟩ := Int.eq_ofNat_of_zero_le hf.width_nonneg
    have hw2 : e'.nOutputGroups = w := by rw [← hw, hw1]
    refine ⟨?_, ?_⟩
    · intro vals m m' r ncols nt nt' hr hwr hr2 hp
      have hwr' : w * r < 2 ^ 63 := by rw [hw1] at hwr; exact_mod_cast hwr
      obtain ⟨outs, s, g⟩ := C14_dense_is_rowwise P e hf w r ncols hw1 hwr' hr2 vals m m' req nt hp
      have hc : 0 < ncols := ((dense_iff hf hw1 hwr' hr2).1 hp).1
      refine C14_rowwise_is_dense P e' hf' w r ncols hw2 hwr' hr2 hr hc vals m m' req' nt' outs s fun i hi => ?_
      obtain ⟨row, g1, g2⟩ := g i hi
      refine ⟨row, List.replicate w F64.zero, g1, by simp, ?_⟩
      simpa using h row (List.replicate w F64.zero) (outs i) (by simpa using g2 (List.replicate w F64.zero) (by simp))
    · intro indptr cols vals m m' r nf nt nt' hr hwr hr2 hip hnf hmem hp
      have hwr' : w * r < 2 ^ 63 := by rw [hw1] at hwr; exact_mod_cast hwr
      obtain ⟨outs, s, g⟩ := C15_csr_is_rowwise P e hf w r nf hw1 ⟨hnf, hmem⟩ hwr' hr2 indptr cols hip vals m m' req nt hp
      refine C15_rowwise_is_csr P e' hf' w r nf hw2 ⟨hn ▸ hnf, hmem⟩ hwr' hr2 hr indptr cols hip vals m m' req' nt' outs s fun i hi => ?_
      obtain ⟨row, g1, g2⟩ := g i hi
      refine ⟨row, List.replicate w F64.zero, hd ▸ g1, by simp, ?_⟩
      simpa using h row (List.replicate w F64.zero) (outs i) (by simpa using g2 (List.replicate w F64.zero) (by simp))
  obtain ⟨a1, a2⟩ := one hf hf' hw hn hd fun row m m' => (h row m m').1
  obtain ⟨b1, b2⟩ := one hf' hf hw.symm hn.symm hd.symm fun row m m' => (h row m m').2
  refine ⟨h, fun vals m m' r ncols nt nt' h1 h2 h3 => ⟨a1 vals m m' r ncols nt nt' h1 h2 h3, b1 vals m m' r ncols nt' nt h1 (hw ▸ h2) h3⟩,
    fun indptr cols vals m m' r nf nt nt' h1 h2 h3 h4 h5 h6 => ⟨a2 indptr cols vals m m' r nf nt nt' h1 h2 h3 h4 h5 h6,
      b2 indptr cols vals m m' r nf nt' nt h1 (hw ▸ h2) h3 h4 (hn ▸ h5) h6⟩⟩

/-- the number of estimators used is determined by the request, and at most the number there is -/
theorem used_swap {req req' : Int} {N n k : Nat} (h : Used req N k) (h' : Used req' n k) {R R' : Nat → Prop} (hR : k ≤ n → (R k ↔ R' k)) :
    (∃ j, Used req N j ∧ R j) ↔ ∃ j, Used req' n j ∧ R' j := by
  have hk : k ≤ n := Used.le h'
  constructor
  · rintro ⟨j, h1, h2⟩
    obtain rfl := Used.unique h1 h
    exact ⟨_, h', (hR hk).1 h2⟩
  · rintro ⟨j, h1, h2⟩
    obtain rfl := Used.unique h1 h'
    exact ⟨_, h, (hR hk).2 h2⟩

theorem tree_index {i k n K : Nat} (hi : i < n) (hk : k < K) : i * K + k < n * K := by
  calc i * K + k < i * K + K := by omega
    _ = (i + 1) * K := by ring
    _ ≤ n * K := Nat.mul_le_mul_right K hi

theorem refRaw_take {P : Platform} {out : F64 → Int} {ds : List TreeDesc} {K n k : Nat} {avg : Bool} (hk : k ≤ n) (row w : List F64) :
    RefRaw P out ds K avg row k w ↔ RefRaw P out (ds.take (n * K)) K avg row k w := by
  unfold RefRaw
  refine exists_congr fun v => and_congr_left' ?_
  refine forall_congr' fun i => forall_congr' fun hi => forall_congr' fun j => forall_congr' fun hj => ?_
  rw [List.getElem?_take_of_lt (tree_index (by omega) hj)]

/-- **C103, LightGBM text files**, boosted models and random forests. Of the two files the second has the first `n` trees of each group.
Asked for the same number `k` of estimators, in whatever way, the two models predict the same. -/
theorem C103_text (P : Platform) (print : F64 → Str) (text text' rest0 rest0' rest rest' : Str) (header header' : List Str)
    (e0 e0' e1 e1' : Bool) (bs bs' : List (List Str)) (ds : List TreeDesc) (K N n : Nat) (M : Int) (avg : Bool)
    (hK : 1 ≤ K ∧ K < 2 ^ 63) (hn : 1 ≤ n) (hnN : n ≤ N) (hlen : ds.length = N * K)
    (hok : ∀ d ∈ ds, d.OK P.parseFloat print ∧ d.inner * 24 ≤ P.maxAlloc)
    (hh : FileBlock text header rest0 e0) (hhl : HeaderLines header K M ds.length avg)
    (hb : FileBlocks rest0 bs rest e1) (hbl : List.Forall₂ (TreeLines print) ds bs)
    (hh' : FileBlock text' header' rest0' e0') (hhl' : HeaderLines header' K M (n * K) avg)
    (hb' : FileBlocks rest0' bs' rest' e1') (hbl' : List.Forall₂ (TreeLines print) (ds.take (n * K)) bs') :
    ∃ e e', lgEnsembleFromReader P ⟨text, false⟩ false = .ok (e, ⟨rest, false⟩) ∧
      lgEnsembleFromReader P ⟨text', false⟩ false = .ok (e', ⟨rest', false⟩) ∧ e.nEstimators = .ok N ∧ e'.nEstimators = .ok n ∧
      ∀ req req' k, Used req N k → Used req' n k → SameFor P e req e' req' := by
  have hlen' : (ds.take (n * K)).length = n * K := by
    rw [List.length_take, hlen]
    exact Nat.min_eq_left (Nat.mul_le_mul_right K hnN)
  obtain ⟨e, l1, f1, -, t1, w1, n1, -, p1⟩ := C39_text_file P print text rest0 rest header e0 e1 bs ds K N M avg hK (by omega) hlen hh hhl hb hbl hok
  obtain ⟨e', l2, f2, -, t2, w2, n2, -, p2⟩ := C39_text_file P print text' rest0' rest' header' e0' e1' bs' (ds.take (n * K)) K n M avg hK hn hlen' hh'
    (by rw [hlen']; exact hhl') hb' hbl' fun d hd => hok d (List.mem_of_mem_take hd)
  refine ⟨e, e', l1, l2, t1, t2, fun req req' k hu hu' => SameFor.of_rows f1 f2 (w1.trans w2.symm) (n1.trans n2.symm)
    ((lg_loaded_base l1).trans (lg_loaded_base l2).symm) fun row m m' => ?_⟩
  rw [p1, p2, n1, n2]
  refine and_congr_right fun _ => and_congr_right fun _ => ?_
  simp only [exists_and_left]
  exact used_swap hu hu' (R := fun j => ∃ w, RefRaw P P.out ds K avg row j w ∧ Stored m 0 w m')
    (R' := fun j => ∃ w, RefRaw P P.out (ds.take (n * K)) K avg row j w ∧ Stored m 0 w m')
    fun hk => exists_congr fun w => and_congr_left' (refRaw_take hk row w)

/-- **C103, LightGBM text files with their transformation.** -/
theorem C103_objective (P : Platform) (print : F64 → Str) (text text' rest0 rest0' rest rest' : Str) (header header' : List Str)
    (e0 e0' e1 e1' : Bool) (bs bs' : List (List Str)) (ds : List TreeDesc) (K N n : Nat) (M : Int) (objective : Str) (tr : Transform)
    (hK : 1 ≤ K ∧ K < 2 ^ 63) (hn : 1 ≤ n) (hnN : n ≤ N) (hlen : ds.length = N * K)
    (hok : ∀ d ∈ ds, d.OK P.parseFloat print ∧ d.inner * 24 ≤ P.maxAlloc) (htr : Objective K objective tr)
    (h1 : tr = .logistic ∨ tr = .exponential → K = 1)
    (hh : FileBlock text header rest0 e0) (hhl : HeaderLines header K M ds.length false)
    (hobj : Bound header "objective".toList objective)
    (hb : FileBlocks rest0 bs rest e1) (hbl : List.Forall₂ (TreeLines print) ds bs)
    (hh' : FileBlock text' header' rest0' e0') (hhl' : HeaderLines header' K M (n * K) false)
    (hobj' : Bound header' "objective".toList objective)
    (hb' : FileBlocks rest0' bs' rest' e1') (hbl' : List.Forall₂ (TreeLines print) (ds.take (n * K)) bs') :
    ∃ e e', lgEnsembleFromReader P ⟨text, false⟩ true = .ok (e, ⟨rest, false⟩) ∧
      lgEnsembleFromReader P ⟨text', false⟩ true = .ok (e', ⟨rest', false⟩) ∧ e.nEstimators = .ok N ∧ e'.nEstimators = .ok n ∧
      ∀ req req' k, Used req N k → Used req' n k → SameFor P e req e' req' := by
  have hlen' : (ds.take (n * K)).length = n * K := by
    rw [List.length_take, hlen]
    exact Nat.min_eq_left (Nat.mul_le_mul_right K hnN)
  obtain ⟨e, l1, f1, r1, -, t1, n1, p1⟩ :=
    C88_text_objective P print text rest0 rest header e0 e1 bs ds K N M objective tr hK (by omega) hlen hh hhl hobj htr h1 hb hbl hok
  obtain ⟨e', l2, f2, r2, -, t2, n2, p2⟩ := C88_text_objective P print text' rest0' rest' header' e0' e1' bs' (ds.take (n * K)) K n M objective tr hK hn
    hlen' hh' (by rw [hlen']; exact hhl') hobj' htr h1 hb' hbl' fun d hd => hok d (List.mem_of_mem_take hd)
  have hw : e.nOutputGroups = e'.nOutputGroups := congrArg Transform.nOutputGroups (r1.trans r2.symm)
  refine ⟨e, e', l1, l2, t1, t2, fun req req' k hu hu' => SameFor.of_rows f1 f2 hw (n1.trans n2.symm)
    ((lg_loaded_base l1).trans (lg_loaded_base l2).symm) fun row m m' => ?_⟩
  rw [p1, p2, n1, n2, hw]
  refine and_congr_right fun _ => and_congr_right fun _ => ?_
  simp only [exists_and_left]
  exact used_swap hu hu' (R := fun j => ∃ w, RefRaw P P.out ds K false row j w ∧ ∃ out, IsTransformed P tr w out ∧ Stored m 0 out m')
    (R' := fun j => ∃ w, RefRaw P P.out (ds.take (n * K)) K false row j w ∧ ∃ out, IsTransformed P tr w out ∧ Stored m 0 out m')
    fun hk => exists_congr fun w => and_congr_left' (refRaw_take hk row w)

theorem jRefRaw_take {P : Platform} {out : F64 → Int} {ts : List JTree} {K n k : Nat} (hk : k ≤ n) (row w : List F64) :
    JRefRaw P out ts K row k w ↔ JRefRaw P out (ts.take (n * K)) K row k w := by
  unfold JRefRaw
  refine exists_congr fun v => and_congr_left' ?_
  refine forall_congr' fun i => forall_congr' fun hi => forall_congr' fun j => forall_congr' fun hj => ?_
  rw [List.getElem?_take_of_lt (tree_index (by omega) hj)]

/-- **C103, LightGBM JSON dumps.** -/
theorem C103_json (P : Platform) (v v' : Json) (K N n : Nat) (M : Int) (ts : List JTree) (hK : 1 ≤ K) (hn : 1 ≤ n) (hnN : n ≤ N)
    (hlen : ts.length = N * K) (hok : ∀ t ∈ ts, ∃ W, JTreeOK t W ∧ jLeaves t.root * 24 ≤ P.maxAlloc ∧ 4 * W ≤ P.maxAlloc)
    (doc : ModelDoc P v K M ts) (nest : NestedAtMost P.jsonDepth v)
    (doc' : ModelDoc P v' K M (ts.take (n * K))) (nest' : NestedAtMost P.jsonDepth v') :
    ∃ e e', lgEnsembleFromDocument P (some v) false = .ok e ∧ lgEnsembleFromDocument P (some v') false = .ok e' ∧
      e.nEstimators = .ok N ∧ e'.nEstimators = .ok n ∧ ∀ req req' k, Used req N k → Used req' n k → SameFor P e req e' req' := by
  have hlen' : (ts.take (n * K)).length = n * K := by
    rw [List.length_take, hlen]
    exact Nat.min_eq_left (Nat.mul_le_mul_right K hnN)
  obtain ⟨e, l1, f1, -, -, t1, w1, n1, -, p1⟩ := C67_document P v K N M ts doc nest ⟨hK, by omega, hlen⟩ hok
  obtain ⟨e', l2, f2, -, -, t2, w2, n2, -, p2⟩ := C67_document P v' K n M (ts.take (n * K)) doc' nest' ⟨hK, hn, hlen'⟩
    fun t ht => hok t (List.mem_of_mem_take ht)
  refine ⟨e, e', l1, l2, t1, t2, fun req req' k hu hu' => SameFor.of_rows f1 f2 (w1.trans w2.symm) (n1.trans n2.symm)
    ((jDoc_loaded_base l1).trans (jDoc_loaded_base l2).symm) fun row m m' => ?_⟩
  rw [p1, p2, n1, n2]
  refine and_congr_right fun _ => and_congr_right fun _ => ?_
  simp only [exists_and_left]
  exact used_swap hu hu' (R := fun j => ∃ w, JRefRaw P P.out ts K row j w ∧ Stored m 0 w m')
    (R' := fun j => ∃ w, JRefRaw P P.out (ts.take (n * K)) K row j w ∧ Stored m 0 w m')
    fun hk => exists_congr fun w => and_congr_left' (jRefRaw_take hk row w)

theorem xgRefRaw_take {P : Platform} {goes : List XgBin.Node → List F64 → Nat → Bool → Prop} {m m' : XgModel} {K n k : Nat}
    (h : m.Shortened m' K n) (hk : k ≤ n) (row w : List F64) : XgRefRaw P goes m K row k w ↔ XgRefRaw P goes m' K row k w := by
  unfold XgRefRaw XgModel.Weight
  rw [h.trees, h.shapes, h.weights, h.booster, h.score]
  refine exists_congr fun v => exists_congr fun c => and_congr ?_ (and_congr_left' ?_)
  · refine forall_congr' fun i => forall_congr' fun hi => forall_congr' fun j => forall_congr' fun hj => ?_
    have := tree_index (lt_of_lt_of_le hi hk) hj
    rw [List.getElem?_take_of_lt this, List.getElem?_take_of_lt this]
  · refine forall_congr' fun i => forall_congr' fun hi => forall_congr' fun j => forall_congr' fun hj => ?_
    rw [List.getElem?_take_of_lt (tree_index (n := n) (by omega) hj)]

/-- **C103, XGBoost files**, boosted trees and DART. -/
theorem C103_xgboost (P : Platform) (m m' : XgModel) (K N n : Nat) (ok : m.OK P.maxAlloc K N) (ok' : m'.OK P.maxAlloc K n)
    (h : m.Shortened m' K n) (lt : Bool) (tr : Transform) (ho : XgObjective K m.header.nameObj lt tr) (hlog : tr = .logistic → K = 1) :
    ∃ e e', (∀ rest, xgEnsembleFromReader P lt (m.image ++ rest) = .ok (e, rest)) ∧
      (∀ rest, xgEnsembleFromReader P lt (m'.image ++ rest) = .ok (e', rest)) ∧ e.nEstimators = .ok N ∧ e'.nEstimators = .ok n ∧
      ∀ req req' k, Used req N k → Used req' n k → SameFor P e req e' req' := by
  have ho' : XgObjective K m'.header.nameObj lt tr := by rw [h.objective]; exact ho
  obtain ⟨e, l1, f1, r1, -, t1, n1, -, p1⟩ := C62_xgboost_file_le P m K N ok lt tr ho hlog
  obtain ⟨e', l2, f2, r2, -, t2, n2, -, p2⟩ := C62_xgboost_file_le P m' K n ok' lt tr ho' hlog
  have hw : e.nOutputGroups = e'.nOutputGroups := congrArg Transform.nOutputGroups (r1.trans r2.symm)
  rw [h.features] at n2
  refine ⟨e, e', l1, l2, t1, t2, fun req req' k hu hu' => SameFor.of_rows f1 f2 hw (n1.trans n2.symm)
    ((xg_loaded_default ok ho l1).trans (xg_loaded_default ok' ho' l2).symm) fun row s s' => ?_⟩
  rw [p1, p2, n1, n2, hw]
  refine and_congr_right fun _ => and_congr_right fun _ => ?_
  simp only [exists_and_left]
  exact used_swap hu hu' (R := fun j => ∃ w, XgRefRaw P XgGoesLe m K row j w ∧ ∃ out, IsTransformed P tr w out ∧ Stored s 0 out s')
    (R' := fun j => ∃ w, XgRefRaw P XgGoesLe m' K row j w ∧ ∃ out, IsTransformed P tr w out ∧ Stored s 0 out s')
    fun hk => exists_congr fun w => and_congr_left' (xgRefRaw_take h hk row w)

theorem skRefRaw_take {P : Platform} {M : SkModel} {n k : Nat} (hk : k ≤ n) (row w : List F64) :
    SkRefRaw P M row k w ↔ SkRefRaw P (M.shortened n) row k w := by
  unfold SkRefRaw
  refine exists_congr fun v => and_congr_left' ?_
  refine forall_congr' fun i => forall_congr' fun hi => forall_congr' fun j => forall_congr' fun hj => ?_
  have := tree_index (lt_of_lt_of_le hi hk) hj
  show _ ↔ ∃ t T leaf x p, (M.trees.take (n * M.groups))[i * M.groups + j]? = some t ∧
    (M.shapes.take (n * M.groups))[i * M.groups + j]? = some T ∧ _
  rw [List.getElem?_take_of_lt this, List.getElem?_take_of_lt this]
  rfl

theorem forall₂_take {α β : Type} {R : α → β → Prop} {xs : List α} {ys : List β} (h : List.Forall₂ R xs ys) (n : Nat) :
    List.Forall₂ R (xs.take n) (ys.take n) := by
  induction h generalizing n with
  | nil => simp
  | cons h _ ih =>
    cases n with
    | zero => simp
    | succ n => simpa using ⟨h, ih n⟩

/-- **C103, scikit-learn pickles.** -/
theorem C103_sklearn (P : Platform) (v v' : PyVal) (bs bs' : Pickle.Bytes) (μ μ' : Memo) (hd : Dumps P noMemo v bs μ)
    (hd' : Dumps P noMemo v' bs' μ') (M : SkModel) (n : Nat) (hn : 1 ≤ n) (hnN : n ≤ M.estimators) (ok : M.OK P.maxAlloc)
    (hc : IsClassifier M v) (hc' : IsClassifier (M.shortened n) v') :
    ∃ e e', (∀ rest lt, skEnsembleFromReader P (bs ++ octet '.' :: rest) lt = .ok e) ∧
      (∀ rest lt, skEnsembleFromReader P (bs' ++ octet '.' :: rest) lt = .ok e') ∧ e.nEstimators = .ok M.estimators ∧ e'.nEstimators = .ok n ∧
      ∀ req req' k, Used req M.estimators k → Used req' n k → SameFor P e req e' req' := by
  have ok' : (M.shortened n).OK P.maxAlloc := by
    obtain ⟨⟨c1, c2, c3⟩, tr, ⟨a1, a2⟩, int, feat, ta⟩ := ok
    refine ⟨⟨c1, hn, ?_⟩, forall₂_take tr _, ⟨a1, ?_⟩, ?_, feat, fun t ht => ta t (List.mem_of_mem_take ht)⟩
    · show (M.trees.take (n * M.groups)).length = n * M.groups
      rw [List.length_take, c3]
      exact Nat.min_eq_left (Nat.mul_le_mul_right _ hnN)
    · exact _root_.le_trans (Nat.mul_le_mul_right _ (Nat.mul_le_mul_right _ hnN)) a2
    · exact _root_.lt_of_le_of_lt (Nat.mul_le_mul_right _ hnN) int
  obtain ⟨e, l1, f1, -, -, w1, t1, n1, -, p1⟩ := C63_sklearn_file P v bs μ hd M hc ok
  obtain ⟨e', l2, f2, -, -, w2, t2, n2, -, p2⟩ := C63_sklearn_file P v' bs' μ' hd' (M.shortened n) hc' ok'
  have hdf : dflt e.base = dflt e'.base := by
    obtain ⟨ts, g1, -⟩ := sk_file_loaded P hd hc ok
    obtain ⟨ts', g2, -⟩ := sk_file_loaded P hd' hc' ok'
    have g1 := (l1 [] false).symm.trans (g1 [] false)
    have g2 := (l2 [] false).symm.trans (g2 [] false)
    cases g1
    cases g2
    rfl
  refine ⟨e, e', l1, l2, t1, t2, fun req req' k hu hu' => SameFor.of_rows f1 f2 (w1.trans w2.symm) (n1.trans n2.symm) hdf fun row m m' => ?_⟩
  rw [p1, p2, n1, n2]
  refine and_congr_right fun _ => and_congr_right fun _ => ?_
  simp only [exists_and_left]
  exact used_swap hu hu' (R := fun j => ∃ w, SkRefRaw P M row j w ∧ Stored m 0 w m')
    (R' := fun j => ∃ w, SkRefRaw P (M.shortened n) row j w ∧ Stored m 0 w m')
    fun hk => exists_congr fun w => and_congr_left' (skRefRaw_take hk row w)

/-! ## An example -/

namespace PrefixExample

open LgExample (platform)
open LgLoadExample (d1 d2 print ds_ok)

/-- A file with two trees in one group, and a file with the first of them. The first model, asked for one estimator, predicts what the
second predicts when asked for all; both store 10 for the row (5, 33), while the two trees together give 17. -/
theorem C103_example : ∃ e e',
    lgEnsembleFromReader platform ⟨modelText print [d1, d2] 1 1 false ++ [], false⟩ false = .ok (e, ⟨[], false⟩) ∧
    lgEnsembleFromReader platform ⟨modelText print [d1] 1 1 false ++ [], false⟩ false = .ok (e', ⟨[], false⟩) ∧
    SameFor platform e 1 e' 0 ∧ (e.predict platform [F64.ofNat 5, F64.ofNat 33] 1 1).run [F64.nan] = (.ok ⟨⟩, [F64.ofNat 10]) ∧
    (e.predict platform [F64.ofNat 5, F64.ofNat 33] 0 1).run [F64.nan] = (.ok ⟨⟩, [F64.ofNat 17]) := by
  obtain ⟨header, rest0, blocks, h1, h2, h3, h4⟩ := modelText_blocks (M := 1) [] 1 false (by norm_num) ds_ok
  obtain ⟨header', rest0', blocks', g1, g2, g3, g4⟩ := modelText_blocks (P := platform) (print := print) (ds := [d1]) (M := 1) [] 1 false (by norm_num)
    fun d hd => ds_ok d (List.mem_cons.2 (.inl (List.mem_singleton.1 hd)))
  obtain ⟨e, e', l1, l2, -, -, h⟩ := C103_text platform print _ _ _ _ _ _ _ _ _ _ _ _ _ _ [d1, d2] 1 2 1 1 false (by norm_num) le_rfl (by omega) rfl
    (fun d hd => ⟨(ds_ok d hd).1, (ds_ok d hd).2.2⟩) h1 h2 h3 h4 g1 g2 g3 g4
  obtain ⟨e2, c1, c2, c3⟩ := SkModelExample.of_check (r := lgEnsembleFromReader platform ⟨modelText print [d1, d2] 1 1 false ++ [], false⟩ false)
    (fun e => (e.1.predict platform [F64.ofNat 5, F64.ofNat 33] 1 1).run [F64.nan] = (.ok ⟨⟩, [F64.ofNat 10]) ∧
      (e.1.predict platform [F64.ofNat 5, F64.ofNat 33] 0 1).run [F64.nan] = (.ok ⟨⟩, [F64.ofNat 17])) (by decide +kernel)
  rw [l1] at c1
  cases c1
  exact ⟨e, e', l1, l2, h 1 0 1 (by unfold Used; decide) (by unfold Used; decide), c2, c3⟩

end PrefixExample

end Leaves
