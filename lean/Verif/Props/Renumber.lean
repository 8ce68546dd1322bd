import Verif.Spec.Renumber
import Verif.Props.Probability
import Verif.Props.Classes

/-! # C122: the classes may be renumbered -/

namespace Leaves
open Spec GoM

theorem Spec.Renumbering.symm {K : Nat} {σ τ : Nat → Nat} (h : Renumbering K σ τ) : Renumbering K τ σ :=
  fun k hk => ⟨(h k hk).2.1, (h k hk).1, (h k hk).2.2.2, (h k hk).2.2.1⟩

/-- where a thing of the second list has been -/
theorem Spec.ClassesMoved.get {α : Type} {K : Nat} {σ τ : Nat → Nat} (hσ : Renumbering K σ τ) {l l' : List α} (h : ClassesMoved K σ l l') (i : Nat) {k : Nat}
    (hk : k < K) : l'[i * K + k]? = l[i * K + τ k]? := by
  have := h.2 i (τ k) (hσ k hk).2.1
  rwa [(hσ k hk).2.2.2] at this

/-- what the scores of the second model are -/
def Permuted (K : Nat) (σ : Nat → Nat) (w w' : List F64) : Prop :=
  w.length = K ∧ w'.length = K ∧ ∀ k < K, w'[σ k]? = w[k]?

theorem permuted_range {K : Nat} {σ τ : Nat → Nat} (hσ : Renumbering K σ τ) (f : Nat → F64) :
    Permuted K σ ((List.range K).map f) ((List.range K).map fun k => f (τ k)) := by
  refine ⟨by simp, by simp, fun k hk => ?_⟩
  obtain ⟨h1, -, h2, -⟩ := hσ k hk
  simp [hk, h1, h2]

theorem refRaw_renumber {P : Platform} {out : F64 → Int} {K : Nat} {σ τ : Nat → Nat} (hσ : Renumbering K σ τ) {ds ds' : List TreeDesc}
    (h : ClassesMoved K σ ds ds') {avg : Bool} {row : List F64} {n : Nat} {w : List F64} (hw : RefRaw P out ds K avg row n w) :
    ∃ w', RefRaw P out ds' K avg row n w' ∧ Permuted K σ w w' := by
  obtain ⟨v, hv, rfl⟩ := hw
  refine ⟨_, ⟨fun i k => v i (τ k), fun i hi k hk => ?_, rfl⟩, permuted_range hσ _⟩
  rw [h.get hσ i hk]
  exact hv i hi _ (hσ k hk).2.1

theorem jRefRaw_renumber {P : Platform} {out : F64 → Int} {K : Nat} {σ τ : Nat → Nat} (hσ : Renumbering K σ τ) {ts ts' : List JTree}
    (h : ClassesMoved K σ ts ts') {row : List F64} {n : Nat} {w : List F64} (hw : JRefRaw P out ts K row n w) :
    ∃ w', JRefRaw P out ts' K row n w' ∧ Permuted K σ w w' := by
  obtain ⟨v, hv, rfl⟩ := hw
  refine ⟨_, ⟨fun i k => v i (τ k), fun i hi k hk => ?_, rfl⟩, permuted_range hσ _⟩
  rw [h.get hσ i hk]
  exact hv i hi _ (hσ k hk).2.1

theorem xgRefRaw_renumber {P : Platform} {K : Nat} {σ τ : Nat → Nat} (hσ : Renumbering K σ τ) {m m' : XgModel} (h : m.ClassesMoved m' K σ)
    {row : List F64} {n : Nat} {w : List F64} (hw : XgRefRaw P XgGoesLe m K row n w) :
    ∃ w', XgRefRaw P XgGoesLe m' K row n w' ∧ Permuted K σ w w' := by
  obtain ⟨v, c, hv, hc, rfl⟩ := hw
  refine ⟨_, ⟨fun i k => v i (τ k), fun i k => c i (τ k), fun i hi k hk => ?_, fun i hi k hk => ?_, rfl⟩, ?_⟩
  · rw [h.trees.get hσ i hk, h.shapes.get hσ i hk]
    exact hv i hi _ (hσ k hk).2.1
  · have := hc i hi _ (hσ k hk).2.1
    unfold XgModel.Weight at this ⊢
    rw [h.booster]
    split
    · rename_i hd
      rw [if_pos hd] at this
      rw [(h.weights hd).get hσ i hk]
      exact this
    · rename_i hd
      rwa [if_neg hd] at this
  · rw [h.score]
    exact permuted_range hσ _

theorem xgLinRaw_renumber {P : Platform} {K F : Nat} {σ τ : Nat → Nat} (hσ : Renumbering K σ τ) {m m' : XgLinFile} (h : m.ClassesMoved m' K σ)
    {row w : List F64} (hw : XgLinRaw P m K F row w) : ∃ w', XgLinRaw P m' K F row w' ∧ Permuted K σ w w' := by
  obtain ⟨x, c, hx, hc, rfl⟩ := hw
  refine ⟨_, ⟨x, fun i k => c i (τ k), hx, fun i hi k hk => ?_, rfl⟩, ?_⟩
  · rw [h.weights.get hσ i hk]
    exact hc i hi _ (hσ k hk).2.1
  · rw [h.score]
    exact permuted_range hσ fun k => accumulate (fun i acc => P.mulAdd (x i) (c i k) acc) F (F64.add (F64.ofBits32 m.header.param.baseScore) (c F k))

/-- scores stored by the two models -/
theorem Permuted.stored {K : Nat} {σ τ : Nat → Nat} (hσ : Renumbering K σ τ) {w w' m m1 : List F64} (h : Permuted K σ w w')
    (hs : Stored m 0 w m1) : ∃ m2, Stored m 0 w' m2 ∧ m2.length = m1.length ∧ (∀ k < K, ∃ x, m1[k]? = some x ∧ m2[σ k]? = some x) ∧
      ∀ k, K ≤ k → m2[k]? = m1[k]? := by
  obtain ⟨h1, h2, h3⟩ := h
  obtain ⟨m2, hs2⟩ : ∃ m2, Stored m 0 w' m2 := stored_exists _ _ (by have := hs.1; omega)
  refine ⟨m2, hs2, hs2.2.1.trans hs.2.1.symm, fun k hk => ?_, fun k hk => ?_⟩
  · have a : k < w.length := by omega
    have b : σ k < w'.length := by rw [h2]; exact (hσ k hk).1
    exact ⟨w[k], by rw [stored_get hs a, List.getElem?_eq_getElem a], by rw [stored_get hs2 b, h3 k hk, List.getElem?_eq_getElem a]⟩
  · rw [hs.2.2 k, hs2.2.2 k, if_neg (by omega), if_neg (by omega)]

/-- **C122, LightGBM text files**, boosted models and random forests: in the second file the trees of class `k` of every iteration stand in
the place of class `σ k`. -/
theorem C122_text (P : Platform) (print : F64 → Str) (text text' rest0 rest0' rest rest' : Str) (header header' : List Str)
    (e0 e0' e1 e1' : Bool) (bs bs' : List (List Str)) (ds ds' : List TreeDesc) (K N : Nat) (M : Int) (avg : Bool)
    (hK : 1 ≤ K ∧ K < 2 ^ 63) (hN : 1 ≤ N) (hlen : ds.length = N * K) (σ τ : Nat → Nat) (hσ : Renumbering K σ τ) (hmov : ClassesMoved K σ ds ds')
    (hok : ∀ d ∈ ds, d.OK P.parseFloat print ∧ d.inner * 24 ≤ P.maxAlloc)
    (hok' : ∀ d ∈ ds', d.OK P.parseFloat print ∧ d.inner * 24 ≤ P.maxAlloc)
    (hh : FileBlock text header rest0 e0) (hhl : HeaderLines header K M ds.length avg)
    (hb : FileBlocks rest0 bs rest e1) (hbl : List.Forall₂ (TreeLines print) ds bs)
    (hh' : FileBlock text' header' rest0' e0') (hhl' : HeaderLines header' K M ds'.length avg)
    (hb' : FileBlocks rest0' bs' rest' e1') (hbl' : List.Forall₂ (TreeLines print) ds' bs') :
    ∃ e e', lgEnsembleFromReader P ⟨text, false⟩ false = .ok (e, ⟨rest, false⟩) ∧
      lgEnsembleFromReader P ⟨text', false⟩ false = .ok (e', ⟨rest', false⟩) ∧ MovedScores P e e' K σ := by
  have hlen' : ds'.length = N * K := hmov.1.trans hlen
  obtain ⟨e, l1, -, -, -, -, n1, -, p1⟩ := C39_text_file P print text rest0 rest header e0 e1 bs ds K N M avg hK hN hlen hh hhl hb hbl hok
  obtain ⟨e', l2, -, -, -, -, n2, -, p2⟩ := C39_text_file P print text' rest0' rest' header' e0' e1' bs' ds' K N M avg hK hN hlen' hh' hhl' hb' hbl' hok'
  refine ⟨e, e', l1, l2, fun row req m m1 h => ?_⟩
  obtain ⟨h1, h2, n, w, hu, hw, hs⟩ := (p1 _ _ _ _).1 h
  obtain ⟨w', hw', hp⟩ := refRaw_renumber hσ hmov hw
  obtain ⟨m2, hs2, h3⟩ := hp.stored hσ hs
  exact ⟨m2, (p2 _ _ _ _).2 ⟨h1, by rw [n2, ← n1]; exact h2, n, w', hu, hw', hs2⟩, h3⟩

/-- **C122, LightGBM JSON dumps.** -/
theorem C122_json (P : Platform) (v v' : Json) (K N : Nat) (M : Int) (ts ts' : List JTree) (hK : 1 ≤ K) (hN : 1 ≤ N) (hlen : ts.length = N * K)
    (σ τ : Nat → Nat) (hσ : Renumbering K σ τ) (hmov : ClassesMoved K σ ts ts')
    (hok : ∀ t ∈ ts, ∃ W, JTreeOK t W ∧ jLeaves t.root * 24 ≤ P.maxAlloc ∧ 4 * W ≤ P.maxAlloc)
    (hok' : ∀ t ∈ ts', ∃ W, JTreeOK t W ∧ jLeaves t.root * 24 ≤ P.maxAlloc ∧ 4 * W ≤ P.maxAlloc)
    (doc : ModelDoc P v K M ts) (nest : NestedAtMost P.jsonDepth v) (doc' : ModelDoc P v' K M ts') (nest' : NestedAtMost P.jsonDepth v') :
    ∃ e e', lgEnsembleFromDocument P (some v) false = .ok e ∧ lgEnsembleFromDocument P (some v') false = .ok e' ∧ MovedScores P e e' K σ := by
  obtain ⟨e, l1, -, -, -, -, -, n1, -, p1⟩ := C67_document P v K N M ts doc nest ⟨hK, hN, hlen⟩ hok
  obtain ⟨e', l2, -, -, -, -, -, n2, -, p2⟩ := C67_document P v' K N M ts' doc' nest' ⟨hK, hN, hmov.1.trans hlen⟩ hok'
  refine ⟨e, e', l1, l2, fun row req m m1 h => ?_⟩
  obtain ⟨h1, h2, n, w, hu, hw, hs⟩ := (p1 _ _ _ _).1 h
  obtain ⟨w', hw', hp⟩ := jRefRaw_renumber hσ hmov hw
  obtain ⟨m2, hs2, h3⟩ := hp.stored hσ hs
  exact ⟨m2, (p2 _ _ _ _).2 ⟨h1, by rw [n2, ← n1]; exact h2, n, w', hu, hw', hs2⟩, h3⟩

/-- **C122, XGBoost files**, boosted trees and DART. -/
theorem C122_xgboost (P : Platform) (m m' : XgModel) (K N : Nat) (ok : m.OK P.maxAlloc K N) (ok' : m'.OK P.maxAlloc K N)
    (σ τ : Nat → Nat) (hσ : Renumbering K σ τ) (h : m.ClassesMoved m' K σ) :
    ∃ e e', (∀ rest, xgEnsembleFromReader P false (m.image ++ rest) = .ok (e, rest)) ∧
      (∀ rest, xgEnsembleFromReader P false (m'.image ++ rest) = .ok (e', rest)) ∧ MovedScores P e e' K σ := by
  obtain ⟨e, l1, -, r1, -, -, n1, -, p1⟩ := C62_xgboost_file_le P m K N ok false (.raw K) .raw (fun h => nomatch h)
  obtain ⟨e', l2, -, r2, -, -, n2, -, p2⟩ := C62_xgboost_file_le P m' K N ok' false (.raw K) .raw (fun h => nomatch h)
  rw [h.features] at n2
  have hwid : e.nOutputGroups = e'.nOutputGroups := congrArg Transform.nOutputGroups (r1.trans r2.symm)
  refine ⟨e, e', l1, l2, fun row req s s1 hs => ?_⟩
  obtain ⟨h1, h2, n, w, out, hu, hw, ht, hs⟩ := (p1 _ _ _ _).1 hs
  obtain rfl : out = w := ht
  obtain ⟨w', hw', hp⟩ := xgRefRaw_renumber hσ h hw
  obtain ⟨s2, hs2, h3⟩ := hp.stored hσ hs
  exact ⟨s2, (p2 _ _ _ _).2 ⟨by rw [← hwid]; exact h1, by rw [n2, ← n1]; exact h2, n, w', w', hu, hw', rfl, hs2⟩, h3⟩

/-- **C122, linear XGBoost files.** -/
theorem C122_linear (P : Platform) (m m' : XgLinFile) (K F : Nat) (ok : m.OK P.maxAlloc K F) (ok' : m'.OK P.maxAlloc K F)
    (σ τ : Nat → Nat) (hσ : Renumbering K σ τ) (h : m.ClassesMoved m' K σ) :
    ∃ e e', (∀ rest, xgbLinearFromReader P false (m.image ++ rest) = .ok (e, rest)) ∧
      (∀ rest, xgbLinearFromReader P false (m'.image ++ rest) = .ok (e', rest)) ∧ MovedScores P e e' K σ := by
  obtain ⟨e, l1, -, r1, -, -, -, -, p1⟩ := C62_linear_file P m K F ok false (.raw K) .raw (fun h => nomatch h)
  obtain ⟨e', l2, -, r2, -, -, -, -, p2⟩ := C62_linear_file P m' K F ok' false (.raw K) .raw (fun h => nomatch h)
  have hwid : e.nOutputGroups = e'.nOutputGroups := congrArg Transform.nOutputGroups (r1.trans r2.symm)
  refine ⟨e, e', l1, l2, fun row req s s1 hs => ?_⟩
  obtain ⟨h1, h2, w, out, hw, ht, hs⟩ := (p1 _ _ _ _).1 hs
  obtain rfl : out = w := ht
  obtain ⟨w', hw', hp⟩ := xgLinRaw_renumber hσ h hw
  obtain ⟨s2, hs2, h3⟩ := hp.stored hσ hs
  exact ⟨s2, (p2 _ _ _ _).2 ⟨by rw [← hwid]; exact h1, h2, w', w', hw', rfl, hs2⟩, h3⟩

theorem renumber_perm {K : Nat} {σ τ : Nat → Nat} (hσ : Renumbering K σ τ) : List.Perm ((List.range K).map σ) (List.range K) := by
  refine (List.perm_ext_iff_of_nodup ?_ List.nodup_range).2 fun a => ?_
  · refine (List.nodup_map_iff_inj_on List.nodup_range).2 fun a ha b hb hab => ?_
    rw [← (hσ a (List.mem_range.1 ha)).2.2.1, hab, (hσ b (List.mem_range.1 hb)).2.2.1]
  · rw [List.mem_map, List.mem_range]
    constructor
    · rintro ⟨b, hb, rfl⟩
      exact (hσ b (List.mem_range.1 hb)).1
    · intro ha
      exact ⟨τ a, List.mem_range.2 (hσ a ha).2.1, (hσ a ha).2.2.2⟩

theorem softmaxFn_renumber {K : Nat} {σ τ : Nat → Nat} (hσ : Renumbering K σ τ) (f : Nat → ℝ) (x : ℝ) :
    softmaxFn ((List.range K).map fun k => f (τ k)) x = softmaxFn ((List.range K).map f) x := by
  unfold softmaxFn
  congr 1
  refine List.Perm.sum_eq (List.Perm.map _ ?_)
  have := (renumber_perm hσ.symm).map f
  rwa [List.map_map] at this

theorem softmax_bound {ε S u p p' c : ℝ} (h : |p - S| ≤ (3 * ε + c / 2 ^ 51) * S + u) (h' : |p' - S| ≤ (3 * ε + c / 2 ^ 51) * S + u)
    (hc : 0 ≤ c) (hε : 0 ≤ ε) (hS : S ≤ 1) (hu : u ≤ 1 / 2 ^ 51) : |p - p'| ≤ 6 * ε + (c + 1) / 2 ^ 50 := by
  have h1 : (3 * ε + c / 2 ^ 51) * S ≤ (3 * ε + c / 2 ^ 51) * 1 := mul_le_mul_of_nonneg_left hS (by positivity)
  obtain ⟨a1, a2⟩ := abs_le.1 h
  obtain ⟨b1, b2⟩ := abs_le.1 h'
  rw [abs_le]
  constructor <;> linarith

/-- **C122, probabilities.** With the objective of a multiclass classifier the probability of class `k` from the one model is within
`6ε + (K+7)/2^50` of the probability of class `σ k` from the other one, where `ε` is the relative error of the exponential function. The number
of trees and the rounding errors in the scores do not matter. -/
theorem C122_softmax (P : Platform) (print : F64 → Str) (text text' rest0 rest0' rest rest' : Str) (header header' : List Str)
    (e0 e0' e1 e1' : Bool) (bs bs' : List (List Str)) (ds ds' : List TreeDesc) (K N : Nat) (M : Int) (objective objective' : Str)
    (hK : 1 ≤ K ∧ K ≤ 2 ^ 20) (hN : 1 ≤ N ∧ N ≤ 2 ^ 40) (hlen : ds.length = N * K)
    (σ τ : Nat → Nat) (hσ : Renumbering K σ τ) (hmov : ClassesMoved K σ ds ds')
    (hok : ∀ d ∈ ds, d.OK P.parseFloat print ∧ d.inner * 24 ≤ P.maxAlloc)
    (hok' : ∀ d ∈ ds', d.OK P.parseFloat print ∧ d.inner * 24 ≤ P.maxAlloc)
    (hh : FileBlock text header rest0 e0) (hhl : HeaderLines header K M ds.length false)
    (hobj : Bound header "objective".toList objective) (htr : Objective K objective (.softmax K))
    (hb : FileBlocks rest0 bs rest e1) (hbl : List.Forall₂ (TreeLines print) ds bs)
    (hh' : FileBlock text' header' rest0' e0') (hhl' : HeaderLines header' K M ds'.length false)
    (hobj' : Bound header' "objective".toList objective') (htr' : Objective K objective' (.softmax K))
    (hb' : FileBlocks rest0' bs' rest' e1') (hbl' : List.Forall₂ (TreeLines print) ds' bs')
    (hP : P.MulAddOK) (ε : ℝ) (hε : 0 ≤ ε ∧ ε ≤ 1 / 8) (hexp : ExpAccurate P ε)
    (B : ℚ) (hB : ∀ d ∈ ds, ∀ v ∈ d.leafValues, ∃ q, IsVal v q ∧ |q| ≤ B) (hB0 : 0 ≤ B) (hNB : N * B ≤ 689) :
    ∃ e e', lgEnsembleFromReader P ⟨text, false⟩ true = .ok (e, ⟨rest, false⟩) ∧
      lgEnsembleFromReader P ⟨text', false⟩ true = .ok (e', ⟨rest', false⟩) ∧
      ∀ row req m m1, (e.predict P row req m.length).run m = (.ok ⟨⟩, m1) →
        ∃ m2, (e'.predict P row req m.length).run m = (.ok ⟨⟩, m2) ∧
          ∀ k < K, ∃ z z' p p', m1[k]? = some z ∧ m2[σ k]? = some z' ∧ IsVal z p ∧ IsVal z' p' ∧
            |(p : ℝ) - p'| ≤ 6 * ε + (K + 7) / 2 ^ 50 := by
  obtain ⟨e, l1, -, t1, -, -, n1, p1⟩ := C88_text_objective P print text rest0 rest header e0 e1 bs ds K N M objective (.softmax K)
    ⟨hK.1, by omega⟩ hN.1 hlen hh hhl hobj htr (by rintro (h | h) <;> cases h) hb hbl hok
  obtain ⟨e', l2, -, t2, -, -, n2, p2⟩ := C88_text_objective P print text' rest0' rest' header' e0' e1' bs' ds' K N M objective' (.softmax K)
    ⟨hK.1, by omega⟩ hN.1 (hmov.1.trans hlen) hh' hhl' hobj' htr' (by rintro (h | h) <;> cases h) hb' hbl' hok'
  have hwid : e.nOutputGroups = e'.nOutputGroups := congrArg Transform.nOutputGroups (t1.trans t2.symm)
  refine ⟨e, e', l1, l2, fun row req m m1 hm => ?_⟩
  obtain ⟨g1, g2, n, w, out, hu, hw, ht, hst⟩ := (p1 _ _ _ _).1 hm
  obtain ⟨-, n2'⟩ := Used.pos hu hN.1
  obtain ⟨x, q, hx, hxB, hwl, hq⟩ := leaf_sums hP hB n2' (by omega) hB0 (hNB.trans (by
    refine _root_.le_trans (b := 2 ^ 10) (by norm_num) (pow_le_pow_right₀ one_le_two (by omega)))) hw
  obtain ⟨w', hw', -, hwl', hperm⟩ := refRaw_renumber hσ hmov hw
  obtain ⟨ht', rfl⟩ := ht
  have hq690 : ∀ k < K, |((q k : ℚ) : ℝ)| ≤ 690 := fun k hk => by
    obtain ⟨-, -, -, h⟩ := hq k hk
    exact (sums_close hN.2 n2' hB0 hNB (fun i hi => hxB i hi k hk) h).2.2.2
  have hwq : List.Forall₂ IsVal w ((List.range K).map q) := by
    rw [List.forall₂_iff_get]
    refine ⟨by simp [hwl], fun i hi hi' => ?_⟩
    obtain ⟨y, hy, hv, -⟩ := hq i (by omega)
    rw [List.getElem?_eq_getElem hi] at hy
    cases hy
    simpa using hv
  have hwq' : List.Forall₂ IsVal w' ((List.range K).map fun k => q (τ k)) := by
    rw [List.forall₂_iff_get]
    refine ⟨by simp [hwl'], fun i hi hi' => ?_⟩
    have hi : i < K := by simpa [hwl'] using hi
    obtain ⟨-, ht, -, hs⟩ := hσ i hi
    obtain ⟨y, hy, hv, -⟩ := hq (τ i) ht
    have := hperm (τ i) ht
    rw [hs, hy, List.getElem?_eq_getElem (by omega)] at this
    cases this
    simpa using hv
  have hol : ∀ {w : List F64}, w.length = K → (softmaxOf P w).length = K := by
    intro w hwl
    unfold softmaxOf
    simp only
    split <;> simp [hwl]
  obtain ⟨m2, hs2⟩ : ∃ m2, Stored m 0 (softmaxOf P w') m2 := stored_exists _ _ (by
    have := hst.1; have := hol hwl; have := hol hwl'; omega)
  refine ⟨m2, (p2 _ _ _ _).2 ⟨by rw [← hwid]; exact g1, by rw [n2, ← n1]; exact g2, n, w', _, hu, hw', ⟨by omega, rfl⟩, hs2⟩, fun k hk => ?_⟩
  have hσk := (hσ k hk).1
  have ho := hol hwl
  have ho' := hol hwl'
  obtain ⟨p, hp, hpe⟩ := softmax_val hε.1 hε.2 hexp hwq (by omega) (by omega) (k := k) (z := (softmaxOf P w)[k]'(by omega)) (q := q k)
    (by
      intro a ha
      obtain ⟨j, hj, rfl⟩ := List.mem_map.1 ha
      exact hq690 j (List.mem_range.1 hj)) (List.getElem?_eq_getElem _) (by simp [hk])
  obtain ⟨p', hp', hpe'⟩ := softmax_val hε.1 hε.2 hexp hwq' (by omega) (by omega) (k := σ k) (z := (softmaxOf P w')[σ k]'(by omega)) (q := q k)
    (by
      intro a ha
      obtain ⟨j, hj, rfl⟩ := List.mem_map.1 ha
      exact hq690 _ (hσ j (List.mem_range.1 hj)).2.1) (List.getElem?_eq_getElem _) (by simp [hσk, (hσ k hk).2.2.1])
  refine ⟨_, _, p, p', (stored_get hst (by omega)).trans (List.getElem?_eq_getElem (by omega)),
    (stored_get hs2 (by omega)).trans (List.getElem?_eq_getElem (by omega)), hp, hp', ?_⟩
  have hb1 := softmaxFn_bounds (qs := ((List.range K).map q).map (fun a : ℚ => (a : ℝ))) (x := ((q k : ℚ) : ℝ))
    (List.mem_map_of_mem (List.mem_map_of_mem (List.mem_range.2 hk)))
  have hsame := softmaxFn_renumber hσ (fun k => ((q k : ℚ) : ℝ)) (q k : ℝ)
  rw [List.map_map] at hpe hpe' hb1
  change |(p' : ℝ) - softmaxFn ((List.range K).map fun k => ((q (τ k) : ℚ) : ℝ)) (q k)| ≤
    (3 * ε + (w'.length + 6) / 2 ^ 51) * softmaxFn ((List.range K).map fun k => ((q (τ k) : ℚ) : ℝ)) (q k) + _ at hpe'
  rw [hsame, hwl'] at hpe'
  rw [hwl] at hpe
  have := softmax_bound hpe hpe' (by positivity) hε.1 hb1.2 (inv_pow_le _ _ (by omega))
  rw [show (K : ℝ) + 7 = K + 6 + 1 by ring]
  exact this

/-! ## Examples -/

namespace RenumberExample

open LgExample (platform)
open LgLoadExample (d1 d2 print ds_ok)
open ProbabilityExample (accurate accurate_exp)

/-- two classes that change places -/
def swap (k : Nat) : Nat := 1 - k

theorem swap_ok : Renumbering 2 swap swap := by unfold Renumbering; decide

theorem swap_moved {α : Type} (a b : α) : ClassesMoved 2 swap [a, b] [b, a] := by
  refine ⟨rfl, fun i k hk => ?_⟩
  rcases (show k = 0 ∨ k = 1 by omega) with rfl | rfl
  · match i with
    | 0 => rfl
    | i + 1 => rw [List.getElem?_eq_none (by simp [swap]; omega), List.getElem?_eq_none (by simp)]
  · match i with
    | 0 => rfl
    | i + 1 => rw [List.getElem?_eq_none (by simp [swap]), List.getElem?_eq_none (by simp; omega)]

theorem ds_ok' : ∀ d ∈ [d2, d1], d.OK platform.parseFloat print ∧ PlainFloats print d ∧ d.inner * 24 ≤ platform.maxAlloc :=
  fun d hd => ds_ok d (by simp at hd ⊢; exact hd.symm)

/-- The two trees, one for each class, in the one order and in the other (also averaged). -/
theorem C122_example (avg : Bool) : ∃ e e',
    lgEnsembleFromReader platform ⟨modelText print [d1, d2] 2 1 avg ++ [], false⟩ false = .ok (e, ⟨[], false⟩) ∧
    lgEnsembleFromReader platform ⟨modelText print [d2, d1] 2 1 avg ++ [], false⟩ false = .ok (e', ⟨[], false⟩) ∧ MovedScores platform e e' 2 swap := by
  obtain ⟨_, _, _, h1, h2, h3, h4⟩ := modelText_blocks (M := 1) [] 2 avg (by norm_num) ds_ok
  obtain ⟨_, _, _, g1, g2, g3, g4⟩ := modelText_blocks (M := 1) [] 2 avg (by norm_num) ds_ok'
  exact C122_text platform print _ _ _ _ _ _ _ _ _ _ _ _ _ _ _ _ 2 1 1 avg (by norm_num) le_rfl rfl swap swap swap_ok (swap_moved d1 d2)
    (fun d hd => ⟨(ds_ok d hd).1, (ds_ok d hd).2.2⟩) (fun d hd => ⟨(ds_ok' d hd).1, (ds_ok' d hd).2.2⟩) h1 h2 h3 h4 g1 g2 g3 g4

/-- the scores themselves: 10 and 7, and 7 and 10 -/
theorem C122_scores : ∃ e e',
    lgEnsembleFromReader platform ⟨modelText print [d1, d2] 2 1 false, false⟩ false = .ok e ∧
    lgEnsembleFromReader platform ⟨modelText print [d2, d1] 2 1 false, false⟩ false = .ok e' ∧
    (e.1.predict platform [F64.ofNat 5, F64.ofNat 33] 0 2).run [F64.nan, F64.nan] = (.ok ⟨⟩, [F64.ofNat 10, F64.ofNat 7]) ∧
    (e'.1.predict platform [F64.ofNat 5, F64.ofNat 33] 0 2).run [F64.nan, F64.nan] = (.ok ⟨⟩, [F64.ofNat 7, F64.ofNat 10]) := by
  obtain ⟨e, c1, c2⟩ := SkModelExample.of_check (r := lgEnsembleFromReader platform ⟨modelText print [d1, d2] 2 1 false, false⟩ false)
    (fun e => (e.1.predict platform [F64.ofNat 5, F64.ofNat 33] 0 2).run [F64.nan, F64.nan] = (.ok ⟨⟩, [F64.ofNat 10, F64.ofNat 7])) (by decide +kernel)
  obtain ⟨e', c1', c2'⟩ := SkModelExample.of_check (r := lgEnsembleFromReader platform ⟨modelText print [d2, d1] 2 1 false, false⟩ false)
    (fun e => (e.1.predict platform [F64.ofNat 5, F64.ofNat 33] 0 2).run [F64.nan, F64.nan] = (.ok ⟨⟩, [F64.ofNat 7, F64.ofNat 10])) (by decide +kernel)
  exact ⟨e, e', c1, c1', c2, c2'⟩

/-- As classifiers of two classes with an accurate exponential function. -/
example : ∃ e e',
    lgEnsembleFromReader (accurate platform) ⟨objectiveText print [d1, d2] 2 1 "multiclass num_class:2".toList ++ [], false⟩ true = .ok (e, ⟨[], false⟩) ∧
    lgEnsembleFromReader (accurate platform) ⟨objectiveText print [d2, d1] 2 1 "multiclass num_class:2".toList ++ [], false⟩ true = .ok (e', ⟨[], false⟩) ∧
    ∀ row req m m1, (e.predict (accurate platform) row req m.length).run m = (.ok ⟨⟩, m1) →
      ∃ m2, (e'.predict (accurate platform) row req m.length).run m = (.ok ⟨⟩, m2) ∧
        ∀ k < 2, ∃ z z' p p', m1[k]? = some z ∧ m2[swap k]? = some z' ∧ IsVal z p ∧ IsVal z' p' ∧
          |(p : ℝ) - p'| ≤ 6 * (1 / 2 ^ 52) + ((2 : Nat) + 7) / 2 ^ 50 := by
  obtain ⟨_, _, _, h1, h2, h3, h4, h5⟩ := objectiveText_blocks (P := accurate platform) (print := print) [] 2 "multiclass num_class:2".toList (M := 1) (by norm_num)
    ⟨by decide, by decide, by unfold whiteSpace; decide⟩ ds_ok
  obtain ⟨_, _, _, g1, g2, g3, g4, g5⟩ := objectiveText_blocks (P := accurate platform) (print := print) [] 2 "multiclass num_class:2".toList (M := 1) (by norm_num)
    ⟨by decide, by decide, by unfold whiteSpace; decide⟩ ds_ok'
  exact C122_softmax (accurate platform) print _ _ _ _ _ _ _ _ _ _ _ _ _ _ _ _ 2 1 1 "multiclass num_class:2".toList "multiclass num_class:2".toList
    (by norm_num) (by norm_num) rfl swap swap swap_ok (swap_moved d1 d2) (fun d hd => ⟨(ds_ok d hd).1, (ds_ok d hd).2.2⟩)
    (fun d hd => ⟨(ds_ok' d hd).1, (ds_ok' d hd).2.2⟩) h1 h2 h3 (.multiclass "2".toList ClassifyExample.numeral_2) h4 h5
    g1 g2 g3 (.multiclass "2".toList ClassifyExample.numeral_2) g4 g5 (fun _ _ _ => .inl rfl)
    (1 / 2 ^ 52) (by norm_num) (accurate_exp _) 40 (ProbabilityExample.small_leaves) (by norm_num) (by norm_num)

open JsonDocExample in
/-- the document of the other examples with its trees exchanged -/
def modelDoc' : Json := object [("name", text "tree"), ("version", text "v2"), ("num_class", number "2"), ("num_tree_per_iteration", number "2"),
  ("max_feature_idx", number "1"), ("tree_info", array [
    object [("num_leaves", number "1"), ("num_cat", number "0"), ("tree_structure", object [("leaf_value", number "7")])],
    object [("num_leaves", number "4"), ("num_cat", number "1"), ("tree_structure", rootDoc)]])]

open JsonDocExample JsonModelExample in
/-- `C122_json` applies. -/
example := C122_json platform modelDoc modelDoc' 2 1 1 [t1, t2] [t2, t1] (by norm_num) le_rfl rfl swap swap swap_ok (swap_moved t1 t2)
  (by
    intro t ht
    simp only [List.mem_cons, List.not_mem_nil, or_false] at ht
    rcases ht with rfl | rfl
    · exact ⟨2, t1_ok, by decide, by decide⟩
    · exact ⟨0, t2_ok, by decide, by decide⟩)
  (by
    intro t ht
    simp only [List.mem_cons, List.not_mem_nil, or_false] at ht
    rcases ht with rfl | rfl
    · exact ⟨0, t2_ok, by decide, by decide⟩
    · exact ⟨2, t1_ok, by decide, by decide⟩)
  model_doc model_nested
  (by
    refine ⟨_, _, rfl, sole_of rfl, sole_of rfl, by decide, sole_of rfl, sole_of rfl, by decide, by decide, sole_of rfl, sole_of rfl,
      .cons ?_ (.cons ?_ .nil)⟩
    · refine ⟨_, 1, _, rfl, by decide, rfl, sole_of rfl, by decide, sole_of rfl, sole_of rfl, ?_, absent_of rfl⟩
      exact leaf_of rfl (by decide +kernel) (by decide +kernel) (by decide +kernel)
    · exact ⟨_, 4, _, rfl, by decide, rfl, sole_of rfl, by decide, sole_of rfl, sole_of rfl, root_doc, absent_of rfl⟩)
  (nested_of_depth (by decide +kernel))

open XgFileExample in
/-- a 'dart' file with the two example trees as two classes -/
def classes : XgModel where
  header := header "dart"
  gbtree := ⟨⟨2#32, 1#32, 2#32, 0#32, 0#64, 2#32, 0#32, List.replicate 32 0#32⟩, [tree1, tree2], [0#32, 1#32]⟩
  leafVectors := [[], [7#32]]
  dart := true
  weights := [0x3f800000#32, 0x3f000000#32]
  shapes := [XgExample.tree, .leaf 0]

open XgFileExample in
/-- the classes exchanged -/
def classes' : XgModel where
  header := header "dart"
  gbtree := ⟨⟨2#32, 1#32, 2#32, 0#32, 0#64, 2#32, 0#32, List.replicate 32 0#32⟩, [tree2, tree1], [0#32, 1#32]⟩
  leafVectors := [[7#32], []]
  dart := true
  weights := [0x3f000000#32, 0x3f800000#32]
  shapes := [.leaf 0, XgExample.tree]

open XgFileExample in
theorem classes_ok : classes.OK Platform.demo.maxAlloc 2 1 where
  header := ⟨rfl, by decide, by decide⟩
  gbtree := ⟨rfl, by decide, rfl, by
    intro t ht
    rcases (show t = (tree1, []) ∨ t = (tree2, [7#32]) by simpa [classes] using ht) with rfl | rfl
    · exact ⟨rfl, by decide, by decide, by decide, by decide⟩
    · exact ⟨rfl, by decide, by decide, by decide, by decide⟩, rfl, by decide⟩
  name := rfl
  features := by decide
  roots := by decide
  groups := by decide
  counts := ⟨by norm_num, by norm_num, rfl⟩
  info := by
    intro i hi k hk
    obtain rfl : i = 0 := by omega
    rcases (show k = 0 ∨ k = 1 by omega) with rfl | rfl
    · exact ⟨0#32, rfl, by decide⟩
    · exact ⟨1#32, rfl, by decide⟩
  weights := fun _ => rfl
  alloc := by decide
  trees := .cons tree1_means (.cons (.inr ⟨⟨_, rfl⟩, by decide, rfl⟩) .nil)
  treeFeatures := by decide

open XgFileExample in
theorem classes'_ok : classes'.OK Platform.demo.maxAlloc 2 1 where
  header := ⟨rfl, by decide, by decide⟩
  gbtree := ⟨rfl, by decide, rfl, by
    intro t ht
    rcases (show t = (tree2, [7#32]) ∨ t = (tree1, []) by simpa [classes'] using ht) with rfl | rfl
    · exact ⟨rfl, by decide, by decide, by decide, by decide⟩
    · exact ⟨rfl, by decide, by decide, by decide, by decide⟩, rfl, by decide⟩
  name := rfl
  features := by decide
  roots := by decide
  groups := by decide
  counts := ⟨by norm_num, by norm_num, rfl⟩
  info := by
    intro i hi k hk
    obtain rfl : i = 0 := by omega
    rcases (show k = 0 ∨ k = 1 by omega) with rfl | rfl
    · exact ⟨0#32, rfl, by decide⟩
    · exact ⟨1#32, rfl, by decide⟩
  weights := fun _ => rfl
  alloc := by decide
  trees := .cons (.inr ⟨⟨_, rfl⟩, by decide, rfl⟩) (.cons tree1_means .nil)
  treeFeatures := by decide

/-- `C122_xgboost` applies. -/
example := C122_xgboost Platform.demo classes classes' 2 1 classes_ok classes'_ok swap swap swap_ok
  ⟨rfl, rfl, rfl, swap_moved _ _, swap_moved _ _, fun _ => swap_moved _ _⟩

/-- the linear file of the other examples with its classes exchanged -/
def linFile' : XgLinFile where
  header := XgFileExample.header "gblinear"
  linear := ⟨⟨2#32, 2#32, List.replicate 32 0#32⟩, [0x40400000#32, 0x3f800000#32, 0x40800000#32, 0x40000000#32, 0xbf800000#32, 0x3f000000#32]⟩

/-- `C122_linear` applies. -/
example := C122_linear Platform.demo ClassesExample.linFile linFile' 2 2 ClassesExample.C109_linear_example.1
  ⟨⟨rfl, by decide, by decide⟩, ⟨rfl, by decide⟩, rfl, by decide, by decide, by decide, rfl⟩ swap swap swap_ok
  ⟨rfl, rfl, fun i k hk => by
    rcases (show k = 0 ∨ k = 1 by omega) with rfl | rfl <;>
    match i with
    | 0 => rfl
    | 1 => rfl
    | 2 => rfl
    | i + 3 => rw [List.getElem?_eq_none (by simp [linFile', swap]; omega), List.getElem?_eq_none (by simp [ClassesExample.linFile]; omega)]⟩

/-! ### probabilities are not the same bit by bit -/

/-- an exponential function with the correctly rounded values at 0 and 37 (the exponential of 37 is 11719142372802611.308…) -/
def steep : Platform := { platform with exp := fun x => if x = F64.zero then F64.one else F64.ofNat 11719142372802612 }

/-- numbers of one or two digits -/
def digits (x : F64) : Str := if x = F64.zero then "0".toList else "37".toList

/-- a tree of one leaf -/
def leaf (n : Nat) : TreeDesc := { d2 with leafValues := [F64.ofNat n] }

/-- three classes, of scores 37, 0 and 0 -/
def three : Str := objectiveText digits [leaf 37, leaf 0, leaf 0] 3 0 "multiclass num_class:3".toList
/-- the first class put last -/
def three' : Str := objectiveText digits [leaf 0, leaf 0, leaf 37] 3 0 "multiclass num_class:3".toList

/-- **The probabilities are not the same bit by bit.** The raw scores are 37, 0 and 0, and 0, 0 and 37. The denominator of the softmax function
is summed in the order of the classes, which matters for its last bit: the probability of the first class is 1, the one of the same class put
last is smaller, and the probabilities of the other classes differ as well. -/
theorem C122_softmax_order : ∃ e e', lgEnsembleFromReader steep ⟨three, false⟩ true = .ok e ∧ lgEnsembleFromReader steep ⟨three', false⟩ true = .ok e' ∧
    ∃ a b a' b', (e.1.predict steep [F64.zero] 0 3).run [F64.nan, F64.nan, F64.nan] = (.ok ⟨⟩, [a, b, b]) ∧
      (e'.1.predict steep [F64.zero] 0 3).run [F64.nan, F64.nan, F64.nan] = (.ok ⟨⟩, [b', b', a']) ∧ F64.lt a' a = true ∧ F64.lt b' b = true := by
  obtain ⟨e, c1, c2⟩ := SkModelExample.of_check (r := lgEnsembleFromReader steep ⟨three, false⟩ true)
    (fun e => (e.1.predict steep [F64.zero] 0 3).run [F64.nan, F64.nan, F64.nan] = (.ok ⟨⟩, [F64.ofNat 1, (F64.const 6922830684512341 (2 ^ 106)), (F64.const 6922830684512341 (2 ^ 106))])) (by decide +kernel)
  obtain ⟨e', c1', c2'⟩ := SkModelExample.of_check (r := lgEnsembleFromReader steep ⟨three', false⟩ true)
    (fun e => (e.1.predict steep [F64.zero] 0 3).run [F64.nan, F64.nan, F64.nan] = (.ok ⟨⟩, [(F64.const 6922830684512339 (2 ^ 106)), (F64.const 6922830684512339 (2 ^ 106)), (F64.const 4503599627370495 (2 ^ 52))])) (by decide +kernel)
  exact ⟨e, e', c1, c1', _, _, _, _, c2, c2', by decide +kernel, by decide +kernel⟩

end RenumberExample

end Leaves
