import Verif.Spec.Opposite
import Verif.Props.Probability
import Verif.Props.ZeroTrees

/-!
# C121: opposite leaf values give opposite scores

A binary classifier whose classes have been exchanged is the same forest with the signs of its leaf values changed.
-/

namespace Leaves
open Spec GoM

namespace F64

theorem finite_opp {s t : Bool} {m n : Nat} {hm : Rep m} {hn : Rep n} : Opposite (fin s m hm) (fin t n hn) ↔
    (fin t n hn).toInt = -(fin s m hm).toInt := by
  have hu : (unit : ℚ) ≠ 0 := by exact_mod_cast unit_pos.ne'
  constructor
  · rintro (⟨h, -⟩ | ⟨_, h, -⟩ | ⟨q, h1, h2⟩)
    · cases h
    · cases h
    · unfold IsVal at h1 h2
      rw [value_fin] at h1 h2
      simp only [pt, Option.some.injEq, WithBot.coe_inj, WithTop.coe_inj] at h1 h2
      have : ((fin t n hn).toInt : ℚ) = ((-(fin s m hm).toInt : Int) : ℚ) := by
        rw [← h1] at h2
        field_simp at h2
        rw [h2]; push_cast; ring
      exact_mod_cast this
  · intro h
    refine .inr (.inr ⟨_, value_fin s m hm, ?_⟩)
    show value _ = _
    rw [value_fin, h]
    congr 2
    push_cast
    ring

theorem opp_cases {x y : F64} (h : Opposite x y) : (x = nan ∧ y = nan) ∨ (∃ s, x = inf s ∧ y = inf (!s)) ∨
    ∃ s m hm t n hn, x = fin s m hm ∧ y = fin t n hn ∧ (fin t n hn).toInt = -(fin s m hm).toInt := by
  rcases h with h | h | ⟨q, h1, h2⟩
  · exact .inl h
  · exact .inr (.inl h)
  · obtain ⟨⟨s, m, hm, rfl⟩, -⟩ := isVal_iff.1 h1
    obtain ⟨⟨t, n, hn, rfl⟩, -⟩ := isVal_iff.1 h2
    exact .inr (.inr ⟨s, m, hm, t, n, hn, rfl, rfl, finite_opp.1 (.inr (.inr ⟨q, h1, h2⟩))⟩)

theorem ofRatio_opp (s : Bool) (n d : Nat) : Opposite (ofRatio s n d) (ofRatio (!s) n d) := by
  unfold ofRatio
  split
  · refine finite_opp.2 ?_
    cases s <;> simp [toInt]
  · exact .inr (.inl ⟨s, rfl, rfl⟩)

theorem zero_opp (s t : Bool) (h h' : Rep 0) : Opposite (fin s 0 h) (fin t 0 h') :=
  finite_opp.2 (by rw [toInt_zero, toInt_zero]; rfl)

theorem ofScaled_opp (s t : Bool) (v : Int) (d : Nat) : Opposite (ofScaled s v d) (ofScaled t (-v) d) := by
  unfold ofScaled
  by_cases h : v = 0
  · subst h
    exact zero_opp _ _ _ _
  · rw [if_neg h, if_neg (by omega), Int.natAbs_neg, show decide (-v < 0) = !decide (v < 0) by
      by_cases hv : v < 0
      · rw [decide_eq_true hv, decide_eq_false (by omega)]; rfl
      · rw [decide_eq_false hv, decide_eq_true (by omega)]; rfl]
    exact ofRatio_opp _ _ _

theorem nan_opp : Opposite nan nan := .inl ⟨rfl, rfl⟩

theorem inf_opp (s : Bool) : Opposite (inf s) (inf (!s)) := .inr (.inl ⟨s, rfl, rfl⟩)

/-- rounding is symmetric: sums of opposite numbers are opposite -/
theorem add_opp {x x' y y' : F64} (hx : Opposite x x') (hy : Opposite y y') : Opposite (add x y) (add x' y') := by
  rcases opp_cases hx with ⟨rfl, rfl⟩ | ⟨s, rfl, rfl⟩ | ⟨s, m, hm, s', m', hm', rfl, rfl, hi⟩
  · exact nan_opp
  · rcases opp_cases hy with ⟨rfl, rfl⟩ | ⟨t, rfl, rfl⟩ | ⟨t, n, hn, t', n', hn', rfl, rfl, hj⟩
    · exact nan_opp
    · show Opposite (if s = t then inf s else nan) (if (!s) = (!t) then inf (!s) else nan)
      cases s <;> cases t <;> first | exact nan_opp | exact inf_opp _
    · exact inf_opp s
  · rcases opp_cases hy with ⟨rfl, rfl⟩ | ⟨t, rfl, rfl⟩ | ⟨t, n, hn, t', n', hn', rfl, rfl, hj⟩
    · exact nan_opp
    · exact inf_opp t
    · show Opposite (ofScaled _ _ 1) (ofScaled _ _ 1)
      rw [hi, hj, ← Int.neg_add]
      exact ofScaled_opp _ _ _ _

theorem toInt_natAbs (s : Bool) (m : Nat) (h : Rep m) : (fin s m h).toInt.natAbs = m := by cases s <;> simp [toInt]

theorem mag_of_opp {s t : Bool} {m n : Nat} {hm : Rep m} {hn : Rep n} (h : (fin t n hn).toInt = -(fin s m hm).toInt) :
    n = m ∧ (m ≠ 0 → t = !s) := by
  have e : n = m := by
    have := congrArg Int.natAbs h
    rwa [Int.natAbs_neg, toInt_natAbs, toInt_natAbs] at this
  subst e
  refine ⟨rfl, fun h0 => ?_⟩
  cases s <;> cases t <;> simp only [toInt, Bool.not_true, Bool.not_false, neg_neg, reduceCtorEq] at h ⊢ <;> omega

/-- the product with the same factor -/
theorem mul_opp {x x' c : F64} (hx : Opposite x x') : Opposite (mul x c) (mul x' c) := by
  rcases opp_cases hx with ⟨rfl, rfl⟩ | ⟨s, rfl, rfl⟩ | ⟨s, m, hm, s', m', hm', rfl, rfl, hi⟩
  · exact nan_opp
  · rcases c with _ | t | ⟨t, n, hn⟩
    · exact nan_opp
    · show Opposite (inf (xor s t)) (inf (xor (!s) t))
      rw [Bool.not_xor]; exact inf_opp _
    · show Opposite (if n = 0 then nan else inf (xor s t)) (if n = 0 then nan else inf (xor (!s) t))
      split
      · exact nan_opp
      · rw [Bool.not_xor]; exact inf_opp _
  · obtain ⟨rfl, hs⟩ := mag_of_opp hi
    rcases c with _ | t | ⟨t, n, hn⟩
    · exact nan_opp
    · show Opposite (if m' = 0 then nan else inf (xor s t)) (if m' = 0 then nan else inf (xor s' t))
      split
      · exact nan_opp
      · rename_i h
        rw [hs h, Bool.not_xor]; exact inf_opp _
    · show Opposite (ofRatio (xor s t) (m' * n) unit) (ofRatio (xor s' t) (m' * n) unit)
      by_cases h : m' = 0
      · subst h
        rw [zero_mul]
        exact .inr (.inr ⟨0, ofRatio_zero_value _ _ unit_pos, by rw [neg_zero]; exact ofRatio_zero_value _ _ unit_pos⟩)
      · rw [hs h, Bool.not_xor]
        exact ofRatio_opp _ _ _

/-- the fused form -/
theorem fma_opp {x x' c z z' : F64} (hx : Opposite x x') (hz : Opposite z z') : Opposite (fma x c z) (fma x' c z') := by
  have gen := add_opp (mul_opp (c := c) hx) hz
  rcases opp_cases hx with ⟨rfl, rfl⟩ | ⟨s, rfl, rfl⟩ | ⟨s, m, hm, s', m', hm', rfl, rfl, hi⟩
  · exact gen
  · exact gen
  · rcases c with _ | t | ⟨t, n, hn⟩
    · exact gen
    · exact gen
    · rcases opp_cases hz with ⟨rfl, rfl⟩ | ⟨u, rfl, rfl⟩ | ⟨u, k, hk, u', k', hk', rfl, rfl, hj⟩
      · exact nan_opp
      · exact inf_opp u
      · show Opposite (ofScaled _ _ unit) (ofScaled _ _ unit)
        rw [hi, hj, show -(fin s m hm).toInt * (fin t n hn).toInt + -(fin u k hk).toInt * unit =
          -((fin s m hm).toInt * (fin t n hn).toInt + (fin u k hk).toInt * unit) by ring]
        exact ofScaled_opp _ _ _ _

end F64

theorem OneRounding.ok {P : Platform} (h : OneRounding P) : P.MulAddOK := fun x y z => h.imp (· x y z) (· x y z)

theorem mulAdd_opp {P : Platform} (h : OneRounding P) {x x' c z z' : F64} (hx : Opposite x x') (hz : Opposite z z') :
    Opposite (P.mulAdd x c z) (P.mulAdd x' c z') := by
  rcases h with h | h
  · rw [h, h]; exact F64.add_opp (F64.mul_opp hx) hz
  · rw [h, h]; exact F64.fma_opp hx hz

theorem mulAdd_one_opp {P : Platform} (h : P.MulAddOK) {x x' z z' : F64} (hx : Opposite x x') (hz : Opposite z z') :
    Opposite (P.mulAdd x F64.one z) (P.mulAdd x' F64.one z') := by
  rw [h.one, h.one]; exact F64.add_opp hz hx

theorem accumulate_opp {f g : Nat → F64 → F64} {z z' : F64} (hz : Opposite z z') : ∀ {n : Nat},
    (∀ i < n, ∀ a b, Opposite a b → Opposite (f i a) (g i b)) → Opposite (accumulate f n z) (accumulate g n z')
  | 0, _ => hz
  | n + 1, h => by
    rw [accumulate_snoc, accumulate_snoc]
    exact h n (by omega) _ _ (accumulate_opp hz fun i hi => h i (by omega))

theorem Spec.TreeDesc.Opposite.value {d d' : TreeDesc} (h : d.Opposite d') {out : F64 → Int} {row : List F64} {w : F64} (hw : d.Value out row w) :
    ∃ w', d'.Value out row w' ∧ Spec.Opposite w w' := by
  have get : ∀ (k : Nat) (w : F64), d.leafValues[k]? = some w → ∃ w', d'.leafValues[k]? = some w' ∧ Spec.Opposite w w' := by
    intro k w hk
    obtain ⟨hlt, rfl⟩ := List.getElem?_eq_some_iff.1 hk
    have hlt' : k < d'.leafValues.length := by rw [← h.values.length_eq]; exact hlt
    exact ⟨_, List.getElem?_eq_getElem hlt', h.values.get hlt hlt'⟩
  unfold TreeDesc.Value at hw ⊢
  rw [h.inner, h.arrays, h.tree]
  split
  · rename_i h0
    rw [if_pos h0] at hw
    exact get 0 w hw
  · rename_i h0
    rw [if_neg h0] at hw
    obtain ⟨k, h1, h2⟩ := hw
    obtain ⟨w', h3, h4⟩ := get k w h2
    exact ⟨w', ⟨k, h1, h3⟩, h4⟩

theorem refRaw_opp {P : Platform} (hP : P.MulAddOK) {ds ds' : List TreeDesc} (h : List.Forall₂ TreeDesc.Opposite ds ds') {K : Nat} {avg : Bool}
    (ha : avg = true → OneRounding P) {row : List F64} {n : Nat} {w : List F64} (hw : RefRaw P P.out ds K avg row n w) :
    ∃ w', RefRaw P P.out ds' K avg row n w' ∧ w'.length = w.length ∧ List.Forall₂ Opposite w w' := by
  obtain ⟨v, hv, rfl⟩ := hw
  have hex : ∀ i k, ∃ x, i < n → k < K → (∃ d, ds'[i * K + k]? = some d ∧ d.Value P.out row x) ∧ Opposite (v i k) x := by
    intro i k
    by_cases hi : i < n
    · by_cases hk : k < K
      · obtain ⟨d, h1, h2⟩ := hv i hi k hk
        obtain ⟨hlt, rfl⟩ := List.getElem?_eq_some_iff.1 h1
        have hlt' : i * K + k < ds'.length := by rw [← h.length_eq]; exact hlt
        obtain ⟨x, h3, h4⟩ := Spec.TreeDesc.Opposite.value (h.get hlt hlt') h2
        exact ⟨x, fun _ _ => ⟨⟨_, List.getElem?_eq_getElem hlt', h3⟩, h4⟩⟩
      · exact ⟨F64.nan, fun _ h => absurd h hk⟩
    · exact ⟨F64.nan, fun h => absurd h hi⟩
  choose x hx using hex
  refine ⟨_, ⟨x, fun i hi k hk => (hx i k hi hk).1, rfl⟩, by simp, ?_⟩
  rw [List.forall₂_map_left_iff, List.forall₂_map_right_iff, List.forall₂_same]
  intro k hk
  refine accumulate_opp (F64.zero_opp _ _ _ _) fun i hi a b hab => ?_
  have := (hx i k hi (List.mem_range.1 hk)).2
  cases avg
  · exact mulAdd_one_opp hP this hab
  · exact mulAdd_opp (ha rfl) this hab

/-- **C121, raw scores.** Two LightGBM text files whose trees differ in the signs of the leaf values only: for every row and every number of
estimators, when the first model predicts, so does the second, and its scores are the opposite ones, exactly. -/
theorem C121_text (P : Platform) (hP : P.MulAddOK) (print : F64 → Str) (text text' rest0 rest0' rest rest' : Str) (header header' : List Str)
    (e0 e0' e1 e1' : Bool) (bs bs' : List (List Str)) (ds ds' : List TreeDesc) (K N : Nat) (M : Int) (avg : Bool) (ha : avg = true → OneRounding P)
    (hK : 1 ≤ K ∧ K < 2 ^ 63) (hN : 1 ≤ N) (hlen : ds.length = N * K) (hopp : List.Forall₂ TreeDesc.Opposite ds ds')
    (hok : ∀ d ∈ ds, d.OK P.parseFloat print ∧ d.inner * 24 ≤ P.maxAlloc)
    (hok' : ∀ d ∈ ds', d.OK P.parseFloat print ∧ d.inner * 24 ≤ P.maxAlloc)
    (hh : FileBlock text header rest0 e0) (hhl : HeaderLines header K M ds.length avg)
    (hb : FileBlocks rest0 bs rest e1) (hbl : List.Forall₂ (TreeLines print) ds bs)
    (hh' : FileBlock text' header' rest0' e0') (hhl' : HeaderLines header' K M ds'.length avg)
    (hb' : FileBlocks rest0' bs' rest' e1') (hbl' : List.Forall₂ (TreeLines print) ds' bs') :
    ∃ e e', lgEnsembleFromReader P ⟨text, false⟩ false = .ok (e, ⟨rest, false⟩) ∧
      lgEnsembleFromReader P ⟨text', false⟩ false = .ok (e', ⟨rest', false⟩) ∧
      ∀ row req m m1, (e.predict P row req m.length).run m = (.ok ⟨⟩, m1) →
        ∃ m2, (e'.predict P row req m.length).run m = (.ok ⟨⟩, m2) ∧
          (∀ k < K, ∃ x y, m1[k]? = some x ∧ m2[k]? = some y ∧ Opposite x y) ∧ ∀ k, K ≤ k → m1[k]? = m[k]? ∧ m2[k]? = m[k]? := by
  have hlen' : ds'.length = N * K := by rw [← hopp.length_eq]; exact hlen
  obtain ⟨e, l1, -, -, -, -, n1, -, p1⟩ := C39_text_file P print text rest0 rest header e0 e1 bs ds K N M avg hK hN hlen hh hhl hb hbl hok
  obtain ⟨e', l2, -, -, -, -, n2, -, p2⟩ := C39_text_file P print text' rest0' rest' header' e0' e1' bs' ds' K N M avg hK hN hlen' hh' hhl' hb' hbl' hok'
  refine ⟨e, e', l1, l2, fun row req m m1 h => ?_⟩
  obtain ⟨h1, h2, n, w, hu, hw, hs⟩ := (p1 _ _ _ _).1 h
  obtain ⟨w', hw', hl, hf⟩ := refRaw_opp hP hopp ha hw
  have hwl : w.length = K := by obtain ⟨v, -, rfl⟩ := hw; simp
  obtain ⟨m2, hs2⟩ : ∃ m2, Stored m 0 w' m2 := stored_exists _ _ (by omega)
  refine ⟨m2, (p2 _ _ _ _).2 ⟨h1, by rw [n2, ← n1]; exact h2, n, w', hu, hw', hs2⟩, fun k hk => ?_, fun k hk => ?_⟩
  · have a : k < w.length := by omega
    have b : k < w'.length := by omega
    exact ⟨w[k], w'[k], by rw [stored_get hs a, List.getElem?_eq_getElem a], by rw [stored_get hs2 b, List.getElem?_eq_getElem b], hf.get a b⟩
  · rw [hs.2.2 k, hs2.2.2 k, if_neg (by omega), if_neg (by omega)]
    exact ⟨rfl, rfl⟩

theorem xgGoes_same {T : BTree} {ns ns' : List XgBin.Node} (h : NodesOpposite T ns ns') {row : List F64} {leaf : Nat}
    (hw : Walk (XgGoesLe ns row) T leaf) : Walk (XgGoesLe ns' row) T leaf := by
  refine Walk.congr (fun i hi b hb => ?_) hw
  unfold XgGoesLe at hb ⊢
  rw [h.1 i hi]
  exact hb

theorem xgRefRaw_opp {P : Platform} (hP : P.MulAddOK) {m m' : XgModel} (h : m.Opposite m') {K : Nat}
    {row : List F64} {n : Nat} {w : List F64} (hw : XgRefRaw P XgGoesLe m K row n w) :
    ∃ w', XgRefRaw P XgGoesLe m' K row n w' ∧ w'.length = w.length ∧ List.Forall₂ Opposite w w' := by
  obtain ⟨v, c, hv, hc, rfl⟩ := hw
  have hex : ∀ i k, ∃ x, i < n → k < K → (∃ t T leaf, m'.gbtree.trees[i * K + k]? = some t ∧ m'.shapes[i * K + k]? = some T ∧
      Walk (XgGoesLe t.nodes row) T leaf ∧ XgVal t.nodes leaf x) ∧ Opposite (v i k) x := by
    intro i k
    by_cases hi : i < n
    · by_cases hk : k < K
      · obtain ⟨t, T, leaf, h1, h2, h3, h4⟩ := hv i hi k hk
        have hlt := (List.getElem?_eq_some_iff.1 h1).1
        have hlt' : i * K + k < m'.gbtree.trees.length := by rw [h.count]; exact hlt
        have ho := h.trees _ t _ T h1 (List.getElem?_eq_getElem hlt') h2
        obtain ⟨x, h5, h6⟩ := ho.2 leaf (Walk.mem h3) _ h4
        exact ⟨x, fun _ _ => ⟨⟨_, T, leaf, List.getElem?_eq_getElem hlt', by rw [h.shapes]; exact h2, xgGoes_same ho h3, h5⟩, h6⟩⟩
      · exact ⟨F64.nan, fun _ h => absurd h hk⟩
    · exact ⟨F64.nan, fun h => absurd h hi⟩
  choose x hx using hex
  have hc' : ∀ i < n, ∀ k < K, m'.Weight (i * K + k) (c i k) := by
    intro i hi k hk
    have := hc i hi k hk
    unfold XgModel.Weight at this ⊢
    rw [h.booster, h.weights]
    exact this
  refine ⟨_, ⟨x, c, fun i hi k hk => (hx i k hi hk).1, hc', rfl⟩, by simp, ?_⟩
  rw [List.forall₂_map_left_iff, List.forall₂_map_right_iff, List.forall₂_same]
  intro k hk
  have hk := List.mem_range.1 hk
  refine accumulate_opp h.score fun i hi a b hab => ?_
  have h1 := hx i k hi hk
  -- products of float32 numbers are exact
  rw [xgGives_add (x := (v i k, c i k)) hP ⟨hv i hi k hk, hc i hi k hk⟩, xgGives_add (x := (x i k, c i k)) hP ⟨h1.1, hc' i hi k hk⟩]
  exact F64.add_opp hab (F64.mul_opp h1.2)

/-- **C121, XGBoost files**, boosted trees and DART: with the opposite base score and leaf values the scores are the opposite ones. -/
theorem C121_xgboost (P : Platform) (hP : P.MulAddOK) (m m' : XgModel) (K N : Nat) (ok : m.OK P.maxAlloc K N) (ok' : m'.OK P.maxAlloc K N)
    (h : m.Opposite m') :
    ∃ e e', (∀ rest, xgEnsembleFromReader P false (m.image ++ rest) = .ok (e, rest)) ∧
      (∀ rest, xgEnsembleFromReader P false (m'.image ++ rest) = .ok (e', rest)) ∧
      ∀ row req s s1, (e.predict P row req s.length).run s = (.ok ⟨⟩, s1) →
        ∃ s2, (e'.predict P row req s.length).run s = (.ok ⟨⟩, s2) ∧
          (∀ k < K, ∃ x y, s1[k]? = some x ∧ s2[k]? = some y ∧ Opposite x y) ∧ ∀ k, K ≤ k → s1[k]? = s[k]? ∧ s2[k]? = s[k]? := by
  obtain ⟨e, l1, -, r1, -, -, n1, -, p1⟩ := C62_xgboost_file_le P m K N ok false (.raw K) .raw (fun h => nomatch h)
  obtain ⟨e', l2, -, r2, -, -, n2, -, p2⟩ := C62_xgboost_file_le P m' K N ok' false (.raw K) .raw (fun h => nomatch h)
  rw [h.features] at n2
  refine ⟨e, e', l1, l2, fun row req s s1 hs => ?_⟩
  obtain ⟨h1, h2, n, w, out, hu, hw, ht, hs⟩ := (p1 _ _ _ _).1 hs
  obtain rfl : out = w := ht
  obtain ⟨w', hw', hl, hf⟩ := xgRefRaw_opp hP h hw
  have hwl : out.length = K := by obtain ⟨v, c, -, -, rfl⟩ := hw; simp
  have hwid : e.nOutputGroups = e'.nOutputGroups := congrArg Transform.nOutputGroups (r1.trans r2.symm)
  obtain ⟨s2, hs2⟩ : ∃ s2, Stored s 0 w' s2 := stored_exists _ _ (by have := hs.1; omega)
  refine ⟨s2, (p2 _ _ _ _).2 ⟨by rw [← hwid]; exact h1, by rw [n2, ← n1]; exact h2, n, w', w', hu, hw', rfl, hs2⟩, fun k hk => ?_, fun k hk => ?_⟩
  · have a : k < out.length := by omega
    have b : k < w'.length := by omega
    exact ⟨out[k], w'[k], by rw [stored_get hs a, List.getElem?_eq_getElem a], by rw [stored_get hs2 b, List.getElem?_eq_getElem b], hf.get a b⟩
  · rw [hs.2.2 k, hs2.2.2 k, if_neg (by omega), if_neg (by omega)]
    exact ⟨rfl, rfl⟩

theorem logisticFn_sum (x : ℝ) : logisticFn x + logisticFn (-x) = 1 := by
  unfold logisticFn
  have h := Real.exp_pos x
  rw [neg_neg, Real.exp_neg]
  field_simp
  ring

theorem Opposite.val {x y : F64} {q : ℚ} (h : Opposite x y) (hq : IsVal x q) : IsVal y (-q) := by
  rcases h with ⟨rfl, -⟩ | ⟨s, rfl, -⟩ | ⟨q', h1, h2⟩
  · cases hq
  · cases s <;> simp [IsVal, value, pt] at hq
  · unfold IsVal at hq h1
    rw [h1] at hq
    simp only [pt, Option.some.injEq, WithBot.coe_inj, WithTop.coe_inj] at hq
    rw [← hq]
    exact h2

/-- **C121, probabilities.** With the objective of a binary classifier, the probability that the one model predicts and the one that the other
predicts sum to 1, up to the error of the exponential function and of three roundings; the number of trees does not matter. -/
theorem C121_binary (P : Platform) (hP : P.MulAddOK) (print : F64 → Str) (text text' rest0 rest0' rest rest' : Str) (header header' : List Str)
    (e0 e0' e1 e1' : Bool) (bs bs' : List (List Str)) (ds ds' : List TreeDesc) (M : Int) (objective objective' : Str)
    (hlen : 1 ≤ ds.length ∧ ds.length + 1 ≤ 2 ^ 52) (hopp : List.Forall₂ TreeDesc.Opposite ds ds')
    (hok : ∀ d ∈ ds, d.OK P.parseFloat print ∧ d.inner * 24 ≤ P.maxAlloc)
    (hok' : ∀ d ∈ ds', d.OK P.parseFloat print ∧ d.inner * 24 ≤ P.maxAlloc)
    (hh : FileBlock text header rest0 e0) (hhl : HeaderLines header 1 M ds.length false)
    (hobj : Bound header "objective".toList objective) (htr : Objective 1 objective .logistic)
    (hb : FileBlocks rest0 bs rest e1) (hbl : List.Forall₂ (TreeLines print) ds bs)
    (hh' : FileBlock text' header' rest0' e0') (hhl' : HeaderLines header' 1 M ds'.length false)
    (hobj' : Bound header' "objective".toList objective') (htr' : Objective 1 objective' .logistic)
    (hb' : FileBlocks rest0' bs' rest' e1') (hbl' : List.Forall₂ (TreeLines print) ds' bs')
    (ε : ℝ) (hε : 0 ≤ ε ∧ ε ≤ 1 / 2) (hexp : ExpAccurate P ε)
    (B : ℚ) (hB : ∀ d ∈ ds, ∀ v ∈ d.leafValues, ∃ q, IsVal v q ∧ |q| ≤ B) (hB0 : 0 ≤ B) (hNB : ds.length * B ≤ 2 ^ 990) :
    ∃ e e', lgEnsembleFromReader P ⟨text, false⟩ true = .ok (e, ⟨rest, false⟩) ∧
      lgEnsembleFromReader P ⟨text', false⟩ true = .ok (e', ⟨rest', false⟩) ∧
      ∀ row req m m1, (e.predict P row req m.length).run m = (.ok ⟨⟩, m1) →
        ∃ m2, (e'.predict P row req m.length).run m = (.ok ⟨⟩, m2) ∧
          ∃ z z' p p', m1[0]? = some z ∧ m2[0]? = some z' ∧ IsVal z p ∧ IsVal z' p' ∧ |(p : ℝ) + p' - 1| ≤ 2 * ε + 1 / 2 ^ 47 := by
  have hlen' : ds'.length = ds.length := hopp.length_eq.symm
  obtain ⟨e, l1, f1, t1, -, -, n1, p1⟩ := C88_text_objective P print text rest0 rest header e0 e1 bs ds 1 ds.length M objective .logistic
    ⟨le_rfl, by norm_num⟩ hlen.1 (by simp) hh hhl hobj htr (fun _ => rfl) hb hbl hok
  obtain ⟨e', l2, f2, t2, -, -, n2, p2⟩ := C88_text_objective P print text' rest0' rest' header' e0' e1' bs' ds' 1 ds.length M objective' .logistic
    ⟨le_rfl, by norm_num⟩ hlen.1 (by omega) hh' hhl' hobj' htr' (fun _ => rfl) hb' hbl' hok'
  refine ⟨e, e', l1, l2, fun row req m m1 h => ?_⟩
  obtain ⟨h1, h2, n, w, out, hu, hw, ht, hs⟩ := (p1 _ _ _ _).1 h
  obtain ⟨-, hn⟩ := Used.pos hu hlen.1
  obtain ⟨_, q, -, -, -, hq⟩ := leaf_sums hP hB hn hlen.2 hB0 hNB hw
  obtain ⟨w', hw', -, hf⟩ := refRaw_opp hP hopp (fun h => absurd h Bool.false_ne_true) hw
  obtain ⟨y, rfl, rfl⟩ := ht
  obtain ⟨y0, hy, hyq, -⟩ := hq 0 zero_lt_one
  cases hy
  obtain ⟨y', l, hyy, hnil, rfl⟩ := List.forall₂_cons_left_iff.1 hf
  cases hnil
  have hyq' : IsVal y' (-q 0) := Opposite.val hyy hyq
  obtain ⟨m2, hs2⟩ := stored_exists m [F64.div F64.one (F64.add F64.one (P.exp y'.neg))] (by have := hs.1; simpa using this)
  refine ⟨m2, (p2 _ _ _ _).2 ⟨?_, by rw [n2, ← n1]; exact h2, n, [y'], _, hu, hw', ⟨y', rfl, rfl⟩, hs2⟩, ?_⟩
  · have a : e.nOutputGroups = e'.nOutputGroups := congrArg Transform.nOutputGroups (t1.trans t2.symm)
    rw [← a]
    exact h1
  · obtain ⟨p, hp, hpe⟩ := logistic_val hε.1 hε.2 hexp hyq
    obtain ⟨p', hp', hpe'⟩ := logistic_val hε.1 hε.2 hexp hyq'
    refine ⟨_, _, p, p', stored_get hs (by simp), stored_get hs2 (by simp), hp, hp', ?_⟩
    have hsum := logisticFn_sum (q 0)
    rw [Rat.cast_neg] at hpe'
    have hu : (1 : ℝ) / 2 ^ 1022 ≤ 1 / 2 ^ 50 := inv_pow_le _ _ (by omega)
    have h5 : (1 : ℝ) / 2 ^ 47 = 1 / 2 ^ 48 + 4 * (1 / 2 ^ 50) := by norm_num
    have h6 : (0 : ℝ) ≤ 1 / 2 ^ 50 := by norm_num
    rw [h5]
    generalize (1 : ℝ) / 2 ^ 1022 = u at *
    generalize (1 : ℝ) / 2 ^ 48 = t at *
    generalize (1 : ℝ) / 2 ^ 50 = r at *
    rw [show logisticFn (-(q 0 : ℝ)) = 1 - logisticFn (q 0) by linarith] at hpe'
    generalize logisticFn (q 0) = a at *
    rw [abs_le] at hpe hpe' ⊢
    constructor <;> nlinarith

namespace OppositeExample

open LgLoadExample (d1 plain_of)
open ProbabilityExample (accurate accurate_exp)

/-- the platform of the other examples, reading a minus sign as well -/
def signed : Platform :=
  { LgExample.platform with parseFloat := fun s =>
      if "-".toList.isPrefixOf s then (LgExample.platform.parseFloat s.tail).map F64.neg else LgExample.platform.parseFloat s }

/-- and writing it -/
def print (x : F64) : Str := if F64.lt x F64.zero then "-".toList ++ LgLoadExample.print x.neg else LgLoadExample.print x

/-- the tree of the other examples with negative values -/
def d1' : TreeDesc := { d1 with leafValues := d1.leafValues.map F64.neg }

theorem d1_ok : d1.OK signed.parseFloat print :=
  { LgLoadExample.d1_ok with
    leafText := by decide +kernel
    threshold := fun _ => ⟨by decide, by decide +kernel⟩ }

theorem d1'_ok : d1'.OK signed.parseFloat print where
  numCat := by decide
  leafValues := by decide
  leafText := by decide +kernel
  tree := fun _ => LgExample.tree_ok
  left := fun _ => by decide
  right := fun _ => by decide
  decision := fun _ => by decide
  feature := fun _ => by decide
  threshold := fun _ => ⟨by decide, by decide +kernel⟩
  cats := fun _ => ⟨by decide, by decide⟩

theorem ok : ∀ d ∈ [d1, d1], d.OK signed.parseFloat print ∧ PlainFloats print d ∧ d.inner * 24 ≤ signed.maxAlloc := by
  intro d hd
  obtain rfl : d = d1 := by simpa using hd
  refine ⟨d1_ok, ⟨fun x hx => plain_of ?_, fun _ x hx => plain_of ?_⟩, by decide⟩
  · revert x; decide +kernel
  · revert x; decide +kernel

theorem ok' : ∀ d ∈ [d1', d1'], d.OK signed.parseFloat print ∧ PlainFloats print d ∧ d.inner * 24 ≤ signed.maxAlloc := by
  intro d hd
  obtain rfl : d = d1' := by simpa using hd
  refine ⟨d1'_ok, ⟨fun x hx => plain_of ?_, fun _ x hx => plain_of ?_⟩, by decide⟩
  · revert x; decide +kernel
  · revert x; decide +kernel

theorem neg_opp (x : F64) : Opposite x x.neg := by
  rcases x with _ | s | ⟨s, m, h⟩
  · exact F64.nan_opp
  · exact F64.inf_opp s
  · exact F64.finite_opp.2 (by cases s <;> simp [F64.toInt])

theorem opp : d1.Opposite d1' :=
  ⟨rfl, rfl, rfl, by
    show List.Forall₂ _ d1.leafValues (d1.leafValues.map F64.neg)
    rw [List.forall₂_map_right_iff, List.forall₂_same]
    exact fun x _ => neg_opp x⟩

theorem opps : List.Forall₂ TreeDesc.Opposite [d1, d1] [d1', d1'] := .cons opp (.cons opp .nil)

/-- Two trees as two iterations (also averaged): the scores of the second file are the opposites. -/
theorem C121_example (avg : Bool) : ∃ e e',
    lgEnsembleFromReader signed ⟨modelText print [d1, d1] 1 1 avg ++ [], false⟩ false = .ok (e, ⟨[], false⟩) ∧
    lgEnsembleFromReader signed ⟨modelText print [d1', d1'] 1 1 avg ++ [], false⟩ false = .ok (e', ⟨[], false⟩) ∧
    ∀ row req m m1, (e.predict signed row req m.length).run m = (.ok ⟨⟩, m1) →
      ∃ m2, (e'.predict signed row req m.length).run m = (.ok ⟨⟩, m2) ∧
        (∀ k < 1, ∃ x y, m1[k]? = some x ∧ m2[k]? = some y ∧ Opposite x y) ∧ ∀ k, 1 ≤ k → m1[k]? = m[k]? ∧ m2[k]? = m[k]? := by
  obtain ⟨_, _, _, h1, h2, h3, h4⟩ := modelText_blocks (M := 1) [] 1 avg (by norm_num) ok
  obtain ⟨_, _, _, g1, g2, g3, g4⟩ := modelText_blocks (M := 1) [] 1 avg (by norm_num) ok'
  exact C121_text signed (fun _ _ _ => .inl rfl) print _ _ _ _ _ _ _ _ _ _ _ _ _ _ _ _ 1 2 1 avg (fun _ => .inl fun _ _ _ => rfl) (by norm_num) (by omega)
    rfl opps (fun d hd => ⟨(ok d hd).1, (ok d hd).2.2⟩) (fun d hd => ⟨(ok' d hd).1, (ok' d hd).2.2⟩) h1 h2 h3 h4 g1 g2 g3 g4

/-- the scores themselves: 20 and -20 -/
theorem C121_scores : ∃ e e',
    lgEnsembleFromReader signed ⟨modelText print [d1, d1] 1 1 false, false⟩ false = .ok e ∧
    lgEnsembleFromReader signed ⟨modelText print [d1', d1'] 1 1 false, false⟩ false = .ok e' ∧
    (e.1.predict signed [F64.ofNat 5, F64.ofNat 33] 0 1).run [F64.nan] = (.ok ⟨⟩, [F64.ofNat 20]) ∧
    (e'.1.predict signed [F64.ofNat 5, F64.ofNat 33] 0 1).run [F64.nan] = (.ok ⟨⟩, [F64.ofInt (-20)]) := by
  obtain ⟨e, c1, c2⟩ := SkModelExample.of_check (r := lgEnsembleFromReader signed ⟨modelText print [d1, d1] 1 1 false, false⟩ false)
    (fun e => (e.1.predict signed [F64.ofNat 5, F64.ofNat 33] 0 1).run [F64.nan] = (.ok ⟨⟩, [F64.ofNat 20])) (by decide +kernel)
  obtain ⟨e', c1', c2'⟩ := SkModelExample.of_check (r := lgEnsembleFromReader signed ⟨modelText print [d1', d1'] 1 1 false, false⟩ false)
    (fun e => (e.1.predict signed [F64.ofNat 5, F64.ofNat 33] 0 1).run [F64.nan] = (.ok ⟨⟩, [F64.ofInt (-20)])) (by decide +kernel)
  exact ⟨e, e', c1, c1', c2, c2'⟩

/-- As binary classifiers, the two models give probabilities whose sum is within 2^-46 of 1. -/
example : ∃ e e',
    lgEnsembleFromReader (accurate signed) ⟨objectiveText print [d1, d1] 1 1 "binary sigmoid:1".toList ++ [], false⟩ true = .ok (e, ⟨[], false⟩) ∧
    lgEnsembleFromReader (accurate signed) ⟨objectiveText print [d1', d1'] 1 1 "binary sigmoid:1".toList ++ [], false⟩ true = .ok (e', ⟨[], false⟩) ∧
    ∀ row req m m1, (e.predict (accurate signed) row req m.length).run m = (.ok ⟨⟩, m1) →
      ∃ m2, (e'.predict (accurate signed) row req m.length).run m = (.ok ⟨⟩, m2) ∧
        ∃ z z' p p', m1[0]? = some z ∧ m2[0]? = some z' ∧ IsVal z p ∧ IsVal z' p' ∧ |(p : ℝ) + p' - 1| ≤ 2 * (1 / 2 ^ 52) + 1 / 2 ^ 47 := by
  obtain ⟨_, _, _, h1, h2, h3, h4, h5⟩ := objectiveText_blocks (P := accurate signed) (print := print) [] 1 "binary sigmoid:1".toList (M := 1) (by norm_num)
    ⟨by decide, by decide, by unfold whiteSpace; decide⟩ ok
  obtain ⟨_, _, _, g1, g2, g3, g4, g5⟩ := objectiveText_blocks (P := accurate signed) (print := print) [] 1 "binary sigmoid:1".toList (M := 1) (by norm_num)
    ⟨by decide, by decide, by unfold whiteSpace; decide⟩ ok'
  exact C121_binary (accurate signed) (fun _ _ _ => .inl rfl) print _ _ _ _ _ _ _ _ _ _ _ _ _ _ _ _ 1 "binary sigmoid:1".toList "binary sigmoid:1".toList
    (by norm_num) opps (fun d hd => ⟨(ok d hd).1, (ok d hd).2.2⟩) (fun d hd => ⟨(ok' d hd).1, (ok' d hd).2.2⟩) h1 h2 h3
    (.binary "1".toList ClassifyExample.numeral_1) h4 h5 g1 g2 g3 (.binary "1".toList ClassifyExample.numeral_1) g4 g5
    (1 / 2 ^ 52) (by norm_num) (accurate_exp _) 40 (fun d hd v hv => ProbabilityExample.small_leaves d1 (by simp) v (by
      obtain rfl : d = d1 := by simpa using hd
      exact hv)) (by norm_num) (_root_.le_trans (b := 2 ^ 10) (by norm_num) (pow_le_pow_right₀ one_le_two (by omega)))

open XgFileExample (file file_ok header tree1 tree2)

/-- the trees of the XGBoost example with the sign bits of their leaves flipped -/
def xtree1 : XgBin.TreeModel :=
  { tree1 with nodes := [⟨0#32, 1#32, 2#32, 0x80000001#32, 0x3f000000#32⟩, ⟨0#32, -1#32, -1#32, 0#32, 0xbe800000#32⟩,
    ⟨0#32, 3#32, 4#32, 0#32, 0xc0000000#32⟩, ⟨2#32, -1#32, -1#32, 0#32, 0x3f800000#32⟩, ⟨2#32, -1#32, -1#32, 0#32, 0xc0400000#32⟩] }

/-- its second tree -/
def xtree2 : XgBin.TreeModel := { tree2 with nodes := [⟨0#32, -1#32, -1#32, 0#32, 0xc0000000#32⟩] }

/-- the file with them and the base score -0.5 -/
def xfile : XgModel :=
  { file 1#32 with
    header := { header "dart" with param := ⟨0xbf000000#32, 2#32, 0#32, 0#32, 0#32, List.replicate 29 0#32⟩ }
    gbtree := ⟨⟨2#32, 1#32, 2#32, 0#32, 0#64, 1#32, 0#32, List.replicate 32 0#32⟩, [xtree1, xtree2], [0#32, 0#32]⟩ }

theorem xtree1_means : XgMeans xtree1 XgExample.tree :=
  .inl ⟨by decide, by decide, by
    refine .node 0 _ 1 2 _ _ rfl (by decide) (by decide) (.leaf 1 _ rfl (by decide)) ?_
    exact .node 2 _ 3 4 _ _ rfl (by decide) (by decide) (.leaf 3 _ rfl (by decide)) (.leaf 4 _ rfl (by decide)), by decide, rfl⟩

theorem xfile_ok : xfile.OK Platform.demo.maxAlloc 1 2 where
  header := ⟨rfl, by decide, by decide⟩
  gbtree := ⟨rfl, by decide, rfl, by
    intro t ht
    rcases (show t = (xtree1, []) ∨ t = (xtree2, [7#32]) by simpa [xfile, file] using ht) with rfl | rfl
    · exact ⟨rfl, by decide, by decide, by decide, by decide⟩
    · exact ⟨rfl, by decide, by decide, by decide, by decide⟩, rfl, by decide⟩
  name := rfl
  features := by decide
  roots := by decide
  groups := by decide
  counts := ⟨le_rfl, by norm_num, rfl⟩
  info := by
    intro i hi k hk
    obtain rfl : k = 0 := by omega
    rcases (show i = 0 ∨ i = 1 by omega) with rfl | rfl <;> exact ⟨0#32, rfl, by decide⟩
  weights := fun _ => rfl
  alloc := by decide
  trees := .cons xtree1_means (.cons (.inr ⟨⟨_, rfl⟩, by decide, rfl⟩) .nil)
  treeFeatures := by decide

theorem bits_opp {a b : BitVec 32} (h : F64.ofBits32 b = (F64.ofBits32 a).neg) : Opposite (F64.ofBits32 a) (F64.ofBits32 b) := by
  rw [h]; exact neg_opp _

theorem leaf_opp {ns ns' : List XgBin.Node} {i : Nat} {n n' : XgBin.Node} (h : ns[i]? = some n) (h' : ns'[i]? = some n')
    (e : F64.ofBits32 n'.info = (F64.ofBits32 n.info).neg) : ∀ v, XgVal ns i v → ∃ v', XgVal ns' i v' ∧ Opposite v v' := by
  rintro v ⟨k, hk, rfl⟩
  rw [h] at hk
  cases hk
  exact ⟨_, ⟨n', h', rfl⟩, bits_opp e⟩

theorem xopp : (file 1#32).Opposite xfile where
  features := rfl
  score := bits_opp (by decide +kernel)
  booster := rfl
  count := rfl
  shapes := rfl
  weights := rfl
  trees := by
    intro k t t' T h1 h2 h3
    match k with
    | 0 =>
      cases h1; cases h2; cases h3
      refine ⟨by decide, fun i hi => ?_⟩
      have : i = 1 ∨ i = 3 ∨ i = 4 := by simpa [XgExample.tree, BTree.leaves] using hi
      rcases this with rfl | rfl | rfl
      · exact leaf_opp rfl rfl (by decide +kernel)
      · exact leaf_opp rfl rfl (by decide +kernel)
      · exact leaf_opp rfl rfl (by decide +kernel)
    | 1 =>
      cases h1; cases h2; cases h3
      refine ⟨by decide, fun i hi => ?_⟩
      obtain rfl : i = 0 := by simpa [BTree.leaves] using hi
      exact leaf_opp rfl rfl (by decide +kernel)
    | k + 2 => cases h1

example := C121_xgboost Platform.demo (fun _ _ _ => .inl rfl) (file 1#32) xfile 1 2 file_ok xfile_ok xopp

end OppositeExample

end Leaves
