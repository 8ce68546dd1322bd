import Verif.Props.Classify
import Verif.Props.XgFile
import Verif.Props.Range
import Verif.Proofs.SumFinite
import Verif.Proofs.SoftmaxAccuracy

/-!
# C89: how accurate predicted probabilities are

The stored probability is compared with the exact logistic function, or the exact softmax, of the exact sum of the leaf values that the
file and the row determine. `ε` is the relative error of `math.Exp`.
-/

namespace Leaves

open Spec GoM

/-- the rational sums of one row: `x i k` is the value that tree `i` of class `k` in the file gives -/
def Spec.RowValues (P : Platform) (ds : List TreeDesc) (K n : Nat) (row : List F64) (x : Nat → Nat → ℚ) : Prop :=
  ∀ i < n, ∀ k < K, ∃ d v, ds[i * K + k]? = some d ∧ d.Value P.out row v ∧ IsVal v (x i k)

theorem leaf_sums {P : Platform} (hP : P.MulAddOK) {ds : List TreeDesc} {K N n : Nat} {row w : List F64} {B : ℚ}
    (hB : ∀ d ∈ ds, ∀ v ∈ d.leafValues, ∃ q, IsVal v q ∧ |q| ≤ B) (hn : n ≤ N) (hN : N + 1 ≤ 2 ^ 52) (hB0 : 0 ≤ B) (hNB : N * B ≤ 2 ^ 990)
    (h : RefRaw P P.out ds K false row n w) :
    ∃ (x : Nat → Nat → ℚ) (q : Nat → ℚ), RowValues P ds K n row x ∧ (∀ i < n, ∀ k < K, |x i k| ≤ B) ∧ w.length = K ∧
      ∀ k < K, ∃ y, w[k]? = some y ∧ IsVal y (q k) ∧
        |q k - ∑ i ∈ Finset.range n, x i k| ≤ n / 2 ^ 52 * ∑ i ∈ Finset.range n, |x i k| := by
  obtain ⟨v, hv, rfl⟩ := h
  have hx : ∀ i k, ∃ x, i < n → k < K → (∃ d, ds[i * K + k]? = some d ∧ d.Value P.out row (v i k)) ∧ IsVal (v i k) x ∧ |x| ≤ B := by
    intro i k
    by_cases hi : i < n ∧ k < K
    · obtain ⟨d, hd, hval⟩ := hv i hi.1 k hi.2
      obtain ⟨x, h1, h2⟩ := hB d (List.mem_of_getElem? hd) _ (TreeDesc.Value.mem hval)
      exact ⟨x, fun _ _ => ⟨⟨d, hd, hval⟩, h1, h2⟩⟩
    · exact ⟨0, fun h1 h2 => absurd ⟨h1, h2⟩ hi⟩
  choose x hx using hx
  have hnN : (n : ℚ) * B ≤ N * B := mul_le_mul_of_nonneg_right (by exact_mod_cast hn) hB0
  have hq : ∀ k, ∃ q, k < K → IsVal (accumulate (fun i acc => P.mulAdd (v i k) F64.one acc) n F64.zero) q ∧
      |q - ∑ i ∈ Finset.range n, x i k| ≤ n / 2 ^ 52 * ∑ i ∈ Finset.range n, |x i k| := by
    intro k
    by_cases hk : k < K
    · have hS : ∑ i ∈ Finset.range n, |x i k| ≤ n * B := by
        have := Finset.sum_le_card_nsmul (Finset.range n) (fun i => |x i k|) B fun i hi => (hx i k (Finset.mem_range.1 hi) hk).2.2
        simpa using this
      obtain ⟨q, h1, h2⟩ := sum_finite hP (v := fun i => v i k) (x := fun i => x i k) (n := n) (by omega)
        (fun i hi => (hx i k hi hk).2.1) (hS.trans (hnN.trans hNB))
      unfold Near at h2
      rw [Nat.cast_zero, zero_div, add_zero] at h2
      exact ⟨q, fun _ => ⟨h1, h2⟩⟩
    · exact ⟨0, fun h => absurd h hk⟩
  choose q hq using hq
  refine ⟨x, q, fun i hi k hk => ?_, fun i hi k hk => (hx i k hi hk).2.2, by simp, fun k hk => ?_⟩
  · obtain ⟨⟨d, h1, h2⟩, h3, -⟩ := hx i k hi hk
    exact ⟨d, _, h1, h2, h3⟩
  · exact ⟨_, range_get hk, by simpa using (hq k hk).1, (hq k hk).2⟩

theorem cast_quarter (a S : ℚ) : ((a / 2 ^ 54 * S : ℚ) : ℝ) = ((a / 2 ^ 52 * S : ℚ) : ℝ) / 4 := by
  push_cast
  ring

theorem cast_small (a : ℚ) : ((a + 1 / 2 ^ 48 : ℚ) : ℝ) = a + 1 / 2 ^ 48 := by
  push_cast
  rfl

/-- **C89, binary classification with LightGBM text files.** Every prediction is within `2ε + 2^-47 + n/2^54 * Σ |x i|` of the logistic
function of the sum of the leaf values `x i`. -/
theorem C89_text_binary (P : Platform) (print : F64 → Str) (text rest0 rest : Str) (header : List Str) (e0 e1 : Bool)
    (bs : List (List Str)) (ds : List TreeDesc) (M : Int) (objective : Str)
    (hlen : 1 ≤ ds.length ∧ ds.length + 1 ≤ 2 ^ 52)
    (hh : FileBlock text header rest0 e0) (hhl : HeaderLines header 1 M ds.length false)
    (hobj : Bound header "objective".toList objective) (htr : Objective 1 objective .logistic)
    (hb : FileBlocks rest0 bs rest e1) (hbl : List.Forall₂ (TreeLines print) ds bs)
    (hok : ∀ d ∈ ds, d.OK P.parseFloat print ∧ d.inner * 24 ≤ P.maxAlloc)
    (hP : P.MulAddOK) (ε : ℝ) (hε : 0 ≤ ε ∧ ε ≤ 1 / 2) (hexp : ExpAccurate P ε)
    (B : ℚ) (hB : ∀ d ∈ ds, ∀ v ∈ d.leafValues, ∃ q, IsVal v q ∧ |q| ≤ B) (hB0 : 0 ≤ B) (hNB : ds.length * B ≤ 2 ^ 990) :
    ∃ ens, lgEnsembleFromReader P ⟨text, false⟩ true = .ok (ens, ⟨rest, false⟩) ∧
      ∀ row req m m', (ens.predict P row req m.length).run m = (.ok ⟨⟩, m') → ∃ n x, Used req ds.length n ∧ RowValues P ds 1 n row x ∧
        ∃ z p, m'[0]? = some z ∧ IsVal z p ∧
          |(p : ℝ) - logisticFn ((∑ i ∈ Finset.range n, x i 0 : ℚ) : ℝ)| ≤
            2 * ε + 1 / 2 ^ 47 + ((n / 2 ^ 54 * ∑ i ∈ Finset.range n, |x i 0| : ℚ) : ℝ) := by
  obtain ⟨ens, h1, -, -, -, -, -, h2⟩ := C88_text_objective P print text rest0 rest header e0 e1 bs ds 1 ds.length M objective .logistic
    ⟨le_rfl, by norm_num⟩ hlen.1 (by simp) hh hhl hobj htr (fun _ => rfl) hb hbl hok
  refine ⟨ens, h1, fun row req m m' hm => ?_⟩
  obtain ⟨-, -, n, w, out, hu, hw, ht, hst⟩ := (h2 _ _ _ _).1 hm
  obtain ⟨-, n2⟩ := Used.pos hu hlen.1
  obtain ⟨x, q, hx, -, -, hq⟩ := leaf_sums hP hB n2 hlen.2 hB0 hNB hw
  obtain ⟨y, rfl, rfl⟩ := ht
  obtain ⟨y', hy, hyq, hd⟩ := hq 0 zero_lt_one
  cases hy
  obtain ⟨p, hp, hpe⟩ := logistic_val hε.1 hε.2 hexp hyq
  refine ⟨n, x, hu, hx, _, p, stored_get hst (by simp), hp, ?_⟩
  have l1 := logisticFn_le_one (q 0)
  have l0 := logisticFn_pos (q 0)
  have l2 := logisticFn_lipschitz (q 0) ((∑ i ∈ Finset.range n, x i 0 : ℚ) : ℝ)
  have hd' := cast_abs_le hd
  rw [Rat.cast_sub] at hd'
  rw [cast_quarter]
  have hu : (1 : ℝ) / 2 ^ 1022 ≤ 1 / 2 ^ 48 := inv_pow_le _ _ (by omega)
  generalize (1 : ℝ) / 2 ^ 1022 = u at *
  generalize ((n / 2 ^ 52 * ∑ i ∈ Finset.range n, |x i 0| : ℚ) : ℝ) = D at *
  generalize ((∑ i ∈ Finset.range n, x i 0 : ℚ) : ℝ) = s at *
  have h3 : (2 * ε + 1 / 2 ^ 48) * logisticFn (q 0) ≤ (2 * ε + 1 / 2 ^ 48) * 1 :=
    mul_le_mul_of_nonneg_left l1 (by have := hε.1; positivity)
  have h4 : |(p : ℝ) - logisticFn s| ≤ |(p : ℝ) - logisticFn (q 0)| + |logisticFn (q 0) - logisticFn s| := by
    calc |(p : ℝ) - logisticFn s| = |((p : ℝ) - logisticFn (q 0)) + (logisticFn (q 0) - logisticFn s)| := by ring_nf
      _ ≤ _ := abs_add_le _ _
  have h5 : (1 : ℝ) / 2 ^ 47 = 1 / 2 ^ 48 + 1 / 2 ^ 48 := by norm_num
  rw [h5]
  generalize (1 : ℝ) / 2 ^ 48 = t at *
  linarith

/-- sums of moderate size are close to the exact ones -/
theorem sums_close {n N : Nat} {B q : ℚ} {x : Nat → ℚ} (hN : N ≤ 2 ^ 40) (n2 : n ≤ N) (hB0 : 0 ≤ B) (hNB : N * B ≤ 689)
    (hxB : ∀ i < n, |x i| ≤ B) (hd : |q - ∑ i ∈ Finset.range n, x i| ≤ n / 2 ^ 52 * ∑ i ∈ Finset.range n, |x i|) :
    0 ≤ (n : ℝ) * (n * B) / 2 ^ 52 ∧ (n : ℝ) * (n * B) / 2 ^ 52 ≤ 1 / 2 ∧
      |(q : ℝ) - ((∑ i ∈ Finset.range n, x i : ℚ) : ℝ)| ≤ (n : ℝ) * (n * B) / 2 ^ 52 ∧ |(q : ℝ)| ≤ 690 := by
  have hS : ∑ i ∈ Finset.range n, |x i| ≤ n * B := by
    have := Finset.sum_le_card_nsmul (Finset.range n) (fun i => |x i|) B fun i hi => hxB i (Finset.mem_range.1 hi)
    simpa using this
  have hnN : (n : ℚ) ≤ N := by exact_mod_cast n2
  have hn40 : (n : ℚ) ≤ 2 ^ 40 := hnN.trans (by exact_mod_cast hN)
  have hnB : (n : ℚ) * B ≤ 689 := (mul_le_mul_of_nonneg_right hnN hB0).trans hNB
  have hn0 : (0 : ℚ) ≤ n := Nat.cast_nonneg n
  have hδ : (n : ℚ) * (n * B) / 2 ^ 52 ≤ 1 / 2 := by
    have h1 : (n : ℚ) * (n * B) ≤ 2 ^ 40 * 689 := mul_le_mul hn40 hnB (by positivity) (by positivity)
    rw [div_le_iff₀ (by positivity)]
    exact h1.trans (by norm_num)
  have hδ0 : 0 ≤ (n : ℚ) * (n * B) / 2 ^ 52 := by positivity
  have hd1 : |q - ∑ i ∈ Finset.range n, x i| ≤ n * (n * B) / 2 ^ 52 := by
    refine hd.trans ((mul_le_mul_of_nonneg_left hS (by positivity)).trans_eq (by ring))
  have hqb : |q| ≤ 690 := by
    have h2 := (Finset.abs_sum_le_sum_abs x (Finset.range n)).trans hS
    have h3 : |q| ≤ |q - ∑ i ∈ Finset.range n, x i| + |∑ i ∈ Finset.range n, x i| := by
      calc |q| = |(q - ∑ i ∈ Finset.range n, x i) + ∑ i ∈ Finset.range n, x i| := by ring_nf
        _ ≤ _ := abs_add_le _ _
    linarith
  have e : (((n : ℚ) * (n * B) / 2 ^ 52 : ℚ) : ℝ) = (n : ℝ) * (n * B) / 2 ^ 52 := by push_cast; rfl
  refine ⟨e ▸ Rat.cast_nonneg.2 hδ0, ?_, ?_, ?_⟩
  · rw [← e]
    have := (Rat.cast_le (K := ℝ)).2 hδ
    simpa using this
  · have := cast_abs_le hd1
    rwa [Rat.cast_sub, e] at this
  · have := cast_abs_le hqb
    simpa using this

theorem softmaxFn_bounds {qs : List ℝ} {x : ℝ} (hx : x ∈ qs) : 0 ≤ softmaxFn qs x ∧ softmaxFn qs x ≤ 1 := by
  have hpos : ∀ y ∈ qs.map Real.exp, (0 : ℝ) ≤ y := fun y hy => by
    obtain ⟨a, -, rfl⟩ := List.mem_map.1 hy
    exact (Real.exp_pos a).le
  have h1 : Real.exp x ≤ (qs.map Real.exp).sum := List.single_le_sum hpos _ (List.mem_map_of_mem hx)
  have h2 := Real.exp_pos x
  unfold softmaxFn
  exact ⟨div_nonneg h2.le (h2.le.trans h1), (div_le_one (h2.trans_le h1)).2 h1⟩

/-- **C89, multiclass classification with LightGBM text files.** Every prediction is within `3ε + (K+7)/2^51 + n²B/2^50` of the exact
softmax of the sums of the leaf values. -/
theorem C89_text_multiclass (P : Platform) (print : F64 → Str) (text rest0 rest : Str) (header : List Str) (e0 e1 : Bool)
    (bs : List (List Str)) (ds : List TreeDesc) (K N : Nat) (M : Int) (objective : Str)
    (hK : 1 ≤ K ∧ K ≤ 2 ^ 20) (hN : 1 ≤ N ∧ N ≤ 2 ^ 40) (hlen : ds.length = N * K)
    (hh : FileBlock text header rest0 e0) (hhl : HeaderLines header K M ds.length false)
    (hobj : Bound header "objective".toList objective) (htr : Objective K objective (.softmax K))
    (hb : FileBlocks rest0 bs rest e1) (hbl : List.Forall₂ (TreeLines print) ds bs)
    (hok : ∀ d ∈ ds, d.OK P.parseFloat print ∧ d.inner * 24 ≤ P.maxAlloc)
    (hP : P.MulAddOK) (ε : ℝ) (hε : 0 ≤ ε ∧ ε ≤ 1 / 8) (hexp : ExpAccurate P ε)
    (B : ℚ) (hB : ∀ d ∈ ds, ∀ v ∈ d.leafValues, ∃ q, IsVal v q ∧ |q| ≤ B) (hB0 : 0 ≤ B) (hNB : N * B ≤ 689) :
    ∃ ens, lgEnsembleFromReader P ⟨text, false⟩ true = .ok (ens, ⟨rest, false⟩) ∧
      ∀ row req m m', (ens.predict P row req m.length).run m = (.ok ⟨⟩, m') → ∃ n x, Used req N n ∧ RowValues P ds K n row x ∧
        ∀ k < K, ∃ z p, m'[k]? = some z ∧ IsVal z p ∧
          |(p : ℝ) - softmaxFn ((List.range K).map fun j => ((∑ i ∈ Finset.range n, x i j : ℚ) : ℝ)) ((∑ i ∈ Finset.range n, x i k : ℚ) : ℝ)| ≤
            3 * ε + (K + 7) / 2 ^ 51 + n * (n * B) / 2 ^ 50 := by
  obtain ⟨ens, h1, -, -, -, -, -, h2⟩ := C88_text_objective P print text rest0 rest header e0 e1 bs ds K N M objective (.softmax K)
    ⟨hK.1, by omega⟩ hN.1 hlen hh hhl hobj htr (by rintro (h | h) <;> cases h) hb hbl hok
  refine ⟨ens, h1, fun row req m m' hm => ?_⟩
  obtain ⟨-, -, n, w, out, hu, hw, ht, hst⟩ := (h2 _ _ _ _).1 hm
  obtain ⟨-, n2⟩ := Used.pos hu hN.1
  obtain ⟨x, q, hx, hxB, hwl, hq⟩ := leaf_sums hP hB n2 (by omega) hB0 (hNB.trans (by
    refine _root_.le_trans (b := 2 ^ 10) (by norm_num) (pow_le_pow_right₀ one_le_two (by omega)))) hw
  obtain ⟨-, rfl⟩ := ht
  refine ⟨n, x, hu, hx, fun k hk => ?_⟩
  have hc : ∀ k < K, 0 ≤ (n : ℝ) * (n * B) / 2 ^ 52 ∧ (n : ℝ) * (n * B) / 2 ^ 52 ≤ 1 / 2 ∧
      |((q k : ℚ) : ℝ) - ((∑ i ∈ Finset.range n, x i k : ℚ) : ℝ)| ≤ (n : ℝ) * (n * B) / 2 ^ 52 ∧ |((q k : ℚ) : ℝ)| ≤ 690 := fun k hk => by
    obtain ⟨-, -, -, h⟩ := hq k hk
    exact sums_close hN.2 n2 hB0 hNB (fun i hi => hxB i hi k hk) h
  obtain ⟨hδ0R, hδ1R, -, -⟩ := hc k hk
  -- the softmax of the computed sums
  have hwq : List.Forall₂ IsVal w ((List.range K).map q) := by
    rw [List.forall₂_iff_get]
    refine ⟨by simp [hwl], fun i hi hi' => ?_⟩
    obtain ⟨y, hy, hv, -⟩ := hq i (by omega)
    rw [List.getElem?_eq_getElem hi] at hy
    cases hy
    simpa using hv
  have hol : (softmaxOf P w).length = K := by
    unfold softmaxOf
    simp only
    split <;> simp [hwl]
  obtain ⟨p, hp, hpe⟩ := softmax_val hε.1 hε.2 hexp hwq (by omega) (by omega) (k := k) (z := (softmaxOf P w)[k]'(by omega)) (q := q k)
    (by
      intro a ha
      obtain ⟨j, hj, rfl⟩ := List.mem_map.1 ha
      exact (hc j (List.mem_range.1 hj)).2.2.2) (List.getElem?_eq_getElem _) (by simp [hk])
  refine ⟨_, p, (stored_get hst (by omega)).trans (List.getElem?_eq_getElem (by omega)), hp, ?_⟩
  -- compared with the softmax of the exact sums
  have hclose := softmaxFn_close hδ0R (as := ((List.range K).map q).map (fun a : ℚ => (a : ℝ)))
    (bs := (List.range K).map fun j => ((∑ i ∈ Finset.range n, x i j : ℚ) : ℝ)) (by
      rw [List.map_map, List.forall₂_map_left_iff, List.forall₂_map_right_iff, List.forall₂_same]
      exact fun j hj => (hc j (List.mem_range.1 hj)).2.2.1) (by
      intro h
      have := congrArg List.length h
      simp at this
      omega) (hc k hk).2.2.1
  have hb1 := softmaxFn_bounds (qs := ((List.range K).map q).map (fun a : ℚ => (a : ℝ))) (x := ((q k : ℚ) : ℝ))
    (List.mem_map_of_mem (List.mem_map_of_mem (List.mem_range.2 hk)))
  have hb2 := softmaxFn_bounds (qs := (List.range K).map fun j => ((∑ i ∈ Finset.range n, x i j : ℚ) : ℝ))
    (x := ((∑ i ∈ Finset.range n, x i k : ℚ) : ℝ)) (List.mem_map.2 ⟨k, List.mem_range.2 hk, rfl⟩)
  rw [hwl] at hpe
  generalize softmaxFn (((List.range K).map q).map (fun a : ℚ => (a : ℝ))) ((q k : ℚ) : ℝ) = S at *
  generalize softmaxFn ((List.range K).map fun j => ((∑ i ∈ Finset.range n, x i j : ℚ) : ℝ)) ((∑ i ∈ Finset.range n, x i k : ℚ) : ℝ) = S' at *
  have e : (n : ℝ) * (n * B) / 2 ^ 50 = 4 * ((n : ℝ) * (n * B) / 2 ^ 52) := by ring
  rw [e]
  clear hc e
  generalize (n : ℝ) * (n * B) / 2 ^ 52 = D at *
  have hgrow : Real.exp (2 * D) - 1 ≤ 4 * D := by
    have := Real.abs_exp_sub_one_le (x := 2 * D) (by rw [abs_of_nonneg (by linarith)]; linarith)
    rw [abs_of_nonneg (show 0 ≤ 2 * D by linarith)] at this
    have := (abs_le.1 this).2
    linarith
  have h3 : (Real.exp (2 * D) - 1) * S' ≤ 4 * D * 1 := mul_le_mul hgrow hb2.2 hb2.1 (by linarith)
  have hu : (1 : ℝ) / 2 ^ 1075 ≤ 1 / 2 ^ 51 := inv_pow_le _ _ (by omega)
  generalize (1 : ℝ) / 2 ^ 1075 = u at *
  have h4 : (3 * ε + ((K : ℝ) + 6) / 2 ^ 51) * S ≤ (3 * ε + ((K : ℝ) + 6) / 2 ^ 51) * 1 :=
    mul_le_mul_of_nonneg_left hb1.2 (by have := hε.1; positivity)
  have h5 : |(p : ℝ) - S'| ≤ |(p : ℝ) - S| + |S - S'| := by
    calc |(p : ℝ) - S'| = |((p : ℝ) - S) + (S - S')| := by ring_nf
      _ ≤ _ := abs_add_le _ _
  have h6 : ((K : ℝ) + 7) / 2 ^ 51 = (K + 6) / 2 ^ 51 + 1 / 2 ^ 51 := by ring
  rw [h6]
  linarith

/-- **C89, LightGBM text files with objective poisson, gamma or tweedie.** The relative error of a prediction is at most `2ε + n²B/2^51`. -/
theorem C89_text_exponential (P : Platform) (print : F64 → Str) (text rest0 rest : Str) (header : List Str) (e0 e1 : Bool)
    (bs : List (List Str)) (ds : List TreeDesc) (M : Int) (objective : Str)
    (hN : 1 ≤ ds.length ∧ ds.length ≤ 2 ^ 40)
    (hh : FileBlock text header rest0 e0) (hhl : HeaderLines header 1 M ds.length false)
    (hobj : Bound header "objective".toList objective) (htr : Objective 1 objective .exponential)
    (hb : FileBlocks rest0 bs rest e1) (hbl : List.Forall₂ (TreeLines print) ds bs)
    (hok : ∀ d ∈ ds, d.OK P.parseFloat print ∧ d.inner * 24 ≤ P.maxAlloc)
    (hP : P.MulAddOK) (ε : ℝ) (hε : 0 ≤ ε) (hexp : ExpAccurate P ε)
    (B : ℚ) (hB : ∀ d ∈ ds, ∀ v ∈ d.leafValues, ∃ q, IsVal v q ∧ |q| ≤ B) (hB0 : 0 ≤ B) (hNB : ds.length * B ≤ 689) :
    ∃ ens, lgEnsembleFromReader P ⟨text, false⟩ true = .ok (ens, ⟨rest, false⟩) ∧
      ∀ row req m m', (ens.predict P row req m.length).run m = (.ok ⟨⟩, m') → ∃ n x, Used req ds.length n ∧ RowValues P ds 1 n row x ∧
        ∃ z p, m'[0]? = some z ∧ IsVal z p ∧
          |(p : ℝ) - Real.exp ((∑ i ∈ Finset.range n, x i 0 : ℚ) : ℝ)| ≤
            (2 * ε + n * (n * B) / 2 ^ 51) * Real.exp ((∑ i ∈ Finset.range n, x i 0 : ℚ) : ℝ) + 1 / 2 ^ 1074 := by
  obtain ⟨ens, h1, -, -, -, -, -, h2⟩ := C88_text_objective P print text rest0 rest header e0 e1 bs ds 1 ds.length M objective .exponential
    ⟨le_rfl, by norm_num⟩ hN.1 (by simp) hh hhl hobj htr (fun _ => rfl) hb hbl hok
  refine ⟨ens, h1, fun row req m m' hm => ?_⟩
  obtain ⟨-, -, n, w, out, hu, hw, ht, hst⟩ := (h2 _ _ _ _).1 hm
  obtain ⟨-, n2⟩ := Used.pos hu hN.1
  obtain ⟨x, q, hx, hxB, -, hq⟩ := leaf_sums hP hB n2 (by omega) hB0 (hNB.trans (by
    refine _root_.le_trans (b := 2 ^ 10) (by norm_num) (pow_le_pow_right₀ one_le_two (by omega)))) hw
  obtain ⟨y, rfl, rfl⟩ := ht
  obtain ⟨y', hy, hyq, hd⟩ := hq 0 zero_lt_one
  cases hy
  obtain ⟨hδ0, hδ1, hdR, hqb⟩ := sums_close hN.2 n2 hB0 hNB (fun i hi => hxB i hi 0 zero_lt_one) hd
  rcases hexp _ _ hyq with ⟨p, hp, -, hpe⟩ | ⟨-, hbig⟩
  · refine ⟨n, x, hu, hx, _, p, stored_get hst (by simp), hp, ?_⟩
    generalize ((∑ i ∈ Finset.range n, x i 0 : ℚ) : ℝ) = s at *
    generalize hD : (n : ℝ) * (n * B) / 2 ^ 52 = D at *
    have e : (n : ℝ) * (n * B) / 2 ^ 51 = 2 * D := by rw [← hD]; ring
    rw [e]
    clear hD e
    generalize (1 : ℝ) / 2 ^ 1074 = u at *
    have hE := Real.exp_pos s
    have h1 : Real.exp (q 0) ≤ Real.exp D * Real.exp s := by
      rw [← Real.exp_add, Real.exp_le_exp]
      linarith [(abs_le.1 hdR).2]
    have h2 : Real.exp (-D) * Real.exp s ≤ Real.exp (q 0) := by
      rw [← Real.exp_add, Real.exp_le_exp]
      linarith [(abs_le.1 hdR).1]
    have g1 : Real.exp D - 1 ≤ 2 * D := by
      have := Real.abs_exp_sub_one_le (x := D) (by rw [abs_of_nonneg hδ0]; linarith)
      rw [abs_of_nonneg hδ0] at this
      exact (abs_le.1 this).2
    have g2 : 1 - D ≤ Real.exp (-D) := by linarith [Real.add_one_le_exp (-D)]
    generalize Real.exp (q 0) = Q at *
    generalize Real.exp s = S at *
    have h3 : Real.exp D * S ≤ (1 + 2 * D) * S := mul_le_mul_of_nonneg_right (by linarith) hE.le
    have h4 : (1 - D) * S ≤ Real.exp (-D) * S := mul_le_mul_of_nonneg_right g2 hE.le
    have h5 : |Q - S| ≤ 2 * D * S := by
      have : 0 ≤ D * S := mul_nonneg hδ0 hE.le
      rw [abs_le]; constructor <;> linarith
    have h6 : ε * Q ≤ ε * (2 * S) := by
      refine mul_le_mul_of_nonneg_left ?_ hε
      have : 2 * D * S ≤ 1 * S := mul_le_mul_of_nonneg_right (by linarith) hE.le
      linarith
    have h7 : |(p : ℝ) - S| ≤ |(p : ℝ) - Q| + |Q - S| := by
      calc |(p : ℝ) - S| = |((p : ℝ) - Q) + (Q - S)| := by ring_nf
        _ ≤ _ := abs_add_le _ _
    linarith
  · exfalso
    have h1 : Real.exp (q 0) ≤ 2 ^ 997 := exp_le_pow (abs_le.1 hqb).2
    have h2 : (2 : ℝ) ^ 997 < 2 ^ 1023 := pow_lt_pow_right₀ one_lt_two (by omega)
    exact absurd (hbig.trans h1) (not_le.2 h2)

/-! ### XGBoost -/

/-- the values of float32 numbers -/
theorem ofBits32_bound {b : BitVec 32} {q : ℚ} (h : IsVal (F64.ofBits32 b) q) : |q| ≤ 2 ^ 128 := by
  by_cases hfin : b.toNat / 2 ^ 23 % 2 ^ 8 = 255
  · exfalso
    unfold F64.ofBits32 at h
    simp only at h
    rw [if_pos hfin] at h
    split at h <;> exact absurd (isVal_iff.1 h).1 (by rintro ⟨_, _, _, h⟩; cases h)
  · have h1 := IEEE_ofBits32 b _ _ rfl rfl hfin
    rw [IsVal.unique h h1]
    have he : b.toNat / 2 ^ 23 % 2 ^ 8 < 2 ^ 8 := Nat.mod_lt _ (by norm_num)
    have hf : b.toNat % 2 ^ 23 < 2 ^ 23 := Nat.mod_lt _ (by norm_num)
    generalize b.toNat / 2 ^ 23 % 2 ^ 8 = e at *
    generalize b.toNat % 2 ^ 23 = f at *
    have hs : |(if b.getLsbD 31 then -1 else 1 : ℚ)| = 1 := by split <;> simp
    have hm : |(if e = 0 then (f : ℚ) else (2 ^ 23 + f) * 2 ^ (e - 1))| ≤ 2 ^ 24 * 2 ^ 253 := by
      have hf' : (f : ℚ) ≤ 2 ^ 23 := by exact_mod_cast hf.le
      split
      · rw [abs_of_nonneg (Nat.cast_nonneg _)]
        exact hf'.trans (by norm_num)
      · rw [abs_of_nonneg (by positivity)]
        exact mul_le_mul (by linarith) (pow_le_pow_right₀ one_le_two (by omega)) (by positivity) (by positivity)
    have h149 : (0 : ℚ) < 2 ^ 149 := pow_pos two_pos _
    rw [abs_div, abs_mul, hs, one_mul, abs_of_pos h149, div_le_iff₀ h149, ← pow_add]
    rw [← pow_add] at hm
    exact hm

/-- **C89, binary classification with XGBoost trees.** All numbers in the file must be finite. Every prediction is within
`2ε + 2^-46 + (n+1)/2^54 * (|b| + Σ |w i * x i|)` of the logistic function of the base score `b` plus the weighted leaf values. -/
theorem C89_xgboost_file (P : Platform) (m : XgModel) (N : Nat) (ok : m.OK P.maxAlloc 1 N) (hN : N ≤ 2 ^ 51)
    (hobj : m.header.nameObj = asciiBytes "binary:logistic")
    (hbase : ∃ b, IsVal (F64.ofBits32 m.header.param.baseScore) b)
    (hleaf : ∀ t ∈ m.gbtree.trees, ∀ nd ∈ t.nodes, ∃ q, IsVal (F64.ofBits32 nd.info) q)
    (hweight : m.dart = true → ∀ u ∈ m.weights, ∃ q, IsVal (F64.ofBits32 u) q)
    (hP : P.MulAddOK) (ε : ℝ) (hε : 0 ≤ ε ∧ ε ≤ 1 / 2) (hexp : ExpAccurate P ε) :
    ∃ ens, (∀ rest, xgEnsembleFromReader P true (m.image ++ rest) = .ok (ens, rest)) ∧
      ∀ row req s s', (ens.predict P row req s.length).run s = (.ok ⟨⟩, s') → ∃ n, Used req N n ∧
        ∃ (x w : Nat → ℚ) (b : ℚ), IsVal (F64.ofBits32 m.header.param.baseScore) b ∧
          (∀ i < n, ∃ t T leaf v c, m.gbtree.trees[i]? = some t ∧ m.shapes[i]? = some T ∧
            Walk (XgGoesLe t.nodes row) T leaf ∧ XgVal t.nodes leaf v ∧ m.Weight i c ∧ IsVal v (x i) ∧ IsVal c (w i)) ∧
          ∃ z p, s'[0]? = some z ∧ IsVal z p ∧
            |(p : ℝ) - logisticFn ((b + ∑ i ∈ Finset.range n, w i * x i : ℚ) : ℝ)| ≤
              2 * ε + 1 / 2 ^ 46 + (((n + 1 : Nat) / 2 ^ 54 * (|b| + ∑ i ∈ Finset.range n, |w i * x i|) : ℚ) : ℝ) := by
  obtain ⟨ens, h1, -, -, -, -, -, -, h2⟩ := C62_xgboost_file_le P m 1 N ok true .logistic (.logistic hobj) (fun _ => rfl)
  refine ⟨ens, h1, fun row req s s' hm => ?_⟩
  obtain ⟨-, -, n, w, out, hu, ⟨v, c, hv, hc, hw⟩, ht, hst⟩ := (h2 _ _ _ _).1 hm
  obtain ⟨-, n2⟩ := Used.pos hu ok.counts.2.1
  obtain ⟨b, hb⟩ := hbase
  have hx : ∀ i, ∃ x y, i < n → IsVal (v i 0) x ∧ IsVal (c i 0) y ∧ |x| ≤ 2 ^ 128 ∧ |y| ≤ 2 ^ 128 := by
    intro i
    by_cases hi : i < n
    · obtain ⟨t, T, leaf, a1, -, -, nd, a4, a5⟩ := hv i hi 0 zero_lt_one
      obtain ⟨x, hx⟩ := hleaf t (List.mem_of_getElem? a1) nd (List.mem_of_getElem? a4)
      have h3 := hc i hi 0 zero_lt_one
      unfold XgModel.Weight at h3
      split at h3
      next hd =>
        obtain ⟨u, b1, b2⟩ := h3
        obtain ⟨y, hy⟩ := hweight hd u (List.mem_of_getElem? b1)
        exact ⟨x, y, fun _ => ⟨a5 ▸ hx, b2 ▸ hy, ofBits32_bound hx, ofBits32_bound hy⟩⟩
      next => exact ⟨x, 1, fun _ => ⟨a5 ▸ hx, h3 ▸ val_one, ofBits32_bound hx, by norm_num⟩⟩
    · exact ⟨0, 0, fun h => absurd h hi⟩
  choose x y hxy using hx
  have hS : |b| + ∑ i ∈ Finset.range n, |y i * x i| ≤ 2 ^ 990 := by
    have h1 := ofBits32_bound hb
    have h2 := Finset.sum_le_card_nsmul (Finset.range n) (fun i => |y i * x i|) (2 ^ 256) fun i hi => by
      obtain ⟨-, -, h3, h4⟩ := hxy i (Finset.mem_range.1 hi)
      show |y i * x i| ≤ _
      rw [abs_mul, show (2 : ℚ) ^ 256 = 2 ^ 128 * 2 ^ 128 by norm_num]
      exact mul_le_mul h4 h3 (abs_nonneg _) (by positivity)
    rw [Finset.card_range, nsmul_eq_mul] at h2
    have h3 : (n : ℚ) * 2 ^ 256 ≤ 2 ^ 51 * 2 ^ 256 := mul_le_mul_of_nonneg_right (by exact_mod_cast n2.trans hN) (by positivity)
    have h4 : (2 : ℚ) ^ 128 + 2 ^ 51 * 2 ^ 256 ≤ 2 ^ 308 := by
      rw [← pow_add, pow_succ _ 307, mul_two]
      exact add_le_add (pow_le_pow_right₀ one_le_two (by omega)) le_rfl
    refine _root_.le_trans (_root_.le_trans (add_le_add h1 (h2.trans h3)) h4) (pow_le_pow_right₀ one_le_two (by omega))
  obtain ⟨q, hq, hd⟩ := weighted_finite hP (v := fun i => v i 0) (c := fun i => c i 0) (x := x) (w := y) (by omega)
    (fun i hi => ⟨(hxy i hi).1, (hxy i hi).2.1⟩) hb hS
  obtain ⟨z, rfl, rfl⟩ := ht
  have hz : z = accumulate (fun i acc => P.mulAdd (v i 0) (c i 0) acc) n (F64.ofBits32 m.header.param.baseScore) := by
    simpa [List.range_succ] using hw
  rw [← hz] at hq
  obtain ⟨p, hp, hpe⟩ := logistic_val hε.1 hε.2 hexp hq
  refine ⟨n, hu, x, y, b, hb, fun i hi => ?_, _, p, stored_get hst (by simp), hp, ?_⟩
  · obtain ⟨t, T, leaf, a1, a2, a3, a4⟩ := hv i hi 0 zero_lt_one
    rw [Nat.mul_one, Nat.add_zero] at a1 a2
    have h3 := hc i hi 0 zero_lt_one
    rw [Nat.mul_one, Nat.add_zero] at h3
    exact ⟨t, T, leaf, _, _, a1, a2, a3, a4, h3, (hxy i hi).1, (hxy i hi).2.1⟩
  have l1 := logisticFn_le_one q
  have l2 := logisticFn_lipschitz q ((b + ∑ i ∈ Finset.range n, y i * x i : ℚ) : ℝ)
  have hsmall : (n : ℚ) / unit ≤ 1 / 2 ^ 48 := by
    rw [unit_cast, div_le_div_iff₀ (pow_pos two_pos _) (by positivity), one_mul]
    have h3 : (n : ℚ) ≤ 2 ^ 51 := by exact_mod_cast n2.trans hN
    calc (n : ℚ) * 2 ^ 48 ≤ 2 ^ 51 * 2 ^ 48 := mul_le_mul_of_nonneg_right h3 (by positivity)
      _ = 2 ^ 99 := by norm_num
      _ ≤ _ := pow_le_pow_right₀ one_le_two (by omega)
  have hd1 : |q - (b + ∑ i ∈ Finset.range n, y i * x i)| ≤
      ((n + 1 : Nat) : ℚ) / 2 ^ 52 * (|b| + ∑ i ∈ Finset.range n, |y i * x i|) + 1 / 2 ^ 48 :=
    _root_.le_trans hd (add_le_add le_rfl hsmall)
  have hd' := cast_abs_le hd1
  rw [Rat.cast_sub, cast_small] at hd'
  clear hS hd hd1 hsmall
  rw [cast_quarter]
  have hu : (1 : ℝ) / 2 ^ 1022 ≤ 1 / 2 ^ 48 := inv_pow_le _ _ (by omega)
  generalize (1 : ℝ) / 2 ^ 1022 = u at *
  generalize (((n + 1 : Nat) / 2 ^ 52 * (|b| + ∑ i ∈ Finset.range n, |y i * x i|) : ℚ) : ℝ) = D at *
  generalize ((b + ∑ i ∈ Finset.range n, y i * x i : ℚ) : ℝ) = t at *
  have h3 : (2 * ε + 1 / 2 ^ 48) * logisticFn q ≤ (2 * ε + 1 / 2 ^ 48) * 1 :=
    mul_le_mul_of_nonneg_left l1 (by have := hε.1; positivity)
  have h4 : |(p : ℝ) - logisticFn t| ≤ |(p : ℝ) - logisticFn q| + |logisticFn q - logisticFn t| := by
    calc |(p : ℝ) - logisticFn t| = |((p : ℝ) - logisticFn q) + (logisticFn q - logisticFn t)| := by ring_nf
      _ ≤ _ := abs_add_le _ _
  have h6 : (1 : ℝ) / 2 ^ 46 = 4 * (1 / 2 ^ 48) := by norm_num
  have h7 : (0 : ℝ) < 1 / 2 ^ 48 := by positivity
  rw [h6]
  generalize (1 : ℝ) / 2 ^ 48 = a at *
  linarith

/-! ### concrete models -/

namespace ProbabilityExample

open F64

/-- numbers below `2^1023` do not overflow -/
theorem finite_below {q : ℚ} {x : F64} (h : Rounded q x) (hq : |q| < 2 ^ 1023) : ∃ p, IsVal x p := by
  obtain ⟨-, -, m, ⟨-, hm⟩, hx⟩ := h
  rcases hx with ⟨-, s, hs, rfl⟩ | ⟨hl, -⟩
  · exact ⟨_, isVal_of_isFin (isFin_fin _ _ _)⟩
  · exfalso
    have h1 := (hm 0 ⟨0, 0, by norm_num, by norm_num⟩).1
    have h2 : |q| * unit < 2 ^ (1023 + 1074) := by
      rw [unit_cast, pow_add]
      exact mul_lt_mul_of_pos_right hq (pow_pos two_pos _)
    have h3 : (2 : ℚ) ^ 2098 ≤ m := by
      rw [magLimit_eq] at hl
      have : ((2 ^ 2098 : Nat) : ℚ) ≤ m := Nat.cast_le.2 hl
      rwa [Nat.cast_pow, Nat.cast_ofNat] at this
    rw [pow_succ _ 2097] at h3
    have h0 : 0 ≤ |q| * unit := mul_nonneg (abs_nonneg _) (Nat.cast_nonneg _)
    rw [Nat.cast_zero, zero_sub, abs_neg, abs_of_nonneg h0] at h1
    have h4 := (abs_le.1 h1).2
    change |q| * unit < 2 ^ 2097 at h2
    generalize (2 : ℚ) ^ 2097 = A at h2 h3
    clear hl hq
    linarith

/-- a rational number close to the exponential -/
theorem near_exp (q : ℚ) : ∃ n d : Nat, 0 < d ∧ 0 < n ∧ Real.exp q * (1 - 1 / 2 ^ 60) < ((n / d : ℚ) : ℝ) ∧ ((n / d : ℚ) : ℝ) < Real.exp q := by
  have h := Real.exp_pos (q : ℝ)
  obtain ⟨r, h1, h2⟩ := exists_rat_btwn (show Real.exp q * (1 - 1 / 2 ^ 60) < Real.exp q by
    have : Real.exp q * (1 - 1 / 2 ^ 60) = Real.exp q - Real.exp q / 2 ^ 60 := by ring
    rw [this]
    have : 0 < Real.exp (q : ℝ) / 2 ^ 60 := by positivity
    linarith)
  have h0 : 0 < r := by
    have : (0 : ℝ) < r := lt_trans (mul_pos h (by norm_num)) h1
    exact_mod_cast this
  have hnum : ((r.num.natAbs : ℚ) / r.den) = r := by
    have h3 : ((r.num.natAbs : Int)) = r.num := Int.natAbs_of_nonneg (Rat.num_pos.2 h0).le
    have h4 : ((r.num.natAbs : ℚ)) = r.num := (Int.cast_natCast (R := ℚ) r.num.natAbs).symm.trans (congrArg Int.cast h3)
    rw [h4, Rat.num_div_den]
  refine ⟨r.num.natAbs, r.den, r.den_pos, Int.natAbs_pos.2 (Rat.num_pos.2 h0).ne', ?_, ?_⟩ <;> rw [hnum] <;> assumption

open Classical in
/-- an accurate exponential function -/
noncomputable def exactExp (x : F64) : F64 :=
  if h : ∃ q, IsVal x q then
    if (2 : ℝ) ^ 1023 ≤ Real.exp h.choose then F64.inf false
    else F64.const (near_exp h.choose).choose (near_exp h.choose).choose_spec.choose
  else F64.nan

/-- the platform of the other examples with it -/
noncomputable def accurate (P : Platform) : Platform := { P with exp := exactExp }

/-- A platform as assumed exists, with the accuracy that the Go library promises. -/
theorem accurate_exp (P : Platform) : ExpAccurate (accurate P) (1 / 2 ^ 52) := by
  intro x q hx
  show (∃ e : ℚ, IsVal (exactExp x) e ∧ _) ∨ exactExp x = _ ∧ _
  unfold exactExp
  have h : ∃ q, IsVal x q := ⟨q, hx⟩
  rw [dif_pos h]
  obtain e : h.choose = q := IsVal.unique h.choose_spec hx
  split
  next hb => exact .inr ⟨rfl, e ▸ hb⟩
  next hb =>
    obtain ⟨hd, hn, h1, h2⟩ := (near_exp h.choose).choose_spec.choose_spec
    generalize (near_exp h.choose).choose_spec.choose = d at *
    generalize (near_exp h.choose).choose = n at *
    rw [e] at h1 h2 hb
    have hr := IEEE_const n hd
    have h0 : (0 : ℚ) < n / d := div_pos (Nat.cast_pos.2 hn) (Nat.cast_pos.2 hd)
    have hlt : |((n : ℚ) / d)| < 2 ^ 1023 := by
      rw [abs_of_pos h0]
      have h3 := h2.trans (not_le.1 hb)
      rw [← Rat.cast_ofNat (n := 2), ← Rat.cast_pow] at h3
      exact Rat.cast_lt.1 h3
    obtain ⟨p, hp⟩ := finite_below hr hlt
    have herr := Rounded.err hr hp
    have hp0 : 0 ≤ p := by
      have hs := hr.1 h0
      obtain ⟨s, k, hk, hc, he, hm⟩ := isVal_scaled hp
      rw [hc] at hs
      obtain rfl : s = false := by
        rcases hs with ⟨_, _, h⟩ | h
        · cases h; rfl
        · cases h
      rw [hm] at he
      by_contra hneg
      have := mul_neg_of_neg_of_pos (not_le.1 hneg) unitQ_pos
      rw [he] at this
      exact absurd this (not_lt.2 (by simp))
    refine .inl ⟨p, hp, hp0, ?_⟩
    have hu : (1 : ℝ) / 2 ^ 1075 ≤ 1 / 2 ^ 1074 := inv_pow_le _ _ (by omega)
    have h4 := cast_abs_le herr
    rw [Rat.cast_sub, abs_of_pos h0, Rat.cast_add, Rat.cast_div _ ((2 : ℚ) ^ 53), Rat.cast_div 1, Rat.cast_one, Rat.cast_pow, Rat.cast_pow, Rat.cast_ofNat] at h4
    clear herr hlt hb
    generalize ((n / d : ℚ) : ℝ) = r at *
    generalize (1 : ℝ) / 2 ^ 1075 = u at *
    generalize (1 : ℝ) / 2 ^ 1074 = u' at *
    have hE := Real.exp_pos (q : ℝ)
    generalize Real.exp (q : ℝ) = E at *
    have h5 : |(p : ℝ) - E| ≤ |(p : ℝ) - r| + |r - E| := by
      calc |(p : ℝ) - E| = |((p : ℝ) - r) + (r - E)| := by ring_nf
        _ ≤ _ := abs_add_le _ _
    have h6 : |r - E| ≤ E / 2 ^ 60 := by
      rw [abs_le]
      constructor
      · have : E * (1 - 1 / 2 ^ 60) = E - E / 2 ^ 60 := by ring
        linarith
      · have : 0 < E / 2 ^ 60 := by positivity
        linarith
    have h7 : r / 2 ^ 53 ≤ E / 2 ^ 53 := div_le_div_of_nonneg_right h2.le (by positivity)
    have h8 : E / 2 ^ 53 + E / 2 ^ 60 ≤ 1 / 2 ^ 52 * E := by
      have : E / 2 ^ 53 + E / 2 ^ 60 = (1 / 2 ^ 53 + 1 / 2 ^ 60) * E := by ring
      rw [this]
      exact mul_le_mul_of_nonneg_right (by norm_num) hE.le
    linarith

open LgExample (platform)
open LgLoadExample (d1 d2 print ds_ok)

theorem small_leaves : ∀ d ∈ [d1, d2], ∀ v ∈ d.leafValues, ∃ q, IsVal v q ∧ |q| ≤ 40 := by
  have h : ∀ k ≤ 40, ∃ q, IsVal (F64.ofNat k) q ∧ |q| ≤ 40 := fun k hk => ⟨k, isVal_ofNat (by omega), by
    rw [abs_of_nonneg (Nat.cast_nonneg _)]
    exact_mod_cast hk⟩
  intro d hd v hv
  simp only [List.mem_cons, List.not_mem_nil, or_false] at hd
  rcases hd with rfl | rfl
  · simp only [d1, List.mem_cons, List.not_mem_nil, or_false] at hv
    rcases hv with rfl | rfl | rfl | rfl <;> exact h _ (by norm_num)
  · simp only [d2, List.mem_cons, List.not_mem_nil, or_false] at hv
    subst hv
    exact h _ (by norm_num)

/-- Two classes: the probabilities are accurate to 2^-42. -/
example (tail : Str) : ∃ ens, lgEnsembleFromReader (accurate platform) ⟨objectiveText print [d1, d2] 2 1 "multiclass num_class:2".toList ++ tail, false⟩ true =
      .ok (ens, ⟨tail, false⟩) ∧
    ∀ row req m m', (ens.predict (accurate platform) row req m.length).run m = (.ok ⟨⟩, m') → ∃ x, RowValues (accurate platform) [d1, d2] 2 1 row x ∧
      ∀ k < 2, ∃ z p, m'[k]? = some z ∧ IsVal z p ∧
        |(p : ℝ) - Real.exp (x 0 k) / (Real.exp (x 0 0) + Real.exp (x 0 1))| ≤ 1 / 2 ^ 42 := by
  obtain ⟨_, _, _, b1, b2, b3, b4, b5⟩ := objectiveText_blocks (P := accurate platform) tail 2 "multiclass num_class:2".toList (M := 1) (by norm_num)
    ⟨by decide, by decide, by unfold whiteSpace; decide⟩ ds_ok
  obtain ⟨ens, h1, h2⟩ := C89_text_multiclass (accurate platform) print _ _ _ _ _ _ _ [d1, d2] 2 1 1 "multiclass num_class:2".toList (by norm_num) (by norm_num)
    rfl b1 b2 b3 (.multiclass "2".toList ClassifyExample.numeral_2) b4 b5 (fun d hd => ⟨(ds_ok d hd).1, (ds_ok d hd).2.2⟩) (fun x y z => .inl rfl)
    (1 / 2 ^ 52) (by norm_num) (accurate_exp _) 40 small_leaves (by norm_num) (by norm_num)
  refine ⟨ens, h1, fun row req m m' hm => ?_⟩
  obtain ⟨n, x, hu, hx, h3⟩ := h2 row req m m' hm
  obtain rfl : n = 1 := by have := Used.pos hu le_rfl; omega
  refine ⟨x, hx, fun k hk => ?_⟩
  obtain ⟨z, p, a1, a2, a3⟩ := h3 k hk
  refine ⟨z, p, a1, a2, ?_⟩
  simp only [softmaxFn, List.range_succ, List.range_zero, Finset.sum_range_one, List.nil_append, List.map_cons, List.map_nil,
    List.cons_append, List.sum_cons, List.sum_nil, add_zero] at a3
  exact a3.trans (by norm_num)

/-- A binary model with the same trees, one after the other. -/
example (tail : Str) : ∃ ens, lgEnsembleFromReader (accurate platform) ⟨objectiveText print [d1, d2] 1 1 "binary sigmoid:1".toList ++ tail, false⟩ true =
      .ok (ens, ⟨tail, false⟩) ∧
    ∀ row req m m', (ens.predict (accurate platform) row req m.length).run m = (.ok ⟨⟩, m') → ∃ n x, Used req 2 n ∧
      RowValues (accurate platform) [d1, d2] 1 n row x ∧ ∃ z p, m'[0]? = some z ∧ IsVal z p ∧
        |(p : ℝ) - logisticFn ((∑ i ∈ Finset.range n, x i 0 : ℚ) : ℝ)| ≤
          2 * (1 / 2 ^ 52) + 1 / 2 ^ 47 + ((n / 2 ^ 54 * ∑ i ∈ Finset.range n, |x i 0| : ℚ) : ℝ) := by
  have h := objectiveText_blocks (P := accurate platform) tail 1 "binary sigmoid:1".toList (M := 1) (by norm_num)
    ⟨by decide, by decide, by unfold whiteSpace; decide⟩ ds_ok
  obtain ⟨_, _, _, b1, b2, b3, b4, b5⟩ := h
  exact C89_text_binary (accurate platform) print _ _ _ _ _ _ _ [d1, d2] 1 "binary sigmoid:1".toList (by norm_num)
    b1 b2 b3 (.binary "1".toList ClassifyExample.numeral_1) b4 b5 (fun d hd => ⟨(ds_ok d hd).1, (ds_ok d hd).2.2⟩) (fun x y z => .inl rfl)
    (1 / 2 ^ 52) (by norm_num) (accurate_exp _) 40 small_leaves (by norm_num)
    (by
      refine _root_.le_trans (b := 2 ^ 10) (by norm_num) (pow_le_pow_right₀ one_le_two (by omega)))

theorem val32 {b : BitVec 32} (h : b.toNat / 2 ^ 23 % 2 ^ 8 ≠ 255) : ∃ q, IsVal (F64.ofBits32 b) q := by
  have := IEEE_ofBits32 b _ _ rfl rfl h
  revert this
  generalize (if b.getLsbD 31 = true then -1 else 1 : ℚ) * _ / _ = q
  exact fun h => ⟨q, h⟩

theorem finite_nodes : ∀ t ∈ (XgFileExample.file 1#32).gbtree.trees, ∀ nd ∈ t.nodes, nd.info.toNat / 2 ^ 23 % 2 ^ 8 ≠ 255 := by decide +kernel

theorem finite_weights : ∀ u ∈ (XgFileExample.file 1#32).weights, u.toNat / 2 ^ 23 % 2 ^ 8 ≠ 255 := by
  intro u hu
  change u ∈ [0x3f800000#32, 0x3f000000#32] at hu
  simp only [List.mem_cons, List.not_mem_nil, or_false] at hu
  rcases hu with rfl | rfl
  · rw [BitVec.toNat_ofNat]; norm_num
  · rw [BitVec.toNat_ofNat]; norm_num

/-- The XGBoost file of `XgFileExample`. -/
example := C89_xgboost_file (accurate Platform.demo) (XgFileExample.file 1#32) 2 XgFileExample.file_ok
  (show 2 ≤ 2 ^ 51 by omega) (show asciiBytes "binary:logistic" = _ from rfl) (val32 (by decide)) (fun t ht nd hnd => val32 (finite_nodes t ht nd hnd)) (fun _ u hu => val32 (finite_weights u hu)) (fun _ _ _ => .inl rfl)
  (1 / 2 ^ 52) (by norm_num) (accurate_exp _)

end ProbabilityExample

end Leaves
