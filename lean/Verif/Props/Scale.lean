import Verif.Spec.Scale
import Verif.Props.Opposite

/-!
# C125: leaf values multiplied by a power of two give scores multiplied by it
-/

namespace Leaves
open Spec GoM

theorem rne_scale (n d c : Nat) (hc : 0 < c) : rne (n * c) (d * c) = rne n d := by
  unfold rne
  rw [Nat.mul_div_mul_right _ _ hc, Nat.mul_mod_mul_right]
  dsimp only
  have e : 2 * (n % d * c) = 2 * (n % d) * c := by ring
  simp only [e, Nat.mul_lt_mul_right hc]

/-- rounding a whole number of units to 53 digits commutes with multiplying by a power of two -/
theorem roundMag_pow (n k : Nat) : roundMag (n * 2 ^ k) 1 = roundMag n 1 * 2 ^ k := by
  rcases Nat.eq_zero_or_pos n with rfl | hn
  · simp [roundMag_zero]
  have hlog : (n * 2 ^ k).log2 = n.log2 + k := by
    have h1 := Nat.log2_self_le hn.ne'
    have h2 := Nat.lt_log2_self (n := n)
    rw [Nat.log2_eq_iff (by positivity), Nat.pow_add, Nat.add_right_comm, Nat.pow_add]
    exact ⟨Nat.mul_le_mul_right _ h1, Nat.mul_lt_mul_of_pos_right h2 (by positivity)⟩
  by_cases h : 52 ≤ n.log2
  · unfold roundMag ulpExp
    rw [Nat.div_one, Nat.div_one, hlog, show n.log2 + k - 52 = n.log2 - 52 + k by omega, Nat.one_mul, Nat.one_mul, Nat.pow_add,
      rne_scale _ _ _ (by positivity), Nat.mul_assoc]
  · rw [show roundMag n 1 = n by
      have := roundMag_exact (m := n) (d := 1) (by omega) (by rw [show n.log2 - 52 = 0 by omega]; exact one_dvd _)
      simpa using this]
    have := roundMag_exact (m := n * 2 ^ k) (d := 1) (by omega) (by
      rw [hlog]
      exact Dvd.dvd.mul_left (Nat.pow_dvd_pow 2 (by omega)) n)
    simpa using this

namespace F64

theorem times_fin {k : Nat} {s t : Bool} {m n : Nat} {hm : Rep m} {hn : Rep n} : TimesPow k (fin s m hm) (fin t n hn) ↔
    (fin t n hn).toInt = 2 ^ k * (fin s m hm).toInt := by
  have hu : (unit : ℚ) ≠ 0 := by exact_mod_cast unit_pos.ne'
  constructor
  · intro h
    obtain ⟨p, h1, h2⟩ := h _ (value_fin t n hn)
    rw [IsVal.unique h1 (value_fin s m hm)] at h2
    have : ((fin t n hn).toInt : ℚ) = ((2 ^ k * (fin s m hm).toInt : Int) : ℚ) := by
      field_simp at h2
      rw [h2]; push_cast; ring
    exact_mod_cast this
  · intro h q hq
    refine ⟨_, value_fin s m hm, ?_⟩
    rw [IsVal.unique hq (value_fin t n hn), h]
    push_cast
    ring

theorem times_cases {k : Nat} {x y : F64} (h : TimesPow k x y) : ¬ IsFin y ∨
    ∃ s m hm t n hn, x = fin s m hm ∧ y = fin t n hn ∧ (fin t n hn).toInt = 2 ^ k * (fin s m hm).toInt := by
  by_cases hy : IsFin y
  · obtain ⟨p, hp, -⟩ := h _ (isVal_of_isFin hy)
    obtain ⟨⟨s, m, hm, rfl⟩, -⟩ := isVal_iff.1 hp
    obtain ⟨t, n, hn, rfl⟩ := hy
    exact .inr ⟨s, m, hm, t, n, hn, rfl, rfl, times_fin.1 h⟩
  · exact .inl hy

theorem times_of_not {k : Nat} {x y : F64} (h : ¬ IsFin y) : TimesPow k x y := fun _ hq => absurd (isVal_iff.1 hq).1 h

theorem not_fin_inf (s : Bool) : ¬ IsFin (inf s) := by rintro ⟨_, _, _, h⟩; cases h

theorem not_fin_nan : ¬ IsFin nan := by rintro ⟨_, _, _, h⟩; cases h

theorem ofScaled_times (k : Nat) (s t : Bool) (v : Int) : TimesPow k (ofScaled s v 1) (ofScaled t (2 ^ k * v) 1) := by
  unfold ofScaled
  by_cases h : v = 0
  · subst h
    rw [if_pos rfl, if_pos (Int.mul_zero _)]
    exact times_fin.2 (by rw [toInt_zero, toInt_zero]; rfl)
  · have hk : (0 : Int) < 2 ^ k := by positivity
    rw [if_neg h, if_neg (Int.mul_ne_zero hk.ne' h)]
    have e1 : decide (2 ^ k * v < 0) = decide (v < 0) := by
      rw [decide_eq_decide]
      exact ⟨fun h => by by_contra hc; have := Int.mul_nonneg hk.le (not_lt.1 hc); omega, fun h => Int.mul_neg_of_pos_of_neg hk h⟩
    have e2 : (2 ^ k * v).natAbs = v.natAbs * 2 ^ k := by
      rw [Int.natAbs_mul, Int.natAbs_pow, Nat.mul_comm]; rfl
    rw [e1, e2]
    unfold ofRatio
    have e3 := roundMag_pow v.natAbs k
    by_cases hb : roundMag (v.natAbs * 2 ^ k) 1 < magLimit
    · have ha : roundMag v.natAbs 1 < magLimit := _root_.lt_of_le_of_lt (Nat.le_mul_of_pos_right _ (by positivity)) (e3 ▸ hb)
      rw [dif_pos hb, dif_pos ha]
      refine times_fin.2 ?_
      by_cases hv : v < 0
      · simp only [hv, decide_true, toInt]; rw [e3]; push_cast; ring
      · simp only [hv, decide_false, toInt]; rw [e3]; push_cast; ring
    · rw [dif_neg hb]
      exact times_of_not (not_fin_inf _)

theorem add_finite {x y : F64} (h : IsFin (add x y)) : IsFin x ∧ IsFin y := by
  obtain ⟨s, m, hm, h⟩ := h
  rcases x with _ | a | ⟨a, b, c⟩ <;> rcases y with _ | a' | ⟨a', b', c'⟩
  · cases h
  · cases h
  · cases h
  · cases h
  · unfold add at h
    dsimp only at h
    split at h <;> cases h
  · cases h
  · cases h
  · cases h
  · exact ⟨⟨_, _, _, rfl⟩, ⟨_, _, _, rfl⟩⟩

/-- sums of multiplied numbers are multiplied sums, if they do not overflow -/
theorem add_times {k : Nat} {x x' y y' : F64} (hx : TimesPow k x x') (hy : TimesPow k y y') : TimesPow k (add x y) (add x' y') := by
  by_cases h : IsFin (add x' y')
  · obtain ⟨f1, f2⟩ := add_finite h
    rcases times_cases hx with g | ⟨s, m, hm, s', m', hm', rfl, rfl, hi⟩
    · exact absurd f1 g
    rcases times_cases hy with g | ⟨t, n, hn, t', n', hn', rfl, rfl, hj⟩
    · exact absurd f2 g
    show TimesPow k (ofScaled _ _ 1) (ofScaled _ _ 1)
    rw [hi, hj, ← Int.mul_add]
    exact ofScaled_times _ _ _ _
  · exact times_of_not h

/-- the product of two float32 numbers is exact -/
theorem mul_float32 (a b : BitVec 32) (ha : IsFin (ofBits32 a)) (hb : IsFin (ofBits32 b)) :
    ∃ s m hm, mul (ofBits32 a) (ofBits32 b) = fin s m hm ∧ (fin s m hm).toInt * unit = (ofBits32 a).toInt * (ofBits32 b).toInt := by
  rcases ofBits32_shape a with h | ⟨s, h⟩ | ⟨s, x, i, hx, x1, x2, x3, h⟩
  · rw [h] at ha; exact absurd ha not_fin_nan
  · rw [h] at ha; exact absurd ha (not_fin_inf _)
  rcases ofBits32_shape b with g | ⟨t, g⟩ | ⟨t, y, j, hy, y1, y2, y3, g⟩
  · rw [g] at hb; exact absurd hb not_fin_nan
  · rw [g] at hb; exact absurd hb (not_fin_inf _)
  rw [h, g]
  have e : x * 2 ^ i * (y * 2 ^ j) = x * y * 2 ^ (i + j - 1074) * unit := by
    rw [unit_eq, Nat.mul_assoc (x * y), ← Nat.pow_add, show i + j - 1074 + 1074 = i + j by omega, Nat.pow_add]
    ring
  have hq : Rep (x * y * 2 ^ (i + j - 1074)) := by
    refine rep_of_mul_pow ?_ ?_
    · calc x * y ≤ 2 ^ 24 * 2 ^ 24 := Nat.mul_le_mul x1.le y1.le
        _ ≤ 2 ^ 53 := by norm_num
    · rw [magLimit_eq]
      calc x * y * 2 ^ (i + j - 1074) ≤ 2 ^ 48 * 2 ^ (i + j - 1074) :=
            Nat.mul_le_mul_right _ ((Nat.mul_le_mul x1.le y1.le).trans (by norm_num))
        _ = 2 ^ (48 + (i + j - 1074)) := (Nat.pow_add ..).symm
        _ < 2 ^ 2098 := Nat.pow_lt_pow_right (by omega) (by omega)
  generalize x * 2 ^ i = X at *
  generalize y * 2 ^ j = Y at *
  generalize x * y * 2 ^ (i + j - 1074) = Q at *
  refine ⟨xor s t, Q, hq, ?_, ?_⟩
  · unfold mul
    dsimp only
    rw [e, ofRatio_unit, ofRatio_rep hq]
  · have e' : (X : Int) * Y = Q * unit := by exact_mod_cast e
    rw [toInt_fin, toInt_fin, toInt_fin]
    cases s <;> cases t <;> simp only [Bool.xor_false, Bool.xor_true, Bool.not_false, Bool.not_true, Bool.false_eq_true, if_true, if_false]
      <;> nlinarith

theorem mul_finite {x y : F64} (h : IsFin (mul x y)) : IsFin x ∧ IsFin y := by
  obtain ⟨s, m, hm, h⟩ := h
  rcases x with _ | a | ⟨a, b, c⟩ <;> rcases y with _ | a' | ⟨a', b', c'⟩
  · cases h
  · cases h
  · cases h
  · cases h
  · cases h
  · unfold mul at h
    dsimp only at h
    split at h <;> cases h
  · cases h
  · unfold mul at h
    dsimp only at h
    split at h <;> cases h
  · exact ⟨⟨_, _, _, rfl⟩, ⟨_, _, _, rfl⟩⟩

theorem mul_times {k : Nat} {a a' c : BitVec 32} (h : TimesPow k (ofBits32 a) (ofBits32 a')) :
    TimesPow k (mul (ofBits32 a) (ofBits32 c)) (mul (ofBits32 a') (ofBits32 c)) := by
  by_cases hf : IsFin (mul (ofBits32 a') (ofBits32 c))
  · obtain ⟨f1, f2⟩ := mul_finite hf
    rcases times_cases h with g | ⟨s, m, hm, s', m', hm', e1, e2, hi⟩
    · exact absurd f1 g
    obtain ⟨s1, m1, h1, g1, g2⟩ := mul_float32 a c ⟨_, _, _, e1⟩ f2
    obtain ⟨s2, m2, h2, g3, g4⟩ := mul_float32 a' c f1 f2
    rw [g1, g3]
    refine times_fin.2 ?_
    rw [← e1, ← e2] at hi
    rw [hi, Int.mul_assoc, ← g2, ← Int.mul_assoc] at g4
    exact Int.eq_of_mul_eq_mul_right (by exact_mod_cast unit_pos.ne') g4
  · exact times_of_not hf

end F64

theorem accumulate_times {k : Nat} {f g : Nat → F64 → F64} {z z' : F64} (hz : TimesPow k z z') : ∀ {n : Nat},
    (∀ i < n, ∀ a b, TimesPow k a b → TimesPow k (f i a) (g i b)) → TimesPow k (accumulate f n z) (accumulate g n z')
  | 0, _ => hz
  | n + 1, h => by
    rw [accumulate_snoc, accumulate_snoc]
    exact h n (by omega) _ _ (accumulate_times hz fun i hi => h i (by omega))

theorem Spec.TreeDesc.TimesPow.value {p : Nat} {d d' : TreeDesc} (h : d.TimesPow p d') {out : F64 → Int} {row : List F64} {w : F64}
    (hw : d.Value out row w) : ∃ w', d'.Value out row w' ∧ Spec.TimesPow p w w' := by
  have get : ∀ (k : Nat) (w : F64), d.leafValues[k]? = some w → ∃ w', d'.leafValues[k]? = some w' ∧ Spec.TimesPow p w w' := by
    intro k w hk
    obtain ⟨hlt, rfl⟩ := List.getElem?_eq_some_iff.1 hk
    have hlt' : k < d'.leafValues.length := by rw [← h.values.length_eq]; exact hlt
    exact ⟨_, List.getElem?_eq_getElem hlt', h.values.get hlt hlt'⟩
  unfold TreeDesc.Value at hw ⊢
  rw [h.inner, h.arrays, h.tree]
  split
  · rename_i h0
    rw [if_pos h0] at hw
    exact get 0 w hw
  · rename_i h0
    rw [if_neg h0] at hw
    obtain ⟨k, h1, h2⟩ := hw
    obtain ⟨w', h3, h4⟩ := get k w h2
    exact ⟨w', ⟨k, h1, h3⟩, h4⟩

theorem refRaw_times {P : Platform} (hP : P.MulAddOK) {p : Nat} {ds ds' : List TreeDesc} (h : List.Forall₂ (TreeDesc.TimesPow p) ds ds') {K : Nat}
    {row : List F64} {n : Nat} {w : List F64} (hw : RefRaw P P.out ds K false row n w) :
    ∃ w', RefRaw P P.out ds' K false row n w' ∧ w'.length = w.length ∧ List.Forall₂ (TimesPow p) w w' := by
  obtain ⟨v, hv, rfl⟩ := hw
  have hex : ∀ i k, ∃ x, i < n → k < K → (∃ d, ds'[i * K + k]? = some d ∧ d.Value P.out row x) ∧ TimesPow p (v i k) x := by
    intro i k
    by_cases hi : i < n
    · by_cases hk : k < K
      · obtain ⟨d, h1, h2⟩ := hv i hi k hk
        obtain ⟨hlt, rfl⟩ := List.getElem?_eq_some_iff.1 h1
        have hlt' : i * K + k < ds'.length := by rw [← h.length_eq]; exact hlt
        obtain ⟨x, h3, h4⟩ := Spec.TreeDesc.TimesPow.value (h.get hlt hlt') h2
        exact ⟨x, fun _ _ => ⟨⟨_, List.getElem?_eq_getElem hlt', h3⟩, h4⟩⟩
      · exact ⟨F64.nan, fun _ h => absurd h hk⟩
    · exact ⟨F64.nan, fun h => absurd h hi⟩
  choose x hx using hex
  refine ⟨_, ⟨x, fun i hi k hk => (hx i k hi hk).1, rfl⟩, by simp, ?_⟩
  rw [List.forall₂_map_left_iff, List.forall₂_map_right_iff, List.forall₂_same]
  intro k hk
  refine accumulate_times (z := F64.zero) (z' := F64.zero) (F64.times_fin.2 (by rw [F64.toInt_zero]; rfl)) fun i hi a b hab => ?_
  have := (hx i k hi (List.mem_range.1 hk)).2
  show TimesPow p (P.mulAdd (v i k) F64.one a) (P.mulAdd (x i k) F64.one b)
  rw [hP.one, hP.one]
  exact F64.add_times hab this

/-- **C125, LightGBM text files.** The leaf values of the second file are `2 ^ p` times those of the first (exactly, as float64). For every row and
every number of estimators, when the first model predicts, so does the second, and each score that is a number is `2 ^ p` times the first model's,
exactly: no rounding makes a difference. (A score of the second model that is not a number has overflowed.) -/
theorem C125_text (P : Platform) (hP : P.MulAddOK) (p : Nat) (print : F64 → Str) (text text' rest0 rest0' rest rest' : Str) (header header' : List Str)
    (e0 e0' e1 e1' : Bool) (bs bs' : List (List Str)) (ds ds' : List TreeDesc) (K N : Nat) (M : Int)
    (hK : 1 ≤ K ∧ K < 2 ^ 63) (hN : 1 ≤ N) (hlen : ds.length = N * K) (htimes : List.Forall₂ (TreeDesc.TimesPow p) ds ds')
    (hok : ∀ d ∈ ds, d.OK P.parseFloat print ∧ d.inner * 24 ≤ P.maxAlloc)
    (hok' : ∀ d ∈ ds', d.OK P.parseFloat print ∧ d.inner * 24 ≤ P.maxAlloc)
    (hh : FileBlock text header rest0 e0) (hhl : HeaderLines header K M ds.length false)
    (hb : FileBlocks rest0 bs rest e1) (hbl : List.Forall₂ (TreeLines print) ds bs)
    (hh' : FileBlock text' header' rest0' e0') (hhl' : HeaderLines header' K M ds'.length false)
    (hb' : FileBlocks rest0' bs' rest' e1') (hbl' : List.Forall₂ (TreeLines print) ds' bs') :
    ∃ e e', lgEnsembleFromReader P ⟨text, false⟩ false = .ok (e, ⟨rest, false⟩) ∧
      lgEnsembleFromReader P ⟨text', false⟩ false = .ok (e', ⟨rest', false⟩) ∧
      ∀ row req m m1, (e.predict P row req m.length).run m = (.ok ⟨⟩, m1) →
        ∃ m2, (e'.predict P row req m.length).run m = (.ok ⟨⟩, m2) ∧
          (∀ k < K, ∃ x y, m1[k]? = some x ∧ m2[k]? = some y ∧ TimesPow p x y) ∧ ∀ k, K ≤ k → m1[k]? = m[k]? ∧ m2[k]? = m[k]? := by
  have hlen' : ds'.length = N * K := by rw [← htimes.length_eq]; exact hlen
  obtain ⟨e, l1, -, -, -, -, n1, -, p1⟩ := C39_text_file P print text rest0 rest header e0 e1 bs ds K N M false hK hN hlen hh hhl hb hbl hok
  obtain ⟨e', l2, -, -, -, -, n2, -, p2⟩ := C39_text_file P print text' rest0' rest' header' e0' e1' bs' ds' K N M false hK hN hlen' hh' hhl' hb' hbl' hok'
  refine ⟨e, e', l1, l2, fun row req m m1 h => ?_⟩
  obtain ⟨h1, h2, n, w, hu, hw, hs⟩ := (p1 _ _ _ _).1 h
  obtain ⟨w', hw', hl, hf⟩ := refRaw_times hP htimes hw
  have hwl : w.length = K := by obtain ⟨v, -, rfl⟩ := hw; simp
  obtain ⟨m2, hs2⟩ : ∃ m2, Stored m 0 w' m2 := stored_exists _ _ (by omega)
  refine ⟨m2, (p2 _ _ _ _).2 ⟨h1, by rw [n2, ← n1]; exact h2, n, w', hu, hw', hs2⟩, fun k hk => ?_, fun k hk => ?_⟩
  · have a : k < w.length := by omega
    have b : k < w'.length := by omega
    exact ⟨w[k], w'[k], by rw [stored_get hs a, List.getElem?_eq_getElem a], by rw [stored_get hs2 b, List.getElem?_eq_getElem b], hf.get a b⟩
  · rw [hs.2.2 k, hs2.2.2 k, if_neg (by omega), if_neg (by omega)]
    exact ⟨rfl, rfl⟩

theorem xgGoes_times {p : Nat} {T : BTree} {ns ns' : List XgBin.Node} (h : NodesTimesPow p T ns ns') {row : List F64} {leaf : Nat}
    (hw : Walk (XgGoesLe ns row) T leaf) : Walk (XgGoesLe ns' row) T leaf := by
  refine Walk.congr (fun i hi b hb => ?_) hw
  unfold XgGoesLe at hb ⊢
  rw [h.1 i hi]
  exact hb

theorem weight_float32 {m : XgModel} {j : Nat} {c : F64} (h : m.Weight j c) : ∃ b, c = F64.ofBits32 b := by
  unfold XgModel.Weight at h
  split at h
  · obtain ⟨b, -, h⟩ := h
    exact ⟨b, h⟩
  · exact ⟨0x3f800000#32, by rw [h]; decide +kernel⟩

theorem xgRefRaw_times {P : Platform} (hP : P.MulAddOK) {p : Nat} {m m' : XgModel} (h : m.TimesPow p m') {K : Nat}
    {row : List F64} {n : Nat} {w : List F64} (hw : XgRefRaw P XgGoesLe m K row n w) :
    ∃ w', XgRefRaw P XgGoesLe m' K row n w' ∧ w'.length = w.length ∧ List.Forall₂ (TimesPow p) w w' := by
  obtain ⟨v, c, hv, hc, rfl⟩ := hw
  have hex : ∀ i k, ∃ x, i < n → k < K → (∃ t T leaf, m'.gbtree.trees[i * K + k]? = some t ∧ m'.shapes[i * K + k]? = some T ∧
      Walk (XgGoesLe t.nodes row) T leaf ∧ XgVal t.nodes leaf x) ∧ TimesPow p (v i k) x := by
    intro i k
    by_cases hi : i < n
    · by_cases hk : k < K
      · obtain ⟨t, T, leaf, h1, h2, h3, h4⟩ := hv i hi k hk
        have hlt := (List.getElem?_eq_some_iff.1 h1).1
        have hlt' : i * K + k < m'.gbtree.trees.length := by rw [h.count]; exact hlt
        have ho := h.trees _ t _ T h1 (List.getElem?_eq_getElem hlt') h2
        obtain ⟨x, h5, h6⟩ := ho.2 leaf (Walk.mem h3) _ h4
        exact ⟨x, fun _ _ => ⟨⟨_, T, leaf, List.getElem?_eq_getElem hlt', by rw [h.shapes]; exact h2, xgGoes_times ho h3, h5⟩, h6⟩⟩
      · exact ⟨F64.nan, fun _ h => absurd h hk⟩
    · exact ⟨F64.nan, fun h => absurd h hi⟩
  choose x hx using hex
  have hc' : ∀ i < n, ∀ k < K, m'.Weight (i * K + k) (c i k) := by
    intro i hi k hk
    have := hc i hi k hk
    unfold XgModel.Weight at this ⊢
    rw [h.booster, h.weights]
    exact this
  refine ⟨_, ⟨x, c, fun i hi k hk => (hx i k hi hk).1, hc', rfl⟩, by simp, ?_⟩
  rw [List.forall₂_map_left_iff, List.forall₂_map_right_iff, List.forall₂_same]
  intro k hk
  have hk := List.mem_range.1 hk
  refine accumulate_times h.score fun i hi a b hab => ?_
  have h1 := hx i k hi hk
  rw [xgGives_add (x := (v i k, c i k)) hP ⟨hv i hi k hk, hc i hi k hk⟩, xgGives_add (x := (x i k, c i k)) hP ⟨h1.1, hc' i hi k hk⟩]
  refine F64.add_times hab ?_
  obtain ⟨_, _, _, _, _, _, _, _, e1⟩ := hv i hi k hk
  obtain ⟨⟨_, _, _, _, _, _, _, _, e2⟩, h2⟩ := h1
  obtain ⟨b, e3⟩ := weight_float32 (hc i hi k hk)
  dsimp only
  rw [e1, e2] at h2
  rw [e1, e2, e3]
  exact F64.mul_times h2

/-- **C125, XGBoost files**, boosted trees and DART: with base score and leaf values multiplied by `2 ^ p` the scores are multiplied by `2 ^ p`. -/
theorem C125_xgboost (P : Platform) (hP : P.MulAddOK) (p : Nat) (m m' : XgModel) (K N : Nat) (ok : m.OK P.maxAlloc K N) (ok' : m'.OK P.maxAlloc K N)
    (h : m.TimesPow p m') :
    ∃ e e', (∀ rest, xgEnsembleFromReader P false (m.image ++ rest) = .ok (e, rest)) ∧
      (∀ rest, xgEnsembleFromReader P false (m'.image ++ rest) = .ok (e', rest)) ∧
      ∀ row req s s1, (e.predict P row req s.length).run s = (.ok ⟨⟩, s1) →
        ∃ s2, (e'.predict P row req s.length).run s = (.ok ⟨⟩, s2) ∧
          (∀ k < K, ∃ x y, s1[k]? = some x ∧ s2[k]? = some y ∧ TimesPow p x y) ∧ ∀ k, K ≤ k → s1[k]? = s[k]? ∧ s2[k]? = s[k]? := by
  obtain ⟨e, l1, -, r1, -, -, n1, -, p1⟩ := C62_xgboost_file_le P m K N ok false (.raw K) .raw (fun h => nomatch h)
  obtain ⟨e', l2, -, r2, -, -, n2, -, p2⟩ := C62_xgboost_file_le P m' K N ok' false (.raw K) .raw (fun h => nomatch h)
  rw [h.features] at n2
  refine ⟨e, e', l1, l2, fun row req s s1 hs => ?_⟩
  obtain ⟨h1, h2, n, w, out, hu, hw, ht, hs⟩ := (p1 _ _ _ _).1 hs
  obtain rfl : out = w := ht
  obtain ⟨w', hw', hl, hf⟩ := xgRefRaw_times hP h hw
  have hwl : out.length = K := by obtain ⟨v, c, -, -, rfl⟩ := hw; simp
  have hwid : e.nOutputGroups = e'.nOutputGroups := congrArg Transform.nOutputGroups (r1.trans r2.symm)
  obtain ⟨s2, hs2⟩ : ∃ s2, Stored s 0 w' s2 := stored_exists _ _ (by have := hs.1; omega)
  refine ⟨s2, (p2 _ _ _ _).2 ⟨by rw [← hwid]; exact h1, by rw [n2, ← n1]; exact h2, n, w', w', hu, hw', rfl, hs2⟩, fun k hk => ?_, fun k hk => ?_⟩
  · have a : k < out.length := by omega
    have b : k < w'.length := by omega
    exact ⟨out[k], w'[k], by rw [stored_get hs a, List.getElem?_eq_getElem a], by rw [stored_get hs2 b, List.getElem?_eq_getElem b], hf.get a b⟩
  · rw [hs.2.2 k, hs2.2.2 k, if_neg (by omega), if_neg (by omega)]
    exact ⟨rfl, rfl⟩

namespace ScaleExample

open LgLoadExample (d1 print plain_of)
open LgExample (platform)
open XgFileExample (file file_ok header tree1 tree2)

/-- the tree of the other examples with the values 10, 20, 10, 20 -/
def low : TreeDesc := { d1 with leafValues := [F64.ofNat 10, F64.ofNat 20, F64.ofNat 10, F64.ofNat 20] }

/-- and with 20, 40, 20, 40 -/
def high : TreeDesc := { d1 with leafValues := [F64.ofNat 20, F64.ofNat 40, F64.ofNat 20, F64.ofNat 40] }

theorem low_ok : low.OK platform.parseFloat print :=
  { LgLoadExample.d1_ok with leafValues := by decide, leafText := by decide +kernel }

theorem high_ok : high.OK platform.parseFloat print :=
  { LgLoadExample.d1_ok with leafValues := by decide, leafText := by decide +kernel }

theorem lows_ok : ∀ d ∈ [low, low], d.OK platform.parseFloat print ∧ PlainFloats print d ∧ d.inner * 24 ≤ platform.maxAlloc := by
  intro d hd
  obtain rfl : d = low := by simpa using hd
  refine ⟨low_ok, ⟨fun x hx => plain_of ?_, fun _ x hx => plain_of ?_⟩, by decide⟩
  · revert x; decide +kernel
  · revert x; decide +kernel

theorem highs_ok : ∀ d ∈ [high, high], d.OK platform.parseFloat print ∧ PlainFloats print d ∧ d.inner * 24 ≤ platform.maxAlloc := by
  intro d hd
  obtain rfl : d = high := by simpa using hd
  refine ⟨high_ok, ⟨fun x hx => plain_of ?_, fun _ x hx => plain_of ?_⟩, by decide⟩
  · revert x; decide +kernel
  · revert x; decide +kernel

/-- neither infinite nor NaN -/
def finite : F64 → Bool
  | .fin _ _ _ => true
  | _ => false

theorem times_of {k : Nat} {x y : F64} (h : finite x = true ∧ finite y = true ∧ y.toInt = 2 ^ k * x.toInt) : TimesPow k x y := by
  obtain ⟨h1, h2, h⟩ := h
  rcases x with _ | _ | ⟨s, m, hm⟩
  · cases h1
  · cases h1
  rcases y with _ | _ | ⟨t, n, hn⟩
  · cases h2
  · cases h2
  exact F64.times_fin.2 h

theorem doubled : low.TimesPow 1 high :=
  ⟨rfl, rfl, rfl, .cons (times_of (by decide +kernel)) (.cons (times_of (by decide +kernel)) (.cons (times_of (by decide +kernel))
    (.cons (times_of (by decide +kernel)) .nil)))⟩

/-- Two trees as two iterations, and the same with doubled leaf values. -/
theorem C125_example : ∃ e e',
    lgEnsembleFromReader platform ⟨modelText print [low, low] 1 1 false ++ [], false⟩ false = .ok (e, ⟨[], false⟩) ∧
    lgEnsembleFromReader platform ⟨modelText print [high, high] 1 1 false ++ [], false⟩ false = .ok (e', ⟨[], false⟩) ∧
    ∀ row req m m1, (e.predict platform row req m.length).run m = (.ok ⟨⟩, m1) →
      ∃ m2, (e'.predict platform row req m.length).run m = (.ok ⟨⟩, m2) ∧
        (∀ k < 1, ∃ x y, m1[k]? = some x ∧ m2[k]? = some y ∧ TimesPow 1 x y) ∧ ∀ k, 1 ≤ k → m1[k]? = m[k]? ∧ m2[k]? = m[k]? := by
  obtain ⟨_, _, _, h1, h2, h3, h4⟩ := modelText_blocks (M := 1) [] 1 false (by norm_num) lows_ok
  obtain ⟨_, _, _, g1, g2, g3, g4⟩ := modelText_blocks (M := 1) [] 1 false (by norm_num) highs_ok
  exact C125_text platform (fun _ _ _ => .inl rfl) 1 print _ _ _ _ _ _ _ _ _ _ _ _ _ _ _ _ 1 2 1 (by norm_num) (by omega)
    rfl (.cons doubled (.cons doubled .nil)) (fun d hd => ⟨(lows_ok d hd).1, (lows_ok d hd).2.2⟩)
    (fun d hd => ⟨(highs_ok d hd).1, (highs_ok d hd).2.2⟩) h1 h2 h3 h4 g1 g2 g3 g4

/-- two trees with one leaf each -/
def two (x y : String) : Str :=
  ("tree\nversion=v3\nnum_class=1\nnum_tree_per_iteration=1\nmax_feature_idx=1\ntree_sizes=0 0\n\nnum_leaves=1\nnum_cat=0\nleaf_value=" ++ x ++
    "\n\nnum_leaves=1\nnum_cat=0\nleaf_value=" ++ y ++ "\n\n").toList

/-- With another factor, rounding does make a difference: leaf values 2^53 and 1 give the score 2^53; three times these values give
3 * 2^53 + 4. -/
theorem C125_three : ∃ e e', lgEnsembleFromReader platform ⟨two "9007199254740992" "1", false⟩ false = .ok e ∧
    lgEnsembleFromReader platform ⟨two "27021597764222976" "3", false⟩ false = .ok e' ∧
    (e.1.predict platform [F64.zero, F64.zero] 0 1).run [F64.nan] = (.ok ⟨⟩, [F64.ofNat (2 ^ 53)]) ∧
    (e'.1.predict platform [F64.zero, F64.zero] 0 1).run [F64.nan] = (.ok ⟨⟩, [F64.ofNat (3 * 2 ^ 53 + 4)]) := by
  obtain ⟨e, c1, c2⟩ := SkModelExample.of_check (r := lgEnsembleFromReader platform ⟨two "9007199254740992" "1", false⟩ false)
    (fun e => (e.1.predict platform [F64.zero, F64.zero] 0 1).run [F64.nan] = (.ok ⟨⟩, [F64.ofNat (2 ^ 53)])) (by decide +kernel)
  obtain ⟨e', c1', c2'⟩ := SkModelExample.of_check (r := lgEnsembleFromReader platform ⟨two "27021597764222976" "3", false⟩ false)
    (fun e => (e.1.predict platform [F64.zero, F64.zero] 0 1).run [F64.nan] = (.ok ⟨⟩, [F64.ofNat (3 * 2 ^ 53 + 4)])) (by decide +kernel)
  exact ⟨e, e', c1, c1', c2, c2'⟩

/-- the trees of the XGBoost example with doubled leaf values -/
def xtree1 : XgBin.TreeModel :=
  { tree1 with nodes := [⟨0#32, 1#32, 2#32, 0x80000001#32, 0x3f000000#32⟩, ⟨0#32, -1#32, -1#32, 0#32, 0x3f000000#32⟩,
    ⟨0#32, 3#32, 4#32, 0#32, 0xc0000000#32⟩, ⟨2#32, -1#32, -1#32, 0#32, 0xc0000000#32⟩, ⟨2#32, -1#32, -1#32, 0#32, 0x40c00000#32⟩] }

/-- its second tree -/
def xtree2 : XgBin.TreeModel := { tree2 with nodes := [⟨0#32, -1#32, -1#32, 0#32, 0x40800000#32⟩] }

/-- the file with them and the base score 1 -/
def xfile : XgModel :=
  { file 1#32 with
    header := { header "dart" with param := ⟨0x3f800000#32, 2#32, 0#32, 0#32, 0#32, List.replicate 29 0#32⟩ }
    gbtree := ⟨⟨2#32, 1#32, 2#32, 0#32, 0#64, 1#32, 0#32, List.replicate 32 0#32⟩, [xtree1, xtree2], [0#32, 0#32]⟩ }

theorem xtree1_means : XgMeans xtree1 XgExample.tree :=
  .inl ⟨by decide, by decide, by
    refine .node 0 _ 1 2 _ _ rfl (by decide) (by decide) (.leaf 1 _ rfl (by decide)) ?_
    exact .node 2 _ 3 4 _ _ rfl (by decide) (by decide) (.leaf 3 _ rfl (by decide)) (.leaf 4 _ rfl (by decide)), by decide, rfl⟩

theorem xfile_ok : xfile.OK Platform.demo.maxAlloc 1 2 where
  header := ⟨rfl, by decide, by decide⟩
  gbtree := ⟨rfl, by decide, rfl, by
    intro t ht
    rcases (show t = (xtree1, []) ∨ t = (xtree2, [7#32]) by simpa [xfile, file] using ht) with rfl | rfl
    · exact ⟨rfl, by decide, by decide, by decide, by decide⟩
    · exact ⟨rfl, by decide, by decide, by decide, by decide⟩, rfl, by decide⟩
  name := rfl
  features := by decide
  roots := by decide
  groups := by decide
  counts := ⟨le_rfl, by norm_num, rfl⟩
  info := by
    intro i hi k hk
    obtain rfl : k = 0 := by omega
    rcases (show i = 0 ∨ i = 1 by omega) with rfl | rfl <;> exact ⟨0#32, rfl, by decide⟩
  weights := fun _ => rfl
  alloc := by decide
  trees := .cons xtree1_means (.cons (.inr ⟨⟨_, rfl⟩, by decide, rfl⟩) .nil)
  treeFeatures := by decide

theorem leaf_times {ns ns' : List XgBin.Node} {i : Nat} {n n' : XgBin.Node} (h : ns[i]? = some n) (h' : ns'[i]? = some n')
    (e : TimesPow 1 (F64.ofBits32 n.info) (F64.ofBits32 n'.info)) : ∀ v, XgVal ns i v → ∃ v', XgVal ns' i v' ∧ TimesPow 1 v v' := by
  rintro v ⟨k, hk, rfl⟩
  rw [h] at hk
  cases hk
  exact ⟨_, ⟨n', h', rfl⟩, e⟩

theorem xdoubled : (file 1#32).TimesPow 1 xfile where
  features := rfl
  score := times_of (by decide +kernel)
  booster := rfl
  count := rfl
  shapes := rfl
  weights := rfl
  trees := by
    intro k t t' T h1 h2 h3
    match k with
    | 0 =>
      cases h1; cases h2; cases h3
      refine ⟨by decide, fun i hi => ?_⟩
      have : i = 1 ∨ i = 3 ∨ i = 4 := by simpa [XgExample.tree, BTree.leaves] using hi
      rcases this with rfl | rfl | rfl
      · exact leaf_times rfl rfl (times_of (by decide +kernel))
      · exact leaf_times rfl rfl (times_of (by decide +kernel))
      · exact leaf_times rfl rfl (times_of (by decide +kernel))
    | 1 =>
      cases h1; cases h2; cases h3
      refine ⟨by decide, fun i hi => ?_⟩
      obtain rfl : i = 0 := by simpa [BTree.leaves] using hi
      exact leaf_times rfl rfl (times_of (by decide +kernel))
    | k + 2 => cases h1

/-- The theorem applies to the DART file of the other examples and the file with everything doubled. -/
theorem C125_xgboost_example : ∃ e e', (∀ rest, xgEnsembleFromReader Platform.demo false ((file 1#32).image ++ rest) = .ok (e, rest)) ∧
    (∀ rest, xgEnsembleFromReader Platform.demo false (xfile.image ++ rest) = .ok (e', rest)) ∧
    ∀ row req s s1, (e.predict Platform.demo row req s.length).run s = (.ok ⟨⟩, s1) →
      ∃ s2, (e'.predict Platform.demo row req s.length).run s = (.ok ⟨⟩, s2) ∧
        (∀ k < 1, ∃ x y, s1[k]? = some x ∧ s2[k]? = some y ∧ TimesPow 1 x y) ∧ ∀ k, 1 ≤ k → s1[k]? = s[k]? ∧ s2[k]? = s[k]? :=
  C125_xgboost Platform.demo (fun _ _ _ => .inl rfl) 1 (file 1#32) xfile 1 2 file_ok xfile_ok xdoubled

end ScaleExample

end Leaves
