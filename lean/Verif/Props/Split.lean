import Verif.Proofs.NodeRep

/-! # C01, C02, C34: routing at one split -/

namespace Leaves

open Spec

/-- C01: at a node whose flags and threshold encode the numerical rule `r`, the decision is `NumLeft r`. Flag
bits: 0 categorical, 1 default left, 4 missing zero, 5 missing NaN. -/
theorem C01_numerical_split (P : Platform) (t : LgTree) (nd : LgNode) (r : NumRule) (x : F64)
    (hkind : nd.flags.getLsbD 0 = false) (hzero : nd.flags.getLsbD 4 = decide (r.missing = .zero))
    (hnan : nd.flags.getLsbD 5 = decide (r.missing = .nan)) (hdef : nd.flags.getLsbD 1 = r.defaultLeft)
    (hthr : nd.threshold = r.threshold) :
    (t.decision P nd x = .ok true ↔ NumLeft r x) ∧ (t.decision P nd x = .ok false ↔ ¬ NumLeft r x) := by
  obtain ⟨b, h1, h2⟩ := decision_rep P t nd nd.feature (.num r) x ⟨rfl, hkind, ⟨hzero, hnan⟩, hdef, hthr⟩
  rw [h1]
  cases b
  · simp only [Bool.false_eq_true, false_iff] at h2
    exact ⟨⟨fun h => (by cases h), fun h => absurd h h2⟩, fun _ => h2, fun _ => rfl⟩
  · simp only [true_iff] at h2
    exact ⟨⟨fun _ => h2, fun _ => rfl⟩, fun h => (by cases h), fun h => absurd h2 h⟩

/-- a node with missing type Zero, default left, threshold -2.0: 1.0 goes right, -2.0 left; 0.0
and NaN take the default direction -/
example : let nd := numericalNode 0 Flag.missingZero (F64.ofInt (-2)) Flag.defaultLeft
    ({} : LgTree).decision Platform.demo nd (F64.ofInt 1) = .ok false ∧
    ({} : LgTree).decision Platform.demo nd F64.zero = .ok true ∧
    ({} : LgTree).decision Platform.demo nd .nan = .ok true ∧
    ({} : LgTree).decision Platform.demo nd (F64.ofInt (-2)) = .ok true := by decide +kernel

/-- C02: at a node that stores a category set in one of the three encodings, the decision is membership of the
value's category. -/
theorem C02_categorical_split (P : Platform) (t : LgTree) (nd : LgNode) (m : Missing) (set : Nat → Prop) (x : F64)
    (hkind : nd.flags.getLsbD 0 = true) (hzero : nd.flags.getLsbD 4 = decide (m = .zero))
    (hnan : nd.flags.getLsbD 5 = decide (m = .nan))
    (hset : CatCode t.catBoundaries t.catThresholds nd.flags nd.threshold set) :
    (t.decision P nd x = .ok true ↔ CatLeft P.out m set x) ∧ (t.decision P nd x = .ok false ↔ ¬ CatLeft P.out m set x) := by
  obtain ⟨b, h1, h2⟩ := decision_rep P t nd nd.feature (.cat m set) x ⟨rfl, hkind, ⟨hzero, hnan⟩, hset⟩
  rw [h1]
  cases b
  · simp only [Bool.false_eq_true, false_iff] at h2
    exact ⟨⟨fun h => (by cases h), fun h => absurd h h2⟩, fun _ => h2, fun _ => rfl⟩
  · simp only [true_iff] at h2
    exact ⟨⟨fun _ => h2, fun _ => rfl⟩, fun h => (by cases h), fun h => absurd h2 h⟩

/-- C02, the part that no platform can change: an in-range value `q` goes left iff its truncation is a
non-negative member. -/
theorem C02_in_range (P : Platform) (t : LgTree) (nd : LgNode) (m : Missing) (set : Nat → Prop) (x : F64) (q : ℚ)
    (hkind : nd.flags.getLsbD 0 = true) (hzero : nd.flags.getLsbD 4 = decide (m = .zero))
    (hnan : nd.flags.getLsbD 5 = decide (m = .nan))
    (hset : CatCode t.catBoundaries t.catThresholds nd.flags nd.threshold set)
    (hx : IsVal x q) (hlo : -2 ^ 31 ≤ truncQ q) (hhi : truncQ q < 2 ^ 31) :
    t.decision P nd x = .ok true ↔ (0 ≤ truncQ q ∧ set (truncQ q).toNat) := by
  rw [(C02_categorical_split P t nd m set x hkind hzero hnan hset).1]
  have hxn : x ≠ .nan := by rintro rfl; simp [IsVal, value] at hx
  have hcat : Category P.out x (truncQ q) := .inl ⟨q, hx, rfl, hlo, hhi⟩
  unfold CatLeft
  simp only [hxn, if_false, false_imp_iff, true_and]
  constructor
  · rintro ⟨c, hc, h0, hs⟩
    have : c = truncQ q := by
      rw [← toInt32_category] at hc hcat; exact hc.symm.trans hcat
    subst this; exact ⟨h0, hs⟩
  · rintro ⟨h0, hs⟩; exact ⟨_, hcat, h0, hs⟩

/-- C02: NaN goes right under missing type NaN, on every platform. -/
theorem C02_nan_right (P : Platform) (t : LgTree) (nd : LgNode) (set : Nat → Prop)
    (hkind : nd.flags.getLsbD 0 = true) (hzero : nd.flags.getLsbD 4 = false) (hnan : nd.flags.getLsbD 5 = true)
    (hset : CatCode t.catBoundaries t.catThresholds nd.flags nd.threshold set) :
    t.decision P nd .nan = .ok false := by
  rw [(C02_categorical_split P t nd .nan set .nan hkind (by simpa using hzero) (by simpa using hnan) hset).2]
  rintro ⟨c, _, _, h, _⟩
  exact h rfl rfl

/-- Without missing type NaN the outcome for a NaN depends on the platform's conversion of NaN to int32: the same
node sends it left on one platform and right on another. -/
theorem C02_nan_platform_dependent :
    ∃ (P P' : Platform) (nd : LgNode), CatCode [] [] nd.flags nd.threshold (fun n => n = 0) ∧
      ({} : LgTree).decision P nd .nan = .ok true ∧ ({} : LgTree).decision P' nd .nan = .ok false := by
  refine ⟨{ Platform.demo with i32Out := fun _ => 0#32 }, { Platform.demo with i32Out := fun _ => 0x80000000#32 },
    categoricalNode 0 0 0 Flag.catOneHot, .oneHot 0 (by decide) (by norm_num) (F64.isVal_ofNat (by norm_num)), ?_, ?_⟩
  · decide +kernel
  · decide +kernel

/-- a concrete long set {1, 33, 64}: categories 33.9 and 64 go left, 32, 65, 10^6, -1 go right -/
example : let t : LgTree := { catBoundaries := [0, 3], catThresholds := [2#32, 2#32, 1#32] }
    let nd := categoricalNode 0 Flag.missingNan 0 0
    CatCode t.catBoundaries t.catThresholds nd.flags nd.threshold (Member [2#32, 2#32, 1#32]) ∧
    t.decision Platform.demo nd (F64.ofRatio false (339 * unit) 10) = .ok true ∧
    t.decision Platform.demo nd (F64.ofInt 64) = .ok true ∧
    t.decision Platform.demo nd (F64.ofInt 32) = .ok false ∧
    t.decision Platform.demo nd (F64.ofInt 65) = .ok false ∧
    t.decision Platform.demo nd (F64.ofInt 1000000) = .ok false ∧
    t.decision Platform.demo nd (F64.ofInt (-1)) = .ok false ∧
    t.decision Platform.demo nd .nan = .ok false := by
  refine ⟨?_, by decide +kernel⟩
  exact .long (boundaries := [0, 3]) (thresholds := [2#32, 2#32, 1#32]) 0 0 3 (by decide) (by decide) (by norm_num)
    (F64.isVal_ofNat (by norm_num)) rfl rfl (by norm_num) (by decide) (by norm_num)

/-- C34: a 32-bit word stored as a float64 threshold is read back unchanged. -/
theorem C34_threshold_roundtrip (P : Platform) (w : BitVec 32) :
    IsVal (F64.ofNat w.toNat) w.toNat ∧ P.toUint32 (F64.ofNat w.toNat) = w.toNat :=
  ⟨F64.isVal_ofNat (by have := w.isLt; omega), toUint32_ofNat P w.isLt⟩

/-- C34: the float64 of a leaf index is exactly the index, so it identifies the leaf; the converted category of a
one-category node is the category. -/
theorem C34_leaf_index_exact (P : Platform) (m n : Nat) (hm : m < 2 ^ 32) (hn : n < 2 ^ 32) :
    IsVal (F64.ofNat m) m ∧ (F64.ofNat m = F64.ofNat n ↔ m = n) ∧ (n < 2 ^ 31 → P.toInt32 (F64.ofNat n) = n) :=
  ⟨F64.isVal_ofNat (by omega), ⟨fun h => F64.ofNat_inj (by omega) (by omega) h, fun h => h ▸ rfl⟩,
    fun h => toInt32_ofNat P h⟩

example : Platform.demo.toUint32 (F64.ofNat 0xFFFFFFFF) = 0xFFFFFFFF ∧
    Platform.demo.toUint32 (F64.ofNat 0x80000001) = 0x80000001 := by decide +kernel

end Leaves
