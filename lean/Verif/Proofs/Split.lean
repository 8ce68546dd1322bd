import Verif.Spec.Encoding
import Verif.Model.Tree
import Verif.Proofs.F64Lemmas
import Verif.Proofs.Bits2
import Verif.Spec.Split

/-! Decision functions against the split rules. -/

namespace Leaves

open Spec

/-! ### flags -/

theorem hasFlag_eq (f : Flags) (k : Nat) (hk : k < 8) : hasFlag f (1#8 <<< k) = f.getLsbD k := by
  revert f
  have : ∀ k < 8, ∀ f : BitVec 8, hasFlag f (1#8 <<< k) = f.getLsbD k := by decide +kernel
  exact fun f => this k hk f

theorem flag_categorical (f : Flags) : hasFlag f Flag.categorical = f.getLsbD 0 := hasFlag_eq f 0 (by norm_num)
theorem flag_defaultLeft (f : Flags) : hasFlag f Flag.defaultLeft = f.getLsbD 1 := hasFlag_eq f 1 (by norm_num)
theorem flag_leftLeaf (f : Flags) : hasFlag f Flag.leftLeaf = f.getLsbD 2 := hasFlag_eq f 2 (by norm_num)
theorem flag_rightLeaf (f : Flags) : hasFlag f Flag.rightLeaf = f.getLsbD 3 := hasFlag_eq f 3 (by norm_num)
theorem flag_missingZero (f : Flags) : hasFlag f Flag.missingZero = f.getLsbD 4 := hasFlag_eq f 4 (by norm_num)
theorem flag_missingNan (f : Flags) : hasFlag f Flag.missingNan = f.getLsbD 5 := hasFlag_eq f 5 (by norm_num)
theorem flag_catOneHot (f : Flags) : hasFlag f Flag.catOneHot = f.getLsbD 6 := hasFlag_eq f 6 (by norm_num)
theorem flag_catSmall (f : Flags) : hasFlag f Flag.catSmall = f.getLsbD 7 := hasFlag_eq f 7 (by norm_num)

/-! ### the zero test -/

theorem pow_quot (m e f : Nat) : ((m * 2 ^ e : Nat) : ℚ) / ((2 ^ (e + f) : Nat) : ℚ) = (m : ℚ) / 2 ^ f := by
  rw [div_eq_div_iff (by positivity) (by positivity), pow_add]
  push_cast
  ring

theorem unit_eq' : ∀ n, n = 1074 → unit = 2 ^ n := by rintro _ rfl; exact unit_eq

theorem zeroThreshold_eq : ∃ h, zeroThreshold = .fin false (0x1a95a5b7f87a0f * 2 ^ 905) h :=
  ⟨by decide +kernel, by decide +kernel⟩

theorem value_fin_pow (m e f : Nat) (hef : e + f = 1074) (h : Rep (m * 2 ^ e)) :
    value (.fin false (m * 2 ^ e) h) = some (pt ((m : ℚ) / 2 ^ f)) := by
  simp only [value]
  rw [unit_eq' _ hef, pow_quot]

theorem value_zeroThreshold : value zeroThreshold = some (pt zeroBound) := by
  obtain ⟨h, e⟩ := zeroThreshold_eq
  rw [e]
  exact value_fin_pow 0x1a95a5b7f87a0f 905 169 rfl h

theorem value_neg (x : F64) (q : ℚ) (h : value x = some (pt q)) : value x.neg = some (pt (-q)) := by
  rcases x with _ | s | ⟨s, m, hm⟩
  · simp [value] at h
  · cases s
    · simp only [value, Option.some.injEq] at h
      unfold pt at h
      rw [WithBot.coe_inj] at h
      simp at h
    · simp only [value, Option.some.injEq] at h
      unfold pt at h
      simp at h
  · cases s
    · simp only [value, Option.some.injEq, F64.pt_inj, F64.neg, Bool.not_false] at *
      rw [h]
    · simp only [value, Option.some.injEq, F64.pt_inj, F64.neg, Bool.not_true] at *
      rw [← h]; simp

theorem isZero_iff (x : F64) : isZero x = true ↔ Within (-zeroBound) zeroBound x := by
  unfold isZero Within
  rw [Bool.and_eq_true, F64.lt_iff, F64.le_iff]
  unfold Lt Le
  rw [value_zeroThreshold, value_neg _ _ value_zeroThreshold]
  constructor
  · rintro ⟨⟨a, b, ha, hb, h⟩, b', c, hb', hc, h'⟩
    rw [hb] at hb'; cases hb'; cases ha; cases hc
    exact ⟨b, hb, h, h'⟩
  · rintro ⟨a, ha, h1, h2⟩
    exact ⟨⟨_, a, rfl, ha, h1⟩, a, _, ha, rfl, h2⟩

theorem within_zero : Within (-zeroBound) zeroBound .zero := by
  rw [← isZero_iff]; decide +kernel

/-- the bits of a node that carry the missing type -/
def MissingBits (flags : Flags) (m : Missing) : Prop :=
  flags.getLsbD 4 = decide (m = .zero) ∧ flags.getLsbD 5 = decide (m = .nan)

theorem numericalDecision_iff (node : LgNode) (r : NumRule) (x : F64)
    (hm : MissingBits node.flags r.missing) (hd : node.flags.getLsbD 1 = r.defaultLeft)
    (ht : node.threshold = r.threshold) :
    LgTree.numericalDecision node x = true ↔ NumLeft r x := by
  obtain ⟨h4, h5⟩ := hm
  unfold LgTree.numericalDecision NumLeft
  rw [flag_missingNan, flag_missingZero, flag_defaultLeft, h4, h5, hd, ht]
  rcases r with ⟨m, d, t⟩
  cases m
  · -- none
    by_cases hx : x = .nan
    · subst hx; simp [F64.isNaN, IsMissing, F64.le_iff]
    · have : x.isNaN = false := by cases x <;> simp_all [F64.isNaN]
      simp [this, IsMissing, hx, F64.le_iff]
  · -- zero
    by_cases hx : x = .nan
    · subst hx
      have hz : isZero .zero = true := by rw [isZero_iff]; exact within_zero
      simp [F64.isNaN, IsMissing, hz]
    · have : x.isNaN = false := by cases x <;> simp_all [F64.isNaN]
      by_cases hw : isZero x = true
      · have := isZero_iff x |>.1 hw
        simp_all [IsMissing]
      · have hw' : ¬ Within (-zeroBound) zeroBound x := fun h => hw ((isZero_iff x).2 h)
        simp_all [IsMissing, F64.le_iff]
  · -- nan
    by_cases hx : x = .nan
    · subst hx; simp [F64.isNaN, IsMissing]
    · have : x.isNaN = false := by cases x <;> simp_all [F64.isNaN]
      simp [this, IsMissing, hx, F64.le_iff]

/-! ### categories -/

theorem truncQ_natDiv (m d : Nat) : truncQ ((m : ℚ) / d) = (m / d : Nat) := by
  unfold truncQ
  rw [if_pos (by positivity)]
  exact Rat.floor_natCast_div_natCast m d

theorem truncQ_neg (q : ℚ) : truncQ (-q) = - truncQ q := by
  unfold truncQ
  rcases lt_trichotomy q 0 with h | h | h
  · rw [if_pos (by linarith), if_neg (by linarith)]; exact Int.floor_neg
  · subst h; simp
  · rw [if_neg (by linarith), if_pos (by linarith)]; exact Int.ceil_neg

/-- truncation of the denoted number -/
theorem trunc_iff (x : F64) (i : Int) : x.trunc = some i ↔ ∃ q, IsVal x q ∧ i = truncQ q := by
  unfold IsVal
  rcases x with _ | s | ⟨s, m, hm⟩
  · simp [F64.trunc, value]
  · cases s
    · simp only [F64.trunc, reduceCtorEq, value, Option.some.injEq, false_iff, not_exists, not_and]
      intro q h; unfold pt at h; rw [WithBot.coe_inj] at h; simp at h
    · simp only [F64.trunc, reduceCtorEq, value, Option.some.injEq, false_iff, not_exists, not_and]
      intro q h; unfold pt at h; simp at h
  · cases s
    · simp only [F64.trunc, value, Option.some.injEq, F64.pt_inj]
      constructor
      · rintro rfl; exact ⟨_, rfl, (truncQ_natDiv m unit).symm⟩
      · rintro ⟨q, rfl, rfl⟩; exact (truncQ_natDiv m unit).symm
    · simp only [F64.trunc, value, Option.some.injEq, F64.pt_inj]
      constructor
      · rintro rfl; exact ⟨_, rfl, by rw [truncQ_neg, truncQ_natDiv]⟩
      · rintro ⟨q, rfl, rfl⟩; rw [truncQ_neg, truncQ_natDiv]

theorem truncQ_nat (n : Nat) : truncQ (n : ℚ) = n := by
  unfold truncQ; rw [if_pos (by positivity)]; exact Int.floor_natCast n

theorem trunc_of_isVal {x : F64} {n : Nat} (h : IsVal x n) : x.trunc = some (n : Int) :=
  (trunc_iff x n).2 ⟨n, h, (truncQ_nat n).symm⟩

/-- the platform's conversion outside the int32 range -/
def Platform.out (P : Platform) (x : F64) : Int := (P.i32Out x).toInt

theorem toInt32_category (P : Platform) (x : F64) (c : Int) : P.toInt32 x = c ↔ Category P.out x c := by
  unfold Platform.toInt32 Category Platform.out
  cases h : x.trunc with
  | none =>
    have hno : ¬ ∃ q, IsVal x q := by
      rintro ⟨q, hq⟩
      have := (trunc_iff x (truncQ q)).2 ⟨q, hq, rfl⟩
      rw [h] at this; cases this
    constructor
    · rintro rfl
      exact .inr ⟨fun ⟨q, hq, _⟩ => hno ⟨q, hq⟩, rfl⟩
    · rintro (⟨q, hq, _⟩ | ⟨_, rfl⟩)
      · exact absurd ⟨q, hq⟩ hno
      · rfl
  | some i =>
    obtain ⟨q, hq, rfl⟩ := (trunc_iff x i).1 h
    have huniq : ∀ q', IsVal x q' → q' = q := by
      intro q' hq'
      unfold IsVal at hq hq'
      rw [hq] at hq'
      simpa [F64.pt_inj] using hq'.symm
    dsimp only
    split
    · rename_i hr
      constructor
      · rintro rfl; exact .inl ⟨q, hq, rfl, hr⟩
      · rintro (⟨q', hq', rfl, _⟩ | ⟨hn, _⟩)
        · rw [huniq q' hq']
        · exact absurd ⟨q, hq, hr⟩ hn
    · rename_i hr
      constructor
      · rintro rfl
        refine .inr ⟨?_, rfl⟩
        rintro ⟨q', hq', hr'⟩
        rw [huniq q' hq'] at hr'; exact hr hr'
      · rintro (⟨q', hq', rfl, hr'⟩ | ⟨_, rfl⟩)
        · rw [huniq q' hq'] at hr'; exact absurd hr' hr
        · rfl

theorem toInt32_range (P : Platform) (x : F64) : -2 ^ 31 ≤ P.toInt32 x ∧ P.toInt32 x < 2 ^ 31 := by
  have h : ∀ b : BitVec 32, -2 ^ 31 ≤ b.toInt ∧ b.toInt < 2 ^ 31 := by
    intro b; have := BitVec.toInt_lt (x := b); have := BitVec.le_toInt b; omega
  unfold Platform.toInt32
  split
  · split
    · assumption
    · exact h _
  · exact h _

theorem u32_of_lt {n : Nat} (h : n < 2 ^ 32) : u32 n = n := Nat.mod_eq_of_lt h

theorem u32I_natCast {n : Nat} (h : n < 2 ^ 32) : u32I (n : Int) = n := by
  unfold u32I
  rw [Int.emod_eq_of_lt (by omega) (by omega)]
  simp

theorem u32_sub {e s : Nat} (h : s ≤ e) (he : e < 2 ^ 32) : u32 (e + 2 ^ 32 - s) = e - s := by
  unfold u32; omega

theorem add_lt_of_lt_sub {s e a : Nat} (h : a < e - s) : s + a < e := by omega

theorem testbit_word (w : BitVec 32) (k : Nat) :
    decide (((w >>> k) &&& 1#32).toNat > 0) = w.getLsbD k := by
  have : ((w >>> k) &&& 1#32) = (BitVec.ofBool (w.getLsbD k)).setWidth 32 := by
    apply BitVec.eq_of_getLsbD_eq
    intro i hi
    simp only [BitVec.getLsbD_and, BitVec.getLsbD_ushiftRight, BitVec.getLsbD_one, 
      BitVec.getLsbD_setWidth, BitVec.getLsbD_ofBool]
    by_cases h : i = 0
    · subst h; simp
    · simp [h]
  rw [this]
  cases w.getLsbD k <;> simp

theorem findInBitsetUint32_iff (w : BitVec 32) (n : Nat) :
    Util.findInBitsetUint32 w n = true ↔ Member [w] n := by
  unfold Util.findInBitsetUint32
  rw [← memberB_iff]
  split
  · rename_i h
    unfold memberB
    have : [w][n / 32]? = none := by simp; omega
    rw [this]
  · rename_i h
    rw [testbit_word, memberB_cons_lt _ _ (by omega)]

theorem findInBitset_spec (t : LgTree) {k s e : Nat} (hk : k + 1 < 2 ^ 32) (hs : t.catBoundaries[k]? = some s)
    (he : t.catBoundaries[k + 1]? = some e) (hse : s ≤ e) (hlen : e ≤ t.catThresholds.length) (hlt : e < 2 ^ 32)
    (n : Nat) :
    ∃ b, t.findInBitset k n = .ok b ∧ (b = true ↔ Member ((t.catThresholds.drop s).take (e - s)) n) := by
  unfold LgTree.findInBitset
  rw [Res.idx_eq_ok.2 hs, u32_of_lt hk, Res.idx_eq_ok.2 he]
  simp only [Res.ok_bind]
  rw [u32_sub hse hlt]
  have hmem : ∀ i, ((t.catThresholds.drop s).take (e - s))[i]? = if i < e - s then t.catThresholds[s + i]? else none := by
    intro i; rw [List.getElem?_take, List.getElem?_drop]
  by_cases hge : n / 32 ≥ e - s
  · rw [if_pos hge]
    refine ⟨false, rfl, ?_⟩
    simp only [Bool.false_eq_true, false_iff]
    rintro ⟨w, hw, _⟩
    rw [hmem, if_neg (Nat.not_lt.2 hge)] at hw
    cases hw
  · have h1 : n / 32 < e - s := Nat.lt_of_not_le hge
    have h2 : s + n / 32 < e := add_lt_of_lt_sub h1
    have hin : s + n / 32 < t.catThresholds.length := Nat.lt_of_lt_of_le h2 hlen
    rw [if_neg hge, u32_of_lt (Nat.lt_trans h2 hlt), Res.idx_of_lt hin]
    refine ⟨(t.catThresholds[s + n / 32]).getLsbD (n % 32), ?_, ?_⟩
    · simp only [Res.ok_bind, Res.pure_eq]
      rw [testbit_word]
    · unfold Member
      rw [hmem, if_pos h1, List.getElem?_eq_getElem hin]
      simp

theorem categoricalDecision_spec (P : Platform) (t : LgTree) (node : LgNode) (m : Missing) (set : Nat → Prop)
    (x : F64) (hm : MissingBits node.flags m)
    (hc : CatCode t.catBoundaries t.catThresholds node.flags node.threshold set) :
    ∃ b, t.categoricalDecision P node x = .ok b ∧ (b = true ↔ CatLeft P.out m set x) := by
  unfold LgTree.categoricalDecision
  obtain ⟨hr1, hr2⟩ := toInt32_range P x
  have hcat := (toInt32_category P x _).1 rfl
  have huniq : ∀ c, Category P.out x c → c = P.toInt32 x := fun c hc => ((toInt32_category P x c).2 hc).symm
  generalize P.toInt32 x = c at *
  dsimp only
  rw [flag_missingNan, flag_catOneHot, flag_catSmall, hm.2]
  split
  · rename_i hneg
    refine ⟨false, rfl, ?_⟩
    simp only [Bool.false_eq_true, false_iff]
    rintro ⟨c', hc', h0, _⟩
    rw [huniq c' hc'] at h0; omega
  · rename_i hpos
    split
    · rename_i hnan
      simp only [Bool.and_eq_true, F64.isNaN_iff, decide_eq_true_eq] at hnan
      refine ⟨false, rfl, ?_⟩
      simp only [Bool.false_eq_true, false_iff]
      rintro ⟨c', hc', h0, hn, _⟩
      exact hn hnan.1 hnan.2
    · rename_i hnan
      have hnan' : x = .nan → m ≠ .nan := by
        intro h1 h2; apply hnan; simp [h1, h2, F64.isNaN]
      -- the category looked up
      obtain ⟨n, hn, hnlt, hset⟩ : ∃ n : Nat, (if x.isNaN = true then 0 else c) = (n : Int) ∧ n < 2 ^ 31 ∧
          (CatLeft P.out m set x ↔ set n) := by
        by_cases hx : x = .nan
        · refine ⟨0, by simp [hx, F64.isNaN], by norm_num, ?_⟩
          unfold CatLeft
          constructor
          · rintro ⟨c', _, _, _, h⟩; rwa [if_pos hx] at h
          · intro h; exact ⟨c, hcat, by omega, hnan', by rwa [if_pos hx]⟩
        · have hx' : x.isNaN = false := by cases x <;> simp_all [F64.isNaN]
          refine ⟨c.toNat, by simp [hx']; omega, by omega, ?_⟩
          unfold CatLeft
          constructor
          · rintro ⟨c', h1, _, _, h⟩
            rw [huniq c' h1] at h; rwa [if_neg hx] at h
          · intro h; exact ⟨c, hcat, by omega, hnan', by rwa [if_neg hx]⟩
      rw [hn, hset]
      have hu : u32I (n : Int) = n := u32I_natCast (by omega)
      rw [hu]
      cases hc with
      | oneHot k h6 hk ht =>
        rw [h6, if_pos rfl, toInt32_of_trunc P (by omega) (by omega) (trunc_of_isVal ht)]
        refine ⟨_, rfl, ?_⟩
        simp only [decide_eq_true_eq]
        omega
      | small w h6 h7 ht =>
        rw [h6, h7, if_neg (by simp), if_pos rfl, toUint32_of_trunc P w.isLt (trunc_of_isVal ht)]
        refine ⟨_, rfl, ?_⟩
        rw [BitVec.ofNat_toNat, BitVec.setWidth_eq]
        exact findInBitsetUint32_iff w n
      | long k s e h6 h7 hk ht hs he hse hlen hlt =>
        rw [h6, h7, if_neg (by simp), if_neg (by simp), toUint32_of_trunc P (by omega) (trunc_of_isVal ht)]
        exact findInBitset_spec t hk hs he hse hlen hlt n

end Leaves
