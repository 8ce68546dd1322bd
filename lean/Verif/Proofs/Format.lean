import Verif.Proofs.Decimal

/-! What `%.19g` writes is a numeral with 19 right digits. -/

namespace Leaves
open F64 Spec Strconv

theorem digitsNumber_append (a b : Str) : digitsNumber (a ++ b) = digitsNumber a * 10 ^ b.length + digitsNumber b := by
  have := Nat.ofDigitChars_eq_ofDigitChars_zero (l := b) (init := Nat.ofDigitChars 10 a 0)
  have h2 := Nat.ofDigitChars_append (b := 10) (l := a) (m := b) 0
  calc digitsNumber (a ++ b) = Nat.ofDigitChars 10 (a ++ b) 0 := rfl
    _ = 10 ^ b.length * Nat.ofDigitChars 10 a 0 + Nat.ofDigitChars 10 b 0 := by rw [h2, this]
    _ = digitsNumber a * 10 ^ b.length + digitsNumber b := by rw [Nat.mul_comm]; rfl

theorem digitsNumber_zeros (k : Nat) : digitsNumber (List.replicate k '0') = 0 := by
  show Nat.ofDigitChars 10 _ 0 = 0
  rw [Nat.ofDigitChars_replicate_zero, Nat.mul_zero]

theorem digitsNumber_decimal (n : Nat) : digitsNumber (Nat.toDigits 10 n) = n := Nat.ofDigitChars_ten_toDigits

theorem dropZeros : ∀ l : Str, ∃ k, l = List.replicate k '0' ++ l.dropWhile fun c => decide (c = '0')
  | [] => ⟨0, rfl⟩
  | c :: l => by
    by_cases h : c = '0'
    · subst h
      obtain ⟨k, hk⟩ := dropZeros l
      refine ⟨k + 1, ?_⟩
      rw [List.dropWhile_cons_of_pos (by simp), List.replicate_succ, List.cons_append, ← hk]
    · exact ⟨0, by rw [List.dropWhile_cons_of_neg (by simpa using h)]; rfl⟩

theorem trimZeros_spec (ds : Str) : ∃ k, ds = trimZeros ds ++ List.replicate k '0' := by
  obtain ⟨k, hk⟩ := dropZeros ds.reverse
  refine ⟨k, ?_⟩
  have := congrArg List.reverse hk
  rw [List.reverse_append, List.reverse_reverse, List.reverse_replicate] at this
  exact this

/-- A numeral without sign that denotes the digits `ds` with the point after `dp` of them. -/
structure FmtDenotes (t ds : Str) (dp : Int) : Prop where
  out : ∃ w : DecNum, w.OK ∧ w.sign = [] ∧ w.text = t ∧ w.magnitude = digitsNumber ds * 10 ^ (dp - ds.length)

theorem fmtF_denotes {ds : Str} {dp : Int} (h : ∀ c ∈ ds, c.isDigit = true) (hne : ds ≠ [] ∨ dp = 0) : FmtDenotes (fmtF ds dp) ds dp := by
  have hz : ∀ k, ∀ c ∈ List.replicate k '0', c.isDigit = true := by
    intro k c hc
    rw [List.eq_of_mem_replicate hc]; decide
  unfold fmtF
  by_cases h1 : 0 < dp
  · obtain ⟨d, rfl⟩ := Int.eq_ofNat_of_zero_le h1.le
    have hd : 0 < d := by exact_mod_cast h1
    rw [if_pos h1, Int.toNat_natCast]
    by_cases h2 : d < ds.length
    · have h2' : (d : Int) < ds.length := by exact_mod_cast h2
      rw [if_pos h2', show (-(d : Int)).toNat = 0 by omega, show d - ds.length = 0 by omega]
      refine ⟨⟨[], ds.take d, some (ds.drop d), none⟩, ⟨.inl rfl, fun c hc => h c (List.mem_of_mem_take hc), fun c hc => h c (List.mem_of_mem_drop hc),
        ?_, by intro c s e he; cases he⟩, rfl, ?_, ?_⟩
      · simp only [DecNum.frac, Option.getD_some, List.take_append_drop]
        intro h0; rw [h0] at h2; simp at h2
      · simp [DecNum.text]
      · simp only [DecNum.magnitude, DecNum.frac, Option.getD_some, List.take_append_drop, DecNum.exponent]
        congr 2
        rw [List.length_drop]; omega
    · have h2' : ¬ (d : Int) < ds.length := by exact_mod_cast h2
      rw [if_neg h2', List.take_of_length_le (by omega)]
      refine ⟨⟨[], ds ++ List.replicate (d - ds.length) '0', none, none⟩, ⟨.inl rfl, fun c hc => ?_, (by intro c hc; cases hc), ?_,
        by intro c s e he; cases he⟩, rfl, ?_, ?_⟩
      · rcases List.mem_append.1 hc with hc | hc
        · exact h c hc
        · exact hz _ c hc
      · simp only [DecNum.frac, Option.getD_none, List.append_nil]
        intro h0
        have := congrArg List.length h0
        rw [List.length_append, List.length_replicate, List.length_nil] at this
        omega
      · simp [DecNum.text]
      · simp only [DecNum.magnitude, DecNum.frac, Option.getD_none, List.append_nil, DecNum.exponent]
        rw [digitsNumber_append, digitsNumber_zeros, List.length_replicate]
        simp only [List.length_nil, Nat.cast_zero, sub_zero, zpow_zero, add_zero]
        push_cast
        rw [_root_.mul_one, ← zpow_natCast]
        congr 2
        omega
  · rw [if_neg h1]
    rcases Decidable.em (dp < ds.length) with h2 | h2
    · rw [if_pos h2, show dp.toNat = 0 by omega, List.drop_zero]
      refine ⟨⟨[], ['0'], some (List.replicate (-dp).toNat '0' ++ ds), none⟩, ⟨.inl rfl, fun c hc => hz 1 c hc, fun c hc => ?_, (by simp),
        by intro c s e he; cases he⟩, rfl, ?_, ?_⟩
      · simp only [DecNum.frac, Option.getD_some] at hc
        rcases List.mem_append.1 hc with hc | hc
        · exact hz _ c hc
        · exact h c hc
      · simp [DecNum.text]
      · simp only [DecNum.magnitude, DecNum.frac, Option.getD_some, DecNum.exponent]
        rw [digitsNumber_append, digitsNumber_append, digitsNumber_zeros, show digitsNumber ['0'] = 0 from rfl]
        simp only [zero_mul, zero_add]
        congr 2
        rw [List.length_append, List.length_replicate]
        push_cast
        omega
    · have hd0 : ds = [] := by
        cases ds with
        | nil => rfl
        | cons c ds => simp at h2; omega
      subst hd0
      have : dp = 0 := by simpa using hne
      subst this
      refine ⟨⟨[], ['0'], none, none⟩, ⟨.inl rfl, fun c hc => hz 1 c hc, (by intro c hc; cases hc), (by simp), by intro c s e he; cases he⟩,
        rfl, rfl, ?_⟩
      simp [DecNum.magnitude, DecNum.frac, DecNum.exponent, digitsNumber]

theorem expText_spec (e : Int) : ∃ s ds, expText e = 'e' :: (s ++ ds) ∧ DecNum.IsSign s ∧ ds ≠ [] ∧ (∀ d ∈ ds, d.isDigit = true) ∧
    digitsNumber ds = e.natAbs ∧ (s = ['-'] ↔ e < 0) := by
  refine ⟨[if e < 0 then '-' else '+'], (if e.natAbs < 10 then ['0'] else []) ++ Nat.toDigits 10 e.natAbs, rfl, ?_, ?_, ?_, ?_, ?_⟩
  · by_cases h0 : e < 0
    · rw [if_pos h0]; exact .inr (.inr rfl)
    · rw [if_neg h0]; exact .inr (.inl rfl)
  · intro h0
    exact Nat.toDigits_ne_nil (List.append_eq_nil_iff.1 h0).2
  · intro d hd
    rcases List.mem_append.1 hd with hd | hd
    · split at hd
      · rw [List.mem_singleton.1 hd]; decide
      · cases hd
    · exact Nat.isDigit_of_mem_toDigits (by norm_num) (by norm_num) hd
  · rw [digitsNumber_append, digitsNumber_decimal]
    split
    · rw [show digitsNumber ['0'] = 0 from rfl]; omega
    · rw [show digitsNumber [] = 0 from rfl]; omega
  · by_cases h0 : e < 0
    · simp [h0]
    · simp [h0]

theorem fmtE_denotes {ds : Str} {dp : Int} (h : ∀ c ∈ ds, c.isDigit = true) (hne : ds ≠ []) (hb : (dp - 1).natAbs < 10000) :
    FmtDenotes (fmtE ds dp) ds dp := by
  obtain ⟨s, es, h1, h2, h3, h4, h5, h6⟩ := expText_spec (dp - 1)
  cases ds with
  | nil => exact absurd rfl hne
  | cons d r =>
    unfold fmtE
    rw [h1]
    have hexp : ∀ w : DecNum, w.exp = some ('e', s, es) → w.exponent = dp - 1 := by
      intro w hw
      simp only [DecNum.exponent, hw]
      by_cases h0 : dp - 1 < 0
      · rw [if_pos (h6.2 h0), h5]; omega
      · rw [if_neg (fun hh => h0 (h6.1 hh)), h5]; omega
    have hexpok : ∀ c s' ds', some ('e', s, es) = some (c, s', ds') → (c = 'e' ∨ c = 'E') ∧ DecNum.IsSign s' ∧ ds' ≠ [] ∧
        (∀ d ∈ ds', d.isDigit = true) ∧ digitsNumber ds' < 10000 := by
      intro c s' ds' he
      cases he
      exact ⟨.inl rfl, h2, h3, h4, by omega⟩
    by_cases hr : r = []
    · subst hr
      rw [if_pos (by simp)]
      refine ⟨⟨[], [d], none, some ('e', s, es)⟩, ⟨.inl rfl, h, (by intro c hc; cases hc), (by simp), hexpok⟩, rfl, ?_, ?_⟩
      · simp [DecNum.text]
      · simp only [DecNum.magnitude, hexp ⟨[], [d], none, some ('e', s, es)⟩ rfl]
        simp [DecNum.frac]
    · have hl : ¬ (d :: r).length ≤ 1 := by
        have := List.length_pos_iff.2 hr
        rw [List.length_cons]; omega
      rw [if_neg hl]
      refine ⟨⟨[], [d], some r, some ('e', s, es)⟩, ⟨.inl rfl, fun c hc => h c (by simp at hc; simp [hc]), fun c hc => h c ?_, (by simp), hexpok⟩, rfl, ?_, ?_⟩
      · simp only [DecNum.frac, Option.getD_some] at hc
        simp [hc]
      · simp [DecNum.text]
      · simp only [DecNum.magnitude, hexp ⟨[], [d], some r, some ('e', s, es)⟩ rfl]
        simp only [DecNum.frac, Option.getD_some, List.singleton_append, List.length_cons]
        congr 2
        push_cast
        omega

theorem fmtG_denotes {ds : Str} {dp : Int} (h : ∀ c ∈ ds, c.isDigit = true) (hne : ds ≠ [] ∨ dp = 0) (hb : (dp - 1).natAbs < 10000) :
    FmtDenotes (fmtG ds dp) ds dp := by
  unfold fmtG
  dsimp only
  by_cases hc : dp - 1 < -4 ∨ (if ds.length < 19 ∧ dp ≤ ds.length then (ds.length : Int) else 19) ≤ dp - 1
  · rw [if_pos hc]
    refine fmtE_denotes h ?_ hb
    rintro rfl
    have hd : dp = 0 := by simpa using hne
    subst hd
    simp at hc
  · rw [if_neg hc]
    exact fmtF_denotes h hne

/-! ### the digits -/

theorem unit_le_ten : unit ≤ 10 ^ 400 := by
  rw [unit_eq]
  calc 2 ^ 1074 ≤ 2 ^ (3 * 400) := Nat.pow_le_pow_right (by norm_num) (by norm_num)
    _ = (2 ^ 3) ^ 400 := by rw [Nat.pow_mul]
    _ ≤ 10 ^ 400 := Nat.pow_le_pow_left (by norm_num) _

theorem two_pow_le_ten_pow (n : Nat) : 2 ^ n ≤ 10 ^ n := Nat.pow_le_pow_left (by norm_num) n

/-- the rounding step, with the powers named -/
theorem round_close {m u c P N D : Nat} (hu : 0 < u) (hP : 0 < P) (hD : 0 < D) (hlow : D * (u * P) ≤ m * c) (hN : N = rne (m * c) (u * P)) :
    |(N : ℚ) * P / c - (m : ℚ) / u| ≤ (m : ℚ) / u / (2 * D) ∧ 0 < N := by
  have hd : 0 < u * P := Nat.mul_pos hu hP
  obtain ⟨b1, b2, -, -⟩ := rne_bounds (n := m * c) hd
  rw [← hN] at b1 b2
  have hmc : 0 < m * c := lt_of_lt_of_le (Nat.mul_pos hD hd) hlow
  have hc : 0 < c := Nat.pos_of_mul_pos_left hmc
  have hu' : (0 : ℚ) < u := by exact_mod_cast hu
  have hP' : (0 : ℚ) < P := by exact_mod_cast hP
  have hc' : (0 : ℚ) < c := by exact_mod_cast hc
  have hD' : (0 : ℚ) < D := by exact_mod_cast hD
  have hD1 : (1 : ℚ) ≤ D := by exact_mod_cast hD
  have c1 : 2 * ((m : ℚ) * c) ≤ (2 * N + 1) * (u * P) := by exact_mod_cast b1
  have c2 : 2 * (N : ℚ) * (u * P) ≤ 2 * (m * c) + u * P := by exact_mod_cast b2
  have c3 : (D : ℚ) * (u * P) ≤ m * c := by exact_mod_cast hlow
  have hup : (0 : ℚ) < u * P := by positivity
  constructor
  · have e : (N : ℚ) * P / c - m / u = (N * (u * P) - m * c) / (u * c) := by field_simp
    rw [e, abs_div, abs_of_pos (by positivity : (0 : ℚ) < u * c), div_le_iff₀ (by positivity)]
    have e2 : (m : ℚ) / u / (2 * D) * (u * c) = m * c / (2 * D) := by field_simp
    rw [e2]
    have h4 : (u : ℚ) * P / 2 ≤ m * c / (2 * D) := by
      rw [div_le_div_iff₀ (by norm_num) (by positivity)]
      linarith
    refine _root_.le_trans ?_ h4
    rw [abs_le]
    constructor <;> linarith
  · rcases Nat.eq_zero_or_pos N with h0 | h0
    · rw [h0] at c1
      push_cast at c1
      have : (u : ℚ) * P ≤ D * (u * P) := le_mul_of_one_le_left hup.le hD1
      linarith
    · exact h0

theorem point_bound {p l : Nat} (h1 : 1 ≤ p) (h2 : p ≤ 2498) (h3 : 1 ≤ l) (h4 : l ≤ 2518) :
    ((p : Int) - 400 + (l - 19) - 1).natAbs < 10000 := by omega

theorem digits19_zero : digits19 0 = ([], 0) := by unfold digits19; rw [if_pos rfl]

/-- the digits have 19 right digits; the point is not far away -/
theorem digits19_spec {m : Nat} (hm : Rep m) (hpos : 0 < m) : (∀ c ∈ (digits19 m).1, c.isDigit = true) ∧ (digits19 m).1 ≠ [] ∧
    ((digits19 m).2 - 1).natAbs < 10000 ∧
    |(digitsNumber (digits19 m).1 : ℚ) * 10 ^ ((digits19 m).2 - (digits19 m).1.length) - m / unit| ≤ m / unit / (2 * 10 ^ 18) := by
  unfold digits19
  rw [if_neg (by omega)]
  dsimp only
  set A := m * 10 ^ 400 / unit with hA
  set p := (Nat.toDigits 10 A).length with hp
  set N := rne (m * 10 ^ 419) (unit * 10 ^ p) with hN
  set ds := Nat.toDigits 10 N with hds
  have hA1 : 1 ≤ A := by
    rw [hA, Nat.le_div_iff_mul_le unit_pos, Nat.one_mul]
    calc unit ≤ 1 * 10 ^ 400 := by rw [Nat.one_mul]; exact unit_le_ten
      _ ≤ m * 10 ^ 400 := Nat.mul_le_mul_right _ hpos
  have hp1 : 1 ≤ p := Nat.length_toDigits_pos
  have hplow : 10 ^ (p - 1) ≤ A := by
    rcases Nat.eq_zero_or_pos (p - 1) with h0 | h0
    · rw [h0]; simpa using hA1
    · by_contra hlt
      push Not at hlt
      have := (Nat.length_toDigits_le_iff (b := 10) (n := A) (by norm_num) h0).2 hlt
      omega
  have hmlt : m < 10 ^ 2098 := by
    have := hm.1
    rw [magLimit_eq] at this
    exact lt_of_lt_of_le this (two_pow_le_ten_pow _)
  have hpup : p ≤ 2498 := by
    refine (Nat.length_toDigits_le_iff (b := 10) (by norm_num) (by norm_num)).2 ?_
    calc A ≤ m * 10 ^ 400 := Nat.div_le_self _ _
      _ < 10 ^ 2098 * 10 ^ 400 := Nat.mul_lt_mul_of_pos_right hmlt (by positivity)
      _ = 10 ^ 2498 := by rw [← Nat.pow_add]
  have hlen1 : 1 ≤ ds.length := Nat.length_toDigits_pos
  have hlen : ds.length ≤ 2518 := by
    refine (Nat.length_toDigits_le_iff (b := 10) (by norm_num) (by norm_num)).2 ?_
    have h1 : N ≤ m * 10 ^ 419 + 1 := by
      have := rne_cases (m * 10 ^ 419) (unit * 10 ^ p)
      have h2 : m * 10 ^ 419 / (unit * 10 ^ p) ≤ m * 10 ^ 419 := Nat.div_le_self _ _
      omega
    have h2 : m * 10 ^ 419 + 1 ≤ 10 ^ 2098 * 10 ^ 419 := Nat.mul_lt_mul_of_pos_right hmlt (by positivity)
    calc N ≤ 10 ^ 2098 * 10 ^ 419 := _root_.le_trans h1 h2
      _ = 10 ^ 2517 := by rw [← Nat.pow_add]
      _ < 10 ^ 2518 := Nat.pow_lt_pow_right (by norm_num) (by norm_num)
  have hlow : 10 ^ 18 * (unit * 10 ^ p) ≤ m * (10 ^ 400 * 10 ^ 19) := by
    have h1 : unit * A ≤ m * 10 ^ 400 := Nat.mul_div_le _ _
    have h2 : 10 ^ p = 10 ^ (p - 1) * 10 := by rw [← Nat.pow_succ]; congr 1; omega
    calc 10 ^ 18 * (unit * 10 ^ p) = unit * 10 ^ (p - 1) * 10 ^ 19 := by rw [h2]; ring
      _ ≤ unit * A * 10 ^ 19 := Nat.mul_le_mul_right _ (Nat.mul_le_mul_left _ hplow)
      _ ≤ m * 10 ^ 400 * 10 ^ 19 := Nat.mul_le_mul_right _ h1
      _ = m * (10 ^ 400 * 10 ^ 19) := by rw [Nat.mul_assoc]
  have hN' : N = rne (m * (10 ^ 400 * 10 ^ 19)) (unit * 10 ^ p) := by rw [hN, ← Nat.pow_add]
  obtain ⟨r1, r2⟩ := round_close unit_pos (Nat.pow_pos (by norm_num)) (by norm_num) hlow hN'
  obtain ⟨k, hk⟩ := trimZeros_spec ds
  have hval : N = digitsNumber (trimZeros ds) * 10 ^ k := by
    have := digitsNumber_decimal N
    rw [← hds, hk, digitsNumber_append, digitsNumber_zeros, List.length_replicate] at this
    omega
  have hlenk : (ds.length : Int) = (trimZeros ds).length + k := by
    have := congrArg List.length hk
    rw [List.length_append, List.length_replicate] at this
    exact_mod_cast this
  refine ⟨fun c hc => ?_, ?_, point_bound hp1 hpup hlen1 hlen, ?_⟩
  · refine Nat.isDigit_of_mem_toDigits (b := 10) (n := N) (by norm_num) (by norm_num) ?_
    rw [← hds, hk]
    exact List.mem_append_left _ hc
  · intro h0
    rw [h0] at hval
    rw [hval] at r2
    simp [digitsNumber] at r2
  · have e : (digitsNumber (trimZeros ds) : ℚ) * 10 ^ ((p : Int) - 400 + (ds.length - 19) - (trimZeros ds).length) =
        (N : ℚ) * ((10 ^ p : Nat) : ℚ) / ((10 ^ 400 * 10 ^ 19 : Nat) : ℚ) := by
      rw [hval]
      push_cast
      rw [show (p : Int) - 400 + (ds.length - 19) - (trimZeros ds).length = (k : Int) + p - (400 + 19 : Int) by rw [hlenk]; ring,
        zpow_sub₀ (by norm_num), zpow_add₀ (by norm_num), zpow_add₀ (by norm_num), zpow_natCast, zpow_natCast]
      rw [show ((10 : ℚ) ^ (400 : Int)) = 10 ^ 400 from zpow_natCast 10 400, show ((10 : ℚ) ^ (19 : Int)) = 10 ^ 19 from zpow_natCast 10 19]
      rw [mul_div_assoc', _root_.mul_assoc]
      norm_num
    rw [e]
    refine _root_.le_trans r1 (le_of_eq ?_)
    norm_num

/-- `%.19g` writes 17 and more significant digits. -/
theorem formatG19_prints : Prints17 Strconv.formatG19 := by
  refine ⟨fun s m hm => ?_, .inl rfl, fun s => .inl (by cases s <;> rfl)⟩
  have key : ∃ w : DecNum, w.OK ∧ w.sign = [] ∧ w.text = fmtG (digits19 m).1 (digits19 m).2 ∧ |w.magnitude - m / unit| ≤ m / unit / (2 * 10 ^ 16) := by
    rcases Nat.eq_zero_or_pos m with rfl | hpos
    · obtain ⟨w, h1, h2, h3, h4⟩ := (fmtG_denotes (ds := []) (dp := 0) (by intro c hc; cases hc) (.inr rfl) (by norm_num)).out
      refine ⟨w, h1, h2, by rw [h3, digits19_zero], ?_⟩
      rw [h4]
      simp [digitsNumber]
    · obtain ⟨g1, g2, g3, g4⟩ := digits19_spec hm hpos
      obtain ⟨w, h1, h2, h3, h4⟩ := (fmtG_denotes g1 (.inl g2) g3).out
      refine ⟨w, h1, h2, h3, ?_⟩
      rw [h4]
      refine _root_.le_trans g4 ?_
      have hu : (0 : ℚ) < unit := by exact_mod_cast unit_pos
      exact div_le_div_of_nonneg_left (by positivity) (by norm_num) (by norm_num)
  obtain ⟨w, h1, h2, h3, h4⟩ := key
  cases s with
  | false =>
    refine ⟨w, h1, ?_, by simp [h2], h4⟩
    simp only [formatG19, Bool.false_eq_true, if_false, List.nil_append, h3]
  | true =>
    refine ⟨{ w with sign := ['-'] }, ⟨.inr (.inr rfl), h1.whole, h1.frac, h1.digit, h1.exp⟩, ?_, by simp, h4⟩
    simp only [formatG19, if_true]
    rw [← h3]
    simp [DecNum.text, h2]

/-! ### reading back -/

theorem parseFloat_special {s : Str} {x : F64} (h : special s = some x) : Strconv.parseFloat s = some x := by
  unfold Strconv.parseFloat
  rw [h]

/-- What is printed with 17 significant digits is read back exactly. -/
theorem parse_prints17 {print : F64 → Str} (h : Prints17 print) (x : F64) : Strconv.parseFloat (print x) = some x := by
  cases x with
  | nan => rcases h.nan with h | h <;> rw [h] <;> exact parseFloat_special (by decide)
  | inf s => cases s <;> rcases h.inf _ with h | h <;> rw [h] <;> exact parseFloat_special (by decide)
  | fin s m hm =>
    obtain ⟨w, h1, h2, h3, h4⟩ := h.finite s m hm
    obtain ⟨x, g1, g2, g3⟩ := parseFloat_text h1
    rw [h2, g3]
    have hu : (0 : ℚ) < unit := by exact_mod_cast unit_pos
    have hx : x = .fin s m hm := by
      rcases Nat.eq_zero_or_pos m with rfl | hpos
      · have hmag : w.magnitude = 0 := by
          simpa using h4
        have hv : w.value = 0 := by unfold DecNum.value; rw [hmag]; simp
        rw [hv] at g1
        obtain ⟨t, k, hk, rfl, e1, e2⟩ := isVal_scaled (Rounded.zero g1)
        have ht : t = s := by
          have := HasSign.unique (.inl ⟨_, _, rfl⟩) g2
          rw [this]
          cases s
          · have : w.sign ≠ ['-'] := fun hh => Bool.false_ne_true (h3.1 hh)
            simp [this]
          · simp [h3.2 rfl]
        subst ht
        have : k = 0 := by
          rw [zero_mul] at e1
          rw [← e1] at e2
          split at e2
          · have : (k : ℚ) = 0 := by linarith
            exact_mod_cast this
          · exact_mod_cast e2.symm
        subst this
        rfl
      · refine rounded_close g1 hpos ?_
        have hmu : (0 : ℚ) < (m : ℚ) / unit := by
          have : (0 : ℚ) < m := by exact_mod_cast hpos
          positivity
        have hs : (if s then -w.value else w.value) = w.magnitude := by
          unfold DecNum.value
          cases s
          · have : w.sign ≠ ['-'] := fun hh => Bool.false_ne_true (h3.1 hh)
            simp [this]
          · simp [h3.2 rfl]
        rw [hs]
        refine lt_of_le_of_lt h4 ?_
        exact div_lt_div_of_pos_left hmu (by norm_num) (by norm_num)
    rw [hx]
    rfl

end Leaves
