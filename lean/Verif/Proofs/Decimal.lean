import Verif.Model.Strconv
import Verif.Spec.Decimal
import Verif.Proofs.IEEE
import Verif.Proofs.F64Accuracy
import Verif.Proofs.Text

/-! Reading numerals: the result is the nearest float64, and 17 significant digits determine it. -/

namespace Leaves
open F64 Spec Strconv

/-! ### magnitudes of 53 digits are far apart -/

theorem digits53_gap {m m' : Nat} (h : Digits53 m) (h' : Digits53 m') (hne : m' ≠ m) : (m : ℚ) / 2 ^ 53 ≤ |(m' : ℚ) - m| := by
  rcases Nat.eq_zero_or_pos m with rfl | hpos
  · simp
  set e := m.log2 - 52 with he
  have hlt : m < 2 ^ (53 + e) := by
    refine lt_of_lt_of_le (Nat.lt_log2_self (n := m)) (Nat.pow_le_pow_right (by norm_num) (by omega))
  have hdvd : 2 ^ e ∣ m := digits53_dvd h
  have hlow : e = 0 ∨ 2 ^ (52 + e) ≤ m := by
    rcases Nat.eq_zero_or_pos e with h0 | h1
    · exact .inl h0
    · refine .inr ?_
      have : 2 ^ m.log2 ≤ m := Nat.log2_self_le (by omega)
      rwa [show 52 + e = m.log2 by omega]
  have hbound : (m : ℚ) / 2 ^ 53 ≤ 2 ^ e := by
    rw [div_le_iff₀ (by positivity)]
    have : (m : ℚ) ≤ ((2 ^ (53 + e) : Nat) : ℚ) := by exact_mod_cast hlt.le
    push_cast at this
    rw [pow_add] at this
    linarith
  have key : ∀ a b : Nat, 2 ^ e ∣ a → 2 ^ e ∣ b → a < b → (2 : ℚ) ^ e ≤ (b : ℚ) - a := by
    intro a b ⟨i, hi⟩ ⟨j, hj⟩ hab
    subst hi hj
    have hij : i + 1 ≤ j := Nat.lt_of_mul_lt_mul_left hab
    have : (2 ^ e * (i + 1) : Nat) ≤ 2 ^ e * j := Nat.mul_le_mul_left _ hij
    have hc : ((2 ^ e * (i + 1) : Nat) : ℚ) ≤ ((2 ^ e * j : Nat) : ℚ) := by exact_mod_cast this
    push_cast at hc ⊢
    linarith
  by_cases hbig : e = 0 ∨ 2 ^ (52 + e) ≤ m'
  · have hdvd' : 2 ^ e ∣ m' := by
      rcases hbig with h0 | h1
      · rw [h0]; simp
      · exact digits53_multiple h' h1
    refine _root_.le_trans hbound ?_
    rcases Nat.lt_or_gt_of_ne hne with hl | hl
    · rw [abs_sub_comm]
      exact _root_.le_trans (key _ _ hdvd' hdvd hl) (le_abs_self _)
    · exact _root_.le_trans (key _ _ hdvd hdvd' hl) (le_abs_self _)
  · push Not at hbig
    obtain ⟨h0, hsmall⟩ := hbig
    have hlow : 2 ^ (52 + e) ≤ m := hlow.resolve_left h0
    clear_value e
    obtain ⟨f, rfl⟩ : ∃ f, e = f + 1 := ⟨e - 1, by omega⟩
    -- `m'` is below the power by at least half a step
    have hstep : m' + 2 ^ f ≤ 2 ^ (52 + (f + 1)) := by
      rcases Nat.lt_or_ge m' (2 ^ (52 + f)) with hl | hl
      · have h1 : 2 ^ f ≤ 2 ^ (52 + f) := Nat.pow_le_pow_right (by norm_num) (by omega)
        have h2 : 2 ^ (52 + (f + 1)) = 2 ^ (52 + f) + 2 ^ (52 + f) := by rw [show 52 + (f + 1) = 52 + f + 1 by omega, pow_succ]; ring
        omega
      · obtain ⟨k, hk⟩ := digits53_multiple h' hl
        have h2 : 2 ^ (52 + (f + 1)) = 2 ^ f * 2 ^ 53 := by rw [← pow_add]; congr 1; omega
        rw [h2, hk] at hsmall ⊢
        have : k + 1 ≤ 2 ^ 53 := Nat.lt_of_mul_lt_mul_left hsmall
        calc 2 ^ f * k + 2 ^ f = 2 ^ f * (k + 1) := by ring
          _ ≤ _ := Nat.mul_le_mul_left _ this
    have hc : (m' : ℚ) + 2 ^ f ≤ 2 ^ (52 + (f + 1)) := by exact_mod_cast hstep
    rw [abs_sub_comm]
    refine _root_.le_trans ?_ (le_abs_self _)
    rcases Nat.lt_or_ge (2 ^ (52 + (f + 1))) m with hl | hl
    · have := key _ _ ⟨2 ^ 52, by rw [show 52 + (f + 1) = (f + 1) + 52 by omega, pow_add]⟩ hdvd hl
      push_cast at this
      have hp : (0 : ℚ) < 2 ^ f := by positivity
      linarith
    · have hm : m = 2 ^ (52 + (f + 1)) := by omega
      have hm : (m : ℚ) = 2 ^ (52 + (f + 1)) := by exact_mod_cast hm
      have : (m : ℚ) / 2 ^ 53 = 2 ^ f := by
        rw [hm, div_eq_iff (by positivity), ← pow_add]; congr 1; omega
      rw [this]
      linarith

/-- A number closer to a magnitude than half a unit in the 17th digit is rounded to it. -/
theorem nearest_of_close {a : ℚ} {m : Nat} (h : Digits53 m) (hpos : 0 < m) (ha : |a - m| < m / 2 ^ 54) : Nearest a m := by
  have far : ∀ m', Digits53 m' → m' ≠ m → |(m : ℚ) - a| < |(m' : ℚ) - a| := by
    intro m' h' hne
    have h1 := digits53_gap h h' hne
    have h2 : |(m' : ℚ) - m| ≤ |(m' : ℚ) - a| + |a - m| := by
      have := abs_add_le ((m' : ℚ) - a) (a - m)
      rwa [sub_add_sub_cancel] at this
    rw [abs_sub_comm (m : ℚ) a]
    have h3 : (m : ℚ) / 2 ^ 53 = m / 2 ^ 54 + m / 2 ^ 54 := by ring
    linarith
  refine ⟨h, fun m' h' => ?_⟩
  by_cases hne : m' = m
  · subst hne
    exact ⟨le_rfl, fun hne => absurd rfl hne⟩
  · exact ⟨(far m' h' hne).le, fun _ he => absurd he (far m' h' hne).ne'⟩

theorem rep_digits53 {m : Nat} (h : Rep m) : Digits53 m := by
  rcases Nat.eq_zero_or_pos m with rfl | hpos
  · exact ⟨0, 0, by simp, by norm_num⟩
  obtain ⟨k, hk⟩ := h.2
  refine ⟨k, m.log2 - 52, by rw [Nat.mul_comm]; exact hk, ?_⟩
  have hlt : m < 2 ^ (m.log2 - 52) * 2 ^ 53 := by
    rw [← pow_add]
    exact lt_of_lt_of_le (Nat.lt_log2_self (n := m)) (Nat.pow_le_pow_right (by norm_num) (by omega))
  rw [hk] at hlt
  have : (2 ^ (m.log2 - 52) * k).log2 = m.log2 := by rw [← hk]
  rw [this] at hlt
  exact Nat.lt_of_mul_lt_mul_left hlt

/-- A number that close to a float64 is read as that float64. -/
theorem rounded_close {q : ℚ} {x : F64} {s : Bool} {m : Nat} {hm : Rep m} (hr : Rounded q x) (hpos : 0 < m)
    (hq : |(if s then -q else q) - m / unit| < m / unit / 2 ^ 54) : x = .fin s m hm := by
  have hu : (0 : ℚ) < unit := by exact_mod_cast unit_pos
  have hm0 : (0 : ℚ) < m := by exact_mod_cast hpos
  obtain ⟨r1, r2, k, hk, hx⟩ := hr
  set p := if s then -q else q with hp
  have hmu : (0 : ℚ) < m / unit := by positivity
  have hp0 : 0 < p := by
    have := (abs_lt.1 hq).1
    have : (m : ℚ) / unit / 2 ^ 54 ≤ m / unit := div_le_self hmu.le (by norm_num)
    linarith
  have hqp : |q| = p := by
    cases s
    · simp only [Bool.false_eq_true, if_false] at hp
      rw [← hp, abs_of_pos hp0]
    · simp only [if_true] at hp
      rw [show q = -p by rw [hp]; ring, abs_neg, abs_of_pos hp0]
  have hclose : |(|q| * unit) - m| < m / 2 ^ 54 := by
    have e : |q| * unit - m = (p - m / unit) * unit := by rw [hqp]; field_simp
    rw [e, abs_mul, abs_of_pos hu]
    calc |p - m / unit| * unit < m / unit / 2 ^ 54 * unit := mul_lt_mul_of_pos_right hq hu
      _ = m / 2 ^ 54 := by field_simp
  have hkm : k = m := Nearest.unique hk (nearest_of_close (rep_digits53 hm) hpos hclose)
  subst hkm
  have hsign : HasSign x s := by
    cases s
    · simp only [Bool.false_eq_true, if_false] at hp
      exact r1 (hp ▸ hp0)
    · simp only [if_true] at hp
      exact r2 (by rw [hp] at hp0; linarith)
  rcases hx with ⟨_, t, h', rfl⟩ | ⟨hge, _⟩
  · have : t = s := HasSign.unique (.inl ⟨_, _, rfl⟩) hsign
    subst this; rfl
  · exact absurd hm.1 (by omega)

/-! ### reading the characters of a numeral -/

theorem digitOf_digit {c : Char} (h : c.isDigit = true) : digitOf false c = some (c.toNat - 48) := by
  unfold digitOf; rw [if_pos h]

theorem digit_ne {c d : Char} (h : c.isDigit = true) (hd : d.isDigit = false) : c ≠ d := by
  rintro rfl; rw [h] at hd; cases hd

/-- the mantissa loop over digits -/
theorem mantissa_digits : ∀ (ds rest : Str) (m : Mantissa), (∀ c ∈ ds, c.isDigit = true) →
    mantissa false (ds ++ rest) m = mantissa false rest
      { n := ds.foldl (fun n c => 10 * n + (c.toNat - 48)) m.n, frac := if m.dot then m.frac + ds.length else m.frac, dot := m.dot,
        saw := m.saw || !ds.isEmpty }
  | [], rest, m, _ => by simp
  | c :: ds, rest, m, h => by
    have hc := h c (by simp)
    rw [List.cons_append, mantissa, if_neg (digit_ne hc (by decide)), if_neg (digit_ne hc (by decide)), digitOf_digit hc]
    simp only [Bool.false_eq_true, if_false]
    rw [mantissa_digits ds rest _ fun d hd => h d (by simp [hd])]
    simp only [List.foldl_cons, List.length_cons, List.isEmpty_cons, Bool.not_false, Bool.or_true, Bool.true_or]
    congr 1
    cases m.dot <;> simp; omega

theorem mantissa_stop (s : Str) (m : Mantissa) (h : ∀ c, s.head? = some c → c = 'e' ∨ c = 'E') : mantissa false s m = (m, s) := by
  cases s with
  | nil => rfl
  | cons c s =>
    rcases h c rfl with rfl | rfl <;> rfl

theorem expDigits_digits : ∀ (ds : Str) (e : Nat), (∀ c ∈ ds, c.isDigit = true) →
    ds.foldl (fun n c => 10 * n + (c.toNat - 48)) e < 10000 →
    expDigits ds e = (ds.foldl (fun n c => 10 * n + (c.toNat - 48)) e, [])
  | [], e, _, _ => rfl
  | c :: ds, e, h, hb => by
    have hc := h c (by simp)
    have grow : ∀ (l : Str) (a : Nat), a ≤ l.foldl (fun n c => 10 * n + (c.toNat - 48)) a := by
      intro l
      induction l with
      | nil => intro a; exact Nat.le_refl a
      | cons d l ih => intro a; rw [List.foldl_cons]; exact Nat.le_trans (by omega) (ih _)
    rw [List.foldl_cons] at hb ⊢
    have hlt : e < 10000 := by
      have := grow ds (10 * e + (c.toNat - 48))
      omega
    rw [expDigits, if_neg (digit_ne hc (by decide)), if_pos hc, if_pos hlt]
    exact expDigits_digits ds _ (fun d hd => h d (by simp [hd])) hb

theorem sign_digit {s : Str} (h : ∀ c, s.head? = some c → c ≠ '-' ∧ c ≠ '+') : sign s = (false, s) := by
  unfold sign
  split
  · exact absurd rfl (h _ rfl).1
  · exact absurd rfl (h _ rfl).2
  · rfl

theorem sign_sign {sg s : Str} (hs : DecNum.IsSign sg) (h : ∀ c, s.head? = some c → c ≠ '-' ∧ c ≠ '+') :
    sign (sg ++ s) = (decide (sg = ['-']), s) := by
  rcases hs with rfl | rfl | rfl
  · exact sign_digit h
  · rfl
  · rfl

/-- a character of a numeral -/
def numChar (c : Char) : Prop := c.isDigit = true ∨ c = '.' ∨ c = 'e' ∨ c = 'E' ∨ c = '+' ∨ c = '-'

theorem numChar_ne {c d : Char} (h : numChar c) (h1 : d.isDigit = false) (h2 : d ∉ ['.', 'e', 'E', '+', '-']) : c ≠ d := by
  rintro rfl
  rcases h with h | h
  · rw [h] at h1; cases h1
  · simp at h2; tauto

theorem numChar_lower {c : Char} (h : numChar c) : (if 'A' ≤ c ∧ c ≤ 'Z' then Char.ofNat (c.toNat + 32) else c) ≠ 'n' := by
  rcases h with h | rfl | rfl | rfl | rfl | rfl
  · rw [if_neg]
    · exact digit_ne h (by decide)
    · rintro ⟨h1, _⟩
      have h2 : c.val ≤ 57 := by
        simp only [Char.isDigit, Bool.and_eq_true, decide_eq_true_eq] at h
        exact h.2
      have h3 : (65 : UInt32) ≤ c.val := h1
      exact absurd (UInt32.le_trans h3 h2) (by decide)
  all_goals decide

theorem special_none {s : Str} (h : ∀ c ∈ s, numChar c) : special s = none := by
  have key : ∀ t : Str, (∀ c ∈ t, numChar c) → 'n' ∉ lowerAll t := by
    intro t ht hn
    obtain ⟨c, hc, he⟩ := List.mem_map.1 hn
    exact numChar_lower (ht c hc) he
  have hsub : ∀ c ∈ (sign s).2, numChar c := by
    intro c hc
    refine h c ?_
    unfold sign at hc
    split at hc
    · exact List.mem_cons_of_mem _ hc
    · exact List.mem_cons_of_mem _ hc
    · exact hc
  unfold special
  dsimp only
  rw [if_neg, if_neg]
  · intro e; exact key s h (by rw [e]; decide)
  · rintro (e | e) <;> exact key _ hsub (by rw [e]; decide)

namespace DecNum'

/-- the numeral after its sign -/
def body (w : DecNum) : Str :=
  w.whole ++ ((match w.point with | none => [] | some ds => '.' :: ds) ++ (match w.exp with | none => [] | some (c, s, ds) => c :: (s ++ ds)))

theorem text_eq (w : DecNum) : w.text = w.sign ++ body w := by
  unfold DecNum.text body
  rw [List.append_assoc, List.append_assoc]
  rfl

theorem isSign_chars {s : Str} (h : DecNum.IsSign s) : ∀ c ∈ s, numChar c := by
  rcases h with rfl | rfl | rfl <;> simp [numChar]

theorem body_chars {w : DecNum} (h : w.OK) : ∀ c ∈ body w, numChar c := by
  intro c hc
  unfold body at hc
  rcases List.mem_append.1 hc with hc | hc
  · exact .inl (h.whole c hc)
  rcases List.mem_append.1 hc with hc | hc
  · cases hp : w.point with
    | none => rw [hp] at hc; cases hc
    | some ds =>
      rw [hp] at hc
      rcases List.mem_cons.1 hc with rfl | hc
      · exact .inr (.inl rfl)
      · exact .inl (h.frac c (by rw [DecNum.frac, hp]; exact hc))
  · rcases he : w.exp with _ | ⟨l, s, ds⟩
    · rw [he] at hc; cases hc
    · rw [he] at hc
      obtain ⟨h1, h2, h3, h4, h5⟩ := h.exp _ _ _ he
      rcases List.mem_cons.1 hc with rfl | hc
      · rcases h1 with rfl | rfl
        · exact .inr (.inr (.inl rfl))
        · exact .inr (.inr (.inr (.inl rfl)))
      rcases List.mem_append.1 hc with hc | hc
      · exact isSign_chars h2 c hc
      · exact .inl (h4 c hc)

theorem text_chars {w : DecNum} (h : w.OK) : ∀ c ∈ w.text, numChar c := by
  intro c hc
  rw [text_eq] at hc
  rcases List.mem_append.1 hc with hc | hc
  · exact isSign_chars h.sign c hc
  · exact body_chars h c hc

theorem body_head {w : DecNum} (h : w.OK) : ∀ c, (body w).head? = some c → c ≠ '-' ∧ c ≠ '+' := by
  intro c hc
  unfold body at hc
  cases hw : w.whole with
  | cons d ds =>
    rw [hw] at hc
    have := h.whole d (by rw [hw]; simp)
    cases hc
    exact ⟨digit_ne this (by decide), digit_ne this (by decide)⟩
  | nil =>
    rw [hw, List.nil_append] at hc
    cases hp : w.point with
    | none => exact absurd (by rw [hw, DecNum.frac, hp]; rfl) h.digit
    | some ds =>
      rw [hp] at hc
      cases hc
      exact ⟨by decide, by decide⟩

theorem hexPrefix_body {s : Str} (h : ∀ c ∈ s, numChar c) : hexPrefix s = (false, s) := by
  unfold hexPrefix
  split
  · rename_i x c t
    rw [if_neg]
    rintro (rfl | rfl)
    · exact numChar_ne (h 'x' (by simp)) (by decide) (by decide) rfl
    · exact numChar_ne (h 'X' (by simp)) (by decide) (by decide) rfl
  · rfl

theorem exponent_part {w : DecNum} (h : w.OK) :
    exponent false (match w.exp with | none => [] | some (c, s, ds) => c :: (s ++ ds)) = some (w.exponent, []) := by
  rcases he : w.exp with _ | ⟨l, s, ds⟩
  · simp [exponent, DecNum.exponent, he]
  · obtain ⟨h1, h2, h3, h4, h5⟩ := h.exp _ _ _ he
    have hs : sign (s ++ ds) = (decide (s = ['-']), ds) := sign_sign h2 (by
      intro c hc
      have := h4 c (List.mem_of_head? hc)
      exact ⟨digit_ne this (by decide), digit_ne this (by decide)⟩)
    have hd : (ds.head?.map Char.isDigit).getD false = true := by
      cases ds with
      | nil => exact absurd rfl h3
      | cons d ds => exact h4 d (by simp)
    simp only [exponent, DecNum.exponent, he]
    rw [if_pos (by rcases h1 with rfl | rfl <;> simp), hs]
    simp only [hd, if_true]
    rw [expDigits_digits ds 0 h4 h5]
    simp only [decide_eq_true_eq]
    rfl

/-- what is read of a numeral -/
theorem readFloat_text {w : DecNum} (h : w.OK) :
    readFloat w.text = some (decide (w.sign = ['-']), false, digitsNumber (w.whole ++ w.frac), w.exponent - w.frac.length) := by
  have hund : w.text.contains '_' = false := by
    rw [List.contains_eq_any_beq, List.any_eq_false]
    intro c hc e
    exact numChar_ne (text_chars h c hc) (d := '_') (by decide) (by decide) (by simpa using (beq_iff_eq.1 e).symm)
  have hhead : ∀ c, (match w.exp with | none => [] | some (c, s, ds) => c :: (s ++ ds)).head? = some c → c = 'e' ∨ c = 'E' := by
    intro c hc
    rcases he : w.exp with _ | ⟨l, s, ds⟩
    · rw [he] at hc; cases hc
    · rw [he] at hc
      cases hc
      exact (h.exp _ _ _ he).1
  have hm : ∃ dot, mantissa false (body w) ⟨0, 0, false, false⟩ =
      (⟨digitsNumber (w.whole ++ w.frac), w.frac.length, dot, true⟩, match w.exp with | none => [] | some (c, s, ds) => c :: (s ++ ds)) := by
    unfold body
    rw [mantissa_digits _ _ _ h.whole]
    cases hp : w.point with
    | none =>
      have hf : w.frac = [] := by rw [DecNum.frac, hp]; rfl
      have hne : w.whole ≠ [] := by have := h.digit; rwa [hf, List.append_nil] at this
      rw [List.nil_append, mantissa_stop _ _ hhead]
      refine ⟨false, ?_⟩
      rw [hf, List.append_nil]
      simp [digitsNumber, hne]
    | some ds =>
      have hf : w.frac = ds := by rw [DecNum.frac, hp]; rfl
      simp only [List.cons_append]
      rw [mantissa, if_neg (by decide), if_pos rfl]
      simp only [Bool.false_eq_true, if_false]
      rw [mantissa_digits _ _ _ (by rw [← hf]; exact h.frac), mantissa_stop _ _ hhead]
      refine ⟨true, ?_⟩
      have hne := h.digit
      rw [hf] at hne ⊢
      simp only [digitsNumber, List.foldl_append, if_true, Nat.zero_add, Bool.false_or]
      congr 2
      cases hw : w.whole with
      | cons => simp
      | nil =>
        cases ds with
        | nil => rw [hw] at hne; exact absurd rfl hne
        | cons => simp
  obtain ⟨dot, hm⟩ := hm
  unfold readFloat
  rw [show sign w.text = (decide (w.sign = ['-']), body w) by rw [text_eq]; exact sign_sign h.sign (body_head h)]
  simp only [hexPrefix_body (body_chars h), hm, exponent_part h, hund]
  simp

end DecNum'

/-! ### the number read is the nearest one -/

theorem ten_ratio (n : Nat) (e : Int) : ((n * 10 ^ e.toNat * unit : Nat) : ℚ) / ((10 ^ (-e).toNat : Nat) : ℚ) = n * 10 ^ e * unit := by
  push_cast
  rcases le_total 0 e with h | h
  · have h1 : (-e).toNat = 0 := by omega
    rw [h1, pow_zero, div_one]
    congr 2
    rw [← zpow_natCast, Int.toNat_of_nonneg h]
  · have h1 : e.toNat = 0 := by omega
    rw [h1, pow_zero, _root_.mul_one]
    have h2 : ((10 : ℚ)) ^ (-e).toNat = (10 ^ e)⁻¹ := by
      rw [← zpow_natCast, Int.toNat_of_nonneg (by omega), zpow_neg]
    rw [h2, div_inv_eq_mul]
    ring

theorem parseFloat_of_read {s : Str} {neg : Bool} {n : Nat} {e : Int} (h1 : special s = none) (h2 : readFloat s = some (neg, false, n, e)) :
    Strconv.parseFloat s = inRange (scaled neg 10 n e) := by
  unfold Strconv.parseFloat
  simp only [h1, h2, Bool.false_eq_true, if_false]

/-- Reading a numeral gives the nearest float64, or an error if that is infinite. -/
theorem parseFloat_text {w : DecNum} (h : w.OK) : ∃ x : F64, Rounded w.value x ∧ HasSign x (decide (w.sign = ['-'])) ∧
    Strconv.parseFloat w.text = inRange x := by
  refine ⟨_, ?_, ofRatio_hasSign _ _ _, parseFloat_of_read (special_none (DecNum'.text_chars h)) (DecNum'.readFloat_text h)⟩
  refine ofRatio_rounded (Nat.pow_pos (by norm_num)) ?_
  rw [ten_ratio]
  unfold DecNum.value DecNum.magnitude
  by_cases hs : w.sign = ['-']
  · rw [if_pos hs, if_pos (by simp [hs]), neg_mul]
  · rw [if_neg hs, if_neg (by simp [hs])]

end Leaves
