import Verif.Spec.Hex
import Verif.Proofs.Decimal
import Verif.Proofs.Underscore
import Mathlib.Tactic.IntervalCases

/-! Reading hexadecimal numerals and names. -/

namespace Leaves
open F64 Spec Strconv

theorem hexChars_digit : ∀ c ∈ hexChars, digitOf true c = some (hexValue c) ∧ c ≠ '_' ∧ c ≠ '.' ∧ c ≠ '-' ∧ c ≠ '+' ∧ c ∈ cellChars := by decide

/-- the mantissa loop over hexadecimal digits -/
theorem mantissa_hex : ∀ (ds rest : Str) (m : Mantissa), (∀ c ∈ ds, c ∈ hexChars) →
    mantissa true (ds ++ rest) m = mantissa true rest
      { n := ds.foldl (fun n c => 16 * n + hexValue c) m.n, frac := if m.dot then m.frac + ds.length else m.frac, dot := m.dot,
        saw := m.saw || !ds.isEmpty }
  | [], rest, m, _ => by simp
  | c :: ds, rest, m, h => by
    obtain ⟨h1, h2, h3, -⟩ := hexChars_digit c (h c (by simp))
    rw [List.cons_append, mantissa, if_neg h2, if_neg h3, h1]
    simp only [if_true]
    rw [mantissa_hex ds rest _ fun d hd => h d (by simp [hd])]
    simp only [List.foldl_cons, List.length_cons, List.isEmpty_cons, Bool.not_false, Bool.or_true, Bool.true_or]
    congr 1
    cases m.dot <;> simp; omega

theorem mantissa_hex_stop (p : Char) (s : Str) (m : Mantissa) (h : p = 'p' ∨ p = 'P') : mantissa true (p :: s) m = (m, p :: s) := by
  rcases h with rfl | rfl <;> rfl

/-- the characters of hexadecimal numerals -/
def hexNumeralChars : Str := "0123456789abcdefABCDEFxXpP+-.".toList

theorem isDigit_hex {c : Char} (h : c.isDigit = true) : c ∈ hexNumeralChars := by
  simp only [Char.isDigit, Bool.and_eq_true, decide_eq_true_eq] at h
  obtain ⟨h1, h2⟩ := h
  have h1 : 48 ≤ c.toNat := by have := UInt32.le_iff_toNat_le.1 h1; exact this
  have h2 : c.toNat ≤ 57 := by have := UInt32.le_iff_toNat_le.1 h2; exact this
  have : c = Char.ofNat c.toNat := (Char.ofNat_toNat c).symm
  rw [this]
  generalize c.toNat = n at *
  interval_cases n <;> decide

theorem hexNumeral_sub : ∀ c ∈ hexNumeralChars, c ∈ cellChars ∧ c ≠ '_' ∧
    (if 'A' ≤ c ∧ c ≤ 'Z' then Char.ofNat (c.toNat + 32) else c) ≠ 'n' := by decide

theorem special_none_hex {s : Str} (h : ∀ c ∈ s, c ∈ hexNumeralChars) : special s = none := by
  have key : ∀ t : Str, (∀ c ∈ t, c ∈ hexNumeralChars) → 'n' ∉ lowerAll t := by
    intro t ht hn
    obtain ⟨c, hc, he⟩ := List.mem_map.1 hn
    exact (hexNumeral_sub c (ht c hc)).2.2 he
  have hsub : ∀ c ∈ (sign s).2, c ∈ hexNumeralChars := by
    intro c hc
    refine h c ?_
    unfold sign at hc
    split at hc
    · exact List.mem_cons_of_mem _ hc
    · exact List.mem_cons_of_mem _ hc
    · exact hc
  unfold special
  dsimp only
  rw [if_neg, if_neg]
  · intro e; exact key s h (by rw [e]; decide)
  · rintro (e | e) <;> exact key _ hsub (by rw [e]; decide)

namespace HexNum'

/-- what follows the prefix -/
def body (w : HexNum) : Str := w.whole ++ ((match w.point with | none => [] | some ds => '.' :: ds) ++ w.p :: (w.expSign ++ w.expDigits))

theorem text_chars {w : HexNum} (h : w.OK) : ∀ c ∈ w.text, c ∈ hexNumeralChars := by
  have hx : ∀ c ∈ hexChars, c ∈ hexNumeralChars := by decide
  have hsign : ∀ s, DecNum.IsSign s → ∀ c ∈ s, c ∈ hexNumeralChars := by
    intro s hs
    rcases hs with rfl | rfl | rfl <;> decide
  intro c hc
  unfold HexNum.text at hc
  rcases List.mem_append.1 hc with hc | hc
  · exact hsign _ h.sign c hc
  rcases List.mem_cons.1 hc with rfl | hc
  · decide
  rcases List.mem_cons.1 hc with rfl | hc
  · rcases h.x with e | e <;> rw [e] <;> decide
  rcases List.mem_append.1 hc with hc | hc
  · exact hx c (h.whole c hc)
  rcases List.mem_append.1 hc with hc | hc
  · cases hp : w.point with
    | none => rw [hp] at hc; cases hc
    | some ds =>
      rw [hp] at hc
      rcases List.mem_cons.1 hc with rfl | hc
      · decide
      · exact hx c (h.frac c (by rw [HexNum.frac, hp]; exact hc))
  rcases List.mem_cons.1 hc with rfl | hc
  · rcases h.p with e | e <;> rw [e] <;> decide
  rcases List.mem_append.1 hc with hc | hc
  · exact hsign _ h.expSign c hc
  · exact isDigit_hex (h.expDigits c hc)

theorem hexPrefix_body {w : HexNum} (h : w.OK) : hexPrefix ('0' :: w.x :: body w) = (true, body w) := by
  have hne : body w ≠ [] := by
    unfold body
    intro h0
    have h1 := (List.append_eq_nil_iff.1 (List.append_eq_nil_iff.1 h0).2).2
    cases h1
  cases hb : body w with
  | nil => exact absurd hb hne
  | cons c s =>
    unfold hexPrefix
    simp only
    rw [if_pos h.x]

theorem exponent_part {w : HexNum} (h : w.OK) : Strconv.exponent true (w.p :: (w.expSign ++ w.expDigits)) = some (w.exponent, []) := by
  have hs : sign (w.expSign ++ w.expDigits) = (decide (w.expSign = ['-']), w.expDigits) := sign_sign h.expSign (by
    intro c hc
    have := h.expDigits c (List.mem_of_head? hc)
    exact ⟨digit_ne this (by decide), digit_ne this (by decide)⟩)
  have hd : (w.expDigits.head?.map Char.isDigit).getD false = true := by
    have h3 := h.expDigit
    have h4 := h.expDigits
    cases hds : w.expDigits with
    | nil => exact absurd hds h3
    | cons d ds => rw [hds] at h4; exact h4 d (by simp)
  simp only [Strconv.exponent, HexNum.exponent]
  rw [if_pos (by rcases h.p with e | e <;> rw [e] <;> simp), hs]
  simp only [hd, if_true]
  rw [expDigits_digits w.expDigits 0 h.expDigits h.expSmall]
  simp only [decide_eq_true_eq]
  rfl

/-- what is read of a numeral -/
theorem readFloat_text {w : HexNum} (h : w.OK) :
    readFloat w.text = some (decide (w.sign = ['-']), true, hexNumber (w.whole ++ w.frac), w.exponent - 4 * w.frac.length) := by
  have hund : w.text.contains '_' = false := by
    rw [List.contains_eq_any_beq, List.any_eq_false]
    intro c hc e
    exact (hexNumeral_sub c (text_chars h c hc)).2.1 (beq_iff_eq.1 e).symm
  have hm : ∃ dot, mantissa true (body w) ⟨0, 0, false, false⟩ =
      (⟨hexNumber (w.whole ++ w.frac), w.frac.length, dot, true⟩, w.p :: (w.expSign ++ w.expDigits)) := by
    unfold body
    rw [mantissa_hex _ _ _ h.whole]
    cases hp : w.point with
    | none =>
      have hf : w.frac = [] := by rw [HexNum.frac, hp]; rfl
      have hne : w.whole ≠ [] := by have := h.digit; rwa [hf, List.append_nil] at this
      rw [List.nil_append, mantissa_hex_stop _ _ _ h.p]
      refine ⟨false, ?_⟩
      rw [hf, List.append_nil]
      simp [hexNumber, hne]
    | some ds =>
      have hf : w.frac = ds := by rw [HexNum.frac, hp]; rfl
      simp only [List.cons_append]
      rw [mantissa, if_neg (by decide), if_pos rfl]
      simp only [Bool.false_eq_true, if_false]
      rw [mantissa_hex _ _ _ (by rw [← hf]; exact h.frac), mantissa_hex_stop _ _ _ h.p]
      refine ⟨true, ?_⟩
      have hne := h.digit
      rw [hf] at hne ⊢
      simp only [hexNumber, List.foldl_append, if_true, Nat.zero_add, Bool.false_or]
      congr 2
      cases hw : w.whole with
      | cons => simp
      | nil =>
        cases ds with
        | nil => rw [hw] at hne; exact absurd rfl hne
        | cons => simp
  obtain ⟨dot, hm⟩ := hm
  unfold readFloat
  rw [show sign w.text = (decide (w.sign = ['-']), '0' :: w.x :: body w) from sign_sign h.sign (by
    intro c hc
    cases hc
    exact ⟨by decide, by decide⟩)]
  simp only [hexPrefix_body h, hm, exponent_part h, hund]
  simp

end HexNum'

theorem two_ratio (n : Nat) (e : Int) : ((n * 2 ^ e.toNat * unit : Nat) : ℚ) / ((2 ^ (-e).toNat : Nat) : ℚ) = n * 2 ^ e * unit := by
  push_cast
  rcases le_total 0 e with h | h
  · have h1 : (-e).toNat = 0 := by omega
    rw [h1, pow_zero, div_one]
    congr 2
    rw [← zpow_natCast, Int.toNat_of_nonneg h]
  · have h1 : e.toNat = 0 := by omega
    rw [h1, pow_zero, _root_.mul_one]
    have h2 : ((2 : ℚ)) ^ (-e).toNat = (2 ^ e)⁻¹ := by
      rw [← zpow_natCast, Int.toNat_of_nonneg (by omega), zpow_neg]
    rw [h2, div_inv_eq_mul]
    ring

/-- Reading a hexadecimal numeral gives the nearest float64, or an error if that is infinite. -/
theorem parseFloat_hex {w : HexNum} (h : w.OK) : ∃ x : F64, Rounded w.value x ∧ HasSign x (decide (w.sign = ['-'])) ∧
    Strconv.parseFloat w.text = inRange x := by
  refine ⟨scaled (decide (w.sign = ['-'])) 2 (hexNumber (w.whole ++ w.frac)) (w.exponent - 4 * w.frac.length), ?_, ofRatio_hasSign _ _ _, ?_⟩
  · refine ofRatio_rounded (Nat.pow_pos (by norm_num)) ?_
    rw [two_ratio]
    unfold HexNum.value HexNum.magnitude
    by_cases hs : w.sign = ['-']
    · rw [if_pos hs, if_pos (by simp [hs]), neg_mul]
    · rw [if_neg hs, if_neg (by simp [hs])]
  · unfold Strconv.parseFloat
    simp only [special_none_hex (HexNum'.text_chars h), HexNum'.readFloat_text h, if_true]

/-- a number that is a float64 is rounded to itself -/
theorem nearest_self {m : Nat} (h : Rep m) : Nearest (m : ℚ) m := by
  refine ⟨rep_digits53 h, fun m' _ => ⟨by simp, fun hne he => absurd ?_ hne⟩⟩
  rw [sub_self, abs_zero, abs_eq_zero, sub_eq_zero] at he
  exact_mod_cast he

theorem rounded_sign {q : ℚ} {x y : F64} {s : Bool} (hx : Rounded q x) (hy : Rounded q y) (h1 : HasSign x s) (h2 : HasSign y s) : x = y := by
  obtain ⟨-, -, k, hk, hx⟩ := hx
  obtain ⟨-, -, k', hk', hy⟩ := hy
  have := Nearest.unique hk hk'
  subst this
  rcases hx with ⟨l1, t, g, rfl⟩ | ⟨l1, t, rfl⟩ <;> rcases hy with ⟨l2, t', g', rfl⟩ | ⟨l2, t', rfl⟩
  · have e1 : t = s := HasSign.unique (.inl ⟨_, _, rfl⟩) h1
    have e2 : t' = s := HasSign.unique (.inl ⟨_, _, rfl⟩) h2
    subst e1 e2; rfl
  · omega
  · omega
  · have e1 : t = s := HasSign.unique (.inr rfl) h1
    have e2 : t' = s := HasSign.unique (.inr rfl) h2
    subst e1 e2; rfl

theorem parse_hex_reads {w : HexNum} {x : F64} (h : w.OK) (hx : w.Reads x) : Strconv.parseFloat w.text = some x := by
  obtain ⟨y, g1, g2, g3⟩ := parseFloat_hex h
  obtain ⟨r, m, hm, rfl⟩ := hx
  rw [g3, rounded_sign g1 r g2 (.inl ⟨_, _, rfl⟩)]
  rfl

theorem parse_dec_reads {w : DecNum} {x : F64} (h : w.OK) (hx : ReadsAs w x) : Strconv.parseFloat w.text = some x := by
  obtain ⟨y, g1, g2, g3⟩ := parseFloat_text h
  obtain ⟨r, m, hm, rfl⟩ := hx
  rw [g3, rounded_sign g1 r g2 (.inl ⟨_, _, rfl⟩)]
  rfl

theorem lowerAll_inAnyCase {name s : Str} (hn : ∀ c ∈ name, c ∈ "infinityna".toList) (h : InAnyCase name s) : lowerAll s = name := by
  unfold InAnyCase at h
  induction h with
  | nil => rfl
  | @cons d c ds cs hc _ ih =>
    have key : ∀ d ∈ "infinityna".toList, (if 'A' ≤ d ∧ d ≤ 'Z' then Char.ofNat (d.toNat + 32) else d) = d ∧
        (if 'A' ≤ d.toUpper ∧ d.toUpper ≤ 'Z' then Char.ofNat (d.toUpper.toNat + 32) else d.toUpper) = d := by decide
    have k := key d (hn d (by simp))
    have hc' : (if 'A' ≤ c ∧ c ≤ 'Z' then Char.ofNat (c.toNat + 32) else c) = d := by
      rcases hc with rfl | rfl
      · exact k.1
      · exact k.2
    have ih := ih fun c hc => hn c (by simp [hc])
    unfold lowerAll at ih ⊢
    rw [List.map_cons, hc', ih]

theorem inAnyCase_chars {name s : Str} (hn : ∀ c ∈ name, c ∈ "infinityna".toList) (h : InAnyCase name s) : ∀ c ∈ s, c ∈ "infinityaINFTYA".toList := by
  unfold InAnyCase at h
  induction h with
  | nil => intro c hc; cases hc
  | @cons d c ds cs hc _ ih =>
    have key : ∀ d ∈ "infinityna".toList, d ∈ "infinityaINFTYA".toList ∧ d.toUpper ∈ "infinityaINFTYA".toList := by decide
    have k := key d (hn d (by simp))
    intro c' hc'
    rcases List.mem_cons.1 hc' with rfl | hc'
    · rcases hc with rfl | rfl
      · exact k.1
      · exact k.2
    · exact ih (fun c hc => hn c (by simp [hc])) c' hc'

theorem name_head {name s : Str} (hn : ∀ c ∈ name, c ∈ "infinityna".toList) (h : InAnyCase name s) : ∀ c, s.head? = some c → c ≠ '-' ∧ c ≠ '+' := by
  intro c hc
  have key : ∀ c ∈ "infinityaINFTYA".toList, c ≠ '-' ∧ c ≠ '+' := by decide
  exact key c (inAnyCase_chars hn h c (List.mem_of_head? hc))

theorem parse_nan {s : Str} (h : InAnyCase "nan".toList s) : Strconv.parseFloat s = some .nan := by
  have hl := lowerAll_inAnyCase (by decide) h
  unfold Strconv.parseFloat special
  simp only [sign_digit (name_head (by decide) h), hl]
  rfl

theorem parse_inf {sg s : Str} (hs : DecNum.IsSign sg) (h : InAnyCase "inf".toList s ∨ InAnyCase "infinity".toList s) :
    Strconv.parseFloat (sg ++ s) = some (.inf (decide (sg = ['-']))) := by
  have hl : lowerAll s = "inf".toList ∨ lowerAll s = "infinity".toList := h.imp (lowerAll_inAnyCase (by decide)) (lowerAll_inAnyCase (by decide))
  have hh : ∀ c, s.head? = some c → c ≠ '-' ∧ c ≠ '+' := by
    rcases h with h | h <;> exact name_head (by decide) h
  unfold Strconv.parseFloat special
  simp only [sign_sign hs hh, if_pos hl]

/-- what a cell that is not empty is read as -/
theorem cell_parse {d x : F64} {s : Str} (h : CellReads d s x) (hs : s ≠ []) : Strconv.parseFloat s = some x := by
  induction h with
  | empty => exact absurd rfl hs
  | decimal w _ h1 h2 => exact parse_dec_reads h1 h2
  | hexadecimal w _ h1 h2 => exact parse_hex_reads h1 h2
  | nan _ h => exact parse_nan h
  | inf sg s h1 h2 => exact parse_inf h1 h2
  | underscored s x h1 h2 h3 ih =>
    obtain ⟨c, hc, -⟩ := digit_in_bare h1 h2
    exact (parse_underscored h1 x).2 ⟨h2, ih (List.ne_nil_of_mem hc)⟩

theorem cell_empty {d x : F64} (h : CellReads d [] x) : x = d := by
  generalize hs : ([] : Str) = s at h
  cases h with
  | empty => rfl
  | decimal w _ h1 h2 =>
    have := parse_dec_reads h1 h2
    rw [← hs] at this; cases this
  | hexadecimal w _ h1 h2 =>
    have := parse_hex_reads h1 h2
    rw [← hs] at this; cases this
  | nan _ h =>
    have := parse_nan h
    rw [← hs] at this; cases this
  | inf sg s h1 h2 =>
    have := parse_inf h1 h2
    rw [← hs] at this; cases this
  | underscored _ _ h1 =>
    rw [← hs] at h1; cases h1

theorem cell_chars {d x : F64} {s : Str} (h : CellReads d s x) : ∀ c ∈ s, c ∈ cellChars := by
  have names : ∀ c ∈ "infinityaINFTYA".toList, c ∈ cellChars := by decide
  induction h with
  | empty => intro c hc; cases hc
  | decimal w _ h1 h2 =>
    intro c hc
    rcases DecNum'.text_chars h1 c hc with h | rfl | rfl | rfl | rfl | rfl
    · exact (hexNumeral_sub c (isDigit_hex h)).1
    all_goals decide
  | hexadecimal w _ h1 h2 => exact fun c hc => (hexNumeral_sub c (HexNum'.text_chars h1 c hc)).1
  | nan _ h => exact fun c hc => names c (inAnyCase_chars (by decide) h c hc)
  | inf sg s h1 h2 =>
    intro c hc
    rcases List.mem_append.1 hc with hc | hc
    · rcases h1 with rfl | rfl | rfl
      · cases hc
      · obtain rfl := List.mem_singleton.1 hc; decide
      · obtain rfl := List.mem_singleton.1 hc; decide
    · rcases h2 with h2 | h2
      · exact names c (inAnyCase_chars (by decide) h2 c hc)
      · exact names c (inAnyCase_chars (by decide) h2 c hc)
  | underscored s _ _ _ _ ih =>
    intro c hc
    by_cases hu : c = '_'
    · subst hu; decide
    · exact ih c (List.mem_filter.2 ⟨hc, by simpa using hu⟩)

end Leaves
