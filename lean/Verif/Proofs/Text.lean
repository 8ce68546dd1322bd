import Verif.Model.Text
import Verif.Spec.Text

/-! Reading back decimal numbers and separated lists. -/

namespace Leaves

open Spec

theorem decimal_ne_nil (n : Nat) : decimal n ≠ [] := by
  unfold decimal
  rw [Nat.toDigits_eq_if (by norm_num)]
  split <;> simp

theorem decimal_isDigit {n : Nat} {c : Char} (h : c ∈ decimal n) : c.isDigit = true :=
  Nat.isDigit_of_mem_toDigits (by norm_num) (by norm_num) h

theorem parseDigits_decimal (n : Nat) : parseDigits (decimal n) = some n := by
  unfold parseDigits
  have h1 : (decimal n).all Char.isDigit = true := by
    rw [List.all_eq_true]; intro c hc; exact decimal_isDigit hc
  rw [if_neg (by simp [decimal_ne_nil, h1])]
  congr 1
  exact Nat.ofDigitChars_toDigits (b := 10) (n := n) (by norm_num) (by norm_num)

theorem parseUint_decimal (bits n : Nat) : parseUint bits (decimal n) = if n < 2 ^ bits then some n else none := by
  unfold parseUint
  rw [parseDigits_decimal]

theorem parseInt_decimal (bits n : Nat) : parseInt bits (decimal n) = if n < 2 ^ (bits - 1) then some (n : Int) else none := by
  have h0 := parseDigits_decimal n
  cases hd : decimal n with
  | nil => exact absurd hd (decimal_ne_nil n)
  | cons c cs =>
    have hc : c.isDigit = true := decimal_isDigit (n := n) (by rw [hd]; simp)
    rw [hd] at h0
    unfold parseInt
    split
    · rename_i heq; cases heq; exact absurd hc (by decide)
    · rename_i heq; cases heq; exact absurd hc (by decide)
    · rw [h0]

theorem parseInt_neg (bits n : Nat) : parseInt bits ('-' :: decimal n) = if n ≤ 2 ^ (bits - 1) then some (-(n : Int)) else none := by
  unfold parseInt
  simp only
  rw [parseDigits_decimal]

theorem parseInt_decimalI (bits : Nat) (i : Int) : parseInt bits (decimalI i) =
    if -2 ^ (bits - 1) ≤ i ∧ i < 2 ^ (bits - 1) then some i else none := by
  unfold decimalI
  by_cases h : i < 0
  · rw [if_pos h, parseInt_neg]
    have hp : ((2 ^ (bits - 1) : Nat) : Int) = 2 ^ (bits - 1) := by push_cast; rfl
    have hpos : (0 : Int) < 2 ^ (bits - 1) := by positivity
    by_cases h2 : i.natAbs ≤ 2 ^ (bits - 1)
    · rw [if_pos h2, if_pos ⟨by omega, by omega⟩]
      congr 1; omega
    · rw [if_neg h2, if_neg (by omega)]
  · rw [if_neg h, parseInt_decimal]
    have hp : ((2 ^ (bits - 1) : Nat) : Int) = 2 ^ (bits - 1) := by push_cast; rfl
    by_cases h2 : i.natAbs < 2 ^ (bits - 1)
    · rw [if_pos h2, if_pos ⟨by omega, by omega⟩]
      congr 1; omega
    · rw [if_neg h2, if_neg (by omega)]

theorem atoi_decimal {n : Nat} (h : n < 2 ^ 63) : atoi (decimal n) = some (n : Int) := by
  unfold atoi; rw [parseInt_decimal, if_pos h]

/-! ### splitting -/

/-- `tok` has no character of `sep` -/
def Clean (sep tok : Str) : Prop := ∀ c ∈ tok, c ∉ sep

theorem splitGo_clean {sep : Str} (hs : sep ≠ []) : ∀ (tok cur rest : Str), Clean sep tok →
    splitGo sep 0 cur (tok ++ rest) = splitGo sep 0 (tok.reverse ++ cur) rest
  | [], cur, rest, _ => rfl
  | c :: tok, cur, rest, h => by
    obtain ⟨s, ss, rfl⟩ := List.exists_cons_of_ne_nil hs
    have hne : s ≠ c := by rintro rfl; exact h s (by simp) (by simp)
    show splitGo (s :: ss) 0 cur (c :: (tok ++ rest)) = _
    rw [splitGo, if_neg (by simp [hne]), splitGo_clean hs tok (c :: cur) rest (fun x hx => h x (by simp [hx]))]
    simp

theorem splitGo_skip (sep : Str) : ∀ (pre cur rest : Str), splitGo sep pre.length cur (pre ++ rest) = splitGo sep 0 cur rest
  | [], _, _ => rfl
  | _ :: pre, cur, rest => by
    show splitGo sep (pre.length + 1) cur (_ :: (pre ++ rest)) = _
    rw [splitGo]; exact splitGo_skip sep pre cur rest

theorem splitGo_sep {sep : Str} (hs : sep ≠ []) (cur rest : Str) :
    splitGo sep 0 cur (sep ++ rest) = cur.reverse :: splitGo sep 0 [] rest := by
  obtain ⟨s, ss, rfl⟩ := List.exists_cons_of_ne_nil hs
  show splitGo (s :: ss) 0 cur (s :: (ss ++ rest)) = _
  rw [splitGo, if_pos (by simp)]
  congr 1
  exact splitGo_skip (s :: ss) ss [] rest

theorem split_join {sep : Str} (hs : sep ≠ []) {toks : List Str} (hne : toks ≠ []) (h : ∀ t ∈ toks, Clean sep t) :
    split (join sep toks) sep = toks := by
  unfold split join
  rw [if_neg hs]
  induction toks with
  | nil => exact absurd rfl hne
  | cons t ts ih =>
    cases ts with
    | nil =>
      have := splitGo_clean hs t [] [] (h t (by simp))
      simp only [List.append_nil] at this
      rw [show List.intercalate sep [t] = t by simp [List.intercalate], this]
      simp [splitGo]
    | cons u us =>
      rw [show List.intercalate sep (t :: u :: us) = t ++ (sep ++ List.intercalate sep (u :: us)) by
        simp [List.intercalate, List.intersperse]]
      rw [splitGo_clean hs t [] _ (h t (by simp)), splitGo_sep hs, ih (by simp) (fun x hx => h x (by simp [hx]))]
      simp

theorem convertAll_map {α β : Type} {f : Str → Option β} {g : α → Str} {k : α → β} (xs : List α)
    (h : ∀ x ∈ xs, f (g x) = some (k x)) : Params.convertAll f (xs.map g) = .ok (xs.map k) := by
  induction xs with
  | nil => rfl
  | cons x xs ih =>
    rw [List.map_cons, Params.convertAll, h x (by simp), ih (fun y hy => h y (by simp [hy]))]
    rfl

theorem convertAll_none {f : Str → Option α} {toks : List Str} {t : Str} (ht : t ∈ toks) (h : f t = none) :
    ∃ e, Params.convertAll f toks = .err e := by
  induction toks with
  | nil => cases ht
  | cons x xs ih =>
    rw [Params.convertAll]
    cases hx : f x with
    | none => exact ⟨_, rfl⟩
    | some v =>
      have : t ∈ xs := by
        rcases List.mem_cons.1 ht with rfl | h'
        · rw [hx] at h; cases h
        · exact h'
      obtain ⟨e, he⟩ := ih this
      exact ⟨e, by rw [he]; rfl⟩

theorem clean_decimal {sep : Str} (hs : ∀ c ∈ sep, c.isDigit = false) (n : Nat) : Clean sep (decimal n) := by
  intro c hc hcs
  have h1 := decimal_isDigit hc
  rw [hs c hcs] at h1; cases h1

theorem clean_decimalI {sep : Str} (hs : ∀ c ∈ sep, c.isDigit = false) (hm : '-' ∉ sep) (i : Int) : Clean sep (decimalI i) := by
  intro c hc
  unfold decimalI at hc
  split at hc
  · rcases List.mem_cons.1 hc with rfl | h
    · exact hm
    · exact clean_decimal hs _ c h
  · exact clean_decimal hs _ c hc

end Leaves
