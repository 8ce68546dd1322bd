import Verif.Model.JsonText
import Verif.Spec.JsonText

/-! Lemmas about reading JSON text. -/

namespace Leaves
open Spec

namespace JsonText

/-! ### white space -/

theorem isWhite_iff (c : Char) : isWhite c = true ↔ c = ' ' ∨ c = '\t' ∨ c = '\r' ∨ c = '\n' := by
  unfold isWhite
  simp only [Bool.or_eq_true, beq_iff_eq, or_assoc]

theorem skip_append {a t : Str} (ha : WhiteText a) : skip (a ++ t) = skip t := by
  induction a with
  | nil => rfl
  | cons c a ih =>
    have hc : isWhite c = true := (isWhite_iff c).2 (ha c (by simp))
    have : skip (c :: (a ++ t)) = skip (a ++ t) := by unfold skip; rw [List.dropWhile_cons, if_pos hc]
    rw [List.cons_append, this, ih fun d hd => ha d (by simp [hd])]

theorem skip_solid {c : Char} {t : Str} (hc : isWhite c = false) : skip (c :: t) = c :: t := by
  unfold skip
  rw [List.dropWhile_cons, if_neg (by simp [hc])]

theorem skip_white {a t : Str} {c : Char} (ha : WhiteText a) (hc : isWhite c = false) : skip (a ++ c :: t) = c :: t := by
  rw [skip_append ha, skip_solid hc]

theorem skip_split (s : Str) : ∃ a, s = a ++ skip s ∧ WhiteText a := by
  refine ⟨s.takeWhile isWhite, (List.takeWhile_append_dropWhile ..).symm, fun c hc => (isWhite_iff c).1 ?_⟩
  have := List.all_takeWhile (p := isWhite) (l := s)
  exact List.all_eq_true.1 this c hc

theorem skip_skip (s : Str) : skip (skip s) = skip s := by
  obtain ⟨a, ha, hw⟩ := skip_split s
  conv_rhs => rw [ha, skip_append hw]

/-! ### strings -/

theorem hexDigit_iff (c : Char) (x : Nat) : hexDigit c = some x ↔ HexChar c x := by
  constructor
  · intro h
    unfold hexDigit at h
    have key : ∀ n : Nat, n < 128 → ∀ x, hexDigit (Char.ofNat n) = some x → HexChar (Char.ofNat n) x := by
      intro n hn x h
      have : ∀ n : Nat, n < 128 → ∀ x ∈ (hexDigit (Char.ofNat n)).toList,
          "0123456789abcdef".toList[x]? = some (Char.ofNat n) ∨ "0123456789ABCDEF".toList[x]? = some (Char.ofNat n) := by decide +kernel
      exact this n hn x (by rw [h]; simp)
    have hlt : c.toNat < 128 := by
      split at h
      · rename_i h'; have : c.toNat ≤ 57 := h'.2; omega
      · split at h
        · rename_i h'; have : c.toNat ≤ 102 := h'.2; omega
        · split at h
          · rename_i h'; have : c.toNat ≤ 70 := h'.2; omega
          · cases h
    have := key c.toNat hlt x
    rw [Char.ofNat_toNat] at this
    exact this h
  · intro h
    have key : ∀ x : Nat, x < 16 → (∀ c ∈ ("0123456789abcdef".toList[x]?).toList, hexDigit c = some x) ∧
        ∀ c ∈ ("0123456789ABCDEF".toList[x]?).toList, hexDigit c = some x := by decide +kernel
    rcases h with h | h
    · have hx : x < 16 := (List.getElem?_eq_some_iff.1 h).1
      exact (key x hx).1 c (by rw [h]; simp)
    · have hx : x < 16 := (List.getElem?_eq_some_iff.1 h).1
      exact (key x hx).2 c (by rw [h]; simp)

theorem hex4_iff (a b c d : Char) (n : Nat) : hex4 a b c d = some n ↔ CodeText n ['\\', 'u', a, b, c, d] := by
  constructor
  · intro h
    unfold hex4 at h
    simp only [Option.bind_eq_bind, Option.bind_eq_some_iff, Option.pure_def, Option.some.injEq] at h
    obtain ⟨x, hx, y, hy, z, hz, w, hw, e⟩ := h
    exact ⟨a, b, c, d, x, y, z, w, rfl, (hexDigit_iff _ _).1 hx, (hexDigit_iff _ _).1 hy, (hexDigit_iff _ _).1 hz,
      (hexDigit_iff _ _).1 hw, by rw [← e]; ring⟩
  · rintro ⟨a', b', c', d', x, y, z, w, e, hx, hy, hz, hw, rfl⟩
    injection e with _ e; injection e with _ e; injection e with e1 e; injection e with e2 e; injection e with e3 e; injection e with e4 _
    subst e1 e2 e3 e4
    unfold hex4
    rw [(hexDigit_iff _ _).2 hx, (hexDigit_iff _ _).2 hy, (hexDigit_iff _ _).2 hz, (hexDigit_iff _ _).2 hw]
    simp only [Option.bind_eq_bind, Option.bind_some, Option.pure_def]
    congr 1
    ring

theorem escaped_iff (c x : Char) : escaped c = some x ↔ (c, x) ∈ escapes := by
  constructor
  · intro h
    unfold escaped at h
    split at h <;> first | (cases h; decide) | cases h
  · intro h
    unfold escapes at h
    simp only [List.mem_cons, Prod.mk.injEq, List.not_mem_nil, or_false] at h
    rcases h with h | h | h | h | h | h | h | h <;> (obtain ⟨rfl, rfl⟩ := h; decide)

/-- the text of a list of characters and numbers -/
inductive UnitsText : List (Char ⊕ Nat) → Str → Prop
  | nil : UnitsText [] []
  | plain (c : Char) (us t) (hc : 0x20 ≤ c.toNat ∧ c ≠ '"' ∧ c ≠ '\\') (h : UnitsText us t) : UnitsText (.inl c :: us) (c :: t)
  | escape (c x : Char) (us t) (hc : (c, x) ∈ escapes) (h : UnitsText us t) : UnitsText (.inl x :: us) ('\\' :: c :: t)
  | code (n : Nat) (u us t) (hu : CodeText n u) (h : UnitsText us t) : UnitsText (.inr n :: us) (u ++ t)

theorem units_complete {us : List (Char ⊕ Nat)} {t : Str} (h : UnitsText us t) (rest : Str) : units (t ++ '"' :: rest) = some (us, rest) := by
  induction h with
  | nil => simp [units]
  | plain c us t hc _ ih =>
    obtain ⟨h1, h2, h3⟩ := hc
    rw [List.cons_append]
    unfold units
    split
    · simp at *
    · rename_i e; injection e with e _; exact absurd e h2
    · rename_i e; injection e with e _; exact absurd e h3
    · rename_i e; injection e with e _; exact absurd e h3
    · rename_i e
      injection e with e1 e2
      subst e1 e2
      rw [if_neg (by simp [h3]; omega), ih]
      rfl
  | escape c x us t hc _ ih =>
    have hx := (escaped_iff c x).2 hc
    have hu : c ≠ 'u' := by rintro rfl; rw [show escaped 'u' = none from rfl] at hx; cases hx
    rw [List.cons_append, List.cons_append]
    unfold units
    split
    · simp at *
    · rename_i e; injection e with e _; exact absurd e (by decide)
    · rename_i e; injection e with _ e; injection e with e _; exact absurd e hu
    · rename_i e
      injection e with _ e
      injection e with e1 e2
      subst e1 e2
      rw [hx, ih]
      rfl
    · rename_i h e
      injection e with e1 e2
      exact absurd e2.symm (h c _ e1.symm)
  | code n u us t hu _ ih =>
    obtain ⟨a, b, c, d, x, y, z, w, rfl, h⟩ := hu
    have hx := (hex4_iff a b c d n).2 ⟨a, b, c, d, x, y, z, w, rfl, h⟩
    simp only [List.cons_append, List.nil_append]
    rw [units]
    rw [hx, ih]
    rfl

theorem units_sound : ∀ (s : Str) (us : List (Char ⊕ Nat)) (rest : Str), units s = some (us, rest) → ∃ t, s = t ++ '"' :: rest ∧ UnitsText us t := by
  intro s
  fun_induction units s with
  | case1 => intro us rest h; cases h
  | case2 s => intro us rest h; cases h; exact ⟨[], rfl, .nil⟩
  | case3 a b c d s ih =>
    intro us rest h
    simp only [Option.bind_eq_bind, Option.bind_eq_some_iff, Option.pure_def, Option.some.injEq, Prod.mk.injEq] at h
    obtain ⟨n, hn, ⟨us', s'⟩, h, e1, e2⟩ := h
    obtain ⟨t, e, ht⟩ := ih us' s' h
    subst e e1 e2
    exact ⟨_, by simp, .code n _ us' t ((hex4_iff a b c d n).1 hn) ht⟩
  | case4 c s _ ih =>
    intro us rest h
    simp only [Option.bind_eq_bind, Option.bind_eq_some_iff, Option.pure_def, Option.some.injEq, Prod.mk.injEq] at h
    obtain ⟨x, hx, ⟨us', s'⟩, h, e1, e2⟩ := h
    obtain ⟨t, e, ht⟩ := ih us' s' h
    subst e e1 e2
    exact ⟨_, by simp, .escape c x us' t ((escaped_iff c x).1 hx) ht⟩
  | case5 => intro us rest h; cases h
  | case6 c s h1 _ _ hc ih =>
    intro us rest h
    simp only [Option.bind_eq_bind, Option.bind_eq_some_iff, Option.pure_def, Option.some.injEq, Prod.mk.injEq] at h
    obtain ⟨⟨us', s'⟩, h, e1, e2⟩ := h
    obtain ⟨t, e, ht⟩ := ih us' s' h
    subst e e1 e2
    simp only [Bool.or_eq_true, decide_eq_true_eq, beq_iff_eq, not_or] at hc
    exact ⟨c :: t, by simp, .plain c us' t ⟨by omega, h1, hc.2⟩ ht⟩

theorem UnitsText.code_inv {n : Nat} {us : List (Char ⊕ Nat)} {t : Str} (h : UnitsText (.inr n :: us) t) :
    ∃ u t', t = u ++ t' ∧ CodeText n u ∧ UnitsText us t' := by
  cases h with
  | code _ u _ t' hu h => exact ⟨u, t', rfl, hu, h⟩

theorem CodeText.unique {m n : Nat} {u v t t' : Str} (hu : CodeText m u) (hv : CodeText n v) (e : u ++ t = v ++ t') : m = n ∧ u = v ∧ t = t' := by
  obtain ⟨a, b, c, d, x, y, z, w, rfl, h⟩ := hu
  obtain ⟨a', b', c', d', x', y', z', w', rfl, h'⟩ := hv
  simp only [List.cons_append, List.nil_append, List.cons.injEq] at e
  obtain ⟨-, -, rfl, rfl, rfl, rfl, rfl⟩ := e
  have e1 := (hex4_iff a b c d m).2 ⟨a, b, c, d, x, y, z, w, rfl, h⟩
  have e2 := (hex4_iff a b c d n).2 ⟨a, b, c, d, x', y', z', w', rfl, h'⟩
  rw [e1] at e2
  exact ⟨Option.some.inj e2, rfl, rfl⟩

/-- text that starts with `\u` and four digits comes from a number -/
theorem UnitsText.starts {us : List (Char ⊕ Nat)} {n : Nat} {v t' : Str} (hv : CodeText n v) (h : UnitsText us (v ++ t')) :
    ∃ us', us = .inr n :: us' ∧ UnitsText us' t' := by
  generalize e : v ++ t' = t at h
  cases h with
  | nil => obtain ⟨a, b, c, d, x, y, z, w, rfl, -⟩ := hv; cases e
  | plain c us t hc h =>
    obtain ⟨a, b, c', d, x, y, z, w, rfl, -⟩ := hv
    injection e with e _
    exact absurd e.symm hc.2.2
  | escape c x us t hc h =>
    obtain ⟨a, b, c', d, x', y, z, w, rfl, -⟩ := hv
    injection e with _ e
    injection e with e _
    subst e
    revert hc
    unfold escapes
    simp
  | code m u us t hu h =>
    obtain ⟨rfl, rfl, rfl⟩ := CodeText.unique hv hu e
    exact ⟨us, rfl, h⟩

theorem isPair_iff (h l : Nat) : isPair h l = true ↔ HighHalf h ∧ LowHalf l := by
  unfold isPair HighHalf LowHalf
  simp only [Bool.and_eq_true, decide_eq_true_eq]
  omega

theorem single_half {n : Nat} (h : HighHalf n ∨ LowHalf n) : single n = Char.ofNat 0xfffd := by
  unfold single HighHalf LowHalf at *
  rw [if_pos (by omega)]

theorem single_code {n : Nat} (h : ¬ HighHalf n ∧ ¬ LowHalf n) : single n = Char.ofNat n := by
  unfold single HighHalf LowHalf at *
  rw [if_neg (by omega)]

theorem chars_alone {n : Nat} {us : List (Char ⊕ Nat)} (h : ∀ m us', us = .inr m :: us' → isPair n m = false) :
    chars (.inr n :: us) = single n :: chars us := by
  cases us with
  | nil => simp [chars]
  | cons u us =>
    cases u with
    | inl c => simp [chars]
    | inr m => rw [chars, if_neg (by rw [h m us rfl]; simp)]

theorem string_units {s t : Str} (h : StringText s t) : ∃ us, UnitsText us t ∧ chars us = s := by
  induction h with
  | nil => exact ⟨[], .nil, rfl⟩
  | plain c s t hc _ ih => obtain ⟨us, h1, h2⟩ := ih; exact ⟨_, .plain c us t hc h1, by rw [chars, h2]⟩
  | escape c x s t hc _ ih => obtain ⟨us, h1, h2⟩ := ih; exact ⟨_, .escape c x us t hc h1, by rw [chars, h2]⟩
  | code n u s t hu hn _ ih =>
    obtain ⟨us, h1, h2⟩ := ih
    refine ⟨_, .code n u us t hu h1, ?_⟩
    rw [chars_alone, h2, single_code hn]
    intro m us' _
    rw [← Bool.not_eq_true, isPair_iff]
    exact fun h => hn.1 h.1
  | pair m n u v s t hu hv hm hn _ ih =>
    obtain ⟨us, h1, h2⟩ := ih
    refine ⟨.inr m :: .inr n :: us, ?_, ?_⟩
    · rw [List.append_assoc]
      exact .code m u _ _ hu (.code n v _ _ hv h1)
    · rw [chars, if_pos ((isPair_iff m n).2 ⟨hm, hn⟩), h2]
      rw [show (m - 0xd800) * 0x400 + (n - 0xdc00) + 0x10000 = 0x10000 + (m - 0xd800) * 0x400 + (n - 0xdc00) by omega]
  | half n u s t hu hn alone _ ih =>
    obtain ⟨us, h1, h2⟩ := ih
    refine ⟨_, .code n u us t hu h1, ?_⟩
    rw [chars_alone, h2, single_half hn]
    rintro m us' rfl
    obtain ⟨v, t', e, hv, -⟩ := h1.code_inv
    rw [← Bool.not_eq_true, isPair_iff]
    exact fun h => alone h.1 m v t' e hv h.2

theorem units_string : ∀ (us : List (Char ⊕ Nat)) (t : Str), UnitsText us t → StringText (chars us) t := by
  intro us
  fun_induction chars us with
  | case1 => intro t h; cases h; exact .nil
  | case2 c us ih =>
    intro t h
    cases h with
    | plain _ _ t hc h => exact .plain c _ t hc (ih t h)
    | escape d _ _ t hc h => exact .escape d c _ t hc (ih t h)
  | case3 h l us hp ih =>
    intro t ht
    obtain ⟨u, t1, rfl, hu, ht⟩ := ht.code_inv
    obtain ⟨v, t2, rfl, hv, ht⟩ := ht.code_inv
    obtain ⟨a, b⟩ := (isPair_iff h l).1 hp
    have := StringText.pair h l u v _ t2 hu hv a b (ih t2 ht)
    rw [List.append_assoc] at this
    rw [show (h - 0xd800) * 0x400 + (l - 0xdc00) + 0x10000 = 0x10000 + (h - 0xd800) * 0x400 + (l - 0xdc00) by omega]
    exact this
  | case4 h l us hp ih =>
    intro t ht
    obtain ⟨u, t1, rfl, hu, ht⟩ := ht.code_inv
    have := ih t1 ht
    by_cases hn : HighHalf h ∨ LowHalf h
    · rw [single_half hn]
      refine .half h u _ t1 hu hn (fun hh m v t' e hv hm => ?_) this
      subst e
      obtain ⟨us', e, -⟩ := ht.starts hv
      injection e with e _
      injection e with e
      subst e
      exact hp ((isPair_iff _ _).2 ⟨hh, hm⟩)
    · rw [not_or] at hn
      rw [single_code hn]
      exact .code h u _ t1 hu hn this
  | case5 h us hno ih =>
    intro t ht
    obtain ⟨u, t1, rfl, hu, ht⟩ := ht.code_inv
    have := ih t1 ht
    by_cases hn : HighHalf h ∨ LowHalf h
    · rw [single_half hn]
      refine .half h u _ t1 hu hn (fun hh m v t' e hv hm => ?_) this
      subst e
      obtain ⟨us', e, -⟩ := ht.starts hv
      exact hno _ _ e
    · rw [not_or] at hn
      rw [single_code hn]
      exact .code h u _ t1 hu hn this

theorem jsonString_complete {s t : Str} (h : StringText s t) (rest : Str) : jsonString (t ++ '"' :: rest) = some (s, rest) := by
  obtain ⟨us, h1, h2⟩ := string_units h
  unfold jsonString
  rw [units_complete h1]
  simp [h2]

theorem jsonString_sound {s k rest : Str} (h : jsonString s = some (k, rest)) : ∃ t, s = t ++ '"' :: rest ∧ StringText k t := by
  unfold jsonString at h
  simp only [Option.bind_eq_bind, Option.bind_eq_some_iff, Option.pure_def, Option.some.injEq, Prod.mk.injEq] at h
  obtain ⟨⟨us, s'⟩, h, rfl, rfl⟩ := h
  obtain ⟨t, e, ht⟩ := units_sound _ _ _ h
  exact ⟨t, e, units_string us t ht⟩

end JsonText

end Leaves
