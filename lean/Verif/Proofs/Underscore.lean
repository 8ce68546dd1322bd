import Verif.Spec.Hex
import Verif.Proofs.Decimal
import Mathlib.Tactic.IntervalCases

/-! Reading numerals with underscores. -/

namespace Leaves
open F64 Spec Strconv

theorem bare_cons_ne {c : Char} (h : c ≠ '_') (s : Str) : bare (c :: s) = c :: bare s := by
  unfold bare
  rw [List.filter_cons_of_pos (by simpa using h)]

theorem bare_under (s : Str) : bare ('_' :: s) = bare s := rfl

theorem bare_self {s : Str} (h : '_' ∉ s) : bare s = s := by
  unfold bare
  rw [List.filter_eq_self]
  intro c hc
  simp only [ne_eq, decide_eq_true_eq]
  rintro rfl
  exact h hc

theorem under_not_bare (s : Str) : '_' ∉ bare s := by
  unfold bare
  simp

theorem digitOf_under (hex : Bool) : digitOf hex '_' = none := by cases hex <;> rfl

/-! ### where underscores may be -/

theorem between_cons {dig : Char → Prop} {st : Prop} {c : Char} (hc : c ≠ '_') (t : Str) : Between dig st (c :: t) ↔ Between dig (dig c) t := by
  constructor
  · intro h a b ht
    obtain ⟨h1, h2⟩ := h (c :: a) b (by rw [ht]; rfl)
    refine ⟨?_, h2⟩
    rcases h1 with ⟨h, -⟩ | ⟨a', x, h, hx⟩
    · cases h
    · cases a' with
      | nil =>
        obtain ⟨rfl, rfl⟩ := List.cons.inj h
        exact .inl ⟨rfl, hx⟩
      | cons y a'' => exact .inr ⟨a'', x, (List.cons.inj h).2, hx⟩
  · intro h a b ht
    cases a with
    | nil => exact absurd (List.cons.inj ht).1 hc
    | cons y a1 =>
      obtain ⟨rfl, ht'⟩ := List.cons.inj ht
      obtain ⟨h1, h2⟩ := h a1 b ht'
      refine ⟨.inr ?_, h2⟩
      rcases h1 with ⟨rfl, hx⟩ | ⟨a', x, rfl, hx⟩
      · exact ⟨[], c, rfl, hx⟩
      · exact ⟨c :: a', x, rfl, hx⟩

theorem between_under {dig : Char → Prop} {st : Prop} (hd : ¬ dig '_') (t : Str) :
    Between dig st ('_' :: t) ↔ st ∧ (∃ c t', t = c :: t' ∧ dig c) ∧ Between dig False t := by
  constructor
  · intro h
    obtain ⟨h1, h2⟩ := h [] t rfl
    refine ⟨?_, h2, fun a b ht => ?_⟩
    · rcases h1 with ⟨-, h⟩ | ⟨a', x, h, -⟩
      · exact h
      · cases a' <;> cases h
    · obtain ⟨h3, h4⟩ := h ('_' :: a) b (by rw [ht]; rfl)
      refine ⟨.inr ?_, h4⟩
      rcases h3 with ⟨h, -⟩ | ⟨a', x, h, hx⟩
      · cases h
      · cases a' with
        | nil =>
          obtain ⟨rfl, rfl⟩ := List.cons.inj h
          exact absurd hx hd
        | cons y a'' => exact ⟨a'', x, (List.cons.inj h).2, hx⟩
  · rintro ⟨h1, h2, h3⟩ a b ht
    cases a with
    | nil =>
      obtain ⟨-, rfl⟩ := List.cons.inj ht
      exact ⟨.inl ⟨rfl, h1⟩, h2⟩
    | cons y a1 =>
      obtain ⟨rfl, ht'⟩ := List.cons.inj ht
      obtain ⟨h4, h5⟩ := h3 a1 b ht'
      refine ⟨.inr ?_, h5⟩
      rcases h4 with ⟨-, h⟩ | ⟨a', x, rfl, hx⟩
      · exact h.elim
      · exact ⟨'_' :: a', x, rfl, hx⟩

theorem between_nil {dig : Char → Prop} {st : Prop} : Between dig st [] := by
  intro a b h
  cases a <;> cases h

theorem between_congr {dig dig' : Char → Prop} {st st' : Prop} (hd : ∀ c, dig c ↔ dig' c) (hs : st ↔ st') (t : Str) : Between dig st t ↔ Between dig' st' t := by
  have : dig = dig' := funext fun c => propext (hd c)
  rw [this, propext hs]

theorem underscores_iff (hex : Bool) : ∀ (t : Str) (d u : Bool), (u = true → d = false) → (underscores hex t d u = true ↔
    (u = true → ∃ c t', t = c :: t' ∧ (digitOf hex c).isSome = true) ∧ Between (fun c => (digitOf hex c).isSome = true) (d = true) t)
  | [], d, u, _ => by
    unfold underscores
    cases u
    · simp [between_nil]
    · simp
  | c :: t, d, u, hdu => by
    unfold underscores
    by_cases hc : (digitOf hex c).isSome = true
    · have hne : c ≠ '_' := by
        rintro rfl
        rw [digitOf_under] at hc
        cases hc
      rw [if_pos hc, underscores_iff hex t true false (by simp), between_cons hne]
      refine ⟨fun h => ⟨fun _ => ⟨c, t, rfl, hc⟩, (between_congr (fun _ => Iff.rfl) (by simp [hc]) t).1 h.2⟩,
        fun h => ⟨by simp, (between_congr (fun _ => Iff.rfl) (by simp [hc]) t).1 h.2⟩⟩
    · rw [if_neg hc]
      by_cases hu : c = '_'
      · subst hu
        rw [if_pos rfl, between_under (by simpa using hc), Bool.and_eq_true, underscores_iff hex t false true (by simp)]
        constructor
        · rintro ⟨h1, h2, h3⟩
          refine ⟨fun hu => ?_, h1, h2 rfl, (between_congr (fun _ => Iff.rfl) (by simp) t).1 h3⟩
          rw [hdu hu] at h1
          cases h1
        · rintro ⟨-, h1, h2, h3⟩
          exact ⟨h1, fun _ => h2, (between_congr (fun _ => Iff.rfl) (by simp) t).1 h3⟩
      · rw [if_neg hu, Bool.and_eq_true, underscores_iff hex t false false (by simp), between_cons hu]
        constructor
        · rintro ⟨h1, -, h2⟩
          refine ⟨fun hu => ?_, (between_congr (fun _ => Iff.rfl) (by simp [hc]) t).1 h2⟩
          rw [hu] at h1
          cases h1
        · rintro ⟨h1, h2⟩
          refine ⟨?_, by simp, (between_congr (fun _ => Iff.rfl) (by simp [hc]) t).1 h2⟩
          cases u
          · rfl
          · obtain ⟨c', t', h, h'⟩ := h1 rfl
            obtain ⟨rfl, rfl⟩ := List.cons.inj h
            exact absurd h' hc

/-! ### reading passes over them -/

theorem mantissa_bare (hex : Bool) : ∀ (s : Str) (m : Mantissa), mantissa hex (bare s) m = ((mantissa hex s m).1, bare (mantissa hex s m).2)
  | [], _ => rfl
  | c :: s, m => by
    by_cases hc : c = '_'
    · subst hc
      rw [bare_under, mantissa_bare hex s m]
      rfl
    · rw [bare_cons_ne hc, mantissa, mantissa, if_neg hc, if_neg hc]
      by_cases hp : c = '.'
      · rw [if_pos hp, if_pos hp]
        split
        · rw [bare_cons_ne hc]
        · exact mantissa_bare hex s _
      · rw [if_neg hp, if_neg hp]
        cases digitOf hex c with
        | none => exact congrArg (Prod.mk m) (bare_cons_ne hc s).symm
        | some d => exact mantissa_bare hex s _

theorem mantissa_rest (hex : Bool) : ∀ (s : Str) (m : Mantissa) (d u : Bool), underscores hex s d u = true →
    (mantissa hex s m).2 = [] ∨ ∃ c t, (mantissa hex s m).2 = c :: t ∧ c ≠ '_' ∧ underscores hex t false false = true
  | [], _, _, _, _ => .inl rfl
  | c :: s, m, d, u, h => by
    unfold underscores at h
    by_cases hc : c = '_'
    · subst hc
      rw [digitOf_under, if_neg (by simp), if_pos rfl, Bool.and_eq_true] at h
      rw [mantissa, if_pos rfl]
      exact mantissa_rest hex s m _ _ h.2
    · rw [mantissa, if_neg hc]
      rw [if_neg hc] at h
      by_cases hp : c = '.'
      · rw [if_pos hp]
        rw [if_neg (by subst hp; cases hex <;> decide), Bool.and_eq_true] at h
        split
        · exact .inr ⟨c, s, rfl, hc, h.2⟩
        · exact mantissa_rest hex s _ _ _ h.2
      · rw [if_neg hp]
        cases hd : digitOf hex c with
        | none =>
          rw [hd, if_neg (by simp), Bool.and_eq_true] at h
          exact .inr ⟨c, s, rfl, hc, h.2⟩
        | some k =>
          rw [hd, if_pos (show (some k).isSome = true from rfl)] at h
          exact mantissa_rest hex s _ _ _ h

theorem expDigits_bare : ∀ (s : Str) (e : Nat), expDigits (bare s) e = ((expDigits s e).1, bare (expDigits s e).2)
  | [], _ => rfl
  | c :: s, e => by
    by_cases hc : c = '_'
    · subst hc
      rw [bare_under, expDigits_bare s e]
      rfl
    · rw [bare_cons_ne hc, expDigits, expDigits, if_neg hc, if_neg hc]
      split
      · exact expDigits_bare s _
      · rw [bare_cons_ne hc]

theorem expDigits_rest : ∀ (s : Str) (e : Nat), (expDigits s e).2 = [] ∨ ∃ c t, (expDigits s e).2 = c :: t ∧ c ≠ '_'
  | [], _ => .inl rfl
  | c :: s, e => by
    rw [expDigits]
    by_cases hc : c = '_'
    · rw [if_pos hc]
      exact expDigits_rest s e
    · rw [if_neg hc]
      split
      · exact expDigits_rest s _
      · exact .inr ⟨c, s, rfl, hc⟩

theorem underscores_head {hex : Bool} {t : Str} {u : Bool} (h : underscores hex t false u = true) : t = [] ∨ ∃ c t', t = c :: t' ∧ c ≠ '_' := by
  cases t with
  | nil => exact .inl rfl
  | cons c t =>
    refine .inr ⟨c, t, rfl, ?_⟩
    rintro rfl
    unfold underscores at h
    rw [digitOf_under, if_neg (by simp), if_pos rfl] at h
    cases h

theorem underscores_sign {hex : Bool} {c : Char} {t : Str} (hc : c = '-' ∨ c = '+') (h : underscores hex (c :: t) false false = true) :
    underscores hex t false false = true := by
  unfold underscores at h
  rw [if_neg (by rcases hc with rfl | rfl <;> cases hex <;> decide), if_neg (by rcases hc with rfl | rfl <;> decide), Bool.and_eq_true] at h
  exact h.2

theorem sign_bare {t : Str} (h : t = [] ∨ ∃ c t', t = c :: t' ∧ c ≠ '_') : sign (bare t) = ((sign t).1, bare (sign t).2) := by
  rcases h with rfl | ⟨c, t', rfl, hc⟩
  · rfl
  rw [bare_cons_ne hc]
  by_cases h1 : c = '-'
  · subst h1; rfl
  by_cases h2 : c = '+'
  · subst h2; rfl
  have key : ∀ t : Str, sign (c :: t) = (false, c :: t) := by
    intro t
    unfold sign
    split
    · rename_i h; exact absurd (List.cons.inj h).1 h1
    · rename_i h; exact absurd (List.cons.inj h).1 h2
    · rfl
  rw [key, key, bare_cons_ne hc]

theorem sign_rest {hex : Bool} {t : Str} (h : underscores hex t false false = true) : (sign t).2 = [] ∨ ∃ c t', (sign t).2 = c :: t' ∧ c ≠ '_' := by
  unfold sign
  split
  · exact underscores_head (underscores_sign (.inl rfl) h)
  · exact underscores_head (underscores_sign (.inr rfl) h)
  · exact underscores_head h

theorem head_bare {t : Str} (h : t = [] ∨ ∃ c t', t = c :: t' ∧ c ≠ '_') : (bare t).head? = t.head? := by
  rcases h with rfl | ⟨c, t', rfl, hc⟩
  · rfl
  · rw [bare_cons_ne hc]; rfl

theorem exponent_bare (hex : Bool) {s : Str} (h : s = [] ∨ ∃ c t, s = c :: t ∧ c ≠ '_' ∧ underscores hex t false false = true) :
    exponent hex (bare s) = (exponent hex s).map (fun p => (p.1, bare p.2)) ∧
      ∀ p, exponent hex s = some p → (p.2 = [] ∨ ∃ c t, p.2 = c :: t ∧ c ≠ '_') := by
  rcases h with rfl | ⟨c, t, rfl, hc, hu⟩
  · cases hex
    · refine ⟨rfl, fun p hp => ?_⟩
      cases hp
      exact .inl rfl
    · exact ⟨rfl, fun p hp => by cases hp⟩
  · have h1 := sign_bare (underscores_head hu)
    have h2 := sign_rest hu
    have h3 := head_bare h2
    have eq : ∀ t : Str, exponent hex (c :: t) = if c ∈ (if hex then ['p', 'P'] else ['e', 'E']) then
        (if ((sign t).2.head?.map Char.isDigit).getD false then
          some (if (sign t).1 then -((expDigits (sign t).2 0).1 : Int) else (expDigits (sign t).2 0).1, (expDigits (sign t).2 0).2)
        else none)
      else if hex then none else some (0, c :: t) := fun _ => rfl
    rw [bare_cons_ne hc, eq, eq]
    by_cases hm : c ∈ (if hex then ['p', 'P'] else ['e', 'E'])
    · rw [if_pos hm, if_pos hm, h1]
      dsimp only
      rw [h3]
      by_cases hd : ((sign t).2.head?.map Char.isDigit).getD false = true
      · rw [if_pos hd, if_pos hd, expDigits_bare]
        refine ⟨rfl, fun p hp => ?_⟩
        cases hp
        exact expDigits_rest _ _
      · rw [if_neg hd, if_neg hd]
        exact ⟨rfl, fun p hp => by cases hp⟩
    · rw [if_neg hm, if_neg hm]
      cases hex
      · rw [if_neg (by decide), if_neg (by decide)]
        refine ⟨by rw [Option.map_some, bare_cons_ne hc], fun p hp => ?_⟩
        cases hp
        exact .inr ⟨c, t, rfl, hc⟩
      · exact ⟨rfl, fun p hp => by cases hp⟩

/-- the prefix is found with and without underscores -/
theorem hexPrefix_bare {s : Str} (h : underscores (hexPrefix s).1 (hexPrefix s).2 (hexPrefix s).1 false = true) :
    hexPrefix (bare s) = ((hexPrefix s).1, bare (hexPrefix s).2) := by
  have key : ∀ (c : Char) (t : Str), c ≠ '0' → hexPrefix (c :: t) = (false, c :: t) := by
    intro c t hc
    unfold hexPrefix
    split
    · rename_i h; exact absurd (List.cons.inj h).1 hc
    · rfl
  have two : ∀ (c : Char) (t : Str), ¬(c = 'x' ∨ c = 'X') → hexPrefix ('0' :: c :: t) = (false, '0' :: c :: t) := by
    intro c t hc
    cases t with
    | nil => rfl
    | cons d t => exact if_neg hc
  match s with
  | [] => rfl
  | [c] =>
    by_cases hc : c = '_'
    · subst hc; rfl
    · have e : hexPrefix [c] = (false, [c]) := by
        unfold hexPrefix
        split
        · rename_i h; cases h
        · rfl
      have e' : bare [c] = [c] := bare_cons_ne hc []
      rw [e', e, e']
  | c :: d :: t =>
    by_cases h0 : c = '0'
    · subst h0
      by_cases hx : d = 'x' ∨ d = 'X'
      · have hd : d ≠ '_' := by rcases hx with rfl | rfl <;> decide
        rw [bare_cons_ne (by decide), bare_cons_ne hd]
        cases t with
        | nil => rw [show hexPrefix ['0', d] = (false, ['0', d]) from rfl]; dsimp only; rw [bare_cons_ne (by decide), bare_cons_ne hd]; rfl
        | cons e t =>
          have hp : ∀ e t, hexPrefix ('0' :: d :: e :: t) = (true, e :: t) := fun e t => if_pos hx
          rw [hp] at h ⊢
          dsimp only at h ⊢
          by_cases he : e = '_'
          · subst he
            unfold underscores at h
            rw [digitOf_under, if_neg (by simp), if_pos rfl, Bool.and_eq_true, underscores_iff true t false true (by simp)] at h
            obtain ⟨c', t', rfl, hc'⟩ := h.2.1 rfl
            have : c' ≠ '_' := by
              rintro rfl
              cases hc'
            rw [bare_under, bare_cons_ne this, hp]
          · rw [bare_cons_ne he, hp]
      · rw [two d t hx] at h ⊢
        dsimp only at h ⊢
        by_cases hd : d = '_'
        · subst hd
          rw [underscores_iff false _ _ _ (by simp)] at h
          obtain ⟨-, c', t', rfl, hc'⟩ := h.2 ['0'] t rfl
          have n1 : c' ≠ '_' := by rintro rfl; cases hc'
          have n2 : ¬(c' = 'x' ∨ c' = 'X') := by rintro (rfl | rfl) <;> cases hc'
          rw [bare_cons_ne (by decide), bare_under, bare_cons_ne n1, two _ _ n2]
        · rw [bare_cons_ne (by decide), bare_cons_ne hd, two _ _ hx]
    · rw [key c _ h0] at h ⊢
      dsimp only at h ⊢
      rcases underscores_head h with h | ⟨c', t', h', hc⟩
      · cases h
      · obtain ⟨rfl, rfl⟩ := List.cons.inj h'
        rw [bare_cons_ne hc, key _ _ h0]

/-- what is allowed, for the text after the sign -/
def Allowed (s : Str) : Prop :=
  underscores (hexPrefix (sign s).2).1 (hexPrefix (sign s).2).2 (hexPrefix (sign s).2).1 false = true

theorem allowed_head {s : Str} (h : Allowed s) : s = [] ∨ ∃ c t', s = c :: t' ∧ c ≠ '_' := by
  cases s with
  | nil => exact .inl rfl
  | cons c t =>
    refine .inr ⟨c, t, rfl, ?_⟩
    rintro rfl
    unfold Allowed at h
    have e : hexPrefix (sign ('_' :: t)).2 = (false, '_' :: t) := by
      show hexPrefix ('_' :: t) = _
      unfold hexPrefix
      split
      · rename_i h; exact absurd (List.cons.inj h).1 (by decide)
      · rfl
    rw [e] at h
    rcases underscores_head h with h | ⟨_, _, h, hc⟩
    · cases h
    · exact hc (List.cons.inj h).1.symm

theorem readFloat_bare {s : Str} (h : Allowed s) : readFloat (bare s) = readFloat s := by
  have h1 := sign_bare (allowed_head h)
  have h2 := hexPrefix_bare h
  have h3 := mantissa_bare (hexPrefix (sign s).2).1 (hexPrefix (sign s).2).2 ⟨0, 0, false, false⟩
  obtain ⟨h4, h5⟩ := exponent_bare (hexPrefix (sign s).2).1 (mantissa_rest (hexPrefix (sign s).2).1 (hexPrefix (sign s).2).2 ⟨0, 0, false, false⟩ _ _ h)
  unfold Allowed at h
  unfold readFloat
  dsimp only
  rw [h1]
  dsimp only
  rw [h2]
  dsimp only
  rw [h3]
  dsimp only
  rw [h4, h]
  split
  · rfl
  cases he : exponent (hexPrefix (sign s).2).1 (mantissa (hexPrefix (sign s).2).1 (hexPrefix (sign s).2).2 ⟨0, 0, false, false⟩).2 with
  | none => rfl
  | some p =>
    obtain ⟨e, rest⟩ := p
    have hn : (bare s).contains '_' = false := by
      rw [Bool.eq_false_iff]
      intro hc
      exact under_not_bare s (by simpa using hc)
    have hr : bare rest = [] ↔ rest = [] := by
      rcases h5 _ he with h | ⟨c, t, h, hc⟩
      · have h : rest = [] := h
        rw [h]; rfl
      · have h : rest = c :: t := h
        rw [h, bare_cons_ne hc]
        simp
    simp only [Option.map_some, hn, Bool.false_and, Bool.not_true, Bool.and_false, Bool.false_eq_true, or_false, ne_eq, hr]

/-- a text with an underscore is not read otherwise -/
theorem readFloat_allowed {s : Str} (hs : '_' ∈ s) {r} (h : readFloat s = some r) : Allowed s := by
  unfold readFloat at h
  dsimp only at h
  split at h
  · cases h
  split at h
  · cases h
  split at h
  · cases h
  · rename_i hn
    unfold Allowed
    by_contra hc
    refine hn (.inr ?_)
    rw [Bool.and_eq_true]
    exact ⟨by simpa using hs, by simpa using hc⟩

/-! ### the two ways to say where underscores may be -/

theorem digitOf_false (c : Char) : (digitOf false c).isSome = true ↔ c.isDigit = true := by
  unfold digitOf
  by_cases h : c.isDigit = true
  · rw [if_pos h]; simp [h]
  · rw [if_neg h]; simp [h]

theorem hexDigit_chars {c : Char} {a b : Nat} (h1 : a ≤ c.toNat) (h2 : c.toNat ≤ b) (P : Char → Prop) (h : ∀ n, a ≤ n → n ≤ b → P (Char.ofNat n)) : P c := by
  have := h c.toNat h1 h2
  rwa [Char.ofNat_toNat] at this

theorem digitOf_true (c : Char) : (digitOf true c).isSome = true ↔ c ∈ hexChars := by
  constructor
  · intro h
    unfold digitOf at h
    split at h
    · rename_i hd
      simp only [Char.isDigit, Bool.and_eq_true, decide_eq_true_eq] at hd
      have h1 : 48 ≤ c.toNat := UInt32.le_iff_toNat_le.1 hd.1
      have h2 : c.toNat ≤ 57 := UInt32.le_iff_toNat_le.1 hd.2
      refine hexDigit_chars h1 h2 (· ∈ hexChars) fun n a b => ?_
      interval_cases n <;> decide
    split at h
    · rename_i hd
      simp only [Bool.true_and, decide_eq_true_eq] at hd
      have h1 : 97 ≤ c.toNat := UInt32.le_iff_toNat_le.1 hd.1
      have h2 : c.toNat ≤ 102 := UInt32.le_iff_toNat_le.1 hd.2
      refine hexDigit_chars h1 h2 (· ∈ hexChars) fun n a b => ?_
      interval_cases n <;> decide
    split at h
    · rename_i hd
      simp only [Bool.true_and, decide_eq_true_eq] at hd
      have h1 : 65 ≤ c.toNat := UInt32.le_iff_toNat_le.1 hd.1
      have h2 : c.toNat ≤ 70 := UInt32.le_iff_toNat_le.1 hd.2
      refine hexDigit_chars h1 h2 (· ∈ hexChars) fun n a b => ?_
      interval_cases n <;> decide
    · cases h
  · revert c
    decide

theorem between_mono {dig dig' : Char → Prop} {st st' : Prop} (hd : ∀ c, dig c → dig' c) (hs : st → st') {t : Str} (h : Between dig st t) : Between dig' st' t := by
  intro a b ht
  obtain ⟨h1, c, b', h2, h3⟩ := h a b ht
  exact ⟨h1.imp (fun h => ⟨h.1, hs h.2⟩) fun ⟨a', c, h, h'⟩ => ⟨a', c, h, hd c h'⟩, c, b', h2, hd c h3⟩

theorem sign_split (s : Str) : ∃ sg, DecNum.IsSign sg ∧ s = sg ++ (sign s).2 := by
  unfold sign
  split
  · exact ⟨['-'], .inr (.inr rfl), rfl⟩
  · exact ⟨['+'], .inr (.inl rfl), rfl⟩
  · exact ⟨[], .inl rfl, rfl⟩

theorem between_sign {sg : Str} (h : DecNum.IsSign sg) (t : Str) :
    Between (fun c => c.isDigit = true) False (sg ++ t) ↔ Between (fun c => c.isDigit = true) False t := by
  rcases h with rfl | rfl | rfl
  · rfl
  · rw [List.singleton_append, between_cons (by decide)]
    exact between_congr (fun _ => Iff.rfl) (by decide) t
  · rw [List.singleton_append, between_cons (by decide)]
    exact between_congr (fun _ => Iff.rfl) (by decide) t

theorem hexPrefix_cases (s : Str) : hexPrefix s = (false, s) ∨ ∃ x body, (x = 'x' ∨ x = 'X') ∧ s = '0' :: x :: body ∧ hexPrefix s = (true, body) := by
  unfold hexPrefix
  split
  · rename_i x c s
    by_cases hx : x = 'x' ∨ x = 'X'
    · exact .inr ⟨x, c :: s, hx, rfl, if_pos hx⟩
    · exact .inl (if_neg hx)
  · exact .inl rfl

theorem allowed_iff {s : Str} (hs : '_' ∈ s) : Allowed s ↔ UnderscoresOK s := by
  unfold Allowed
  constructor
  · intro h
    obtain ⟨sg, h1, h2⟩ := sign_split s
    rcases hexPrefix_cases (sign s).2 with h3 | ⟨x, body, h3, h4, h5⟩
    · rw [h3, underscores_iff _ _ _ _ (by simp)] at h
      refine .decimal s ?_
      rw [h2, between_sign h1]
      exact between_mono (fun c hc => (digitOf_false c).1 hc) (fun h => by cases h) h.2
    · rw [h5, underscores_iff _ _ _ _ (by simp)] at h
      rw [h2, h4]
      exact .hexadecimal sg x body h1 h3 (between_mono (fun c hc => (digitOf_true c).1 hc) (fun _ => trivial) h.2)
  · intro h
    cases h with
    | decimal _ h =>
      obtain ⟨sg, h1, h2⟩ := sign_split s
      rw [h2, between_sign h1] at h
      rcases hexPrefix_cases (sign s).2 with h3 | ⟨x, body, h3, h4, h5⟩
      · rw [h3, underscores_iff _ _ _ _ (by simp)]
        exact ⟨by simp, between_mono (fun c hc => (digitOf_false c).2 hc) (fun h => h.elim) h⟩
      · rw [h5, underscores_iff _ _ _ _ (by simp)]
        rw [h4, between_cons (by decide), between_cons (by rcases h3 with rfl | rfl <;> decide)] at h
        refine ⟨by simp, between_mono (fun c hc => ?_) (fun _ => rfl) h⟩
        unfold digitOf
        rw [if_pos hc]
        rfl
    | hexadecimal sg x body h1 h2 h =>
      have hb : body ≠ [] := by
        rintro rfl
        rcases h1 with rfl | rfl | rfl <;> rcases h2 with rfl | rfl <;> revert hs <;> decide
      obtain ⟨c, body, rfl⟩ := List.exists_cons_of_ne_nil hb
      have e : hexPrefix (sign (sg ++ '0' :: x :: c :: body)).2 = (true, c :: body) := by
        have : (sign (sg ++ '0' :: x :: c :: body)).2 = '0' :: x :: c :: body := by
          rcases h1 with rfl | rfl | rfl <;> rfl
        rw [this]
        exact if_pos h2
      rw [e, underscores_iff _ _ _ _ (by simp)]
      exact ⟨by simp, between_mono (fun c hc => (digitOf_true c).2 hc) (fun _ => rfl) h⟩

/-- the character does not occur in names, and is not a sign -/
def NoName (c : Char) : Prop := (if 'A' ≤ c ∧ c ≤ 'Z' then Char.ofNat (c.toNat + 32) else c) ∉ "infinityna".toList ∧ c ≠ '-' ∧ c ≠ '+'

theorem digit_noName {c : Char} (h : c.isDigit = true) : NoName c := by
  simp only [Char.isDigit, Bool.and_eq_true, decide_eq_true_eq] at h
  have h1 : 48 ≤ c.toNat := UInt32.le_iff_toNat_le.1 h.1
  have h2 : c.toNat ≤ 57 := UInt32.le_iff_toNat_le.1 h.2
  refine hexDigit_chars h1 h2 NoName fun n a b => ?_
  unfold NoName
  interval_cases n <;> decide

theorem special_noName {c : Char} {t : Str} (hc : c ∈ t) (h : NoName c) : special t = none := by
  have key : ∀ s : Str, c ∈ s → ∀ name : Str, (∀ d ∈ name, d ∈ "infinityna".toList) → lowerAll s ≠ name := by
    rintro s hs name hn rfl
    exact h.1 (hn _ (List.mem_map_of_mem hs))
  have hm : c ∈ (sign t).2 := by
    unfold sign
    split
    · rcases List.mem_cons.1 hc with rfl | hc
      · exact absurd rfl h.2.1
      · exact hc
    · rcases List.mem_cons.1 hc with rfl | hc
      · exact absurd rfl h.2.2
      · exact hc
    · exact hc
  unfold special
  dsimp only
  rw [if_neg (by rintro (e | e) <;> exact key _ hm _ (by decide) e), if_neg (key _ hc _ (by decide))]

theorem digit_in_bare {s : Str} (hs : '_' ∈ s) (h : UnderscoresOK s) : ∃ c ∈ bare s, c.isDigit = true := by
  cases h with
  | decimal _ h =>
    obtain ⟨a, b, hab⟩ := List.append_of_mem hs
    obtain ⟨-, c, b', hb, hc⟩ := h a b hab
    refine ⟨c, ?_, hc⟩
    unfold bare
    rw [List.mem_filter]
    refine ⟨by rw [hab, hb]; simp, ?_⟩
    simp only [ne_eq, decide_eq_true_eq]
    rintro rfl
    cases hc
  | hexadecimal sg x body h1 h2 h =>
    refine ⟨'0', ?_, by decide⟩
    unfold bare
    rw [List.mem_filter]
    exact ⟨by simp, by decide⟩

/-- a numeral with underscores is read as the numeral without them, if they are where they may be, and not at all otherwise -/
theorem parse_underscored {s : Str} (hs : '_' ∈ s) (x : F64) :
    Strconv.parseFloat s = some x ↔ UnderscoresOK s ∧ Strconv.parseFloat (bare s) = some x := by
  have h1 : special s = none := special_noName hs ⟨by decide, by decide, by decide⟩
  constructor
  · intro h
    have ha : Allowed s := by
      unfold Strconv.parseFloat at h
      rw [h1] at h
      dsimp only at h
      split at h
      · cases h
      · rename_i hr
        exact readFloat_allowed hs hr
    have hu := (allowed_iff hs).1 ha
    obtain ⟨c, hc, hd⟩ := digit_in_bare hs hu
    refine ⟨hu, ?_⟩
    unfold Strconv.parseFloat at h ⊢
    rw [special_noName hc (digit_noName hd), readFloat_bare ha]
    rwa [h1] at h
  · rintro ⟨hu, h⟩
    obtain ⟨c, hc, hd⟩ := digit_in_bare hs hu
    unfold Strconv.parseFloat at h ⊢
    rw [special_noName hc (digit_noName hd), readFloat_bare ((allowed_iff hs).2 hu)] at h
    rwa [h1]

end Leaves
