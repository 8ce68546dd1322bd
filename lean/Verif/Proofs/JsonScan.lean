import Verif.Model.JsonBytes
import Verif.Proofs.JsonValue

/-! The scanner of `encoding/json` finds the end of the first value of the grammar in `Model/JsonText`. -/

namespace Leaves
open JsonText

namespace JsonBytes

/-- the scanner over a whole input: what is left after the first value, `none` if there is none -/
def run {α : Type} (code : α → Nat) (depth : Nat) (io : Bool) (s : State) (stk : List Inside) : List α → Option (List α)
  | [] => if io then none else if (step depth s stk ' '.toNat).1 = .finish then some [] else none
  | c :: cs =>
    match step depth s stk (code c) with
    | (.finish, _, _) => some (c :: cs)
    | (.bad, _, _) => none
    | (.go, s, stk) => run code depth io s stk cs
    | (.close, s, stk) => if stk.isEmpty then some cs else run code depth io s stk cs

section
variable {α : Type} {code : α → Nat} {depth : Nat} {io : Bool} {s s' : State} {stk stk' : List Inside} {c : α} {cs : List α}

theorem run_go (h : step depth s stk (code c) = (.go, s', stk')) : run code depth io s stk (c :: cs) = run code depth io s' stk' cs := by
  rw [run, h]

theorem run_bad (h : step depth s stk (code c) = bad) : run code depth io s stk (c :: cs) = none := by
  rw [run, h]; rfl

theorem run_finish (h : step depth s stk (code c) = (.finish, s', stk')) : run code depth io s stk (c :: cs) = some (c :: cs) := by
  rw [run, h]

theorem run_close (h : step depth s stk (code c) = (.close, s', stk')) :
    run code depth io s stk (c :: cs) = if stk'.isEmpty then some cs else run code depth io s' stk' cs := by
  rw [run, h]

theorem run_nil (h : (step depth s stk ' '.toNat).1 ≠ .finish) : run code depth io s stk [] = none := by
  rw [run, if_neg h]; simp

/-- two states that do the same with the next byte, and with the end of the input -/
theorem run_same (h : step depth s stk ' '.toNat = step depth s' stk' ' '.toNat) (hc : ∀ c r, cs = c :: r → step depth s stk (code c) = step depth s' stk' (code c)) :
    run code depth io s stk cs = run code depth io s' stk' cs := by
  cases cs with
  | nil => rw [run, run, h]
  | cons c r => rw [run, run, hc c r rfl]

end

set_option linter.unusedSimpArgs false

variable {D : Nat} {io : Bool} {stk : List Inside}

/-- the scanner on characters -/
abbrev scanC (D : Nat) (io : Bool) (s : State) (stk : List Inside) (t : Str) : Option Str := run Char.toNat D io s stk t

theorem goC {s s' : State} {stk' : List Inside} {c : Char} {t : Str} (h : step D s stk c.toNat = (.go, s', stk')) :
    scanC D io s stk (c :: t) = scanC D io s' stk' t := run_go h

theorem badC {s : State} {c : Char} {t : Str} (h : step D s stk c.toNat = bad) : scanC D io s stk (c :: t) = none := run_bad h

theorem toNat_eq {a b : Char} : a.toNat = b.toNat ↔ a = b := Char.toNat_inj

theorem space_iff (c : Char) : space c.toNat = isWhite c := by
  rw [Bool.eq_iff_iff]
  simp only [space, isWhite, Bool.or_eq_true, beq_iff_eq, toNat_eq]

theorem digit_iff (c : Char) : digit c.toNat = c.isDigit := by
  unfold digit Char.isDigit
  rw [Bool.eq_iff_iff]
  simp only [Bool.and_eq_true, decide_eq_true_eq, ge_iff_le, UInt32.le_iff_toNat_le]
  rfl

/-! ### white space -/

theorem skip_cons {c : Char} {t : Str} : skip (c :: t) = if isWhite c = true then skip t else c :: t := by
  unfold skip; rw [List.dropWhile_cons]

theorem run_skip {s : State} (h : ∀ c, isWhite c = true → step D s stk c.toNat = (.go, s, stk)) (t : Str) :
    scanC D io s stk t = scanC D io s stk (skip t) := by
  induction t with
  | nil => rfl
  | cons c t ih =>
    rw [skip_cons]
    split
    · rename_i hc
      rw [← ih]
      exact goC (h c hc)
    · rfl

theorem skip_white_head {t r : Str} {c : Char} (h : skip t = c :: r) : isWhite c = false := by
  induction t with
  | nil => cases h
  | cons d t ih =>
    rw [skip_cons] at h
    split at h
    · exact ih h
    · rename_i hd
      cases h
      simpa using hd

theorem step_white_beginValue (c : Char) (h : isWhite c = true) : step D .beginValue stk c.toNat = (.go, .beginValue, stk) := by
  simp [step, beginValue, space_iff, h]

theorem step_white_beginString (c : Char) (h : isWhite c = true) : step D .beginString stk c.toNat = (.go, .beginString, stk) := by
  simp [step, beginString, space_iff, h]

theorem step_white_beginValueOrEmpty (c : Char) (h : isWhite c = true) : step D .beginValueOrEmpty stk c.toNat = (.go, .beginValueOrEmpty, stk) := by
  simp [step, space_iff, h]

theorem step_white_beginStringOrEmpty (c : Char) (h : isWhite c = true) : step D .beginStringOrEmpty stk c.toNat = (.go, .beginStringOrEmpty, stk) := by
  simp [step, space_iff, h]

theorem step_white_endValue {x : Inside} (c : Char) (h : isWhite c = true) : step D .endValue (x :: stk) c.toNat = (.go, .endValue, x :: stk) := by
  simp [step, endValue, space_iff, h]

/-! ### strings -/

theorem hexadecimal_iff (c : Char) : hexadecimal c.toNat = (hexDigit c).isSome := by
  unfold hexadecimal digit hexDigit
  rw [Bool.eq_iff_iff]
  simp only [Bool.or_eq_true, Bool.and_eq_true, decide_eq_true_eq, Char.le_def, UInt32.le_iff_toNat_le]
  change (((48 ≤ c.toNat ∧ c.toNat ≤ 57) ∨ (97 ≤ c.toNat ∧ c.toNat ≤ 102)) ∨ (65 ≤ c.toNat ∧ c.toNat ≤ 70)) ↔
    Option.isSome (if 48 ≤ c.toNat ∧ c.toNat ≤ 57 then _ else if 97 ≤ c.toNat ∧ c.toNat ≤ 102 then _ else if 65 ≤ c.toNat ∧ c.toNat ≤ 70 then _ else none) = true
  split
  · simp [*]
  · split
    · simp [*]
    · split <;> simp [*]

theorem escapable_iff (c : Char) : c.toNat ∈ escapable.map Char.toNat ↔ (escaped c).isSome = true := by
  have e : c.toNat ∈ escapable.map Char.toNat ↔ c ∈ escapable := by
    rw [List.mem_map]
    exact ⟨fun ⟨a, h, e⟩ => toNat_eq.1 e ▸ h, fun h => ⟨c, h, rfl⟩⟩
  rw [e]
  unfold escaped
  split
  all_goals try decide
  rename_i h1 h2 h3 h4 h5 h6 h7 h8
  simp only [escapable, List.mem_cons, List.not_mem_nil, or_false, Option.isSome_none, Bool.false_eq_true, iff_false]
  rintro (rfl | rfl | rfl | rfl | rfl | rfl | rfl | rfl) <;> contradiction

theorem run_hex {s s' : State} (h : ∀ c, step D s stk c = expectHex stk c s') (hs : (step D s stk ' '.toNat).1 ≠ .finish) (t : Str) :
    scanC D io s stk t = match t with | [] => none | c :: r => if (hexDigit c).isSome then scanC D io s' stk r else none := by
  cases t with
  | nil => exact run_nil hs
  | cons c r =>
    dsimp only
    rw [← hexadecimal_iff]
    by_cases hc : hexadecimal c.toNat = true
    · rw [if_pos hc]; exact goC (by rw [h, expectHex, if_pos hc])
    · rw [if_neg hc]; exact badC (by rw [h, expectHex, if_neg hc])

theorem run_expect {s s' : State} {x : Char} (h : ∀ c, step D s stk c = expect stk c x s') (hs : (step D s stk ' '.toNat).1 ≠ .finish) (t : Str) :
    scanC D io s stk t = match t with | [] => none | c :: r => if c = x then scanC D io s' stk r else none := by
  cases t with
  | nil => exact run_nil hs
  | cons c r =>
    dsimp only
    by_cases hc : c = x
    · rw [if_pos hc]; exact goC (by rw [h, expect, if_pos (by rw [hc])])
    · rw [if_neg hc]; exact badC (by rw [h, expect, if_neg (by rwa [toNat_eq])])

/-- the scanner at `\u`: four hexadecimal digits -/
theorem run_unicode (t : Str) : scanC D io .inStringEscU stk t =
    match t with | a :: b :: c :: d :: r => if (hex4 a b c d).isSome then scanC D io .inString stk r else none | _ => none := by
  have e (x : Nat) : (expectHex stk x .inString).1 ≠ .finish ∧ (expectHex stk x .inStringEscU1).1 ≠ .finish ∧
      (expectHex stk x .inStringEscU12).1 ≠ .finish ∧ (expectHex stk x .inStringEscU123).1 ≠ .finish := by
    unfold expectHex bad; split <;> simp
  rw [run_hex (s := .inStringEscU) (s' := .inStringEscU1) (fun _ => rfl) (e _).2.1]
  match t with
  | [] => rfl
  | [a] =>
    dsimp only
    rw [run_hex (s := .inStringEscU1) (s' := .inStringEscU12) (fun _ => rfl) (e _).2.2.1]; simp
  | [a, b] =>
    dsimp only
    rw [run_hex (s := .inStringEscU1) (s' := .inStringEscU12) (fun _ => rfl) (e _).2.2.1]; dsimp only
    rw [run_hex (s := .inStringEscU12) (s' := .inStringEscU123) (fun _ => rfl) (e _).2.2.2]; simp
  | [a, b, c] =>
    dsimp only
    rw [run_hex (s := .inStringEscU1) (s' := .inStringEscU12) (fun _ => rfl) (e _).2.2.1]; dsimp only
    rw [run_hex (s := .inStringEscU12) (s' := .inStringEscU123) (fun _ => rfl) (e _).2.2.2]; dsimp only
    rw [run_hex (s := .inStringEscU123) (s' := .inString) (fun _ => rfl) (e _).1]; simp
  | a :: b :: c :: d :: r =>
    dsimp only
    rw [run_hex (s := .inStringEscU1) (s' := .inStringEscU12) (fun _ => rfl) (e _).2.2.1]; dsimp only
    rw [run_hex (s := .inStringEscU12) (s' := .inStringEscU123) (fun _ => rfl) (e _).2.2.2]; dsimp only
    rw [run_hex (s := .inStringEscU123) (s' := .inString) (fun _ => rfl) (e _).1]; dsimp only
    unfold hex4
    cases hexDigit a <;> cases hexDigit b <;> cases hexDigit c <;> cases hexDigit d <;> rfl

theorem run_inString (t : Str) : scanC D io .inString stk t = (units t).bind fun r => scanC D io .endValue stk r.2 := by
  fun_induction units t with
  | case1 => exact run_nil (by simp [step, expect, expectHex, afterSign, bad, escapable, digit, hexadecimal])
  | case2 s => exact goC rfl
  | case3 a b c d s ih =>
    have e1 : scanC D io .inString stk ('\\' :: 'u' :: a :: b :: c :: d :: s) = scanC D io .inStringEsc stk ('u' :: a :: b :: c :: d :: s) := goC rfl
    have e2 : scanC D io .inStringEsc stk ('u' :: a :: b :: c :: d :: s) = scanC D io .inStringEscU stk (a :: b :: c :: d :: s) := goC rfl
    rw [e1, e2, run_unicode]
    dsimp only
    cases hex4 a b c d with
    | none => rfl
    | some n =>
      rw [if_pos (by rfl), ih]
      cases units s <;> rfl
  | case4 c s hu ih =>
    have e1 : scanC D io .inString stk ('\\' :: c :: s) = scanC D io .inStringEsc stk (c :: s) := goC rfl
    rw [e1]
    cases hx : escaped c with
    | some x =>
      have : scanC D io .inStringEsc stk (c :: s) = scanC D io .inString stk s := goC (by
        rw [step, if_pos ((escapable_iff c).2 (by rw [hx]; rfl))])
      rw [this, ih]
      cases units s <;> rfl
    | none =>
      have h0 : ¬ c.toNat ∈ escapable.map Char.toNat := by rw [escapable_iff, hx]; simp
      show _ = none
      by_cases hc : c = 'u'
      · subst hc
        have : scanC D io .inStringEsc stk ('u' :: s) = scanC D io .inStringEscU stk s := goC rfl
        rw [this, run_unicode]
        split
        · exact absurd rfl (hu _ _ _ _ _ rfl)
        · rfl
      · exact badC (by rw [step, if_neg h0, expect, if_neg (by rwa [toNat_eq])])
  | case5 c s h1 h2 h3 h4 =>
    show _ = none
    simp only [Bool.or_eq_true, decide_eq_true_eq, beq_iff_eq] at h4
    by_cases hc : c = '\\'
    · subst hc
      cases s with
      | nil =>
        have : scanC D io .inString stk ['\\'] = scanC D io .inStringEsc stk [] := goC rfl
        rw [this]; exact run_nil (by simp [step, expect, expectHex, afterSign, bad, escapable, digit, hexadecimal])
      | cons d s => exact absurd rfl (h3 _ _ rfl)
    · have hq : c ≠ '"' := fun e => h1 (by rw [e])
      exact badC (by rw [step, if_neg (by rwa [toNat_eq]), if_neg (by rwa [toNat_eq]), if_pos (h4.resolve_right hc)])
  | case6 c s h1 h2 h3 h4 ih =>
    simp only [Bool.or_eq_true, decide_eq_true_eq, beq_iff_eq, not_or] at h4
    have hq : c ≠ '"' := fun e => h1 (by rw [e])
    have : scanC D io .inString stk (c :: s) = scanC D io .inString stk s := goC (by
      rw [step, if_neg (by rwa [toNat_eq]), if_neg (by rw [toNat_eq]; exact h4.2), if_neg h4.1])
    rw [this, ih]
    cases units s <;> rfl

/-! ### numbers -/

/-- `none` goes on -/
abbrev thenEnd (D : Nat) (io : Bool) (stk : List Inside) (o : Option (Str × Str)) : Option Str := o.bind fun r => scanC D io .endValue stk r.2

theorem digits1_cons (c : Char) (t : Str) :
    digits1 (c :: t) = if c.isDigit then some (c :: t.takeWhile Char.isDigit, t.dropWhile Char.isDigit) else none := by
  unfold digits1
  rw [List.takeWhile_cons, List.dropWhile_cons]
  split <;> simp

theorem run_e0 (t : Str) : scanC D io .e0 stk t = scanC D io .endValue stk (t.dropWhile Char.isDigit) := by
  induction t with
  | nil => exact run_same (by simp [step, digit]) (by simp)
  | cons c t ih =>
    rw [List.dropWhile_cons]
    split
    · rename_i h
      rw [← ih]
      exact goC (by rw [step, digit_iff, if_pos h])
    · rename_i h
      refine run_same (by simp [step, digit]) fun c' r e => ?_
      cases e
      exact if_neg (by rwa [digit_iff])

theorem run_afterSign {s : State} (hs : ∀ c, c ≠ '+'.toNat → c ≠ '-'.toNat → step D s stk c = afterSign stk c) (t : Str)
    (ht : ∀ c r, t = c :: r → c ≠ '+' ∧ c ≠ '-') :
    scanC D io s stk t = thenEnd D io stk (digits1 t) := by
  cases t with
  | nil => exact run_nil (by rw [hs _ (by decide) (by decide)]; simp [afterSign, digit, bad])
  | cons c t =>
    obtain ⟨h1, h2⟩ := ht c t rfl
    rw [digits1_cons]
    have e : step D s stk c.toNat = afterSign stk c.toNat := hs _ (by rwa [Ne, toNat_eq]) (by rwa [Ne, toNat_eq])
    split
    · rename_i h
      rw [show scanC D io s stk (c :: t) = _ from goC (by rw [e, afterSign, digit_iff, if_pos h]), run_e0]
      rfl
    · rename_i h
      exact badC (by rw [e, afterSign, digit_iff, if_neg h])

theorem run_eSign (t : Str) : scanC D io .eSign stk t = thenEnd D io stk (digits1 t) := by
  cases t with
  | nil => exact run_nil (by simp [step, expect, expectHex, afterSign, bad, escapable, digit, hexadecimal])
  | cons c t =>
    rw [digits1_cons]
    split
    · rename_i h
      rw [show scanC D io .eSign stk (c :: t) = _ from goC (by rw [step, afterSign, digit_iff, if_pos h]), run_e0]
      rfl
    · rename_i h
      exact badC (by rw [step, afterSign, digit_iff, if_neg h])

theorem run_e (t : Str) : scanC D io .e stk t = thenEnd D io stk (digits1 (expSign t).2) := by
  unfold expSign
  split
  · rename_i t
    rw [← run_eSign]; exact goC rfl
  · rename_i t
    rw [← run_eSign]; exact goC rfl
  · rename_i h1 h2
    refine run_afterSign (fun c hp hm => ?_) t fun c r e => ⟨?_, ?_⟩
    · rw [step, if_neg (not_or.2 ⟨hp, hm⟩)]
    · rintro rfl; exact h1 _ e
    · rintro rfl; exact h2 _ e

theorem expPart_not {c : Char} (h : ¬ (c = 'e' ∨ c = 'E')) (t : Str) : expPart (c :: t) = some ([], c :: t) := by
  unfold expPart
  exact if_neg (by simpa using h)

theorem expPart_isE {c : Char} (h : c = 'e' ∨ c = 'E') (t : Str) :
    thenEnd D io stk (expPart (c :: t)) = thenEnd D io stk (digits1 (expSign t).2) := by
  unfold expPart
  dsimp only
  rw [if_pos (by simpa using h)]
  cases digits1 (expSign t).2 <;> rfl

theorem run_exp {s : State} (hs : ∀ c, ¬ (digit c = true) → c ≠ '.'.toNat →
    step D s stk c = if c = 'e'.toNat ∨ c = 'E'.toNat then (.go, .e, stk) else endValue stk c) (t : Str)
    (ht : ∀ c r, t = c :: r → c.isDigit = false ∧ c ≠ '.') :
    scanC D io s stk t = thenEnd D io stk (expPart t) := by
  cases t with
  | nil => exact run_same (by rw [hs _ (by decide) (by decide)]; rfl) (by simp)
  | cons c t =>
    obtain ⟨h1, h2⟩ := ht c t rfl
    have e := hs c.toNat (by rw [digit_iff, h1]; simp) (by rwa [Ne, toNat_eq])
    by_cases hc : c = 'e' ∨ c = 'E'
    · rw [expPart_isE hc, ← run_e]
      exact goC (by rw [e, if_pos (by rwa [toNat_eq, toNat_eq])])
    · have : expPart (c :: t) = some ([], c :: t) := expPart_not hc t
      rw [this]
      refine run_same (by rw [hs _ (by decide) (by decide)]; rfl) fun c' r e' => ?_
      cases e'
      rw [e, if_neg (by rwa [toNat_eq, toNat_eq])]; rfl

theorem dropWhile_head {p : Char → Bool} {t r : Str} {c : Char} (h : t.dropWhile p = c :: r) : p c = false := by
  induction t with
  | nil => cases h
  | cons d t ih =>
    rw [List.dropWhile_cons] at h
    split at h
    · exact ih h
    · rename_i hd; cases h; simpa using hd

/-- after digits in state `dot0` -/
theorem run_dot0 (t : Str) : scanC D io .dot0 stk t = thenEnd D io stk (expPart (t.dropWhile Char.isDigit)) := by
  have e : scanC D io .dot0 stk t = scanC D io .dot0 stk (t.dropWhile Char.isDigit) := by
    induction t with
    | nil => rfl
    | cons c t ih =>
      rw [List.dropWhile_cons]
      split
      · rename_i h
        rw [← ih]; exact goC (by rw [step, digit_iff, if_pos h])
      · rfl
  rw [e]
  by_cases hd : ∃ r, t.dropWhile Char.isDigit = '.' :: r
  · obtain ⟨r, hr⟩ := hd
    rw [hr]
    refine run_same (by simp [step, digit]) fun c' r' e' => ?_
    cases e'
    rfl
  · refine run_exp (fun c hc _ => by rw [step, if_neg hc]) _ fun c r h => ⟨dropWhile_head h, ?_⟩
    rintro rfl
    exact hd ⟨r, h⟩

theorem run_zero (t : Str) : scanC D io .zero stk t =
    (fracPart t).bind fun r => thenEnd D io stk (expPart r.2) := by
  unfold fracPart
  split
  · rename_i t
    rw [show scanC D io .zero stk ('.' :: t) = scanC D io .dot stk t from goC rfl]
    cases t with
    | nil => exact run_nil (by simp [step, expect, expectHex, afterSign, bad, escapable, digit, hexadecimal])
    | cons c t =>
      rw [digits1_cons]
      by_cases h : c.isDigit = true
      · rw [show scanC D io .dot stk (c :: t) = _ from goC (by rw [step, digit_iff, if_pos h]), run_dot0, if_pos h]
        rfl
      · rw [if_neg h]
        exact badC (by rw [step, digit_iff, if_neg h])
  · rename_i hd
    show _ = thenEnd D io stk (expPart t)
    cases t with
    | nil => exact run_same rfl (by simp)
    | cons c t =>
      have h2 : c ≠ '.' := by rintro rfl; exact hd _ rfl
      by_cases hc : c = 'e' ∨ c = 'E'
      · rw [expPart_isE hc, ← run_e]
        exact goC (by rw [step, afterWhole, if_neg (by rwa [toNat_eq]), if_pos (by rwa [toNat_eq, toNat_eq])])
      · have : expPart (c :: t) = some ([], c :: t) := expPart_not hc t
        rw [this]
        refine run_same rfl fun c' r e' => ?_
        cases e'
        show afterWhole stk c.toNat = endValue stk c.toNat
        rw [afterWhole, if_neg (by rwa [toNat_eq]), if_neg (by rwa [toNat_eq, toNat_eq])]

theorem run_one (t : Str) : scanC D io .one stk t = scanC D io .zero stk (t.dropWhile Char.isDigit) := by
  induction t with
  | nil => exact run_same (by simp [step, digit]) (by simp)
  | cons c t ih =>
    rw [List.dropWhile_cons]
    split
    · rename_i h
      rw [← ih]; exact goC (by rw [step, digit_iff, if_pos h])
    · rename_i h
      refine run_same (by simp [step, digit]) fun c' r e => ?_
      cases e
      exact if_neg (by rwa [digit_iff])

/-- what follows the digits before the point -/
abbrev afterNumber (D : Nat) (io : Bool) (stk : List Inside) (o : Option (Str × Str)) : Option Str :=
  o.bind fun r => (fracPart r.2).bind fun r => thenEnd D io stk (expPart r.2)

theorem wholePart_cons {c : Char} (h : c ≠ '0') (t : Str) : wholePart (c :: t) = digits1 (c :: t) := by
  unfold wholePart
  split
  · rename_i e; cases e; exact absurd rfl h
  · rfl

/-- `s` reads the first digit of a number like `neg` does -/
theorem run_whole {s : State} {c : Char} (t : Str) (h0 : c = '0' → step D s stk c.toNat = (.go, .zero, stk))
    (h1 : c ≠ '0' → c.isDigit = true → step D s stk c.toNat = (.go, .one, stk))
    (h2 : c.isDigit = false → step D s stk c.toNat = bad) :
    scanC D io s stk (c :: t) = afterNumber D io stk (wholePart (c :: t)) := by
  by_cases hc : c = '0'
  · rw [show scanC D io s stk (c :: t) = _ from goC (h0 hc), run_zero, hc]
    rfl
  · rw [wholePart_cons hc, digits1_cons]
    split
    · rename_i h
      rw [show scanC D io s stk (c :: t) = _ from goC (h1 hc h), run_one, run_zero]
      rfl
    · rename_i h
      exact badC (h2 (by simpa using h))

theorem run_neg (t : Str) : scanC D io .neg stk t = afterNumber D io stk (wholePart t) := by
  cases t with
  | nil => exact run_nil (by simp [step, expect, expectHex, afterSign, bad, escapable, digit, hexadecimal])
  | cons c t =>
    refine run_whole t (fun h => by rw [step, if_pos (by rw [h])]) (fun h h' => by rw [step, if_neg (by rwa [toNat_eq]), digit_iff, if_pos h'])
      (fun h => ?_)
    rw [step, if_neg (by rw [toNat_eq]; rintro rfl; revert h; decide), digit_iff, if_neg (by rw [h]; simp)]

theorem jsonNumber_then (t : Str) : thenEnd D io stk (jsonNumber t) = afterNumber D io stk (wholePart (minus t).2) := by
  unfold jsonNumber
  cases wholePart (minus t).2 with
  | none => rfl
  | some w =>
    obtain ⟨w, r⟩ := w
    show thenEnd D io stk (do let (f, r) ← fracPart r; let (e, r) ← expPart r; return ((minus t).1 ++ w ++ f ++ e, r)) =
      (fracPart r).bind fun r => thenEnd D io stk (expPart r.2)
    cases fracPart r with
    | none => rfl
    | some f =>
      obtain ⟨f, r⟩ := f
      show thenEnd D io stk (do let (e, r) ← expPart r; return ((minus t).1 ++ w ++ f ++ e, r)) = thenEnd D io stk (expPart r)
      cases expPart r with
      | none => rfl
      | some e => rfl

/-! ### values -/

theorem run_true (t : Str) : scanC D io .t stk t = match t with | 'r' :: 'u' :: 'e' :: r => scanC D io .endValue stk r | _ => none := by
  have e (x : Nat) (y : Char) (s : State) : (expect stk x y s).1 ≠ .finish := by
    unfold expect bad; split <;> simp
  split
  · rw [goC rfl, goC rfl, goC rfl]
  · rename_i h
    rw [run_expect (s := .t) (x := 'r') (s' := .tr) (fun _ => rfl) (e _ _ _)]
    match t with
    | [] => rfl
    | a :: t =>
      dsimp only
      split
      · rename_i ha
        rw [run_expect (s := .tr) (x := 'u') (s' := .tru) (fun _ => rfl) (e _ _ _)]
        match t with
        | [] => rfl
        | b :: t =>
          dsimp only
          split
          · rename_i hb
            rw [run_expect (s := .tru) (x := 'e') (s' := .endValue) (fun _ => rfl) (e _ _ _)]
            match t with
            | [] => rfl
            | c :: t =>
              dsimp only
              split
              · rename_i hc
                exact absurd (by rw [ha, hb, hc]) (h t)
              · rfl
          · rfl
      · rfl

theorem run_null (t : Str) : scanC D io .n stk t = match t with | 'u' :: 'l' :: 'l' :: r => scanC D io .endValue stk r | _ => none := by
  have e (x : Nat) (y : Char) (s : State) : (expect stk x y s).1 ≠ .finish := by
    unfold expect bad; split <;> simp
  split
  · rw [goC rfl, goC rfl, goC rfl]
  · rename_i h
    rw [run_expect (s := .n) (x := 'u') (s' := .nu) (fun _ => rfl) (e _ _ _)]
    match t with
    | [] => rfl
    | a :: t =>
      dsimp only
      split
      · rename_i ha
        rw [run_expect (s := .nu) (x := 'l') (s' := .nul) (fun _ => rfl) (e _ _ _)]
        match t with
        | [] => rfl
        | b :: t =>
          dsimp only
          split
          · rename_i hb
            rw [run_expect (s := .nul) (x := 'l') (s' := .endValue) (fun _ => rfl) (e _ _ _)]
            match t with
            | [] => rfl
            | c :: t =>
              dsimp only
              split
              · rename_i hc
                exact absurd (by rw [ha, hb, hc]) (h t)
              · rfl
          · rfl
      · rfl

theorem run_false (t : Str) : scanC D io .f stk t = match t with | 'a' :: 'l' :: 's' :: 'e' :: r => scanC D io .endValue stk r | _ => none := by
  have e (x : Nat) (y : Char) (s : State) : (expect stk x y s).1 ≠ .finish := by
    unfold expect bad; split <;> simp
  split
  · rw [goC rfl, goC rfl, goC rfl, goC rfl]
  · rename_i h
    rw [run_expect (s := .f) (x := 'a') (s' := .fa) (fun _ => rfl) (e _ _ _)]
    match t with
    | [] => rfl
    | a :: t =>
      dsimp only
      split
      · rename_i ha
        rw [run_expect (s := .fa) (x := 'l') (s' := .fal) (fun _ => rfl) (e _ _ _)]
        match t with
        | [] => rfl
        | b :: t =>
          dsimp only
          split
          · rename_i hb
            rw [run_expect (s := .fal) (x := 's') (s' := .fals) (fun _ => rfl) (e _ _ _)]
            match t with
            | [] => rfl
            | c :: t =>
              dsimp only
              split
              · rename_i hc
                rw [run_expect (s := .fals) (x := 'e') (s' := .endValue) (fun _ => rfl) (e _ _ _)]
                match t with
                | [] => rfl
                | d :: t =>
                  dsimp only
                  split
                  · rename_i hd
                    exact absurd (by rw [ha, hb, hc, hd]) (h t)
                  · rfl
              · rfl
          · rfl
      · rfl

/-- after the end of an object or array -/
abbrev closed (D : Nat) (io : Bool) (stk : List Inside) (rest : Str) : Option Str :=
  if stk.isEmpty then some rest else scanC D io .endValue stk rest

/-- after a value -/
abbrev resume (D : Nat) (io : Bool) (stk : List Inside) (v : Json) (rest : Str) : Option Str :=
  if D < stk.length + v.depth then none
  else if hasEnd v then closed D io stk rest
  else scanC D io .endValue stk rest

/-- A value that is no object and no array adds nothing to the depth. -/
theorem resume_simple {v : Json} (h : hasEnd v = false) (hs : stk.length ≤ D) (rest : Str) : resume D io stk v rest = scanC D io .endValue stk rest := by
  have hd : v.depth = 0 := by cases v <;> first | rfl | cases h
  unfold resume
  rw [hd, if_neg (by omega), h]
  rfl

theorem closeC {s : State} {rest : List Inside} {c : Char} {t : Str} (h : step D s stk c.toNat = (.close, pop rest, rest)) :
    scanC D io s stk (c :: t) = closed D io rest t := by
  show run Char.toNat D io s stk (c :: t) = _
  rw [run_close h]
  unfold closed pop
  split
  · rfl
  · rfl

theorem value_number {n : Nat} {s : Str} {c : Char} {t : Str} (hs : skip s = c :: t) (h1 : c ≠ '{') (h2 : c ≠ '[') (h3 : c ≠ '"')
    (h4 : ∀ r, c :: t ≠ 't' :: 'r' :: 'u' :: 'e' :: r) (h5 : ∀ r, c :: t ≠ 'f' :: 'a' :: 'l' :: 's' :: 'e' :: r)
    (h6 : ∀ r, c :: t ≠ 'n' :: 'u' :: 'l' :: 'l' :: r) : value (n + 1) s = (jsonNumber (c :: t)).map fun r => (.num r.1, r.2) := by
  rw [value, hs]
  split
  · rename_i e; cases e; exact absurd rfl h1
  · rename_i e; cases e; exact absurd rfl h2
  · rename_i e; cases e; exact absurd rfl h3
  · rename_i e; exact absurd e (h4 _)
  · rename_i e; exact absurd e (h5 _)
  · rename_i e; exact absurd e (h6 _)
  · rfl

theorem jsonNumber_none {c : Char} (t : Str) (h1 : c ≠ '-') (h2 : c.isDigit = false) : jsonNumber (c :: t) = none := by
  unfold jsonNumber
  have e : minus (c :: t) = ([], c :: t) := by
    unfold minus
    split
    · rename_i e; cases e; exact absurd rfl h1
    · rfl
  rw [e, wholePart_cons (by rintro rfl; revert h2; decide), digits1_cons, h2]
  rfl

/-- what the scanner does where the grammar has a number -/
theorem run_number {c : Char} (t : Str) (hw : isWhite c = false) (h1 : c ≠ '{') (h2 : c ≠ '[') (h3 : c ≠ '"')
    (h4 : c ≠ 't') (h5 : c ≠ 'f') (h6 : c ≠ 'n') : scanC D io .beginValue stk (c :: t) = thenEnd D io stk (jsonNumber (c :: t)) := by
  have e : step D .beginValue stk c.toNat = if c = '-' then (.go, .neg, stk) else if c = '0' then (.go, .zero, stk)
      else if c.isDigit = true then (.go, .one, stk) else bad := by
    simp only [step, beginValue, space_iff, hw, toNat_eq, h1, h2, h3, h4, h5, h6, if_false, digit_iff, Bool.false_eq_true]
  by_cases hm : c = '-'
  · rw [jsonNumber_then, goC (by rw [e, if_pos hm]), run_neg, hm]
    rfl
  · have em : minus (c :: t) = ([], c :: t) := by
      unfold minus
      split
      · rename_i e; cases e; exact absurd rfl hm
      · rfl
    rw [jsonNumber_then, em]
    refine run_whole t (fun h => by rw [e, if_neg hm, if_pos h]) (fun h h' => by rw [e, if_neg hm, if_neg h, if_pos h']) fun h => ?_
    rw [e, if_neg hm, if_neg (by rintro rfl; revert h; decide), if_neg (by rw [h]; simp)]

end JsonBytes
end Leaves
