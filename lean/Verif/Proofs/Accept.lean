import Verif.Proofs.Hex

/-! Texts that are read are numerals or names. -/

namespace Leaves
open F64 Spec Strconv

theorem mantissa_inv (hex : Bool) : ∀ (s : Str) (m : Mantissa), '_' ∉ s → ∃ (ds : Str) (pt : Option Str),
    s = ds ++ ((match pt with | none => [] | some ds => '.' :: ds) ++ (mantissa hex s m).2) ∧
    (∀ c ∈ ds, (digitOf hex c).isSome = true) ∧ (∀ c ∈ pt.getD [], (digitOf hex c).isSome = true) ∧ (m.dot = true → pt = none) ∧
    ((mantissa hex s m).1.saw = true → m.saw = true ∨ ds ++ pt.getD [] ≠ [])
  | [], m, _ => ⟨[], none, rfl, by simp, by simp, fun _ => rfl, fun h => .inl h⟩
  | c :: s, m, hs => by
    have hc : c ≠ '_' := fun h => hs (by rw [h]; simp)
    have hs' : '_' ∉ s := fun h => hs (by simp [h])
    rw [mantissa, if_neg hc]
    by_cases hp : c = '.'
    · rw [if_pos hp]
      by_cases hd : m.dot = true
      · rw [if_pos hd]
        exact ⟨[], none, rfl, by simp, by simp, fun _ => rfl, fun h => .inl h⟩
      · rw [if_neg hd]
        obtain ⟨ds, pt, h1, h2, -, h3, h4⟩ := mantissa_inv hex s { m with dot := true } hs'
        obtain rfl := h3 rfl
        refine ⟨[], some ds, ?_, by simp, h2, fun h => absurd h hd, fun h => (h4 h).imp id fun h => by simpa using h⟩
        subst hp
        exact congrArg (List.cons '.') h1
    · rw [if_neg hp]
      cases hd : digitOf hex c with
      | none => exact ⟨[], none, rfl, by simp, by simp, fun _ => rfl, fun h => .inl h⟩
      | some k =>
        obtain ⟨ds, pt, h1, h2, h3, h4, h5⟩ := mantissa_inv hex s
          { n := (if hex then 16 else 10) * m.n + k, frac := if m.dot then m.frac + 1 else m.frac, dot := m.dot, saw := true } hs'
        refine ⟨c :: ds, pt, congrArg (List.cons c) h1, fun x hx => ?_, h3, h4, fun _ => .inr (by simp)⟩
        rcases List.mem_cons.1 hx with rfl | hx
        · rw [hd]; rfl
        · exact h2 x hx

theorem expDigits_inv : ∀ (s : Str) (e : Nat), '_' ∉ s → ∃ ds, s = ds ++ (expDigits s e).2 ∧ ∀ c ∈ ds, c.isDigit = true
  | [], _, _ => ⟨[], rfl, by simp⟩
  | c :: s, e, hs => by
    have hc : c ≠ '_' := fun h => hs (by rw [h]; simp)
    have hs' : '_' ∉ s := fun h => hs (by simp [h])
    rw [expDigits, if_neg hc]
    split
    · rename_i hd
      obtain ⟨ds, h1, h2⟩ := expDigits_inv s (if e < 10000 then 10 * e + (c.toNat - 48) else e) hs'
      refine ⟨c :: ds, congrArg (List.cons c) h1, fun x hx => ?_⟩
      rcases List.mem_cons.1 hx with rfl | hx
      · exact hd
      · exact h2 x hx
    · exact ⟨[], rfl, by simp⟩

theorem exponent_inv {hex : Bool} {s : Str} {e : Int} (hs : '_' ∉ s) (h : exponent hex s = some (e, [])) :
    (s = [] ∧ hex = false) ∨ ∃ c sg ds, s = c :: (sg ++ ds) ∧ c ∈ (if hex then ['p', 'P'] else ['e', 'E']) ∧ DecNum.IsSign sg ∧ ds ≠ [] ∧
      ∀ d ∈ ds, d.isDigit = true := by
  cases s with
  | nil =>
    cases hex
    · exact .inl ⟨rfl, rfl⟩
    · cases h
  | cons c t =>
    have eq : exponent hex (c :: t) = if c ∈ (if hex then ['p', 'P'] else ['e', 'E']) then
        (if ((sign t).2.head?.map Char.isDigit).getD false then
          some (if (sign t).1 then -((expDigits (sign t).2 0).1 : Int) else (expDigits (sign t).2 0).1, (expDigits (sign t).2 0).2)
        else none)
      else if hex then none else some (0, c :: t) := rfl
    rw [eq] at h
    by_cases hm : c ∈ (if hex then ['p', 'P'] else ['e', 'E'])
    · rw [if_pos hm] at h
      by_cases hd : ((sign t).2.head?.map Char.isDigit).getD false = true
      · rw [if_pos hd] at h
        obtain ⟨sg, g1, g2⟩ := sign_split t
        have hu : '_' ∉ (sign t).2 := by
          intro hu
          refine hs (List.mem_cons_of_mem _ ?_)
          rw [g2]
          exact List.mem_append_right _ hu
        obtain ⟨ds, g3, g4⟩ := expDigits_inv _ 0 hu
        have hr : (expDigits (sign t).2 0).2 = [] := (Prod.mk.inj (Option.some.inj h)).2
        rw [hr, List.append_nil] at g3
        refine .inr ⟨c, sg, ds, by rw [← g3, ← g2], hm, g1, ?_, g4⟩
        rintro rfl
        rw [g3] at hd
        cases hd
      · rw [if_neg hd] at h
        cases h
    · rw [if_neg hm] at h
      cases hex
      · rw [if_neg (by decide)] at h
        cases h
      · cases h

/-- what is read as a number is a numeral -/
theorem readFloat_inv {s : Str} (hs : '_' ∉ s) {r} (h : readFloat s = some r) (hh : ¬ HugeExponent s) :
    (∃ w : DecNum, w.OK ∧ s = w.text) ∨ ∃ w : HexNum, w.OK ∧ s = w.text := by
  obtain ⟨sg, g1, g2⟩ := sign_split s
  have hu1 : '_' ∉ (sign s).2 := fun hu => hs (by rw [g2]; exact List.mem_append_right _ hu)
  have hb : bare s = s := bare_self hs
  unfold readFloat at h
  dsimp only at h
  split at h
  · cases h
  rename_i hsaw
  split at h
  · cases h
  rename_i e rest he
  split at h
  · cases h
  rename_i hrest
  obtain rfl : rest = [] := by
    by_contra hr
    exact hrest (.inl hr)
  rcases hexPrefix_cases (sign s).2 with h3 | ⟨x, body, h3, h4, h5⟩
  · rw [h3] at he hsaw
    dsimp only at he hsaw
    obtain ⟨ds, pt, m1, m2, m3, -, m4⟩ := mantissa_inv false (sign s).2 ⟨0, 0, false, false⟩ hu1
    have hu2 : '_' ∉ (mantissa false (sign s).2 ⟨0, 0, false, false⟩).2 := by
      intro hu
      refine hu1 ?_
      rw [m1]
      exact List.mem_append_right _ (List.mem_append_right _ hu)
    have hdig : ds ++ pt.getD [] ≠ [] := by
      rcases m4 (by simpa using hsaw) with h | h
      · cases h
      · exact h
    left
    rcases exponent_inv hu2 he with ⟨e1, -⟩ | ⟨c, sg', es, e1, e2, e3, e4, e5⟩
    · refine ⟨⟨sg, ds, pt, none⟩, ⟨g1, fun c hc => (digitOf_false c).1 (m2 c hc), fun c hc => (digitOf_false c).1 (m3 c hc), hdig, fun _ _ _ h => by cases h⟩, ?_⟩
      conv_lhs => rw [g2, m1, e1]
      unfold DecNum.text
      cases pt <;> simp
    · have htext : s = (⟨sg, ds, pt, some (c, sg', es)⟩ : DecNum).text := by
        conv_lhs => rw [g2, m1, e1]
        unfold DecNum.text
        cases pt <;> simp
      refine ⟨⟨sg, ds, pt, some (c, sg', es)⟩, ⟨g1, fun c hc => (digitOf_false c).1 (m2 c hc), fun c hc => (digitOf_false c).1 (m3 c hc), hdig, ?_⟩, htext⟩
      intro _ _ _ h
      cases h
      refine ⟨by simpa using e2, e3, e4, e5, ?_⟩
      by_contra hbig
      refine hh ⟨sg ++ ds ++ pt.elim [] ('.' :: ·), c, sg', es, ?_, ?_, e3, e5, by omega⟩
      · rw [hb, htext]
        unfold DecNum.text
        cases pt <;> simp
      · rcases (show c = 'e' ∨ c = 'E' by simpa using e2) with rfl | rfl <;> decide
  · rw [h5] at he hsaw
    dsimp only at he hsaw
    have hu' : '_' ∉ body := fun hu => hu1 (by rw [h4]; simp [hu])
    obtain ⟨ds, pt, m1, m2, m3, -, m4⟩ := mantissa_inv true body ⟨0, 0, false, false⟩ hu'
    have hu2 : '_' ∉ (mantissa true body ⟨0, 0, false, false⟩).2 := by
      intro hu
      refine hu' ?_
      rw [m1]
      exact List.mem_append_right _ (List.mem_append_right _ hu)
    have hdig : ds ++ pt.getD [] ≠ [] := by
      rcases m4 (by simpa using hsaw) with h | h
      · cases h
      · exact h
    right
    rcases exponent_inv hu2 he with ⟨-, e1⟩ | ⟨c, sg', es, e1, e2, e3, e4, e5⟩
    · cases e1
    · have htext : s = (⟨sg, x, ds, pt, c, sg', es⟩ : HexNum).text := by
        conv_lhs => rw [g2, h4, m1, e1]
        unfold HexNum.text
        cases pt <;> simp
      refine ⟨⟨sg, x, ds, pt, c, sg', es⟩, ⟨g1, h3, fun c hc => (digitOf_true c).1 (m2 c hc), fun c hc => (digitOf_true c).1 (m3 c hc), hdig, by simpa using e2,
        e3, e4, e5, ?_⟩, htext⟩
      by_contra hbig
      have hbig : ¬ digitsNumber es < 10000 := hbig
      refine hh ⟨sg ++ ('0' :: x :: (ds ++ pt.elim [] ('.' :: ·))), c, sg', es, ?_, ?_, e3, e5, by omega⟩
      · rw [hb, htext]
        unfold HexNum.text
        cases pt <;> simp
      · rcases (show c = 'p' ∨ c = 'P' by simpa using e2) with rfl | rfl <;> decide

theorem inAnyCase_of_lower : ∀ {name s : Str}, lowerAll s = name → (∀ c ∈ name, c ∈ "infinityna".toList) → InAnyCase name s
  | [], [], _, _ => .nil
  | [], _ :: _, h, _ => by cases h
  | _ :: _, [], h, _ => by cases h
  | d :: name, c :: s, h, hn => by
    obtain ⟨h1, h2⟩ := List.cons.inj h
    refine .cons ?_ (inAnyCase_of_lower h2 fun c hc => hn c (by simp [hc]))
    dsimp only at h1
    by_cases hc : 'A' ≤ c ∧ c ≤ 'Z'
    · rw [if_pos hc] at h1
      right
      rw [← h1]
      have a : 65 ≤ c.toNat := UInt32.le_iff_toNat_le.1 hc.1
      have b : c.toNat ≤ 90 := UInt32.le_iff_toNat_le.1 hc.2
      refine hexDigit_chars a b (fun c => c = (Char.ofNat (c.toNat + 32)).toUpper) fun n a b => ?_
      interval_cases n <;> decide
    · rw [if_neg hc] at h1
      exact .inl h1

theorem special_inv {s : Str} {x : F64} (h : special s = some x) (d : F64) : CellReads d s x := by
  unfold special at h
  dsimp only at h
  split at h
  · rename_i hn
    cases h
    have key : InAnyCase "inf".toList (sign s).2 ∨ InAnyCase "infinity".toList (sign s).2 :=
      hn.imp (fun h => inAnyCase_of_lower h (by decide)) fun h => inAnyCase_of_lower h (by decide)
    have hsp : ∃ sg, DecNum.IsSign sg ∧ s = sg ++ (sign s).2 ∧ (sign s).1 = decide (sg = ['-']) := by
      unfold sign
      split
      · exact ⟨['-'], .inr (.inr rfl), rfl, rfl⟩
      · exact ⟨['+'], .inr (.inl rfl), rfl, rfl⟩
      · exact ⟨[], .inl rfl, rfl, rfl⟩
    obtain ⟨sg, g1, g2, g3⟩ := hsp
    rw [g3]
    have := CellReads.inf (d := d) sg (sign s).2 g1 key
    rwa [← g2] at this
  · split at h
    · rename_i hn
      cases h
      exact .nan _ (inAnyCase_of_lower hn (by decide))
    · cases h

theorem reads_of_range {q : ℚ} {b : Bool} {x y : F64} (h1 : Rounded q y) (h2 : HasSign y b) (h : inRange y = some x) :
    Rounded q x ∧ ∃ m h, x = .fin b m h := by
  rcases h2 with ⟨m, hm, rfl⟩ | rfl
  · cases h
    exact ⟨h1, m, hm, rfl⟩
  · cases h

/-- what is read denotes the number -/
theorem parse_inv {s : Str} {x : F64} (h : Strconv.parseFloat s = some x) (hh : ¬ HugeExponent s) (d : F64) : CellReads d s x := by
  have bareCase : ∀ {s : Str}, '_' ∉ s → Strconv.parseFloat s = some x → ¬ HugeExponent s → CellReads d s x := by
    intro s hs h hh
    cases hsp : special s with
    | some y =>
      have : x = y := by
        unfold Strconv.parseFloat at h
        rw [hsp] at h
        exact (Option.some.inj h).symm
      subst this
      exact special_inv hsp d
    | none =>
      have h' := h
      unfold Strconv.parseFloat at h'
      rw [hsp] at h'
      dsimp only at h'
      split at h'
      · cases h'
      · rename_i hr
        rcases readFloat_inv hs hr hh with ⟨w, hw, rfl⟩ | ⟨w, hw, rfl⟩
        · obtain ⟨y, g1, g2, g3⟩ := parseFloat_text hw
          exact .decimal w x hw (reads_of_range g1 g2 (g3.symm.trans h))
        · obtain ⟨y, g1, g2, g3⟩ := parseFloat_hex hw
          exact .hexadecimal w x hw (reads_of_range g1 g2 (g3.symm.trans h))
  by_cases hs : '_' ∈ s
  · obtain ⟨h1, h2⟩ := (parse_underscored hs x).1 h
    refine .underscored s x hs h1 (bareCase (under_not_bare s) h2 ?_)
    rintro ⟨a, c, sg, ds, e, he⟩
    rw [bare_self (under_not_bare s)] at e
    exact hh ⟨a, c, sg, ds, e, he⟩
  · exact bareCase hs h hh

end Leaves
