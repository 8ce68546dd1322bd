import Verif.Proofs.Utf8
import Verif.Proofs.Write

/-! # Trimming, splitting and parsing bytes agrees with doing it to the characters -/

namespace Leaves.Oct
open Spec
open Mat (utf8)

theorem isSpace_ne {r : Char} (h : isSpace r = true) : r ≠ runeError := by
  rintro rfl
  exact absurd h (by decide)

theorem trimLeft_chars {fuel : Nat} {s : ByteStr} {t : Str} (h : Chars s t) (hf : s.length ≤ fuel) :
    Chars (trimLeft fuel s) (t.dropWhile isSpace) ∧ (trimLeft fuel s).length ≤ s.length := by
  induction fuel generalizing s t with
  | zero =>
    obtain rfl := List.length_eq_zero_iff.1 (Nat.le_zero.1 hf)
    obtain rfl := chars_nil h
    exact ⟨.nil, Nat.le_refl _⟩
  | succ fuel ih =>
    cases s with
    | nil =>
      obtain rfl := chars_nil h
      exact ⟨.nil, Nat.le_refl _⟩
    | cons b s =>
      rcases start_cases b s with ⟨c, u, e⟩ | g
      · obtain ⟨t', rfl, h'⟩ := chars_char (e ▸ h)
        unfold trimLeft
        rw [e, decodeRune_enc]
        simp only [List.drop_left]
        by_cases hc : isSpace c = true
        · have hl : u.length + 1 ≤ (b :: s).length := by
            rw [e, List.length_append]
            have := List.length_pos_iff.2 (enc_ne_nil c)
            omega
          rw [if_pos ⟨by rw [← e]; exact List.cons_ne_nil _ _, hc⟩, List.dropWhile_cons_of_pos hc]
          have := ih h' (by omega)
          exact ⟨this.1, by rw [← e]; omega⟩
        · rw [if_neg (fun x => hc x.2), List.dropWhile_cons_of_neg hc]
          exact ⟨.char c h', Nat.le_refl _⟩
      · obtain ⟨t', rfl, h'⟩ := chars_garbled g h
        unfold trimLeft
        rw [decodeRune_garbled g]
        simp only
        rw [if_neg (fun x => isSpace_ne x.2 rfl), List.dropWhile_cons_of_neg (fun x => isSpace_ne x rfl)]
        exact ⟨h, Nat.le_refl _⟩

theorem findStart_eq {fuel : Nat} {before tail w : ByteStr} (h : findStart fuel before tail = some w) :
    ∃ a, before.reverse ++ tail = a ++ w := by
  induction fuel generalizing before tail with
  | zero => cases before <;> cases h
  | succ fuel ih =>
    cases before with
    | nil => cases h
    | cons b before =>
      unfold findStart at h
      split at h
      · obtain ⟨a, ha⟩ := ih h
        exact ⟨a, by rw [← ha]; simp⟩
      · cases h
        exact ⟨before.reverse, by simp⟩

/-- the last character is found -/
theorem decodeLastRune_enc (a : ByteStr) (r : Char) : decodeLastRune (a ++ enc r) = (r, (enc r).length) := by
  have hd := decodeRune_enc r []
  rw [List.append_nil] at hd
  rcases enc_shape r with ⟨b, h, h1, h2⟩ | ⟨b0, b1, h, h0, h1, h2, h3⟩ | ⟨b0, b1, b2, h, h0, h1, h2, h3, h4, h5, h6⟩ |
    ⟨b0, b1, b2, b3, h, h0, h1, h2, h3, h4, h5, h6, h7⟩
  · rw [h]
    simp only [decodeLastRune, List.reverse_append, List.reverse_cons, List.reverse_nil, List.nil_append, List.cons_append,
      List.length_cons, List.length_nil]
    rw [if_pos h1, ← h2, Char.ofNat_toNat]
  · have n0 : isCont b0 = false := by rw [← Bool.not_eq_true, isCont_iff]; omega
    rw [isCont_iff] at h2
    rw [h] at hd ⊢
    simp only [decodeLastRune, List.reverse_append, List.reverse_cons, List.reverse_nil, List.nil_append, List.cons_append]
    rw [if_neg (by omega)]
    simp only [findStart, n0, Bool.false_eq_true, if_false, hd, if_true]
  · have n0 : isCont b0 = false := by rw [← Bool.not_eq_true, isCont_iff]; omega
    have h3' := (isCont_iff b2).1 h3
    rw [h] at hd ⊢
    simp only [decodeLastRune, List.reverse_append, List.reverse_cons, List.reverse_nil, List.nil_append, List.cons_append]
    rw [if_neg (by omega)]
    simp only [findStart, n0, h2, Bool.false_eq_true, if_false, hd, if_true]
  · have n0 : isCont b0 = false := by rw [← Bool.not_eq_true, isCont_iff]; omega
    have h4' := (isCont_iff b3).1 h4
    rw [h] at hd ⊢
    simp only [decodeLastRune, List.reverse_append, List.reverse_cons, List.reverse_nil, List.nil_append, List.cons_append]
    rw [if_neg (by omega)]
    simp only [findStart, n0, h2, h3, Bool.false_eq_true, if_false, hd, if_true]

/-- and only the last character -/
theorem enc_of_decodeLastRune {s : ByteStr} {r : Char} {n : Nat} (hs : s ≠ []) (h : decodeLastRune s = (r, n)) (hr : r ≠ runeError) :
    n = (enc r).length ∧ ∃ a, s = a ++ enc r := by
  unfold decodeLastRune at h
  cases hrev : s.reverse with
  | nil => exact absurd (List.reverse_eq_nil_iff.1 hrev) hs
  | cons b before =>
    have es : s = before.reverse ++ [b] := by
      have := congrArg List.reverse hrev
      simpa using this
    rw [hrev] at h
    dsimp only at h
    split at h
    · next hb =>
      obtain ⟨rfl, rfl⟩ := Prod.mk.inj h
      rw [enc_one hb]
      exact ⟨rfl, _, es⟩
    · split at h
      · exact absurd (Prod.mk.inj h).1.symm hr
      · next w hw =>
        obtain ⟨a, ha⟩ := findStart_eq hw
        rw [← es] at ha
        split at h
        · next hlen =>
          cases w with
          | nil =>
            exact absurd (Prod.mk.inj h).1.symm hr
          | cons x w =>
            rcases start_cases x w with ⟨c, u, e⟩ | g
            · rw [e, decodeRune_enc] at h hlen
              obtain ⟨rfl, rfl⟩ := Prod.mk.inj h
              have : u = [] := by
                rw [List.length_append] at hlen
                exact List.length_eq_zero_iff.1 (by omega)
              subst this
              rw [List.append_nil] at e
              exact ⟨rfl, a, by rw [ha, e]⟩
            · rw [decodeRune_garbled g] at h
              exact absurd (Prod.mk.inj h).1.symm hr
        · exact absurd (Prod.mk.inj h).1.symm hr

theorem chars_cut {a : ByteStr} {r : Char} {t : Str} (h : Chars (a ++ enc r) t) : ∃ t', t = t' ++ [r] ∧ Chars a t' := by
  obtain ⟨t', h'⟩ := chars_exists a
  have := chars_append h' (chars_enc r) (by have := atStart_enc r []; rwa [List.append_nil] at this)
  exact ⟨t', chars_unique h this, h'⟩

theorem trimRight_chars {fuel : Nat} {s : ByteStr} {t : Str} (h : Chars s t) (hf : s.length ≤ fuel) :
    Chars (trimRight fuel s) (t.reverse.dropWhile isSpace).reverse := by
  induction fuel generalizing s t with
  | zero =>
    obtain rfl := List.length_eq_zero_iff.1 (Nat.le_zero.1 hf)
    obtain rfl := chars_nil h
    exact .nil
  | succ fuel ih =>
    by_cases hs : s = []
    · subst hs
      obtain rfl := chars_nil h
      exact .nil
    · unfold trimRight
      cases hd : decodeLastRune s with
      | mk r n =>
        dsimp only
        by_cases hr : isSpace r = true
        · obtain ⟨rfl, a, rfl⟩ := enc_of_decodeLastRune hs hd (isSpace_ne hr)
          rw [if_pos ⟨hs, hr⟩]
          obtain ⟨t', rfl, h'⟩ := chars_cut h
          rw [List.length_append, Nat.add_sub_cancel, List.take_left, List.reverse_append]
          simp only [List.reverse_cons, List.reverse_nil, List.nil_append, List.cons_append]
          rw [List.dropWhile_cons_of_pos hr]
          refine ih h' ?_
          have := List.length_pos_iff.2 (enc_ne_nil r)
          rw [List.length_append] at hf
          omega
        · rw [if_neg (fun x => hr x.2)]
          have : t.reverse.dropWhile isSpace = t.reverse := by
            cases ht : t.reverse with
            | nil => rfl
            | cons x u =>
              have et : t = u.reverse ++ [x] := by
                have := congrArg List.reverse ht
                simpa using this
              refine List.dropWhile_cons_of_neg fun hx => ?_
              obtain ⟨a, rfl, -⟩ := chars_last (et ▸ h) (isSpace_ne hx)
              rw [decodeLastRune_enc] at hd
              obtain ⟨rfl, -⟩ := Prod.mk.inj hd
              exact hr hx
          rw [this, List.reverse_reverse]
          exact h

/-- trimming the bytes is trimming the characters -/
theorem trimSpace_chars {s : ByteStr} {t : Str} (h : Chars s t) : Chars (trimSpace s) (Leaves.trimSpace t) :=
  trimRight_chars (trimLeft_chars h (Nat.le_refl _)).1 (Nat.le_refl _)

/-! ## Prefixes and equality -/

theorem utf8_cons (c : Char) (d : Str) : utf8 (c :: d) = enc c ++ utf8 d := rfl

theorem chars_utf8 (d : Str) : Chars (utf8 d) d := by
  induction d with
  | nil => exact .nil
  | cons c d ih => exact .char c ih

/-- characters that begin a text stand there in their encoding, unless one of them is the replacement character -/
theorem chars_of_prefix {s : ByteStr} {d t : Str} (h : Chars s (d ++ t)) (hd : runeError ∉ d) :
    ∃ w, s = utf8 d ++ w ∧ Chars w t := by
  induction d generalizing s with
  | nil => exact ⟨s, rfl, h⟩
  | cons c d ih =>
    rw [List.mem_cons, not_or] at hd
    cases s with
    | nil => cases chars_nil h
    | cons b s =>
      rcases start_cases b s with ⟨x, u, e⟩ | g
      · obtain ⟨t', ht, h'⟩ := chars_char (e ▸ h)
        obtain ⟨rfl, rfl⟩ := List.cons.inj ht
        obtain ⟨w, rfl, hw⟩ := ih h' hd.2
        exact ⟨w, by rw [e, utf8_cons, List.append_assoc], hw⟩
      · obtain ⟨t', ht, h'⟩ := chars_garbled g h
        exact absurd (List.cons.inj ht).1.symm hd.1

theorem chars_utf8_append {d : Str} {w : ByteStr} {t : Str} (h : Chars (utf8 d ++ w) t) : ∃ t', t = d ++ t' ∧ Chars w t' := by
  induction d generalizing t with
  | nil => exact ⟨t, rfl, h⟩
  | cons c d ih =>
    rw [utf8_cons, List.append_assoc] at h
    obtain ⟨t', rfl, h'⟩ := chars_char h
    obtain ⟨t'', rfl, h''⟩ := ih h'
    exact ⟨t'', rfl, h''⟩

theorem isPrefixOf_chars {s : ByteStr} {d t : Str} (h : Chars s t) (hd : runeError ∉ d) : (utf8 d).isPrefixOf s = d.isPrefixOf t := by
  rw [Bool.eq_iff_iff, List.isPrefixOf_iff_prefix, List.isPrefixOf_iff_prefix]
  constructor
  · rintro ⟨w, rfl⟩
    obtain ⟨t', rfl, -⟩ := chars_utf8_append h
    exact ⟨t', rfl⟩
  · rintro ⟨t', rfl⟩
    obtain ⟨w, rfl, -⟩ := chars_of_prefix h hd
    exact ⟨w, rfl⟩

theorem eq_utf8_iff {s : ByteStr} {d t : Str} (h : Chars s t) (hd : runeError ∉ d) : s = utf8 d ↔ t = d := by
  constructor
  · rintro rfl
    exact chars_unique h (chars_utf8 d)
  · rintro rfl
    obtain ⟨w, rfl, hw⟩ := chars_of_prefix (t := []) (by rwa [List.append_nil]) hd
    cases w with
    | nil => rw [List.append_nil]
    | cons b w =>
      rcases start_cases b w with ⟨x, u, e⟩ | g
      · obtain ⟨_, hx, -⟩ := chars_char (e ▸ hw)
        cases hx
      · obtain ⟨_, hx, -⟩ := chars_garbled g hw
        cases hx

theorem chars_eq_nil {s : ByteStr} {t : Str} (h : Chars s t) : s = [] ↔ t = [] := eq_utf8_iff (d := []) h (by simp)

/-! ## Splitting -/

/-- `Before a u s`: the bytes `a`, followed by `s`, hold the characters `u` -/
inductive Before (s : ByteStr) : ByteStr → Str → Prop
  | nil : Before s [] []
  | char (c : Char) {a u} : Before s a u → Before s (enc c ++ a) (c :: u)
  | garbled (b : UInt8) {a u} : Garbled (b :: (a ++ s)) → Before s a u → Before s (b :: a) (runeError :: u)

theorem Before.chars {s a : ByteStr} {u : Str} (h : Before s a u) : Chars a u := by
  induction h with
  | nil => exact .nil
  | char c _ ih => exact .char c ih
  | garbled b g _ ih => exact .garbled b (garbled_prefix g) ih

theorem Before.snoc_char {s a : ByteStr} {u : Str} {c : Char} (h : Before (enc c ++ s) a u) : Before s (a ++ enc c) (u ++ [c]) := by
  induction h with
  | nil =>
    have := Before.char (s := s) c .nil
    rwa [List.append_nil] at this
  | char d _ ih =>
    rw [List.append_assoc]
    exact .char d ih
  | garbled b g _ ih =>
    refine Before.garbled (a := _ ++ enc c) b ?_ ih
    rwa [List.append_assoc]

theorem Before.snoc_garbled {s a : ByteStr} {u : Str} {b : UInt8} (h : Before (b :: s) a u) (hb : Garbled (b :: s)) :
    Before s (a ++ [b]) (u ++ [runeError]) := by
  induction h with
  | nil => exact .garbled b hb .nil
  | char d _ ih =>
    rw [List.append_assoc]
    exact .char d ih
  | garbled x g _ ih =>
    refine Before.garbled (a := _ ++ [b]) x ?_ ih
    rw [List.append_assoc]
    exact g

theorem splitGo_skip (sep : ByteStr) (k : Nat) (cur s : ByteStr) : splitGo sep k cur s = splitGo sep 0 cur (s.drop k) := by
  induction k generalizing s with
  | zero => rfl
  | succ k ih =>
    cases s with
    | nil => simp [splitGo]
    | cons b s => rw [splitGo, ih]; rfl

theorem splitGo_skip' (sep : Str) (k : Nat) (cur s : Str) : Leaves.splitGo sep k cur s = Leaves.splitGo sep 0 cur (s.drop k) := by
  induction k generalizing s with
  | zero => rfl
  | succ k ih =>
    cases s with
    | nil => simp [Leaves.splitGo]
    | cons b s => rw [Leaves.splitGo, ih]; rfl

theorem utf8_ne_nil {d : Str} (h : d ≠ []) : utf8 d ≠ [] := by
  cases d with
  | nil => exact absurd rfl h
  | cons c d => rw [utf8_cons]; exact List.append_ne_nil_of_left_ne_nil (enc_ne_nil c) _

theorem utf8_head {d : Str} {b : UInt8} {w : ByteStr} (h : utf8 d = b :: w) : isCont b = false := by
  cases d with
  | nil => cases h
  | cons c d => exact atStart_enc c _ b w h

theorem splitGo_cont {d : Str} (hd : d ≠ []) {e s cur : ByteStr} (he : ∀ x ∈ e, isCont x = true) :
    splitGo (utf8 d) 0 cur (e ++ s) = splitGo (utf8 d) 0 (e.reverse ++ cur) s := by
  induction e generalizing cur with
  | nil => rfl
  | cons x e ih =>
    rw [List.cons_append, splitGo, if_neg, ih fun y hy => he y (List.mem_cons_of_mem _ hy)]
    · simp
    · intro h
      cases hu : utf8 d with
      | nil => exact utf8_ne_nil hd hu
      | cons b w =>
        rw [hu, List.isPrefixOf_cons_cons, Bool.and_eq_true, beq_iff_eq] at h
        have := utf8_head hu
        rw [h.1, he x List.mem_cons_self] at this
        cases this

theorem splitGo_chars {d : Str} (hd : d ≠ []) (hr : runeError ∉ d) {s cur : ByteStr} {t cc : Str} (h : Chars s t)
    (hc : Before s cur.reverse cc.reverse) :
    List.Forall₂ Chars (splitGo (utf8 d) 0 cur s) (Leaves.splitGo d 0 cc t) := by
  induction hn : s.length using Nat.strong_induction_on generalizing s cur t cc with
  | _ n ih =>
    cases s with
    | nil =>
      obtain rfl := chars_nil h
      exact .cons hc.chars .nil
    | cons b s =>
      have hp := isPrefixOf_chars h hr
      cases t with
      | nil => exact absurd ((chars_eq_nil h).2 rfl) (List.cons_ne_nil _ _)
      | cons x t =>
        rw [splitGo, Leaves.splitGo, hp]
        split
        · next hx =>
          obtain ⟨t', ht'⟩ := List.isPrefixOf_iff_prefix.1 hx
          obtain ⟨w, hw, hcw⟩ := chars_of_prefix (ht' ▸ h) hr
          refine .cons hc.chars ?_
          rw [splitGo_skip, splitGo_skip']
          have l1 : 0 < (utf8 d).length := List.length_pos_iff.2 (utf8_ne_nil hd)
          have l2 : 0 < d.length := List.length_pos_iff.2 hd
          have e1 : s.drop ((utf8 d).length - 1) = w := by
            have : (b :: s).drop ((utf8 d).length - 1 + 1) = w := by
              rw [Nat.sub_add_cancel l1, hw, List.drop_left]
            simpa using this
          have e2 : t.drop (d.length - 1) = t' := by
            have : (x :: t).drop (d.length - 1 + 1) = t' := by
              rw [Nat.sub_add_cancel l2, ← ht', List.drop_left]
            simpa using this
          rw [e1, e2]
          refine ih w.length ?_ hcw .nil rfl
          rw [← hn, hw, List.length_append]
          omega
        · rcases start_cases b s with ⟨c, u, e⟩ | g
          · obtain ⟨t', ht, h'⟩ := chars_char (e ▸ h)
            obtain ⟨rfl, rfl⟩ := List.cons.inj ht
            obtain ⟨y, z, hy, -, hz, -⟩ := enc_split x
            rw [hy, List.cons_append] at e
            obtain ⟨rfl, rfl⟩ := List.cons.inj e
            rw [splitGo_cont hd hz]
            refine ih u.length ?_ h' ?_ rfl
            · rw [← hn, List.length_cons, List.length_append]
              omega
            · have := Before.snoc_char (c := x) (s := u) (a := cur.reverse) (u := cc.reverse) (by rw [hy]; exact hc)
              rw [hy] at this
              simpa using this
          · obtain ⟨t', ht, h'⟩ := chars_garbled g h
            obtain ⟨rfl, rfl⟩ := List.cons.inj ht
            refine ih s.length ?_ h' ?_ rfl
            · rw [← hn, List.length_cons]
              omega
            · have := hc.snoc_garbled g
              simpa using this

theorem explode_skip {e s : ByteStr} {cur : ByteStr} (he : e ≠ []) :
    explode e.length cur (e ++ s) = (e.reverse ++ cur).reverse :: explode 0 [] s := by
  induction e generalizing cur with
  | nil => exact absurd rfl he
  | cons x e ih =>
    rw [List.cons_append, List.length_cons, explode]
    split
    · next h =>
      rw [List.length_eq_zero_iff] at h
      subst h
      simp
    · next h =>
      rw [ih (by rintro rfl; exact h rfl)]
      simp

theorem explode_chars {s : ByteStr} {t : Str} (h : Chars s t) :
    List.Forall₂ Chars (explode 0 [] s) (t.map fun c => [c]) := by
  induction h with
  | nil => exact .nil
  | @char c s t h ih =>
    rw [List.map_cons]
    obtain ⟨y, z, hy, -, -, -⟩ := enc_split c
    have hdec := decodeRune_enc c s
    have hx := chars_enc c
    rw [← enc, hy] at *
    rw [List.cons_append] at *
    rw [explode, hdec]
    dsimp only
    by_cases hz : z = []
    · subst hz
      rw [if_pos (by simp)]
      exact .cons hx ih
    · have : 0 < z.length := List.length_pos_iff.2 hz
      rw [if_neg (by rw [List.length_cons]; omega), List.length_cons, Nat.add_sub_cancel, explode_skip hz]
      refine .cons ?_ ih
      simpa using hx
  | @garbled b s t g h ih =>
    rw [List.map_cons, explode, decodeRune_garbled g]
    dsimp only
    rw [if_pos (Nat.le_refl _)]
    exact .cons (.garbled b (garbled_prefix (s := []) g) .nil) ih

/-- splitting the bytes is splitting the characters -/
theorem split_chars {d : Str} (hr : runeError ∉ d) {s : ByteStr} {t : Str} (h : Chars s t) :
    List.Forall₂ Chars (split s (utf8 d)) (Leaves.split t d) := by
  unfold split Leaves.split
  by_cases hd : d = []
  · subst hd
    exact explode_chars h
  · rw [if_neg (utf8_ne_nil hd), if_neg hd]
    exact splitGo_chars hd hr h .nil

/-! ## Numbers -/

theorem latin_cons (b : UInt8) (s : ByteStr) : latin (b :: s) = Char.ofNat b.toNat :: latin s := rfl

/-- Either all of it is ASCII and the characters are the bytes, or there is a character beyond ASCII and a byte beyond ASCII. -/
theorem ascii_cases {s : ByteStr} {t : Str} (h : Chars s t) :
    t = latin s ∨ ((∃ c ∈ t, 0x80 ≤ c.toNat) ∧ ∃ c ∈ latin s, 0x80 ≤ c.toNat) := by
  induction h with
  | nil => exact .inl rfl
  | @char c s t h ih =>
    rcases enc_shape c with ⟨b, h, h1, h2⟩ | hx
    · rw [← enc, h]
      have ec : Char.ofNat b.toNat = c := by rw [← h2, Char.ofNat_toNat]
      rw [List.cons_append, List.nil_append, latin_cons, ec]
      rcases ih with rfl | ⟨⟨x, hx, h3⟩, y, hy, h4⟩
      · exact .inl rfl
      · exact .inr ⟨⟨x, List.mem_cons_of_mem _ hx, h3⟩, y, List.mem_cons_of_mem _ hy, h4⟩
    · have : ∃ b0 z, enc c = b0 :: z ∧ 0xC2 ≤ b0.toNat ∧ 0x80 ≤ c.toNat := by
        rcases hx with ⟨b0, b1, h, h0, h1, h2, h3⟩ | ⟨b0, b1, b2, h, h0, h1, h2, h3, h4, h5, h6⟩ |
          ⟨b0, b1, b2, b3, h, h0, h1, h2, h3, h4, h5, h6, h7⟩
        · exact ⟨_, _, h, by omega, by omega⟩
        · rw [isCont_iff] at h2
          rw [low6_eq, low6_eq] at h6
          exact ⟨_, _, h, by omega, by omega⟩
        · rw [isCont_iff] at h2
          rw [low6_eq, low6_eq, low6_eq] at h7
          exact ⟨_, _, h, by omega, by omega⟩
      obtain ⟨b0, z, hz, h0, hc⟩ := this
      refine .inr ⟨⟨c, List.mem_cons_self, hc⟩, Char.ofNat b0.toNat, ?_, ?_⟩
      · rw [← enc, hz]
        exact List.mem_cons_self
      · rw [ofNat_toNat' (by have := b0.toNat_lt; omega)]
        omega
  | @garbled b s t g h ih =>
    refine .inr ⟨⟨_, List.mem_cons_self, by decide⟩, Char.ofNat b.toNat, List.mem_cons_self, ?_⟩
    rw [ofNat_toNat' (by have := b.toNat_lt; omega)]
    by_contra hb
    exact g (Char.ofNat b.toNat) s (by rw [← enc, enc_one (by omega)]; rfl)

theorem isDigit_lt {c : Char} (h : c.isDigit = true) : c.toNat < 0x80 := by
  rw [Char.isDigit, Bool.and_eq_true, decide_eq_true_eq, decide_eq_true_eq] at h
  have : c.toNat ≤ 57 := h.2
  omega

theorem parseDigits_none {s : Str} (h : ∃ c ∈ s, 0x80 ≤ c.toNat) : parseDigits s = none := by
  obtain ⟨c, hc, h⟩ := h
  unfold parseDigits
  refine if_pos (.inr ?_)
  cases hx : s.all Char.isDigit with
  | false => rfl
  | true =>
    rw [List.all_eq_true] at hx
    have := isDigit_lt (hx c hc)
    omega

theorem parseUint_none {bits : Nat} {s : Str} (h : ∃ c ∈ s, 0x80 ≤ c.toNat) : Leaves.parseUint bits s = none := by
  unfold Leaves.parseUint
  rw [parseDigits_none h]

theorem parseInt_none {bits : Nat} {s : Str} (h : ∃ c ∈ s, 0x80 ≤ c.toNat) : Leaves.parseInt bits s = none := by
  unfold Leaves.parseInt
  split
  · next ds =>
    obtain ⟨c, hc, h⟩ := h
    have : c ∈ ds := by
      rcases List.mem_cons.1 hc with rfl | hc
      · exact absurd h (by decide)
      · exact hc
    rw [parseDigits_none ⟨c, this, h⟩]
  · next ds =>
    obtain ⟨c, hc, h⟩ := h
    have : c ∈ ds := by
      rcases List.mem_cons.1 hc with rfl | hc
      · exact absurd h (by decide)
      · exact hc
    rw [parseDigits_none ⟨c, this, h⟩]
  · rw [parseDigits_none h]

/-- numerals are ASCII -/
def AsciiFloats (P : Platform) : Prop := ∀ s, (∃ c ∈ s, 0x80 ≤ c.toNat) → P.parseFloat s = none

theorem parseUint_chars {bits : Nat} {s : ByteStr} {t : Str} (h : Chars s t) : parseUint bits s = Leaves.parseUint bits t := by
  unfold parseUint
  rcases ascii_cases h with rfl | ⟨h1, h2⟩
  · rfl
  · rw [parseUint_none h1, parseUint_none h2]

theorem parseInt_chars {bits : Nat} {s : ByteStr} {t : Str} (h : Chars s t) : parseInt bits s = Leaves.parseInt bits t := by
  unfold parseInt
  rcases ascii_cases h with rfl | ⟨h1, h2⟩
  · rfl
  · rw [parseInt_none h1, parseInt_none h2]

theorem atoi_chars {s : ByteStr} {t : Str} (h : Chars s t) : atoi s = Leaves.atoi t := parseInt_chars h

theorem parseFloat_chars {P : Platform} (hP : AsciiFloats P) {s : ByteStr} {t : Str} (h : Chars s t) :
    parseFloat P s = P.parseFloat t := by
  unfold parseFloat
  rcases ascii_cases h with rfl | ⟨h1, h2⟩
  · rfl
  · rw [hP _ h1, hP _ h2]

end Leaves.Oct
