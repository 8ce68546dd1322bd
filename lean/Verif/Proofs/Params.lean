import Verif.Spec.Params
import Verif.Proofs.Text
import Verif.Proofs.Convert

/-! # Parameter blocks: internals of C35 and C36 -/

namespace Leaves

open Spec

theorem isSpace_iff (c : Char) : isSpace c = true ↔ whiteSpace c := by
  have hc : ∀ d : Char, c = d ↔ c.toNat = d.toNat := by
    intro d
    constructor
    · rintro rfl; rfl
    · intro h; exact Char.ext (UInt32.toNat_inj.1 h)
  unfold isSpace whiteSpace
  simp only [List.mem_cons, List.not_mem_nil, or_false, hc]
  simp
  omega

theorem dropWhile_all {l : Str} (h : ∀ c ∈ l, whiteSpace c) : l.dropWhile isSpace = [] := by
  induction l with
  | nil => rfl
  | cons c l ih =>
    rw [List.dropWhile_cons_of_pos ((isSpace_iff c).2 (h c (by simp)))]
    exact ih fun d hd => h d (by simp [hd])

theorem dropWhile_front {a s : Str} (h : ∀ c ∈ a, whiteSpace c) (hs : ∀ c, s.head? = some c → ¬ whiteSpace c) :
    (a ++ s).dropWhile isSpace = s := by
  induction a with
  | nil =>
    cases s with
    | nil => rfl
    | cons c s =>
      have : isSpace c ≠ true := fun hh => hs c rfl ((isSpace_iff c).1 hh)
      rw [List.nil_append, List.dropWhile_cons_of_neg this]
  | cons c a ih =>
    rw [List.cons_append, List.dropWhile_cons_of_pos ((isSpace_iff c).2 (h c (by simp)))]
    exact ih fun d hd => h d (by simp [hd])

theorem trimSpace_of {line s : Str} (h : IsTrim line s) : trimSpace line = s := by
  obtain ⟨a, b, rfl, ha, hb, h1, h2⟩ := h
  unfold trimSpace
  cases s with
  | nil =>
    rw [List.append_nil, dropWhile_all (l := a ++ b)]
    · rfl
    · intro c hc; rcases List.mem_append.1 hc with h | h
      · exact ha c h
      · exact hb c h
  | cons c s =>
    rw [List.append_assoc, dropWhile_front ha (by simpa using h1), List.reverse_append,
      dropWhile_front (by simpa using hb) (by intro d hd; exact h2 d (by rwa [List.head?_reverse] at hd)), List.reverse_reverse]

theorem space_split (l : Str) : ∃ a s, l = a ++ s ∧ (∀ c ∈ a, whiteSpace c) ∧ (∀ c, s.head? = some c → ¬ whiteSpace c) := by
  induction l with
  | nil => exact ⟨[], [], rfl, by simp, by simp⟩
  | cons c l ih =>
    by_cases hc : whiteSpace c
    · obtain ⟨a, s, rfl, h1, h2⟩ := ih
      exact ⟨c :: a, s, rfl, by simpa [hc] using h1, h2⟩
    · exact ⟨[], c :: l, rfl, by simp, by simpa using hc⟩

theorem isTrim_exists (line : Str) : ∃ s, IsTrim line s := by
  obtain ⟨a, s, rfl, ha, hs⟩ := space_split line
  obtain ⟨b, u, hu, hb, h2⟩ := space_split s.reverse
  have e : s = u.reverse ++ b.reverse := by rw [← List.reverse_append, ← hu, List.reverse_reverse]
  refine ⟨u.reverse, a, b.reverse, by rw [e, List.append_assoc], ha, by simpa using hb, ?_, by simpa using h2⟩
  intro c hc
  apply hs c
  rw [e]
  cases hr : u.reverse with
  | nil => rw [hr] at hc; cases hc
  | cons d u' => rw [hr] at hc; simpa using hc

theorem isTrim_newline {l s : Str} (h : IsTrim l s) : IsTrim (l ++ ['\n']) s := by
  obtain ⟨a, b, rfl, ha, hb, h1, h2⟩ := h
  refine ⟨a, b ++ ['\n'], by simp, ha, ?_, h1, h2⟩
  intro c hc
  rcases List.mem_append.1 hc with h | h
  · exact hb c h
  · rw [List.mem_singleton.1 h]; simp [whiteSpace]

theorem splitLine_newline (l t : Str) (h : '\n' ∉ l) : splitLine (l ++ '\n' :: t) = (l ++ ['\n'], t, true) := by
  induction l with
  | nil => rfl
  | cons c l ih =>
    have hc : c ≠ '\n' := fun e => h (by simp [e])
    rw [List.cons_append, splitLine, if_neg hc, ih fun hh => h (by simp [hh])]
    rfl

theorem splitLine_end (l : Str) (h : '\n' ∉ l) : splitLine l = (l, [], false) := by
  induction l with
  | nil => rfl
  | cons c l ih =>
    have hc : c ≠ '\n' := fun e => h (by simp [e])
    rw [splitLine, if_neg hc, ih fun hh => h (by simp [hh])]

theorem line_cases (t : Str) : ('\n' ∉ t) ∨ ∃ l u, t = l ++ '\n' :: u ∧ '\n' ∉ l := by
  induction t with
  | nil => left; simp
  | cons c t ih =>
    by_cases hc : c = '\n'
    · right; exact ⟨[], t, by rw [hc]; rfl, by simp⟩
    · rcases ih with h | ⟨l, u, rfl, h⟩
      · left; simp [h, Ne.symm hc]
      · right; exact ⟨c :: l, u, rfl, by simp [h, Ne.symm hc]⟩

/-- every text starts with a block -/
theorem block_exists : ∀ (n : Nat) (t : Str), t.length < n → ∃ ss rest e, Block t ss rest e
  | 0, _, h => absurd h (by omega)
  | n + 1, t, h => by
    rcases line_cases t with h1 | ⟨l, u, rfl, h1⟩
    · obtain ⟨s, hs⟩ := isTrim_exists t
      by_cases he : s = []
      · exact ⟨_, _, _, .stop t h1 (he ▸ hs)⟩
      · exact ⟨_, _, _, .last h1 hs he⟩
    · obtain ⟨s, hs⟩ := isTrim_exists l
      by_cases he : s = []
      · exact ⟨_, _, _, .blank l u h1 (he ▸ hs)⟩
      · simp only [List.length_append, List.length_cons] at h
        obtain ⟨ss, rest, e, hb⟩ := block_exists n u (by omega)
        exact ⟨_, _, _, .line h1 hs he hb⟩

/-- a text cut at the occurrences of a character -/
theorem char_split (d : Char) (s : Str) : ∃ toks, toks ≠ [] ∧ (∀ t ∈ toks, d ∉ t) ∧ s = join [d] toks ∧
    s.count d + 1 = toks.length := by
  induction s with
  | nil => exact ⟨[[]], by simp, by simp, rfl, rfl⟩
  | cons c s ih =>
    obtain ⟨toks, h1, h2, h3, h4⟩ := ih
    by_cases hc : c = d
    · refine ⟨[] :: toks, by simp, by simpa using h2, ?_, by rw [hc]; simp [h4]⟩
      obtain ⟨t, ts, rfl⟩ := List.exists_cons_of_ne_nil h1
      rw [hc, h3]
      rfl
    · obtain ⟨t, ts, rfl⟩ := List.exists_cons_of_ne_nil h1
      refine ⟨(c :: t) :: ts, by simp, ?_, ?_, by rw [List.count_cons_of_ne hc]; exact h4⟩
      · intro u hu
        rcases List.mem_cons.1 hu with rfl | hu
        · have := h2 t (by simp)
          simp [this, Ne.symm hc]
        · exact h2 u (by simp [hu])
      · rw [h3]
        cases ts with
        | nil => rfl
        | cons u us => rfl

theorem split_char {d : Char} {toks : List Str} (h1 : toks ≠ []) (h2 : ∀ t ∈ toks, d ∉ t) : split (join [d] toks) [d] = toks := by
  refine split_join (by simp) h1 fun t ht c hc hcs => ?_
  have : c = d := by simpa using hcs
  exact h2 t ht (this ▸ hc)

theorem split_two (d : Char) (s a b : Str) : split s [d] = [a, b] ↔ s = a ++ d :: b ∧ d ∉ a ∧ d ∉ b := by
  constructor
  · intro h
    obtain ⟨toks, h1, h2, h3, -⟩ := char_split d s
    rw [h3, split_char h1 h2] at h
    subst h
    exact ⟨by simpa [join] using h3, h2 a (by simp), h2 b (by simp)⟩
  · rintro ⟨rfl, h1, h2⟩
    have := split_char (d := d) (toks := [a, b]) (by simp) (by simp [h1, h2])
    simpa [join] using this

theorem eq_split (s : Str) : ∃ toks, toks ≠ [] ∧ (∀ t ∈ toks, '=' ∉ t) ∧ s = join "=".toList toks ∧
    s.count '=' + 1 = toks.length := char_split '=' s

theorem split_eq {toks : List Str} (h1 : toks ≠ []) (h2 : ∀ t ∈ toks, '=' ∉ t) : split (join "=".toList toks) "=".toList = toks :=
  split_char h1 h2

theorem lineBinds_unique {s k v k' v' : Str} (h : LineBinds s k v) (h' : LineBinds s k' v') : k = k' ∧ v = v' := by
  have key : ∀ (k v k' v' : Str), '=' ∉ k → '=' ∉ k' → k ++ '=' :: v = k' ++ '=' :: v' → k = k' ∧ v = v' := by
    intro k v k' v' h1 h2 h
    induction k generalizing k' with
    | nil =>
      cases k' with
      | nil => simpa using h
      | cons c k' => simp at h; exact absurd (List.mem_cons.2 (.inl h.1)) h2
    | cons c k ih =>
      cases k' with
      | nil => simp at h; exact absurd (by simp [h.1]) h1
      | cons d k' =>
        simp only [List.cons_append, List.cons.injEq] at h
        obtain ⟨rfl, h⟩ := h
        obtain ⟨rfl, rfl⟩ := ih k' (fun hh => h1 (by simp [hh])) (fun hh => h2 (by simp [hh])) h
        exact ⟨rfl, rfl⟩
  rcases h with ⟨rfl, h1, -⟩ | ⟨h1, rfl, rfl⟩ <;> rcases h' with ⟨h2, h3, -⟩ | ⟨h2, rfl, rfl⟩
  · exact key _ _ _ _ h1 h3 h2
  · exact absurd (by simp) h2
  · rw [h2] at h1; exact absurd (by simp) h1
  · exact ⟨rfl, rfl⟩

/-- one line -/
theorem addLine_spec (p : Params) (s : Str) : (s.count '=' ≤ 1 ∧ ∃ k v, LineBinds s k v ∧ p.addLine s = .ok (p.set k v)) ∨
    (1 < s.count '=' ∧ ∃ e, p.addLine s = .err e) := by
  obtain ⟨toks, h1, h2, h3, h4⟩ := eq_split s
  unfold Params.addLine
  rw [h3, split_eq h1 h2, ← h3]
  match toks, h1, h2, h3, h4 with
  | [k], _, h2, h3, h4 =>
    refine .inl ⟨by simp at h4; omega, k, [], .inr ⟨?_, ?_, rfl⟩, rfl⟩
    · intro h; have := List.count_pos_iff.2 h; simp at h4; omega
    · simpa [join] using h3.symm
  | [k, v], _, h2, h3, h4 =>
    refine .inl ⟨by simp at h4; omega, k, v, .inl ⟨by simpa [join] using h3, h2 k (by simp), h2 v (by simp)⟩, rfl⟩
  | _ :: _ :: _ :: _, _, _, _, h4 =>
    refine .inr ⟨by simp at h4; omega, _, rfl⟩

theorem bound_snoc (lines : List Str) (s k v : Str) : Bound (lines ++ [s]) k v ↔
    LineBinds s k v ∨ ((∀ v', ¬ LineBinds s k v') ∧ Bound lines k v) := by
  constructor
  · rintro ⟨i, s', h1, h2, h3⟩
    by_cases hi : i < lines.length
    · right
      rw [List.getElem?_append_left hi] at h1
      refine ⟨fun v' hv => h3 lines.length s v' hi (by simp) hv, i, s', h1, h2, fun j s'' v' hj hs => ?_⟩
      refine h3 j s'' v' hj ?_
      have := (List.getElem?_eq_some_iff.1 hs).1
      rw [List.getElem?_append_left this]; exact hs
    · left
      rw [List.getElem?_append_right (by omega)] at h1
      have h0 : i - lines.length = 0 := by
        have := (List.getElem?_eq_some_iff.1 h1).1
        simp at this; omega
      rw [h0] at h1
      have : s = s' := by simpa using h1
      exact this ▸ h2
  · rintro (h | ⟨h, i, s', h1, h2, h3⟩)
    · refine ⟨lines.length, s, by simp, h, fun j s' v' hj hs => ?_⟩
      have := (List.getElem?_eq_some_iff.1 hs).1
      simp at this; omega
    · have hi := (List.getElem?_eq_some_iff.1 h1).1
      refine ⟨i, s', by rw [List.getElem?_append_left hi]; exact h1, h2, fun j s'' v' hj hs => ?_⟩
      by_cases hjl : j < lines.length
      · rw [List.getElem?_append_left hjl] at hs
        exact h3 j s'' v' hj hs
      · rw [List.getElem?_append_right (by omega)] at hs
        have h0 : j - lines.length = 0 := by
          have := (List.getElem?_eq_some_iff.1 hs).1
          simp at this; omega
        rw [h0] at hs
        have : s = s'' := by simpa using hs
        exact this ▸ h v'

/-- `p` holds the bindings of the lines -/
def Holds (p : Params) (lines : List Str) : Prop := ∀ k v, p k = some v ↔ Bound lines k v

theorem holds_empty : Holds Params.empty [] := by
  intro k v
  constructor
  · intro h; cases h
  · rintro ⟨i, s, h, -⟩; simp at h

theorem holds_set {p : Params} {lines : List Str} {s k v : Str} (h : Holds p lines) (hs : LineBinds s k v) :
    Holds (p.set k v) (lines ++ [s]) := by
  intro k' v'
  rw [bound_snoc]
  unfold Params.set
  by_cases hk : k' = k
  · subst hk
    rw [if_pos rfl]
    constructor
    · intro h; cases h; exact .inl hs
    · rintro (h | ⟨h, -⟩)
      · rw [(lineBinds_unique hs h).2]
      · exact absurd hs (h v)
  · rw [if_neg hk, h k' v']
    constructor
    · intro h; exact .inr ⟨fun v'' h2 => hk (lineBinds_unique h2 hs).1, h⟩
    · rintro (h | ⟨-, h⟩)
      · exact absurd (lineBinds_unique h hs).1 hk
      · exact h

theorem readString_newline {l t : Str} (h : '\n' ∉ l) (io : Bool) :
    Reader.readString ⟨l ++ '\n' :: t, io⟩ = (l ++ ['\n'], .none, ⟨t, io⟩) := by
  unfold Reader.readString
  rw [splitLine_newline l t h]
  rfl

theorem readString_end {l : Str} (h : '\n' ∉ l) (io : Bool) :
    Reader.readString ⟨l, io⟩ = (l, if io then .fail else .eof, ⟨[], io⟩) := by
  unfold Reader.readString
  rw [splitLine_end l h]
  cases io <;> rfl

/-- the loop over a block -/
theorem paramsLoop_block {t : Str} {ss : List Str} {rest : Str} {e : Bool} (hb : Block t ss rest e) (io : Bool) :
    ∀ (fuel : Nat) (p : Params) (line : Str) (lines : List Str), t.length < fuel → Holds p lines →
      (Readable (line :: ss) ∧ (e && io) = false ∧ ∃ p', paramsLoop fuel ⟨t, io⟩ line p = .ok (p', ⟨rest, io⟩) ∧
        Holds p' (lines ++ line :: ss)) ∨
      (¬ (Readable (line :: ss) ∧ (e && io) = false) ∧ ∃ e', paramsLoop fuel ⟨t, io⟩ line p = .err e') := by
  have hread : ∀ {s : Str}, s.count '=' ≤ 1 → Readable [s] := fun h u hu => by rw [List.mem_singleton.1 hu]; exact h
  induction hb with
  | blank l rest hn hl =>
    intro fuel p line lines hf hp
    obtain ⟨fuel, rfl⟩ : ∃ f, fuel = f + 1 := ⟨fuel - 1, by omega⟩
    rw [paramsLoop]
    rcases addLine_spec p line with ⟨h1, k, v, h2, h3⟩ | ⟨h1, e', h3⟩
    · left
      rw [h3, Res.ok_bind, readString_newline hn]
      simp only [trimSpace_of (isTrim_newline hl)]
      exact ⟨hread h1, rfl, _, rfl, holds_set hp h2⟩
    · right
      rw [h3]
      exact ⟨fun h => absurd (h.1 line (by simp)) (by omega), e', rfl⟩
  | stop l hn hl =>
    intro fuel p line lines hf hp
    obtain ⟨fuel, rfl⟩ : ∃ f, fuel = f + 1 := ⟨fuel - 1, by omega⟩
    rw [paramsLoop]
    rcases addLine_spec p line with ⟨h1, k, v, h2, h3⟩ | ⟨h1, e', h3⟩
    · rw [h3, Res.ok_bind, readString_end hn]
      cases io with
      | true => right; exact ⟨by simp, _, rfl⟩
      | false =>
        left
        simp only [trimSpace_of hl]
        exact ⟨hread h1, rfl, _, rfl, holds_set hp h2⟩
    · right
      rw [h3]
      exact ⟨fun h => absurd (h.1 line (by simp)) (by omega), e', rfl⟩
  | @line l s t rest ss e hn hl hs hb ih =>
    intro fuel p line lines hf hp
    obtain ⟨fuel, rfl⟩ : ∃ f, fuel = f + 1 := ⟨fuel - 1, by omega⟩
    rw [paramsLoop]
    simp only [List.length_append, List.length_cons] at hf
    rcases addLine_spec p line with ⟨h1, k, v, h2, h3⟩ | ⟨h1, e', h3⟩
    · rw [h3, Res.ok_bind, readString_newline hn]
      simp only [trimSpace_of (isTrim_newline hl), if_neg hs]
      have := ih fuel (p.set k v) s (lines ++ [line]) (by omega) (holds_set hp h2)
      rcases this with ⟨r1, r2, p', r3, r4⟩ | ⟨r1, e', r3⟩
      · left
        refine ⟨?_, r2, p', r3, by simpa using r4⟩
        intro u hu
        rcases List.mem_cons.1 hu with rfl | hu
        · exact h1
        · exact r1 u hu
      · right
        exact ⟨fun h => r1 ⟨fun u hu => h.1 u (List.mem_cons_of_mem _ hu), h.2⟩, e', r3⟩
    · right
      rw [h3]
      exact ⟨fun h => absurd (h.1 line (by simp)) (by omega), e', rfl⟩
  | @last l s hn hl hs =>
    intro fuel p line lines hf hp
    obtain ⟨fuel, rfl⟩ : ∃ f, fuel = f + 1 := ⟨fuel - 1, by omega⟩
    rw [paramsLoop]
    have hlen : 0 < l.length := by
      obtain ⟨a, b, rfl, -⟩ := hl
      have : 0 < s.length := List.length_pos_iff.2 hs
      simp; omega
    rcases addLine_spec p line with ⟨h1, k, v, h2, h3⟩ | ⟨h1, e', h3⟩
    · rw [h3, Res.ok_bind, readString_end hn]
      cases io with
      | true => right; exact ⟨by simp, _, rfl⟩
      | false =>
        simp only [trimSpace_of hl, if_neg hs, Bool.false_eq_true, if_false]
        obtain ⟨fuel, rfl⟩ : ∃ f, fuel = f + 1 := ⟨fuel - 1, by omega⟩
        rw [if_neg (by decide), paramsLoop]
        rcases addLine_spec (p.set k v) s with ⟨h4, k', v', h5, h6⟩ | ⟨h4, e', h6⟩
        · left
          rw [h6, Res.ok_bind]
          refine ⟨?_, rfl, _, rfl, ?_⟩
          · intro u hu
            rcases List.mem_cons.1 hu with rfl | hu
            · exact h1
            · rw [List.mem_singleton.1 hu]; exact h4
          · have := holds_set (holds_set hp h2) h5
            simpa using this
        · right
          rw [h6]
          exact ⟨fun h => absurd (h.1 s (by simp)) (by omega), e', rfl⟩
    · right
      rw [h3]
      exact ⟨fun h => absurd (h.1 line (by simp)) (by omega), e', rfl⟩

theorem skipEmpty_eq (r : Reader) (fuel : Nat) : skipEmpty (fuel + 1) r =
    (if r.readString.2.1 ≠ .none then .err "read error" else .ok (trimSpace r.readString.1, r.readString.2.2)) := by
  rw [skipEmpty]
  simp only
  split
  · rfl
  · rw [if_pos]
    intro h
    obtain ⟨s, hs⟩ := isTrim_exists r.readString.1
    have hs' := hs
    rw [trimSpace_of hs'] at h
    subst h
    obtain ⟨a, b, -, -, -, h1, -⟩ := hs
    exact h1 '\n' rfl (by simp [whiteSpace])

/-- Everything about `ReadParamsUntilBlank`, first line included. -/
theorem readParams_block {first s t rest : Str} {ss : List Str} {e : Bool} (io : Bool) (hn : '\n' ∉ first) (hl : IsTrim first s)
    (hb : Block t ss rest e) :
    (Readable (s :: ss) ∧ (e && io) = false ∧ ∃ p, readParamsUntilBlank ⟨first ++ '\n' :: t, io⟩ = .ok (p, ⟨rest, io⟩) ∧
      Holds p (s :: ss)) ∨
    (¬ (Readable (s :: ss) ∧ (e && io) = false) ∧ ∃ e', readParamsUntilBlank ⟨first ++ '\n' :: t, io⟩ = .err e') := by
  unfold readParamsUntilBlank
  rw [skipEmpty_eq, readString_newline hn]
  simp only [ne_eq, not_true, if_false, Res.ok_bind, trimSpace_of (isTrim_newline hl)]
  exact paramsLoop_block hb io (t.length + 1) Params.empty s [] (by omega) holds_empty

theorem readParams_no_newline {t : Str} (h : '\n' ∉ t) (io : Bool) : ∃ e, readParamsUntilBlank ⟨t, io⟩ = .err e := by
  unfold readParamsUntilBlank
  rw [skipEmpty_eq, readString_end h]
  refine ⟨"read error", ?_⟩
  cases io <;> rfl

end Leaves
