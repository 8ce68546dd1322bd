import Verif.Proofs.JsonText

/-! Lemmas about reading JSON text: numbers and values. -/

namespace Leaves
open Spec

namespace JsonText

/-! ### numbers -/

/-- what may follow a number: nothing that could belong to it -/
def Stops (rest : Str) : Prop := ∀ c, rest.head? = some c → c.isDigit = false ∧ c ≠ '.' ∧ c ≠ 'e' ∧ c ≠ 'E'

theorem digits1_complete {ds rest : Str} (hne : ds ≠ []) (hd : ∀ c ∈ ds, c.isDigit = true)
    (hr : ∀ c, rest.head? = some c → c.isDigit = false) : digits1 (ds ++ rest) = some (ds, rest) := by
  have h1 : (ds ++ rest).takeWhile Char.isDigit = ds := by
    rw [List.takeWhile_append_of_pos hd]
    cases rest with
    | nil => simp
    | cons c r => rw [List.takeWhile_cons, if_neg (by rw [hr c rfl]; simp), List.append_nil]
  have h2 : (ds ++ rest).dropWhile Char.isDigit = rest := by
    rw [List.dropWhile_append_of_pos hd]
    cases rest with
    | nil => rfl
    | cons c r => rw [List.dropWhile_cons, if_neg (by rw [hr c rfl]; simp)]
  unfold digits1
  rw [h1, h2, if_neg (by simp [hne])]

theorem digits1_sound {s ds rest : Str} (h : digits1 s = some (ds, rest)) : s = ds ++ rest ∧ ds ≠ [] ∧ ∀ c ∈ ds, c.isDigit = true := by
  unfold digits1 at h
  split at h
  · cases h
  rename_i h3
  simp only [List.isEmpty_iff] at h3
  cases h
  exact ⟨(List.takeWhile_append_dropWhile ..).symm, h3, fun c hc => List.all_eq_true.1 List.all_takeWhile c hc⟩

theorem isDigit_ne {c : Char} (h : c.isDigit = true) : c ≠ '.' ∧ c ≠ 'e' ∧ c ≠ 'E' ∧ c ≠ '+' ∧ c ≠ '-' ∧ c ≠ '"' ∧ c ≠ '[' ∧ c ≠ '{' ∧ c ≠ 't' ∧
    c ≠ 'f' ∧ c ≠ 'n' ∧ c ≠ ']' ∧ c ≠ '}' ∧ isWhite c = false := by
  refine ⟨?_, ?_, ?_, ?_, ?_, ?_, ?_, ?_, ?_, ?_, ?_, ?_, ?_, ?_⟩
  on_goal 14 =>
    rw [← Bool.not_eq_true, isWhite_iff]
    rintro (rfl | rfl | rfl | rfl) <;> revert h <;> decide
  all_goals
    rintro rfl
    revert h
    decide

theorem wholePart_complete {ds rest : Str} (hne : ds ≠ []) (hd : ∀ c ∈ ds, c.isDigit = true) (h0 : ds.head? = some '0' → ds = ['0'])
    (hr : ∀ c, rest.head? = some c → c.isDigit = false) : wholePart (ds ++ rest) = some (ds, rest) := by
  cases ds with
  | nil => exact absurd rfl hne
  | cons c ds =>
    by_cases hc : c = '0'
    · subst hc
      have := h0 rfl
      injection this with _ this
      subst this
      rfl
    · unfold wholePart
      split
      · rename_i e; injection e with e _; exact absurd e hc
      · exact digits1_complete hne hd hr

theorem wholePart_sound {s ds rest : Str} (h : wholePart s = some (ds, rest)) :
    s = ds ++ rest ∧ ds ≠ [] ∧ (∀ c ∈ ds, c.isDigit = true) ∧ (ds.head? = some '0' → ds = ['0']) := by
  unfold wholePart at h
  split at h
  · cases h
    exact ⟨rfl, by simp, by simp, fun _ => rfl⟩
  · rename_i hno
    obtain ⟨rfl, h1, h2⟩ := digits1_sound h
    refine ⟨rfl, h1, h2, fun h0 => ?_⟩
    cases ds with
    | nil => cases h0
    | cons c ds =>
      simp only [List.head?_cons, Option.some.injEq] at h0
      subst h0
      exact absurd rfl (hno (ds ++ rest))

/-- the point and the digits after it, as text -/
def pointText : Option Str → Str
  | none => []
  | some ds => '.' :: ds

/-- the exponent as text -/
def expText : Option (Char × Str × Str) → Str
  | none => []
  | some (c, s, ds) => c :: (s ++ ds)

theorem text_eq (w : DecNum) : w.text = w.sign ++ w.whole ++ pointText w.point ++ expText w.exp := by
  unfold DecNum.text
  congr 1

theorem fracPart_complete {p : Option Str} {rest : Str} (hp : ∀ ds, p = some ds → ds ≠ [] ∧ ∀ c ∈ ds, c.isDigit = true)
    (hr : ∀ c, rest.head? = some c → c.isDigit = false ∧ c ≠ '.') : fracPart (pointText p ++ rest) = some (pointText p, rest) := by
  cases p with
  | none =>
    unfold fracPart pointText
    simp only [List.nil_append]
    split
    · exact absurd rfl (hr _ rfl).2
    · rfl
  | some ds =>
    obtain ⟨h1, h2⟩ := hp ds rfl
    show fracPart ('.' :: (ds ++ rest)) = some ('.' :: ds, rest)
    simp only [fracPart, digits1_complete h1 h2 fun c hc => (hr c hc).1]
    rfl

theorem fracPart_sound {s f rest : Str} (h : fracPart s = some (f, rest)) :
    s = f ++ rest ∧ ∃ p, f = pointText p ∧ ∀ ds, p = some ds → ds ≠ [] ∧ ∀ c ∈ ds, c.isDigit = true := by
  unfold fracPart at h
  split at h
  · simp only [Option.bind_eq_bind, Option.bind_eq_some_iff, Option.pure_def, Option.some.injEq, Prod.mk.injEq] at h
    obtain ⟨⟨ds, r⟩, h, rfl, rfl⟩ := h
    obtain ⟨rfl, h1, h2⟩ := digits1_sound h
    exact ⟨rfl, some ds, rfl, by rintro _ ⟨⟩; exact ⟨h1, h2⟩⟩
  · cases h
    exact ⟨rfl, none, rfl, by rintro _ ⟨⟩⟩

theorem expSign_complete {s ds rest : Str} (hs : DecNum.IsSign s) (hne : ds ≠ []) (hd : ∀ c ∈ ds, c.isDigit = true) :
    expSign (s ++ ds ++ rest) = (s, ds ++ rest) := by
  rcases hs with rfl | rfl | rfl
  · cases ds with
    | nil => exact absurd rfl hne
    | cons c ds =>
      obtain ⟨-, -, -, h1, h2, -⟩ := isDigit_ne (hd c (by simp))
      unfold expSign
      simp only [List.nil_append, List.cons_append]
      split
      · rename_i e; injection e with e _; exact absurd e h1
      · rename_i e; injection e with e _; exact absurd e h2
      · rfl
  · rfl
  · rfl

theorem expSign_sound (s : Str) : s = (expSign s).1 ++ (expSign s).2 ∧ DecNum.IsSign (expSign s).1 := by
  unfold expSign
  split
  · exact ⟨rfl, .inr (.inl rfl)⟩
  · exact ⟨rfl, .inr (.inr rfl)⟩
  · exact ⟨rfl, .inl rfl⟩

theorem expPart_complete {e : Option (Char × Str × Str)} {rest : Str}
    (he : ∀ c s ds, e = some (c, s, ds) → (c = 'e' ∨ c = 'E') ∧ DecNum.IsSign s ∧ ds ≠ [] ∧ ∀ d ∈ ds, d.isDigit = true) (hr : Stops rest) :
    expPart (expText e ++ rest) = some (expText e, rest) := by
  cases e with
  | none =>
    cases rest with
    | nil => rfl
    | cons c r =>
      obtain ⟨-, -, h1, h2⟩ := hr c rfl
      show expPart (c :: r) = some ([], c :: r)
      unfold expPart
      simp only [Bool.or_eq_true, beq_iff_eq, h1, h2, or_self, if_false]
  | some x =>
    obtain ⟨c, s, ds⟩ := x
    obtain ⟨h1, h2, h3, h4⟩ := he c s ds rfl
    show expPart (c :: (s ++ ds ++ rest)) = some (c :: (s ++ ds), rest)
    rw [expPart, if_pos (by rcases h1 with rfl | rfl <;> rfl), expSign_complete h2 h3 h4]
    simp only [digits1_complete h3 h4 fun c hc => (hr c hc).1]
    rfl

theorem expPart_sound {s f rest : Str} (h : expPart s = some (f, rest)) :
    s = f ++ rest ∧ ∃ e, f = expText e ∧
      ∀ c s ds, e = some (c, s, ds) → (c = 'e' ∨ c = 'E') ∧ DecNum.IsSign s ∧ ds ≠ [] ∧ ∀ d ∈ ds, d.isDigit = true := by
  unfold expPart at h
  split at h
  · rename_i c s
    split at h
    · rename_i hc
      simp only [Option.bind_eq_bind, Option.bind_eq_some_iff, Option.pure_def, Option.some.injEq, Prod.mk.injEq] at h
      obtain ⟨⟨ds, r⟩, h, rfl, rfl⟩ := h
      obtain ⟨h0, h1, h2⟩ := digits1_sound h
      obtain ⟨h3, h4⟩ := expSign_sound s
      refine ⟨?_, some (c, (expSign s).1, ds), rfl, ?_⟩
      · conv_lhs => rw [h3, h0]
        simp
      · rintro _ _ _ ⟨⟩
        exact ⟨by simpa using hc, h4, h1, h2⟩
    · cases h
      exact ⟨rfl, none, rfl, by rintro _ _ _ ⟨⟩⟩
  · cases h
    exact ⟨rfl, none, rfl, by rintro _ _ _ ⟨⟩⟩

theorem minus_complete {s t : Str} (hs : s = [] ∨ s = ['-']) (ht : t.head? ≠ some '-') : minus (s ++ t) = (s, t) := by
  rcases hs with rfl | rfl
  · unfold minus
    simp only [List.nil_append]
    split
    · exact absurd rfl ht
    · rfl
  · rfl

theorem minus_sound (s : Str) : s = (minus s).1 ++ (minus s).2 ∧ ((minus s).1 = [] ∨ (minus s).1 = ['-']) := by
  unfold minus
  split
  · exact ⟨rfl, .inr rfl⟩
  · exact ⟨rfl, .inl rfl⟩

theorem head?_pointText {p : Option Str} {t : Str} {c : Char} (h : (pointText p ++ t).head? = some c) : c = '.' ∨ t.head? = some c := by
  cases p with
  | none => exact .inr h
  | some ds => simp only [pointText, List.cons_append, List.head?_cons, Option.some.injEq] at h; exact .inl h.symm

theorem head?_expText {e : Option (Char × Str × Str)} {t : Str} {c : Char} (h : (expText e ++ t).head? = some c)
    (he : ∀ c s ds, e = some (c, s, ds) → (c = 'e' ∨ c = 'E')) : c = 'e' ∨ c = 'E' ∨ t.head? = some c := by
  cases e with
  | none => exact .inr (.inr h)
  | some x =>
    obtain ⟨c', s, ds⟩ := x
    simp only [expText, List.cons_append, List.head?_cons, Option.some.injEq] at h
    subst h
    rcases he c' s ds rfl with h | h
    · exact .inl h
    · exact .inr (.inl h)

theorem jsonNumber_complete {w : DecNum} (hw : JsonNumeral w) {rest : Str} (hr : Stops rest) : jsonNumber (w.text ++ rest) = some (w.text, rest) := by
  obtain ⟨h1, ⟨h2, h3, h4⟩, h5, h6⟩ := hw
  have he : ∀ c, (expText w.exp ++ rest).head? = some c → c.isDigit = false ∧ c ≠ '.' := by
    intro c hc
    rcases head?_expText hc fun c s ds h => (h6 c s ds h).1 with rfl | rfl | h
    · decide
    · decide
    · exact ⟨(hr c h).1, (hr c h).2.1⟩
  have hp : ∀ c, (pointText w.point ++ (expText w.exp ++ rest)).head? = some c → c.isDigit = false := by
    intro c hc
    rcases head?_pointText hc with rfl | h
    · decide
    · exact (he c h).1
  have hm : minus (w.text ++ rest) = (w.sign, w.whole ++ (pointText w.point ++ (expText w.exp ++ rest))) := by
    rw [text_eq, List.append_assoc, List.append_assoc, List.append_assoc]
    refine minus_complete h1 ?_
    cases hwh : w.whole with
    | nil => exact absurd hwh h2
    | cons c ds =>
      simp only [List.cons_append, List.head?_cons, ne_eq, Option.some.injEq]
      exact (isDigit_ne (h3 c (by rw [hwh]; simp))).2.2.2.2.1
  unfold jsonNumber
  rw [hm]
  dsimp only
  rw [wholePart_complete h2 h3 h4 hp]
  simp only [Option.bind_eq_bind, Option.bind_some]
  rw [fracPart_complete h5 he]
  simp only [Option.bind_some]
  rw [expPart_complete h6 hr]
  simp only [Option.bind_some, Option.pure_def]
  rw [text_eq]

theorem jsonNumber_sound {s t rest : Str} (h : jsonNumber s = some (t, rest)) : s = t ++ rest ∧ ∃ w, JsonNumeral w ∧ t = w.text := by
  unfold jsonNumber at h
  simp only [Option.bind_eq_bind, Option.bind_eq_some_iff, Option.pure_def, Option.some.injEq, Prod.mk.injEq] at h
  obtain ⟨⟨w, r1⟩, hw, ⟨f, r2⟩, hf, ⟨e, r3⟩, he, rfl, rfl⟩ := h
  obtain ⟨h1, h2⟩ := minus_sound s
  obtain ⟨h3, h4⟩ := wholePart_sound hw
  obtain ⟨h5, p, rfl, h6⟩ := fracPart_sound hf
  obtain ⟨h7, x, rfl, h8⟩ := expPart_sound he
  dsimp only at *
  refine ⟨?_, ⟨(minus s).1, w, p, x⟩, ⟨h2, h4, h6, h8⟩, (text_eq ⟨(minus s).1, w, p, x⟩).symm⟩
  conv_lhs => rw [h1, h3, h5, h7]
  simp

theorem text_head {w : DecNum} (hw : JsonNumeral w) : ∃ c r, w.text = c :: r ∧ (c = '-' ∨ c.isDigit = true) := by
  obtain ⟨h1, ⟨h2, h3, -⟩, -, -⟩ := hw
  rw [text_eq]
  rcases h1 with h | h <;> rw [h]
  · cases hwh : w.whole with
    | nil => exact absurd hwh h2
    | cons c ds => exact ⟨c, _, rfl, .inr (h3 c (by rw [hwh]; simp))⟩
  · exact ⟨'-', _, rfl, .inl rfl⟩

/-! ### values -/

theorem skip_of_not {t : Str} (h : ∀ c, t.head? = some c → isWhite c = false) : skip t = t := by
  cases t with
  | nil => rfl
  | cons c t => exact skip_solid (h c rfl)

/-- a value starts with a character that is neither white nor closes anything -/
theorem written_head {v : Json} {t : Str} (h : v.Written t) : ∃ c r, t = c :: r ∧ isWhite c = false ∧ c ≠ ']' ∧ c ≠ '}' ∧ c ≠ ',' := by
  cases v with
  | null => rw [Json.Written] at h; exact ⟨'n', _, h, by decide⟩
  | bool b =>
    rw [Json.Written] at h
    cases b
    · exact ⟨'f', _, h, by decide⟩
    · exact ⟨'t', _, h, by decide⟩
  | num s =>
    rw [Json.Written] at h
    obtain ⟨rfl, w, hw, rfl⟩ := h
    obtain ⟨c, r, e, hc⟩ := text_head hw
    refine ⟨c, r, e, ?_⟩
    rcases hc with rfl | hc
    · decide
    · have h := isDigit_ne hc
      refine ⟨h.2.2.2.2.2.2.2.2.2.2.2.2.2, h.2.2.2.2.2.2.2.2.2.2.2.1, h.2.2.2.2.2.2.2.2.2.2.2.2.1, ?_⟩
      rintro rfl
      revert hc
      decide
  | str s => rw [Json.Written] at h; obtain ⟨u, rfl, -⟩ := h; exact ⟨'"', _, rfl, by decide⟩
  | arr items => rw [Json.Written] at h; obtain ⟨u, rfl, -⟩ := h; exact ⟨'[', _, rfl, by decide⟩
  | obj members => rw [Json.Written] at h; obtain ⟨u, rfl, -⟩ := h; exact ⟨'{', _, rfl, by decide⟩

theorem value_skip (n : Nat) (s : Str) : value n (skip s) = value n s := by
  cases n with
  | zero => rw [value, value]
  | succ n => rw [value, value, skip_skip]

theorem elements_skip (n : Nat) (s : Str) : elements n (skip s) = elements n s := by
  cases n with
  | zero => rw [elements, elements]
  | succ n => rw [elements, elements, value_skip]

theorem members_skip (n : Nat) (s : Str) : members n (skip s) = members n s := by
  cases n with
  | zero => rw [members, members]
  | succ n => rw [members, members, skip_skip]

theorem value_string {n : Nat} {s s' : Str} (h : skip s = '"' :: s') : value (n + 1) s = (jsonString s').map fun r => (.str r.1, r.2) := by
  rw [value, h]; rfl

theorem value_array_nil {n : Nat} {s s' r : Str} (h : skip s = '[' :: s') (h' : skip s' = ']' :: r) : value (n + 1) s = some (.arr .nil, r) := by
  rw [value, h]
  show (match skip s' with | ']' :: s => some (Json.arr .nil, s) | s => (elements n s).map fun (r : JsonArr × Str) => (Json.arr r.1, r.2)) = _
  rw [h']; rfl

theorem value_array {n : Nat} {s s' r : Str} {c : Char} (h : skip s = '[' :: s') (h' : skip s' = c :: r) (hc : c ≠ ']') :
    value (n + 1) s = (elements n s').map fun r => (.arr r.1, r.2) := by
  rw [value, h]
  show (match skip s' with | ']' :: s => some (Json.arr .nil, s) | s => (elements n s).map fun (r : JsonArr × Str) => (Json.arr r.1, r.2)) = _
  rw [← elements_skip, h']
  split
  · rename_i e; injection e with e _; exact absurd e hc
  · rfl

theorem value_object_nil {n : Nat} {s s' r : Str} (h : skip s = '{' :: s') (h' : skip s' = '}' :: r) : value (n + 1) s = some (.obj .nil, r) := by
  rw [value, h]
  show (match skip s' with | '}' :: s => some (Json.obj .nil, s) | s => (members n s).map fun (r : JsonObj × Str) => (Json.obj r.1, r.2)) = _
  rw [h']; rfl

theorem value_object {n : Nat} {s s' r : Str} {c : Char} (h : skip s = '{' :: s') (h' : skip s' = c :: r) (hc : c ≠ '}') :
    value (n + 1) s = (members n s').map fun r => (.obj r.1, r.2) := by
  rw [value, h]
  show (match skip s' with | '}' :: s => some (Json.obj .nil, s) | s => (members n s).map fun (r : JsonObj × Str) => (Json.obj r.1, r.2)) = _
  rw [← members_skip, h']
  split
  · rename_i e; injection e with e _; exact absurd e hc
  · rfl

theorem elements_next {n : Nat} {s s' r : Str} {v : Json} (h : value n s = some (v, s')) (h' : skip s' = ',' :: r) :
    elements (n + 1) s = (elements n r).map fun r => (.cons v r.1, r.2) := by
  rw [elements, h]
  dsimp only
  rw [h']; rfl

theorem elements_last {n : Nat} {s s' r : Str} {v : Json} (h : value n s = some (v, s')) (h' : skip s' = ']' :: r) :
    elements (n + 1) s = some (.cons v .nil, r) := by
  rw [elements, h]
  dsimp only
  rw [h']; rfl

theorem members_head {n : Nat} {s s1 s2 s3 s4 k : Str} {v : Json} (h1 : skip s = '"' :: s1) (h2 : jsonString s1 = some (k, s2))
    (h3 : skip s2 = ':' :: s3) (h4 : value n s3 = some (v, s4)) :
    members (n + 1) s = (match skip s4 with
      | ',' :: s => (members n s).map fun r => (.cons k v r.1, r.2)
      | '}' :: s => some (.cons k v .nil, s)
      | _ => none) := by
  rw [members, h1]
  show (match jsonString s1 with | none => none | some (k, s) => _) = _
  rw [h2]
  dsimp only
  rw [h3]
  show (match value n s3 with | none => none | some (v, s) => _) = _
  rw [h4]
  rfl

theorem members_next {n : Nat} {s s1 s2 s3 s4 k r : Str} {v : Json} (h1 : skip s = '"' :: s1) (h2 : jsonString s1 = some (k, s2))
    (h3 : skip s2 = ':' :: s3) (h4 : value n s3 = some (v, s4)) (h5 : skip s4 = ',' :: r) :
    members (n + 1) s = (members n r).map fun r => (.cons k v r.1, r.2) := by
  rw [members_head h1 h2 h3 h4, h5]; rfl

theorem members_last {n : Nat} {s s1 s2 s3 s4 k r : Str} {v : Json} (h1 : skip s = '"' :: s1) (h2 : jsonString s1 = some (k, s2))
    (h3 : skip s2 = ':' :: s3) (h4 : value n s3 = some (v, s4)) (h5 : skip s4 = '}' :: r) :
    members (n + 1) s = some (.cons k v .nil, r) := by
  rw [members_head h1 h2 h3 h4, h5]; rfl

/-- the condition on what follows a value -/
def Ends (v : Json) (rest : Str) : Prop := ∀ s, v = .num s → Stops rest

theorem stops_white {b t : Str} {c : Char} (hb : WhiteText b) (hc : c = ',' ∨ c = ']' ∨ c = '}') : Stops (b ++ c :: t) := by
  intro d hd
  cases b with
  | nil =>
    simp only [List.nil_append, List.head?_cons, Option.some.injEq] at hd
    subst hd
    rcases hc with rfl | rfl | rfl <;> decide
  | cons e b =>
    simp only [List.cons_append, List.head?_cons, Option.some.injEq] at hd
    subst hd
    rcases hb e (by simp) with rfl | rfl | rfl | rfl <;> decide

mutual
theorem value_complete : ∀ (v : Json) (t : Str), v.Written t → ∀ (n : Nat) (a rest : Str), WhiteText a → 2 * t.length ≤ n + 1 → Ends v rest →
    value n (a ++ (t ++ rest)) = some (v, rest)
  | .null, t, h, n, a, rest, ha, hn, _ => by
    rw [Json.Written] at h
    subst h
    cases n with
    | zero => simp at hn
    | succ n => rw [value, skip_append ha, skip_of_not (by simp; decide)]; rfl
  | .bool b, t, h, n, a, rest, ha, hn, _ => by
    rw [Json.Written] at h
    subst h
    cases n with
    | zero => cases b <;> simp at hn
    | succ n => rw [value, skip_append ha, skip_of_not (by cases b <;> simp <;> decide)]; cases b <;> rfl
  | .num s, t, h, n, a, rest, ha, hn, hr => by
    rw [Json.Written] at h
    obtain ⟨rfl, w, hw, rfl⟩ := h
    obtain ⟨c, r, e, hc⟩ := text_head hw
    cases n with
    | zero => rw [e] at hn; simp at hn; omega
    | succ n =>
      have hk := jsonNumber_complete hw (hr _ rfl)
      rw [e] at hk ⊢
      rw [List.cons_append] at hk ⊢
      have hne : isWhite c = false ∧ c ≠ '{' ∧ c ≠ '[' ∧ c ≠ '"' ∧ c ≠ 't' ∧ c ≠ 'f' ∧ c ≠ 'n' := by
        rcases hc with rfl | hc
        · decide
        · have h := isDigit_ne hc
          exact ⟨h.2.2.2.2.2.2.2.2.2.2.2.2.2, h.2.2.2.2.2.2.2.1, h.2.2.2.2.2.2.1, h.2.2.2.2.2.1, h.2.2.2.2.2.2.2.2.1, h.2.2.2.2.2.2.2.2.2.1,
            h.2.2.2.2.2.2.2.2.2.2.1⟩
      obtain ⟨h0, h1, h2, h3, h4, h5, h6⟩ := hne
      rw [value, skip_white ha h0]
      split
      · rename_i e; injection e with e _; exact absurd e h1
      · rename_i e; injection e with e _; exact absurd e h2
      · rename_i e; injection e with e _; exact absurd e h3
      · rename_i e; injection e with e _; exact absurd e h4
      · rename_i e; injection e with e _; exact absurd e h5
      · rename_i e; injection e with e _; exact absurd e h6
      · rw [hk]; rfl
  | .str s, t, h, n, a, rest, ha, hn, _ => by
    rw [Json.Written] at h
    obtain ⟨u, rfl, hu⟩ := h
    cases n with
    | zero => simp at hn; omega
    | succ n =>
      rw [List.cons_append, value_string (skip_white ha (by decide)), List.append_assoc, List.cons_append, List.nil_append,
        jsonString_complete hu]
      rfl
  | .arr items, t, h, n, a, rest, ha, hn, _ => by
    rw [Json.Written] at h
    obtain ⟨u, rfl, hu⟩ := h
    cases n with
    | zero => simp at hn; omega
    | succ n =>
      rw [List.cons_append, List.append_assoc, List.cons_append, List.nil_append]
      have hk := elements_complete items u hu n rest (by simp at hn; omega)
      cases items with
      | nil =>
        rw [JsonArr.Written] at hu
        exact value_array_nil (skip_white ha (by decide)) (skip_white hu (by decide))
      | cons x items =>
        have hk := hk (by simp)
        have hs : ∃ c r, skip (u ++ ']' :: rest) = c :: r ∧ c ≠ ']' := by
          rw [JsonArr.Written] at hu
          obtain ⟨a', u', b, ha', hx, -, hh⟩ := hu
          obtain ⟨c, r, e, hw, hc, -⟩ := written_head hx
          subst e
          rcases hh with ⟨-, rfl⟩ | ⟨-, r', rfl, -⟩
          · refine ⟨c, r ++ b ++ ']' :: rest, ?_, hc⟩
            rw [List.append_assoc, List.append_assoc, List.cons_append, skip_white ha' hw]
            simp
          · refine ⟨c, r ++ b ++ ',' :: r' ++ ']' :: rest, ?_, hc⟩
            rw [List.append_assoc, List.append_assoc, List.append_assoc, List.cons_append, skip_white ha' hw]
            simp
        obtain ⟨c, r, e, hc⟩ := hs
        rw [value_array (skip_white ha (by decide)) e hc, hk]
        rfl
  | .obj ms, t, h, n, a, rest, ha, hn, _ => by
    rw [Json.Written] at h
    obtain ⟨u, rfl, hu⟩ := h
    cases n with
    | zero => simp at hn; omega
    | succ n =>
      rw [List.cons_append, List.append_assoc, List.cons_append, List.nil_append]
      have hk := members_complete ms u hu n rest (by simp at hn; omega)
      cases ms with
      | nil =>
        rw [JsonObj.Written] at hu
        exact value_object_nil (skip_white ha (by decide)) (skip_white hu (by decide))
      | cons k x ms =>
        have hk := hk (by simp)
        have hs : ∃ r, skip (u ++ '}' :: rest) = '"' :: r := by
          rw [JsonObj.Written] at hu
          obtain ⟨a', ku, b, c, u', d, ha', -, -, -, -, -, hh⟩ := hu
          rcases hh with ⟨-, rfl⟩ | ⟨-, r', rfl, -⟩
          · rw [List.append_assoc, List.cons_append, skip_white ha' (by decide)]
            exact ⟨_, rfl⟩
          · rw [List.append_assoc, List.cons_append, skip_white ha' (by decide)]
            exact ⟨_, rfl⟩
        obtain ⟨r, e⟩ := hs
        rw [value_object (skip_white ha (by decide)) e (by decide), hk]
        rfl
theorem elements_complete : ∀ (items : JsonArr) (u : Str), items.Written u → ∀ (n : Nat) (rest : Str), 2 * u.length ≤ n → items ≠ .nil →
    elements n (u ++ ']' :: rest) = some (items, rest)
  | .nil, _, _, _, _, _, hne => absurd rfl hne
  | .cons x items, u, h, n, rest, hn, _ => by
    rw [JsonArr.Written] at h
    obtain ⟨a, t, b, ha, hx, hb, hh⟩ := h
    obtain ⟨c0, r0, e0, -⟩ := written_head hx
    have ht : 0 < t.length := by rw [e0]; simp
    rcases hh with ⟨rfl, rfl⟩ | ⟨hne, r, rfl, hr⟩
    · cases n with
      | zero => simp only [List.length_append] at hn; omega
      | succ n =>
        have hv := value_complete x t hx n a (b ++ ']' :: rest) ha (by simp at hn; omega) (fun _ _ => stops_white hb (by simp))
        rw [List.append_assoc, List.append_assoc]
        exact elements_last hv (skip_white hb (by decide))
    · cases n with
      | zero => simp at hn
      | succ n =>
        have hv := value_complete x t hx n a (b ++ ',' :: (r ++ ']' :: rest)) ha (by simp at hn; omega) (fun _ _ => stops_white hb (by simp))
        have hr := elements_complete items r hr n rest (by simp at hn; omega) hne
        rw [List.append_assoc, List.append_assoc, List.append_assoc, List.cons_append, elements_next hv (skip_white hb (by decide)), hr]
        rfl
theorem members_complete : ∀ (ms : JsonObj) (u : Str), ms.Written u → ∀ (n : Nat) (rest : Str), 2 * u.length ≤ n → ms ≠ .nil →
    members n (u ++ '}' :: rest) = some (ms, rest)
  | .nil, _, _, _, _, _, hne => absurd rfl hne
  | .cons k x ms, u, h, n, rest, hn, _ => by
    rw [JsonObj.Written] at h
    obtain ⟨a, ku, b, c, t, d, ha, hk, hb, hc, hx, hd, hh⟩ := h
    obtain ⟨c0, r0, e0, -⟩ := written_head hx
    have ht : 0 < t.length := by rw [e0]; simp
    rcases hh with ⟨rfl, rfl⟩ | ⟨hne, r, rfl, hr⟩
    · cases n with
      | zero => simp at hn
      | succ n =>
        have hv := value_complete x t hx n c (d ++ '}' :: rest) hc (by simp at hn; omega) (fun _ _ => stops_white hd (by simp))
        have e : a ++ '"' :: (ku ++ '"' :: (b ++ ':' :: (c ++ t ++ d))) ++ '}' :: rest =
            a ++ '"' :: (ku ++ '"' :: (b ++ ':' :: (c ++ (t ++ (d ++ '}' :: rest))))) := by simp
        rw [e]
        exact members_last (skip_white ha (by decide)) (jsonString_complete hk _) (skip_white hb (by decide)) hv (skip_white hd (by decide))
    · cases n with
      | zero => simp at hn
      | succ n =>
        have hv := value_complete x t hx n c (d ++ ',' :: (r ++ '}' :: rest)) hc (by simp at hn; omega) (fun _ _ => stops_white hd (by simp))
        have hr := members_complete ms r hr n rest (by simp at hn; omega) hne
        have e : a ++ '"' :: (ku ++ '"' :: (b ++ ':' :: (c ++ t ++ d ++ ',' :: r))) ++ '}' :: rest =
            a ++ '"' :: (ku ++ '"' :: (b ++ ':' :: (c ++ (t ++ (d ++ ',' :: (r ++ '}' :: rest)))))) := by simp
        rw [e, members_next (skip_white ha (by decide)) (jsonString_complete hk _) (skip_white hb (by decide)) hv (skip_white hd (by decide)), hr]
        rfl
end

theorem sound (n : Nat) : (∀ s v r, value n s = some (v, r) → BeginsWith s v r) ∧
    (∀ s items r, elements n s = some (items, r) → ∃ u, s = u ++ ']' :: r ∧ items ≠ .nil ∧ items.Written u) ∧
    (∀ s ms r, members n s = some (ms, r) → ∃ u, s = u ++ '}' :: r ∧ ms ≠ .nil ∧ ms.Written u) := by
  induction n with
  | zero =>
    refine ⟨fun s v r h => ?_, fun s v r h => ?_, fun s v r h => ?_⟩
    · rw [value] at h; cases h
    · rw [elements] at h; cases h
    · rw [members] at h; cases h
  | succ n ih =>
    obtain ⟨ihv, ihe, ihm⟩ := ih
    refine ⟨fun s v r h => ?_, fun s items r h => ?_, fun s ms r h => ?_⟩
    · rw [value] at h
      obtain ⟨a, ea, ha⟩ := skip_split s
      unfold BeginsWith
      split at h
      · rename_i s' e
        rw [e] at ea
        obtain ⟨b, eb, hb⟩ := skip_split s'
        split at h
        · rename_i s'' e'
          cases h
          rw [e'] at eb
          subst ea eb
          exact ⟨a, '{' :: (b ++ ['}']), by simp, ha, by rw [Json.Written]; exact ⟨b, rfl, by rw [JsonObj.Written]; exact hb⟩⟩
        · rename_i e'
          rw [members_skip, Option.map_eq_some_iff] at h
          obtain ⟨⟨ms, r'⟩, h, e2⟩ := h
          cases e2
          obtain ⟨u, rfl, -, hu⟩ := ihm _ _ _ h
          subst ea
          exact ⟨a, '{' :: (u ++ ['}']), by simp, ha, by rw [Json.Written]; exact ⟨u, rfl, hu⟩⟩
      · rename_i s' e
        rw [e] at ea
        obtain ⟨b, eb, hb⟩ := skip_split s'
        split at h
        · rename_i s'' e'
          cases h
          rw [e'] at eb
          subst ea eb
          exact ⟨a, '[' :: (b ++ [']']), by simp, ha, by rw [Json.Written]; exact ⟨b, rfl, by rw [JsonArr.Written]; exact hb⟩⟩
        · rename_i e'
          rw [elements_skip, Option.map_eq_some_iff] at h
          obtain ⟨⟨ms, r'⟩, h, e2⟩ := h
          cases e2
          obtain ⟨u, rfl, -, hu⟩ := ihe _ _ _ h
          subst ea
          exact ⟨a, '[' :: (u ++ [']']), by simp, ha, by rw [Json.Written]; exact ⟨u, rfl, hu⟩⟩
      · rename_i s' e
        rw [e] at ea
        rw [Option.map_eq_some_iff] at h
        obtain ⟨⟨k, r'⟩, h, e2⟩ := h
        cases e2
        obtain ⟨u, rfl, hu⟩ := jsonString_sound h
        subst ea
        exact ⟨a, '"' :: (u ++ ['"']), by simp, ha, by rw [Json.Written]; exact ⟨u, rfl, hu⟩⟩
      · rename_i s' e
        cases h
        rw [e] at ea
        exact ⟨a, "true".toList, by rw [ea]; simp, ha, by rw [Json.Written]; rfl⟩
      · rename_i s' e
        cases h
        rw [e] at ea
        exact ⟨a, "false".toList, by rw [ea]; simp, ha, by rw [Json.Written]; rfl⟩
      · rename_i s' e
        cases h
        rw [e] at ea
        exact ⟨a, "null".toList, by rw [ea]; simp, ha, by rw [Json.Written]⟩
      · rw [Option.map_eq_some_iff] at h
        obtain ⟨⟨k, r'⟩, h, e2⟩ := h
        cases e2
        obtain ⟨e1, hw⟩ := jsonNumber_sound h
        rw [e1] at ea
        exact ⟨a, k, by rw [ea]; simp, ha, by rw [Json.Written]; exact ⟨rfl, hw⟩⟩
    · rw [elements] at h
      split at h
      · cases h
      · rename_i v s1 hv
        obtain ⟨a, t, e1, ha, ht⟩ := ihv _ _ _ hv
        obtain ⟨b, eb, hb⟩ := skip_split s1
        split at h
        · rename_i s2 e2
          rw [Option.map_eq_some_iff] at h
          obtain ⟨⟨rest, r'⟩, h, e3⟩ := h
          cases e3
          obtain ⟨u, rfl, hne, hu⟩ := ihe _ _ _ h
          rw [e2] at eb
          subst e1 eb
          refine ⟨a ++ t ++ b ++ ',' :: u, by simp, by simp, ?_⟩
          rw [JsonArr.Written]
          exact ⟨a, t, b, ha, ht, hb, .inr ⟨hne, u, rfl, hu⟩⟩
        · rename_i s2 e2
          cases h
          rw [e2] at eb
          subst e1 eb
          refine ⟨a ++ t ++ b, by simp, by simp, ?_⟩
          rw [JsonArr.Written]
          exact ⟨a, t, b, ha, ht, hb, .inl ⟨rfl, rfl⟩⟩
        · cases h
    · rw [members] at h
      obtain ⟨a, ea, ha⟩ := skip_split s
      split at h
      · rename_i s1 e1
        rw [e1] at ea
        split at h
        · cases h
        · rename_i k s2 hk
          obtain ⟨ku, e2, hku⟩ := jsonString_sound hk
          obtain ⟨b, eb, hb⟩ := skip_split s2
          split at h
          · rename_i s3 e3
            rw [e3] at eb
            split at h
            · cases h
            · rename_i v s4 hv
              obtain ⟨c, t, e4, hc, ht⟩ := ihv _ _ _ hv
              obtain ⟨d, ed, hd⟩ := skip_split s4
              split at h
              · rename_i s5 e5
                rw [Option.map_eq_some_iff] at h
                obtain ⟨⟨rest, r'⟩, h, e6⟩ := h
                cases e6
                obtain ⟨u, rfl, hne, hu⟩ := ihm _ _ _ h
                rw [e5] at ed
                subst ea e2 eb e4 ed
                refine ⟨a ++ '"' :: (ku ++ '"' :: (b ++ ':' :: (c ++ t ++ d ++ ',' :: u))), by simp, by simp, ?_⟩
                rw [JsonObj.Written]
                exact ⟨a, ku, b, c, t, d, ha, hku, hb, hc, ht, hd, .inr ⟨hne, u, rfl, hu⟩⟩
              · rename_i s5 e5
                cases h
                rw [e5] at ed
                subst ea e2 eb e4 ed
                refine ⟨a ++ '"' :: (ku ++ '"' :: (b ++ ':' :: (c ++ t ++ d))), by simp, by simp, ?_⟩
                rw [JsonObj.Written]
                exact ⟨a, ku, b, c, t, d, ha, hku, hb, hc, ht, hd, .inl ⟨rfl, rfl⟩⟩
              · cases h
          · cases h
      · cases h

end JsonText

end Leaves
