import Verif.Model.ByteText
import Verif.Proofs.BufioText
import Verif.Proofs.Utf8Text
import Verif.Proofs.Params
import Mathlib.Data.List.Forall2

/-! # The text readers on bytes do what they do on the characters that the bytes hold -/

namespace Leaves.Oct
open Spec
open Mat (utf8)

/-! ## Lines of a buffered reader (as in `Proofs/Bufio`) -/

theorem splitLine_rest_length (s : ByteStr) : (splitLine s).2.1.length ≤ s.length := by
  induction s with
  | nil => simp [splitLine]
  | cons c cs ih =>
    rw [splitLine]
    split
    · simp
    · exact ih.trans (Nat.le_succ _)

theorem splitLine_found {a l r : ByteStr} (h : splitLine a = (l, r, true)) (b : ByteStr) :
    splitLine (a ++ b) = (l, r ++ b, true) := by
  induction a generalizing l r with
  | nil => simp [splitLine] at h
  | cons c cs ih =>
    rw [splitLine] at h
    rw [List.cons_append, splitLine]
    by_cases hc : c = 10
    · rw [if_pos hc] at h ⊢
      simp only [Prod.mk.injEq] at h
      obtain ⟨rfl, rfl, _⟩ := h; rfl
    · rw [if_neg hc] at h ⊢
      rcases hs : splitLine cs with ⟨l', r', b'⟩
      rw [hs] at h
      simp only [Prod.mk.injEq] at h
      obtain ⟨rfl, rfl, rfl⟩ := h
      rw [ih hs]

theorem splitLine_none {a l r : ByteStr} (h : splitLine a = (l, r, false)) (b : ByteStr) :
    splitLine (a ++ b) = (a ++ (splitLine b).1, (splitLine b).2.1, (splitLine b).2.2) := by
  induction a generalizing l r with
  | nil => simp
  | cons c cs ih =>
    rw [splitLine] at h
    rw [List.cons_append, splitLine]
    by_cases hc : c = 10
    · rw [if_pos hc] at h; simp at h
    · rw [if_neg hc] at h ⊢
      rcases hs : splitLine cs with ⟨l', r', b'⟩
      rw [hs] at h
      simp only [Prod.mk.injEq] at h
      obtain ⟨rfl, rfl, rfl⟩ := h
      rw [ih hs]; rfl

/-- what `readSlice` may answer -/
inductive SliceResult (k : Nat) (rest : ByteStr) (fin : Fault) (cap : Nat) :
    Res (ByteStr × SliceEnd × Bufio UInt8) → Prop
  | found (line rest' : ByteStr) (b : Bufio UInt8) (h : splitLine rest = (line, rest', true))
      (hb : Represents k b rest' fin) : SliceResult k rest fin cap (.ok (line, .found, b))
  | fault (l r : ByteStr) (b : Bufio UInt8) (h : splitLine rest = (l, r, false))
      (hb : Represents k b [] fin) : SliceResult k rest fin cap (.ok (rest, .fault fin, b))
  | full (line rest' : ByteStr) (b : Bufio UInt8) (l r : ByteStr) (h : splitLine line = (l, r, false))
      (hr : line ++ rest' = rest) (hne : line ≠ []) (hb : Represents k b rest' fin) :
      SliceResult k rest fin cap (.ok (line, .full, b))

theorem readSlice_spec {k : Nat} {rest : ByteStr} {fin : Fault} :
    ∀ (fuel : Nat) (b : Bufio UInt8), Represents k b rest fin →
      b.cap - b.buf.length + (if b.err = none then 2 else 1) ≤ fuel →
      SliceResult k rest fin b.cap (readSlice fuel b)
  | 0, b, _, hf => by split at hf <;> omega
  | fuel + 1, b, h, hf => by
    rw [readSlice]
    rcases hs : splitLine b.buf with ⟨line, r, found⟩
    dsimp only
    cases found with
    | true =>
      simp only [if_true]
      refine .found line (r ++ b.feed.rest) _ ?_ ?_
      · rw [← h.content]; exact splitLine_found hs _
      · refine ⟨rfl, h.ending, h.pending, h.room, ?_, h.patient, h.few⟩
        have : r.length ≤ b.buf.length := by
          have := splitLine_rest_length b.buf
          rwa [hs] at this
        exact this.trans h.fits
    | false =>
      simp only [Bool.false_eq_true, if_false]
      rcases h.pending with he | ⟨he, hr⟩
      · rw [he]
        dsimp only
        by_cases hfull : b.cap ≤ b.buf.length
        · rw [if_pos hfull]
          refine .full b.buf b.feed.rest _ line r hs h.content ?_ ?_
          · intro hb; rw [hb] at hfull; have := h.room; simp at hfull; omega
          · exact ⟨rfl, h.ending, Or.inl rfl, h.room, Nat.zero_le _, h.patient, h.few⟩
        · rw [if_neg hfull]
          obtain ⟨j, hj, hl⟩ := h.patient 0
          obtain ⟨h1, h2, h3, h4⟩ := Bufio.fill_spec 100 b h he (by omega)
            ⟨j, by have := h.few; omega, by simpa using hl⟩
          have := readSlice_spec fuel (b.fill 100) h1 (by
            rw [h2]
            rw [if_pos he] at hf
            have := h1.fits
            rw [h2] at this
            rcases h3 with h3 | h3
            · split <;> omega
            · rw [if_neg h3]; omega)
          rwa [h2] at this
      · rw [he]
        dsimp only
        have hb : b.buf = rest := by rw [← h.content, hr, List.append_nil]
        rw [hb]
        refine .fault line r _ (by rw [← hb]; exact hs) ?_
        exact ⟨by simpa using hr, h.ending, Or.inl rfl, h.room, Nat.zero_le _, h.patient, h.few⟩

theorem readStringLoop_spec {k : Nat} {fin : Fault} :
    ∀ (fuel : Nat) (acc rest : ByteStr) (b : Bufio UInt8), Represents k b rest fin → rest.length < fuel →
      ∃ b', readStringLoop fuel acc b
          = .ok (acc ++ (splitLine rest).1, if (splitLine rest).2.2 then .none else fin.rdErr, b') ∧
        Represents k b' (splitLine rest).2.1 fin
  | 0, _, _, _, _, hf => absurd hf (Nat.not_lt_zero _)
  | fuel + 1, acc, rest, b, h, hf => by
    have hs := readSlice_spec (b.cap + 2) b h (by split <;> omega)
    rw [readStringLoop]
    generalize readSlice (b.cap + 2) b = x at hs ⊢
    cases hs with
    | found line rest' b' h1 hb =>
      refine ⟨b', ?_, ?_⟩
      · rw [h1]; rfl
      · rw [h1]; exact hb
    | fault l r b' h1 hb =>
      obtain ⟨rfl, rfl⟩ : l = rest ∧ r = [] := by
        have := splitLine_none h1 []
        simp [splitLine] at this
        rw [h1] at this
        simpa using this
      refine ⟨b', ?_, ?_⟩
      · rw [h1]; cases fin <;> rfl
      · rw [h1]; exact hb
    | full line rest' b' l r h1 hr hne hb =>
      have hpos : 0 < line.length := List.length_pos_iff.mpr hne
      obtain ⟨b2, h2, h3⟩ := readStringLoop_spec fuel (acc ++ line) rest' b' hb (by
        rw [← hr, List.length_append] at hf; omega)
      refine ⟨b2, ?_, ?_⟩
      · rw [Res.ok_bind]
        show readStringLoop fuel (acc ++ line) b' = _
        rw [h2, ← hr, splitLine_none h1]
        simp
      · rw [← hr, splitLine_none h1]; exact h3

theorem splitLine_append (s : ByteStr) : (splitLine s).1 ++ (splitLine s).2.1 = s := by
  induction s with
  | nil => rfl
  | cons c cs ih =>
    rw [splitLine]
    split
    · rfl
    · exact congrArg (c :: ·) ih

theorem splitLine_skip {e s : ByteStr} (he : (10 : UInt8) ∉ e) :
    splitLine (e ++ s) = (e ++ (splitLine s).1, (splitLine s).2.1, (splitLine s).2.2) := by
  induction e with
  | nil => rfl
  | cons x e ih =>
    rw [List.mem_cons, not_or] at he
    rw [List.cons_append, splitLine, if_neg (fun h => he.1 h.symm), ih he.2]
    rfl

theorem enc_newline : enc '\n' = [10] := by decide

theorem newline_enc {c : Char} (h : c ≠ '\n') : (10 : UInt8) ∉ enc c := by
  rcases enc_shape c with ⟨b, e, h1, h2⟩ | ⟨b0, b1, e, h0, h1, h2, h3⟩ | ⟨b0, b1, b2, e, h0, h1, h2, h3, h4, h5, h6⟩ |
    ⟨b0, b1, b2, b3, e, h0, h1, h2, h3, h4, h5, h6, h7⟩
  · rw [e, List.mem_singleton]
    rintro rfl
    exact h (char_eq h2)
  · rw [isCont_iff] at h2
    rw [e]
    simp only [List.mem_cons, List.not_mem_nil, or_false, not_or]
    exact ⟨fun x => by rw [← x] at h0; revert h0; decide, fun x => by rw [← x] at h2; revert h2; decide⟩
  · rw [isCont_iff] at h2 h3
    rw [e]
    simp only [List.mem_cons, List.not_mem_nil, or_false, not_or]
    exact ⟨fun x => by rw [← x] at h0; revert h0; decide, fun x => by rw [← x] at h2; revert h2; decide,
      fun x => by rw [← x] at h3; revert h3; decide⟩
  · rw [isCont_iff] at h2 h3 h4
    rw [e]
    simp only [List.mem_cons, List.not_mem_nil, or_false, not_or]
    exact ⟨fun x => by rw [← x] at h0; revert h0; decide, fun x => by rw [← x] at h2; revert h2; decide,
      fun x => by rw [← x] at h3; revert h3; decide, fun x => by rw [← x] at h4; revert h4; decide⟩

/-- the first line of the bytes holds the first line of the characters -/
theorem splitLine_chars {s : ByteStr} {t : Str} (h : Chars s t) :
    Chars (splitLine s).1 (Leaves.splitLine t).1 ∧ Chars (splitLine s).2.1 (Leaves.splitLine t).2.1 ∧
      (splitLine s).2.2 = (Leaves.splitLine t).2.2 := by
  induction h with
  | nil => exact ⟨.nil, .nil, rfl⟩
  | @char c s t h ih =>
    by_cases hc : c = '\n'
    · subst hc
      rw [← enc, enc_newline]
      refine ⟨?_, h, rfl⟩
      have := chars_enc '\n'
      rwa [enc_newline] at this
    · rw [← enc, splitLine_skip (newline_enc hc), Leaves.splitLine, if_neg hc]
      exact ⟨.char c ih.1, ih.2.1, ih.2.2⟩
  | @garbled b s t g h ih =>
    have hb : b ≠ 10 := by
      rintro rfl
      exact g '\n' s (by rw [← enc, enc_newline]; rfl)
    rw [splitLine, if_neg hb, Leaves.splitLine, if_neg (by decide)]
    refine ⟨.garbled b ?_ ih.1, ih.2.1, ih.2.2⟩
    rw [← splitLine_append s] at g
    exact garbled_prefix g

/-- a buffered reader of bytes and a reader of the characters they hold -/
def ReadsBytes (k : Nat) (b : Bufio UInt8) (r : Reader) : Prop :=
  ∃ bs, Represents k b bs (if r.ioErr then .fail else .eof) ∧ Chars bs r.rest

theorem ReadsBytes.readString {k : Nat} {b : Bufio UInt8} {r : Reader} (h : ReadsBytes k b r) :
    ∃ line b', readString b = .ok (line, r.readString.2.1, b') ∧ Chars line r.readString.1 ∧ ReadsBytes k b' r.readString.2.2 ∧
      r.readString.2.2.rest = (Leaves.splitLine r.rest).2.1 ∧ b'.size + line.length = b.size := by
  obtain ⟨bs, h1, h2⟩ := h
  obtain ⟨b', h3, h4⟩ := readStringLoop_spec (b.size + 1) [] bs b h1 (by rw [h1.size_eq]; omega)
  obtain ⟨h5, h6, h7⟩ := splitLine_chars h2
  refine ⟨(splitLine bs).1, b', ?_, h5, ⟨_, h4, h6⟩, rfl, ?_⟩
  · rw [Oct.readString, h3]
    simp only [Reader.readString, List.nil_append]
    rw [h7]
    cases r.ioErr <;> rfl
  · rw [h1.size_eq, h4.size_eq, Nat.add_comm, ← List.length_append, splitLine_append]

/-- the first field of `readString` is empty only at the end -/
theorem splitLine_progress {t : Str} (h : t ≠ []) : (Leaves.splitLine t).2.1.length < t.length := by
  cases t with
  | nil => exact absurd rfl h
  | cons c cs =>
    rw [Leaves.splitLine]
    split
    · exact Nat.lt_succ_self _
    · exact Nat.lt_succ_of_le (Leaves.splitLine_rest_length cs)

/-! ## Parameters -/

/-- what the two programs may answer: the same, with values and readers that correspond -/
inductive Tracks {β γ σ τ : Type} (V : β → γ → Prop) (R : σ → τ → Prop) : Res (β × σ) → Res (γ × τ) → Prop
  | ok {a : β} {a' : γ} {s : σ} {t : τ} (hv : V a a') (h : R s t) : Tracks V R (.ok (a, s)) (.ok (a', t))
  | err (e : String) : Tracks V R (.err e) (.err e)
  | panic : Tracks V R .panic .panic
  | hang : Tracks V R .hang .hang

theorem Tracks.bind {β γ δ ε σ τ : Type} {V : β → γ → Prop} {W : δ → ε → Prop} {R : σ → τ → Prop} {x : Res (β × σ)}
    {y : Res (γ × τ)} (h : Tracks V R x y) {f : β × σ → Res (δ × σ)} {g : γ × τ → Res (ε × τ)}
    (hf : ∀ a a' s t, V a a' → R s t → Tracks W R (f (a, s)) (g (a', t))) : Tracks W R (x >>= f) (y >>= g) := by
  cases h with
  | ok hv h => exact hf _ _ _ _ hv h
  | err e => exact .err e
  | panic => exact .panic
  | hang => exact .hang

theorem Tracks.bind_same {β δ ε σ τ : Type} {W : δ → ε → Prop} {R : σ → τ → Prop} (x : Res β)
    {f : β → Res (δ × σ)} {g : β → Res (ε × τ)} (hf : ∀ a, Tracks W R (f a) (g a)) : Tracks W R (x >>= f) (x >>= g) := by
  cases x with
  | ok a => exact hf a
  | err e => exact .err e
  | panic => exact .panic
  | hang => exact .hang

theorem Tracks.value {β σ τ : Type} {R : σ → τ → Prop} {x : Res (β × σ)} {y : Res (β × τ)} (h : Tracks (· = ·) R x y) :
    (do let (a, _) ← x; return a) = (do let (a, _) ← y; return a) := by
  cases h with
  | ok hv _ => subst hv; rfl
  | _ => rfl

/-- the maps give ASCII keys the same values -/
def SameParams (p : Params) (q : Leaves.Params) : Prop := ∀ key, runeError ∉ key → Option.Rel Chars (p (utf8 key)) (q key)

theorem SameParams.empty : SameParams Params.empty Leaves.Params.empty := fun _ _ => .none

theorem SameParams.set {p : Params} {q : Leaves.Params} (h : SameParams p q) {k v : ByteStr} {k' v' : Str} (hk : Chars k k')
    (hv : Chars v v') : SameParams (p.set k v) (q.set k' v') := by
  intro key hkey
  have := eq_utf8_iff hk hkey
  unfold Params.set Leaves.Params.set
  by_cases hx : key = k'
  · rw [if_pos (this.2 hx.symm).symm, if_pos hx]
    exact .some hv
  · rw [if_neg (fun e => hx (this.1 e.symm).symm), if_neg hx]
    exact h key hkey

theorem lit_eq {s : String} (h : ∀ c ∈ s.toList, c.toNat < 0x80) : lit s = utf8 s.toList := by
  unfold lit utf8
  generalize s.toList = l at *
  induction l with
  | nil => rfl
  | cons c l ih =>
    rw [List.map_cons, List.flatMap_cons, ih fun x hx => h x (List.mem_cons_of_mem _ hx)]
    have : enc c = [UInt8.ofNat c.toNat] := by
      rw [enc_eq, if_pos (by have := h c List.mem_cons_self; omega)]
    rw [← enc, this]
    rfl

theorem plain_error {s : String} (h : ∀ c ∈ s.toList, c.toNat < 0x80) : runeError ∉ s.toList := fun hx =>
  absurd (h _ hx) (by decide)

/-- the outcomes of adding a line -/
theorem addLine_same {p : Params} {q : Leaves.Params} (h : SameParams p q) {l : ByteStr} {l' : Str} (hl : Chars l l') :
    (∃ p' q', p.addLine l = .ok p' ∧ q.addLine l' = .ok q' ∧ SameParams p' q') ∨
      (∃ e, p.addLine l = .err e ∧ q.addLine l' = .err e) := by
  have hs := split_chars (d := "=".toList) (plain_error (by decide)) hl
  rw [← lit_eq (by decide)] at hs
  unfold Params.addLine Leaves.Params.addLine
  generalize split l (lit "=") = x at hs
  generalize Leaves.split l' "=".toList = y at hs
  cases hs with
  | nil => exact .inl ⟨_, _, rfl, rfl, h⟩
  | cons h1 hs =>
    cases hs with
    | nil => exact .inl ⟨_, _, rfl, rfl, h.set h1 .nil⟩
    | cons h2 hs =>
      cases hs with
      | nil => exact .inl ⟨_, _, rfl, rfl, h.set h1 h2⟩
      | cons h3 hs => exact .inr ⟨_, rfl, rfl⟩

theorem skipEmpty_tracks {k : Nat} {n m : Nat} {b : Bufio UInt8} {r : Reader} (h : ReadsBytes k b r) :
    Tracks Chars (ReadsBytes k) (skipEmpty (n + 1) b) (Leaves.skipEmpty (m + 1) r) := by
  obtain ⟨line, b', h1, h2, h3, -, -⟩ := h.readString
  rw [skipEmpty, Leaves.skipEmpty, h1, Res.ok_bind]
  generalize r.readString = x at h1 h2 h3 ⊢
  obtain ⟨line', e, r'⟩ := x
  dsimp only at h2 h3 ⊢
  by_cases he : e ≠ .none
  · rw [if_pos he, if_pos he]
    exact .err _
  · rw [if_neg he, if_neg he]
    have ht := trimSpace_chars h2
    have hne : Leaves.trimSpace line' ≠ "\n".toList := by
      intro e
      obtain ⟨s, hs⟩ := isTrim_exists line'
      rw [trimSpace_of hs] at e
      subst e
      obtain ⟨a, b, -, -, -, h1, -⟩ := hs
      exact h1 '\n' rfl (by simp [whiteSpace])
    rw [if_pos hne, if_pos]
    · exact .ok ht h3
    · rw [lit_eq (by decide)]
      exact fun e => hne ((eq_utf8_iff ht (plain_error (by decide))).1 e)

theorem paramsLoop_tracks {k : Nat} : ∀ (n m : Nat) (b : Bufio UInt8) (r : Reader) (line : ByteStr) (line' : Str) (p : Params)
    (q : Leaves.Params), ReadsBytes k b r → Chars line line' → SameParams p q → b.size < n → r.rest.length < m →
    Tracks SameParams (ReadsBytes k) (paramsLoop n b line p) (Leaves.paramsLoop m r line' q)
  | 0, _, _, _, _, _, _, _, _, _, _, hn, _ => absurd hn (Nat.not_lt_zero _)
  | _ + 1, 0, _, _, _, _, _, _, _, _, _, _, hm => absurd hm (Nat.not_lt_zero _)
  | n + 1, m + 1, b, r, line, line', p, q, h, hl, hp, hn, hm => by
    obtain ⟨l, b', h1, h2, h3, h4, h5⟩ := h.readString
    rw [paramsLoop, Leaves.paramsLoop]
    rcases addLine_same hp hl with ⟨p', q', e1, e2, hp'⟩ | ⟨e, e1, e2⟩
    · rw [e1, e2, Res.ok_bind, Res.ok_bind, h1, Res.ok_bind]
      have hx : r.readString.2.2.rest.length < m ∨ r.readString.1 = [] := by
        rw [h4]
        by_cases hr : r.rest = []
        · right
          show (Leaves.splitLine r.rest).1 = []
          rw [hr]; rfl
        · left
          have := splitLine_progress hr
          omega
      generalize r.readString = x at h1 h2 h3 hx ⊢
      obtain ⟨l', e, r'⟩ := x
      dsimp only at h2 h3 hx ⊢
      by_cases he : e = .fail
      · rw [if_pos he, if_pos he]
        exact .err _
      · rw [if_neg he, if_neg he]
        have ht := trimSpace_chars h2
        by_cases hz : Leaves.trimSpace l' = []
        · rw [if_pos hz, if_pos ((chars_eq_nil ht).2 hz)]
          exact .ok hp' h3
        · rw [if_neg hz, if_neg fun e => hz ((chars_eq_nil ht).1 e)]
          have hl' : l' ≠ [] := by rintro rfl; exact hz rfl
          have : l ≠ [] := fun e => hl' ((chars_eq_nil h2).1 e)
          have := List.length_pos_iff.2 this
          exact paramsLoop_tracks n m b' r' _ _ _ _ h3 ht hp' (by omega) (hx.resolve_right hl')
    · rw [e1, e2]
      exact .err e

theorem readParams_tracks {k : Nat} {b : Bufio UInt8} {r : Reader} (h : ReadsBytes k b r) :
    Tracks SameParams (ReadsBytes k) (readParamsUntilBlank b) (Leaves.readParamsUntilBlank r) := by
  rw [readParamsUntilBlank, Leaves.readParamsUntilBlank]
  refine (skipEmpty_tracks h).bind fun l l' s t hl hst => ?_
  exact paramsLoop_tracks _ _ _ _ _ _ _ _ hst hl .empty (Nat.lt_succ_self _) (Nat.lt_succ_self _)

section
variable {p : Params} {q : Leaves.Params} (h : SameParams p q) {key : String} (hk : ∀ c ∈ key.toList, c.toNat < 0x80)
include h hk

theorem SameParams.lookup : (p (lit key) = none ∧ q key.toList = none) ∨ ∃ v w, p (lit key) = some v ∧ q key.toList = some w ∧ Chars v w := by
  have := h key.toList (plain_error hk)
  rw [← lit_eq hk] at this
  generalize p (lit key) = x at *
  generalize q key.toList = y at *
  cases this with
  | none => exact .inl ⟨rfl, rfl⟩
  | some hv => exact .inr ⟨_, _, rfl, rfl, hv⟩

theorem SameParams.toInt : p.toInt key = q.toInt key.toList := by
  unfold Params.toInt Leaves.Params.toInt
  rcases h.lookup hk with ⟨h1, h2⟩ | ⟨v, w, h1, h2, hv⟩
  · rw [h1, h2]
  · rw [h1, h2]
    dsimp only
    rw [atoi_chars hv]

theorem SameParams.contains : p.contains key = q.contains key.toList := by
  unfold Params.contains Leaves.Params.contains
  rcases h.lookup hk with ⟨h1, h2⟩ | ⟨v, w, h1, h2, hv⟩
  · rw [h1, h2]; rfl
  · rw [h1, h2]; rfl

theorem SameParams.compare {rhs : String} (hr : ∀ c ∈ rhs.toList, c.toNat < 0x80) : p.compare key rhs = q.compare key.toList rhs.toList := by
  unfold Params.compare Leaves.Params.compare
  rcases h.lookup hk with ⟨h1, h2⟩ | ⟨v, w, h1, h2, hv⟩
  · rw [h1, h2]
  · rw [h1, h2]
    dsimp only
    rw [lit_eq hr]
    by_cases hx : w = rhs.toList
    · rw [if_neg (not_not.2 hx), if_neg (not_not.2 ((eq_utf8_iff hv (plain_error hr)).2 hx))]
    · rw [if_pos hx, if_pos fun e => hx ((eq_utf8_iff hv (plain_error hr)).1 e)]

omit h hk in
theorem split_space {v : ByteStr} {w : Str} (hv : Chars v w) : List.Forall₂ Chars (split v (lit " ")) (Leaves.split w " ".toList) := by
  rw [lit_eq (by decide)]
  exact split_chars (plain_error (by decide)) hv

end

theorem convertAll_chars {α : Type} {f : ByteStr → Option α} {g : Str → Option α} (hfg : ∀ s t, Chars s t → f s = g t) {ss : List ByteStr}
    {ts : List Str} (h : List.Forall₂ Chars ss ts) : Params.convertAll f ss = Leaves.Params.convertAll g ts := by
  induction h with
  | nil => rfl
  | cons h _ ih => rw [Params.convertAll, Leaves.Params.convertAll, hfg _ _ h, ih]

section
variable {p : Params} {q : Leaves.Params} (h : SameParams p q) {key : String} (hk : ∀ c ∈ key.toList, c.toNat < 0x80)
include h hk

theorem SameParams.toFloat64Slice {P : Platform} (hP : AsciiFloats P) : p.toFloat64Slice P key = q.toFloat64Slice P key.toList := by
  unfold Params.toFloat64Slice Leaves.Params.toFloat64Slice
  rcases h.lookup hk with ⟨h1, h2⟩ | ⟨v, w, h1, h2, hv⟩
  · rw [h1, h2]
  · rw [h1, h2]
    exact convertAll_chars (fun s t => parseFloat_chars hP) (split_space hv)

theorem SameParams.toUint32Slice : p.toUint32Slice key = q.toUint32Slice key.toList := by
  unfold Params.toUint32Slice Leaves.Params.toUint32Slice
  rcases h.lookup hk with ⟨h1, h2⟩ | ⟨v, w, h1, h2, hv⟩
  · rw [h1, h2]
  · rw [h1, h2]
    exact convertAll_chars (fun s t => parseUint_chars) (split_space hv)

theorem SameParams.toInt32Slice : p.toInt32Slice key = q.toInt32Slice key.toList := by
  unfold Params.toInt32Slice Leaves.Params.toInt32Slice
  rcases h.lookup hk with ⟨h1, h2⟩ | ⟨v, w, h1, h2, hv⟩
  · rw [h1, h2]
  · rw [h1, h2]
    exact convertAll_chars (fun s t => parseInt_chars) (split_space hv)

theorem SameParams.toStrSlice : (∃ e, p.toStrSlice key = .err e ∧ q.toStrSlice key.toList = .err e) ∨
    ∃ v w, p.toStrSlice key = .ok v ∧ q.toStrSlice key.toList = .ok w ∧ v.length = w.length := by
  unfold Params.toStrSlice Leaves.Params.toStrSlice
  rcases h.lookup hk with ⟨h1, h2⟩ | ⟨v, w, h1, h2, hv⟩
  · rw [h1, h2]
    exact .inl ⟨_, rfl, rfl⟩
  · rw [h1, h2]
    exact .inr ⟨_, _, rfl, rfl, (split_space hv).length_eq⟩

theorem SameParams.toString : (∃ e, p.toString key = .err e ∧ q.toString key.toList = .err e) ∨
    ∃ v w, p.toString key = .ok v ∧ q.toString key.toList = .ok w ∧ Chars v w := by
  unfold Params.toString Leaves.Params.toString
  rcases h.lookup hk with ⟨h1, h2⟩ | ⟨v, w, h1, h2, hv⟩
  · rw [h1, h2]
    exact .inl ⟨_, rfl, rfl⟩
  · rw [h1, h2]
    exact .inr ⟨_, _, rfl, rfl, hv⟩

end

/-! ## The LightGBM loader -/

theorem eq_lit {v : ByteStr} {w : Str} (h : Chars v w) (s : String) (hs : ∀ c ∈ s.toList, c.toNat < 0x80) : v = lit s ↔ w = s.toList := by
  rw [lit_eq hs]
  exact eq_utf8_iff h (plain_error hs)

theorem lgTreeFromParams_same {P : Platform} (hP : AsciiFloats P) {p : Params} {q : Leaves.Params} (h : SameParams p q) :
    lgTreeFromParams P p = Leaves.lgTreeFromParams P q := by
  unfold lgTreeFromParams Leaves.lgTreeFromParams
  rw [h.toInt (key := "num_cat") (by decide), h.toInt (key := "num_leaves") (by decide),
    h.toFloat64Slice (key := "leaf_value") (by decide) hP, h.toInt32Slice (key := "left_child") (by decide),
    h.toInt32Slice (key := "right_child") (by decide), h.toUint32Slice (key := "decision_type") (by decide),
    h.toUint32Slice (key := "split_feature") (by decide), h.toFloat64Slice (key := "threshold") (by decide) hP,
    h.toUint32Slice (key := "cat_threshold") (by decide), h.toUint32Slice (key := "cat_boundaries") (by decide)]

theorem lgTreeFromReader_tracks {P : Platform} (hP : AsciiFloats P) {k : Nat} {b : Bufio UInt8} {r : Reader} (h : ReadsBytes k b r) :
    Tracks (· = ·) (ReadsBytes k) (lgTreeFromReader P b) (Leaves.lgTreeFromReader P r) := by
  rw [lgTreeFromReader, Leaves.lgTreeFromReader]
  refine (readParams_tracks h).bind fun p q s t hpq hst => ?_
  dsimp only
  rw [lgTreeFromParams_same hP hpq]
  exact Tracks.bind_same _ fun a => .ok rfl hst

theorem lgReadTrees_tracks {P : Platform} (hP : AsciiFloats P) {k : Nat} : ∀ (n : Nat) {b : Bufio UInt8} {r : Reader}, ReadsBytes k b r →
    Tracks (· = ·) (ReadsBytes k) (lgReadTrees P n b) (Leaves.lgReadTrees P n r)
  | 0, _, _, h => .ok rfl h
  | n + 1, b, r, h => by
    rw [lgReadTrees, Leaves.lgReadTrees]
    refine (lgTreeFromReader_tracks hP h).bind fun t t' s r' ht hst => ?_
    subst ht
    refine (lgReadTrees_tracks hP n hst).bind fun ts ts' s2 r2 hts h2 => ?_
    subst hts
    exact .ok rfl h2

/-- two objectives that agree -/
inductive SameObjective : Res LgObjective → Res Leaves.LgObjective → Prop
  | ok {n p : ByteStr} {n' p' : Str} {v : Int} (hn : Chars n n') (hp : Chars p p') : SameObjective (.ok ⟨n, p, v⟩) (.ok ⟨n', p', v⟩)
  | err (e : String) : SameObjective (.err e) (.err e)

theorem lgObjectiveParse_same {v : ByteStr} {w : Str} (h : Chars v w) : SameObjective (lgObjectiveParse v) (Leaves.lgObjectiveParse w) := by
  unfold lgObjectiveParse Leaves.lgObjectiveParse
  have hs := split_space h
  generalize split v (lit " ") = x at hs
  generalize Leaves.split w " ".toList = y at hs
  cases hs with
  | nil => exact .err _
  | cons h1 hs =>
    cases hs with
    | nil => exact .err _
    | @cons a a' l l' h2 hs =>
      cases hs with
      | cons h3 hs => exact .err _
      | nil =>
        dsimp only
        have hc := split_chars (d := ":".toList) (plain_error (by decide)) h2
        rw [← lit_eq (by decide)] at hc
        generalize split a (lit ":") = x at hc
        generalize Leaves.split a' ":".toList = y at hc
        cases hc with
        | nil => exact .err _
        | cons h4 hc =>
          cases hc with
          | nil => exact .err _
          | @cons c c' l l' h5 hc =>
            cases hc with
            | cons h6 hc => exact .err _
            | nil =>
              dsimp only
              rw [atoi_chars h5]
              cases Leaves.atoi c' with
              | none => exact .err _
              | some i => exact .ok h1 h4

theorem lgTransform_same {p : Params} {q : Leaves.Params} (h : SameParams p q) (n : Int) (avg lt : Bool) :
    lgTransform p n avg lt = Leaves.lgTransform q n avg lt := by
  unfold lgTransform Leaves.lgTransform
  by_cases hl : (lt && !avg) = true
  · rw [if_pos hl, if_pos hl]
    rcases h.toString (key := "objective") (by decide) with ⟨e, e1, e2⟩ | ⟨v, w, e1, e2, hv⟩
    · rw [e1, e2]; rfl
    · rw [e1, e2, Res.ok_bind, Res.ok_bind]
      simp only [eq_lit hv "poisson" (by decide), eq_lit hv "gamma" (by decide), eq_lit hv "tweedie" (by decide)]
      have hp : (lit "regression").isPrefixOf v = hasPrefix w "regression".toList := by
        rw [lit_eq (by decide)]
        exact isPrefixOf_chars hv (plain_error (by decide))
      rw [hp]
      split
      · rfl
      · split
        · have ho := lgObjectiveParse_same hv
          generalize lgObjectiveParse v = x at ho
          generalize Leaves.lgObjectiveParse w = y at ho
          cases ho with
          | err e => rfl
          | ok hn hp =>
            rw [Res.ok_bind, Res.ok_bind]
            simp only [eq_lit hn "binary" (by decide), eq_lit hp "sigmoid" (by decide), eq_lit hn "multiclass" (by decide),
              eq_lit hp "num_class" (by decide)]
        · rfl
  · rw [if_neg hl, if_neg hl]

theorem lgCheckVersion_same {p : Params} {q : Leaves.Params} (h : SameParams p q) : lgCheckVersion p = Leaves.lgCheckVersion q := by
  unfold lgCheckVersion Leaves.lgCheckVersion
  rw [h.compare (key := "version") (rhs := "v2") (by decide) (by decide), h.compare (key := "version") (rhs := "v3") (by decide) (by decide)]
  cases q.compare "version".toList "v2".toList <;> rfl

/-- loading a LightGBM text model from bytes is loading it from the characters they hold -/
theorem lgEnsemble_tracks {P : Platform} (hP : AsciiFloats P) {k : Nat} {b : Bufio UInt8} {r : Reader} (h : ReadsBytes k b r) (lt : Bool) :
    Tracks (· = ·) (ReadsBytes k) (lgEnsembleFromReader P b lt) (Leaves.lgEnsembleFromReader P r lt) := by
  rw [lgEnsembleFromReader, Leaves.lgEnsembleFromReader]
  refine (readParams_tracks h).bind fun p q s t hpq hst => ?_
  dsimp only
  rw [lgCheckVersion_same hpq, hpq.toInt (key := "num_class") (by decide), hpq.toInt (key := "num_tree_per_iteration") (by decide),
    hpq.toInt (key := "max_feature_idx") (by decide), hpq.contains (key := "average_output") (by decide)]
  refine Tracks.bind_same _ fun _ => ?_
  refine Tracks.bind_same _ fun nc => ?_
  refine Tracks.bind_same _ fun nt => ?_
  split
  · exact .err _
  split
  · exact .err _
  split
  · exact .err _
  refine Tracks.bind_same _ fun mf => ?_
  rcases hpq.toStrSlice (key := "tree_sizes") (by decide) with ⟨e, e1, e2⟩ | ⟨v, w, e1, e2, hv⟩
  · rw [e1, e2]
    exact .err _
  rw [e1, e2, Res.ok_bind, Res.ok_bind, hv]
  split
  · exact .err _
  split
  · exact .err _
  rw [lgTransform_same hpq]
  refine Tracks.bind_same _ fun tr => ?_
  refine (lgReadTrees_tracks hP _ hst).bind fun trees trees' s2 t2 ht h2 => ?_
  subst ht
  exact .ok rfl h2

/-! ## Matrices -/

open Mat (Record)

theorem length_zero_chars {v : ByteStr} {w : Str} (h : Chars v w) : v.length = 0 ↔ w.length = 0 := by
  rw [List.length_eq_zero_iff, List.length_eq_zero_iff]
  exact chars_eq_nil h

theorem libsvmTokens_chars {P : Platform} (hP : AsciiFloats P) {ss : List ByteStr} {ts : List Str} (h : List.Forall₂ Chars ss ts) :
    libsvmTokens P ss = Mat.libsvmTokens P ts := by
  induction h with
  | nil => rfl
  | @cons s t ss ts h _ ih =>
    rw [libsvmTokens, Mat.libsvmTokens]
    simp only [length_zero_chars h]
    split
    · rfl
    · have hc := split_chars (d := ":".toList) (plain_error (by decide)) h
      rw [← lit_eq (by decide)] at hc
      generalize split s (lit ":") = x at hc
      generalize Leaves.split t ":".toList = y at hc
      cases hc with
      | nil => rfl
      | cons h1 hc =>
        cases hc with
        | nil => rfl
        | cons h2 hc =>
          cases hc with
          | nil =>
            dsimp only
            rw [parseUint_chars h1, parseFloat_chars hP h2, ih]
          | cons h3 hc => rfl

theorem forall₂_drop {α β : Type} {R : α → β → Prop} {l : List α} {m : List β} (h : List.Forall₂ R l m) (n : Nat) :
    List.Forall₂ R (l.drop n) (m.drop n) := by
  induction n generalizing l m with
  | zero => exact h
  | succ n ih =>
    cases h with
    | nil => exact .nil
    | cons _ h => exact ih h

theorem libsvmLine_chars {P : Platform} (hP : AsciiFloats P) (skip : Bool) {s : ByteStr} {t : Str} (h : Chars s t) :
    libsvmLine P skip s = Mat.libsvmLine P skip t := by
  unfold libsvmLine Mat.libsvmLine
  have hs := split_space h
  dsimp only
  rw [hs.length_eq, libsvmTokens_chars hP (forall₂_drop hs _)]

theorem csvTokens_chars {P : Platform} (hP : AsciiFloats P) (d : F64) {ss : List ByteStr} {ts : List Str} (h : List.Forall₂ Chars ss ts)
    (i : Nat) : csvTokens P d i ss = Mat.csvTokens P d i ts := by
  induction h generalizing i with
  | nil => rfl
  | @cons s t ss ts h _ ih =>
    rw [csvTokens, Mat.csvTokens]
    simp only [length_zero_chars h, parseFloat_chars hP h, ih]

theorem csvLine_chars {P : Platform} (hP : AsciiFloats P) (skip : Bool) {delimiter : Str} (hd : runeError ∉ delimiter) (d : F64)
    {s : ByteStr} {t : Str} (h : Chars s t) : csvLine P skip (utf8 delimiter) d s = Mat.csvLine P skip delimiter d t :=
  csvTokens_chars hP d (forall₂_drop (split_chars hd h) _) 0

theorem readRows_chars {μ : Type} {k : Nat} {parse : ByteStr → Res (List Record)} {parse' : Str → Res (List Record)}
    (hp : ∀ s t, Chars s t → parse s = parse' t) (f : μ → List Record → Res μ) (limit : Int) :
    ∀ (n m : Nat) (rows : Int) (b : Bufio UInt8) (r : Reader) (mat : μ), ReadsBytes k b r → b.size < n → r.rest.length < m →
      readRows parse f limit n rows b mat = Mat.readRows parse' f limit m rows r mat
  | 0, _, _, _, _, _, _, hn, _ => absurd hn (Nat.not_lt_zero _)
  | _ + 1, 0, _, _, _, _, _, _, hm => absurd hm (Nat.not_lt_zero _)
  | n + 1, m + 1, rows, b, r, mat, h, hn, hm => by
    obtain ⟨l, b', h1, h2, h3, h4, h5⟩ := h.readString
    rw [readRows, Mat.readRows, h1, Res.ok_bind]
    have hx : r.readString.2.2.rest.length < m ∨ r.readString.1 = [] := by
      rw [h4]
      by_cases hr : r.rest = []
      · right
        show (Leaves.splitLine r.rest).1 = []
        rw [hr]; rfl
      · left
        have := splitLine_progress hr
        omega
    generalize r.readString = x at h1 h2 h3 hx ⊢
    obtain ⟨l', e, r'⟩ := x
    dsimp only at h2 h3 hx ⊢
    by_cases he : e = .fail
    · rw [if_pos he, if_pos he]
    · rw [if_neg he, if_neg he]
      have ht := trimSpace_chars h2
      by_cases hz : Leaves.trimSpace l' = []
      · rw [if_pos hz, if_pos ((chars_eq_nil ht).2 hz)]
      · rw [if_neg hz, if_neg fun e => hz ((chars_eq_nil ht).1 e), hp _ _ ht]
        have hl' : l' ≠ [] := by rintro rfl; exact hz rfl
        have : l ≠ [] := fun e => hl' ((chars_eq_nil h2).1 e)
        have := List.length_pos_iff.2 this
        refine congrArg (Res.bind (parse' (Leaves.trimSpace l'))) (funext fun rec => ?_)
        refine congrArg (Res.bind (f mat rec)) (funext fun mt => ?_)
        split
        · rfl
        · exact readRows_chars hp f limit n m _ b' r' mt h3 (by omega) (hx.resolve_right hl')

end Leaves.Oct
