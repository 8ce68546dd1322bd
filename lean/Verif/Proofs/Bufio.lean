import Verif.Spec.Streaming
import Verif.Proofs.Text

/-!
# A buffered reader hands out exactly the bytes delivered to it
-/

namespace Leaves
open Spec

/-- the invariant of a `bufio.Reader` in use: what it will still hand out is `rest`, then `fin` -/
structure Represents {α : Type} (k : Nat) (b : Bufio α) (rest : List α) (fin : Fault) : Prop where
  content : b.buf ++ b.feed.rest = rest
  ending : b.feed.fin = fin
  pending : b.err = none ∨ (b.err = some fin ∧ b.feed.rest = [])
  room : 16 ≤ b.cap
  fits : b.buf.length ≤ b.cap
  patient : Patient k b.feed.lim
  few : k ≤ 99

theorem Spec.Arrives.represents {α : Type} {k : Nat} {b : Bufio α} {input : List α} {fin : Fault}
    (h : Arrives k b input fin) (hk : k ≤ 99) : Represents k b input fin :=
  { content := by rw [h.fresh, h.content]; rfl
    ending := h.ending
    pending := Or.inl h.noError
    room := h.room
    fits := by rw [h.fresh]; simp
    patient := h.patient
    few := hk }

theorem Represents.size_eq {α : Type} {k : Nat} {b : Bufio α} {rest : List α} {fin : Fault}
    (h : Represents k b rest fin) : b.size = rest.length := by
  rw [← h.content, Bufio.size, List.length_append]

theorem Patient.shift {k : Nat} {lim : Nat → Nat} (h : Patient k lim) : Patient k (fun i => lim (i + 1)) := by
  intro i
  obtain ⟨j, hj, hl⟩ := h (i + 1)
  refine ⟨j, hj, ?_⟩
  have : i + j + 1 = i + 1 + j := by omega
  simpa only [this] using hl

/-- one call of the underlying reader -/
theorem Feed.read_spec {α : Type} (f : Feed α) (n : Nat) (hn : 0 < n) :
    ∃ bs e f', f.read n = (bs, e, f') ∧ bs ++ f'.rest = f.rest ∧ f'.fin = f.fin ∧ bs.length ≤ n ∧
      f'.lim = (fun i => f.lim (i + 1)) ∧
      (e = none ∨ (e = some f.fin ∧ f'.rest = [])) ∧
      (bs = [] → e = none → f.lim 0 = 0) := by
  have hu : f.read n = (if f.lim 0 = 0 then ([], none,
        { f with rest := f.rest.drop (min n (f.lim 0)), lim := fun i => f.lim (i + 1) })
      else if f.rest.isEmpty then ([], some f.fin,
        { f with rest := f.rest.drop (min n (f.lim 0)), lim := fun i => f.lim (i + 1) })
      else (f.rest.take (min n (f.lim 0)),
        if f.eager && (f.rest.drop (min n (f.lim 0))).isEmpty then some f.fin else none,
        { f with rest := f.rest.drop (min n (f.lim 0)), lim := fun i => f.lim (i + 1) })) := rfl
  by_cases h0 : f.lim 0 = 0
  · rw [if_pos h0] at hu
    refine ⟨_, _, _, hu, ?_, rfl, Nat.zero_le _, rfl, Or.inl rfl, fun _ _ => h0⟩
    simp [h0]
  · rw [if_neg h0] at hu
    by_cases hr : f.rest = []
    · have hne : f.rest.isEmpty = true := by simpa using hr
      rw [if_pos hne] at hu
      refine ⟨_, _, _, hu, ?_, rfl, Nat.zero_le _, rfl, Or.inr ⟨rfl, ?_⟩, fun _ h => by cases h⟩ <;> simp [hr]
    · have hk : 0 < min n (f.lim 0) := by omega
      have hne : ¬ f.rest.isEmpty = true := by simpa using hr
      rw [if_neg hne] at hu
      refine ⟨_, _, _, hu, List.take_append_drop _ _, rfl, ?_, rfl, ?_, ?_⟩
      · rw [List.length_take]; omega
      · split
        · next h =>
          rw [Bool.and_eq_true] at h
          exact Or.inr ⟨rfl, List.isEmpty_iff.mp h.2⟩
        · exact Or.inl rfl
      · intro h
        have hl := congrArg List.length h
        rw [List.length_take] at hl
        have : 0 < f.rest.length := List.length_pos_iff.mpr hr
        simp only [List.length_nil] at hl; omega

/-- `fill` with `t` attempts when one of the next `t` reads delivers something -/
theorem Bufio.fill_spec {α : Type} {k : Nat} {rest : List α} {fin : Fault} :
    ∀ (t : Nat) (b : Bufio α), Represents k b rest fin → b.err = none → b.buf.length < b.cap →
      (∃ j < t, b.feed.lim j ≠ 0) →
      Represents k (b.fill t) rest fin ∧ (b.fill t).cap = b.cap ∧
        (b.buf.length < (b.fill t).buf.length ∨ (b.fill t).err ≠ none) ∧
        b.buf.length ≤ (b.fill t).buf.length
  | 0, _, _, _, _, ⟨_, hj, _⟩ => absurd hj (Nat.not_lt_zero _)
  | t + 1, b, h, he, hc, ⟨j, hj, hl⟩ => by
    obtain ⟨bs, e, f', hr, hcat, hfin, hlen, hlim, herr, hemp⟩ :=
      b.feed.read_spec (b.cap - b.buf.length) (by omega)
    have hrep : Represents k { b with buf := b.buf ++ bs, feed := f', err := e } rest fin := by
      refine ⟨?_, ?_, ?_, h.room, ?_, ?_, h.few⟩
      · show (b.buf ++ bs) ++ f'.rest = rest
        rw [List.append_assoc, hcat, h.content]
      · exact hfin.trans h.ending
      · rcases herr with e0 | ⟨e1, e2⟩
        · exact Or.inl e0
        · exact Or.inr ⟨by rw [e1, h.ending], e2⟩
      · show (b.buf ++ bs).length ≤ b.cap
        rw [List.length_append]; omega
      · show Patient k f'.lim
        rw [hlim]; exact Patient.shift h.patient
    rw [Bufio.fill, hr]
    dsimp only
    cases e with
    | some x =>
      dsimp only
      refine ⟨hrep, rfl, Or.inr (by simp), by simp⟩
    | none =>
      dsimp only
      by_cases hb : bs = []
      · have hz := hemp hb rfl
        have hj0 : j ≠ 0 := by rintro rfl; exact hl hz
        subst hb
        simp only [List.isEmpty_nil, if_true]
        have hrep' : Represents k { b with buf := b.buf ++ [], feed := f' } rest fin := by
          have : ({ b with buf := b.buf ++ [], feed := f' } : Bufio α)
              = { b with buf := b.buf ++ [], feed := f', err := none } := by
            rw [← he]
          rw [this]; exact hrep
        have := Bufio.fill_spec t { b with buf := b.buf ++ [], feed := f' } hrep' he
          (by simpa using hc) ⟨j - 1, by omega, by
            show f'.lim (j - 1) ≠ 0
            rw [hlim]
            show b.feed.lim (j - 1 + 1) ≠ 0
            rwa [Nat.sub_add_cancel (by omega)]⟩
        simpa using this
      · have hne : bs.isEmpty = false := by simpa using hb
        simp only [hne, Bool.false_eq_true, if_false]
        have hpos : 0 < bs.length := List.length_pos_iff.mpr hb
        have hrep' : Represents k { b with buf := b.buf ++ bs, feed := f' } rest fin := by
          have : ({ b with buf := b.buf ++ bs, feed := f' } : Bufio α)
              = { b with buf := b.buf ++ bs, feed := f', err := none } := by
            rw [← he]
          rw [this]; exact hrep
        refine ⟨hrep', by trivial, Or.inl ?_, ?_⟩
        · show b.buf.length < (b.buf ++ bs).length
          rw [List.length_append]; omega
        · show b.buf.length ≤ (b.buf ++ bs).length
          rw [List.length_append]; omega

/-! ## Lines -/

theorem splitLine_rest_length (s : Str) : (splitLine s).2.1.length ≤ s.length := by
  induction s with
  | nil => simp [splitLine]
  | cons c cs ih =>
    rw [splitLine]
    split
    · simp
    · exact ih.trans (Nat.le_succ _)

theorem splitLine_found {a l r : Str} (h : splitLine a = (l, r, true)) (b : Str) :
    splitLine (a ++ b) = (l, r ++ b, true) := by
  induction a generalizing l r with
  | nil => simp [splitLine] at h
  | cons c cs ih =>
    rw [splitLine] at h
    rw [List.cons_append, splitLine]
    by_cases hc : c = '\n'
    · rw [if_pos hc] at h ⊢
      simp only [Prod.mk.injEq] at h
      obtain ⟨rfl, rfl, _⟩ := h; rfl
    · rw [if_neg hc] at h ⊢
      rcases hs : splitLine cs with ⟨l', r', b'⟩
      rw [hs] at h
      simp only [Prod.mk.injEq] at h
      obtain ⟨rfl, rfl, rfl⟩ := h
      rw [ih hs]

theorem splitLine_none {a l r : Str} (h : splitLine a = (l, r, false)) (b : Str) :
    splitLine (a ++ b) = (a ++ (splitLine b).1, (splitLine b).2.1, (splitLine b).2.2) := by
  induction a generalizing l r with
  | nil => simp
  | cons c cs ih =>
    rw [splitLine] at h
    rw [List.cons_append, splitLine]
    by_cases hc : c = '\n'
    · rw [if_pos hc] at h; simp at h
    · rw [if_neg hc] at h ⊢
      rcases hs : splitLine cs with ⟨l', r', b'⟩
      rw [hs] at h
      simp only [Prod.mk.injEq] at h
      obtain ⟨rfl, rfl, rfl⟩ := h
      rw [ih hs]; rfl

/-- what `readSlice` may answer -/
inductive SliceResult (k : Nat) (rest : Str) (fin : Fault) (cap : Nat) :
    Res (Str × SliceEnd × Bufio Char) → Prop
  | found (line rest' : Str) (b : Bufio Char) (h : splitLine rest = (line, rest', true))
      (hb : Represents k b rest' fin) : SliceResult k rest fin cap (.ok (line, .found, b))
  | fault (l r : Str) (b : Bufio Char) (h : splitLine rest = (l, r, false))
      (hb : Represents k b [] fin) : SliceResult k rest fin cap (.ok (rest, .fault fin, b))
  | full (line rest' : Str) (b : Bufio Char) (l r : Str) (h : splitLine line = (l, r, false))
      (hr : line ++ rest' = rest) (hne : line ≠ []) (hb : Represents k b rest' fin) :
      SliceResult k rest fin cap (.ok (line, .full, b))

theorem Bufio.readSlice_spec {k : Nat} {rest : Str} {fin : Fault} :
    ∀ (fuel : Nat) (b : Bufio Char), Represents k b rest fin →
      b.cap - b.buf.length + (if b.err = none then 2 else 1) ≤ fuel →
      SliceResult k rest fin b.cap (Bufio.readSlice fuel b)
  | 0, b, _, hf => by split at hf <;> omega
  | fuel + 1, b, h, hf => by
    rw [Bufio.readSlice]
    rcases hs : splitLine b.buf with ⟨line, r, found⟩
    dsimp only
    cases found with
    | true =>
      simp only [if_true]
      refine .found line (r ++ b.feed.rest) _ ?_ ?_
      · rw [← h.content]; exact splitLine_found hs _
      · refine ⟨rfl, h.ending, h.pending, h.room, ?_, h.patient, h.few⟩
        have : r.length ≤ b.buf.length := by
          have := splitLine_rest_length b.buf
          rwa [hs] at this
        exact this.trans h.fits
    | false =>
      simp only [Bool.false_eq_true, if_false]
      rcases h.pending with he | ⟨he, hr⟩
      · rw [he]
        dsimp only
        by_cases hfull : b.cap ≤ b.buf.length
        · rw [if_pos hfull]
          refine .full b.buf b.feed.rest _ line r hs h.content ?_ ?_
          · intro hb; rw [hb] at hfull; have := h.room; simp at hfull; omega
          · exact ⟨rfl, h.ending, Or.inl rfl, h.room, Nat.zero_le _, h.patient, h.few⟩
        · rw [if_neg hfull]
          obtain ⟨j, hj, hl⟩ := h.patient 0
          obtain ⟨h1, h2, h3, h4⟩ := Bufio.fill_spec 100 b h he (by omega)
            ⟨j, by have := h.few; omega, by simpa using hl⟩
          have := Bufio.readSlice_spec fuel (b.fill 100) h1 (by
            rw [h2]
            rw [if_pos he] at hf
            have := h1.fits
            rw [h2] at this
            rcases h3 with h3 | h3
            · split <;> omega
            · rw [if_neg h3]; omega)
          rwa [h2] at this
      · rw [he]
        dsimp only
        have hb : b.buf = rest := by rw [← h.content, hr, List.append_nil]
        rw [hb]
        refine .fault line r _ (by rw [← hb]; exact hs) ?_
        exact ⟨by simpa using hr, h.ending, Or.inl rfl, h.room, Nat.zero_le _, h.patient, h.few⟩

/-- the error reported with the last line -/
def Fault.rdErr : Fault → RdErr
  | .eof => .eof
  | .fail => .fail

theorem Bufio.readStringLoop_spec {k : Nat} {fin : Fault} :
    ∀ (fuel : Nat) (acc rest : Str) (b : Bufio Char), Represents k b rest fin → rest.length < fuel →
      ∃ b', Bufio.readStringLoop fuel acc b
          = .ok (acc ++ (splitLine rest).1, if (splitLine rest).2.2 then .none else fin.rdErr, b') ∧
        Represents k b' (splitLine rest).2.1 fin
  | 0, _, _, _, _, hf => absurd hf (Nat.not_lt_zero _)
  | fuel + 1, acc, rest, b, h, hf => by
    have hs := Bufio.readSlice_spec (b.cap + 2) b h (by split <;> omega)
    rw [Bufio.readStringLoop]
    generalize Bufio.readSlice (b.cap + 2) b = x at hs ⊢
    cases hs with
    | found line rest' b' h1 hb =>
      refine ⟨b', ?_, ?_⟩
      · rw [h1]; rfl
      · rw [h1]; exact hb
    | fault l r b' h1 hb =>
      obtain ⟨rfl, rfl⟩ : l = rest ∧ r = [] := by
        have := splitLine_none h1 []
        simp [splitLine] at this
        rw [h1] at this
        simpa using this
      refine ⟨b', ?_, ?_⟩
      · rw [h1]; cases fin <;> rfl
      · rw [h1]; exact hb
    | full line rest' b' l r h1 hr hne hb =>
      have hpos : 0 < line.length := List.length_pos_iff.mpr hne
      obtain ⟨b2, h2, h3⟩ := Bufio.readStringLoop_spec fuel (acc ++ line) rest' b' hb (by
        rw [← hr, List.length_append] at hf; omega)
      refine ⟨b2, ?_, ?_⟩
      · rw [Res.ok_bind]
        show Bufio.readStringLoop fuel (acc ++ line) b' = _
        rw [h2, ← hr, splitLine_none h1]
        simp
      · rw [← hr, splitLine_none h1]; exact h3

/-- reading a line from a buffered reader is reading a line from the text it represents -/
theorem Bufio.readString_spec {k : Nat} {fin : Fault} {b : Bufio Char} {r : Reader}
    (h : Represents k b r.rest fin) (hr : r.ioErr = (fin == .fail)) :
    ∃ b', b.readString = .ok (r.readString.1, r.readString.2.1, b') ∧
      Represents k b' r.readString.2.2.rest fin ∧ r.readString.2.2.ioErr = r.ioErr := by
  obtain ⟨b', h1, h2⟩ := Bufio.readStringLoop_spec (b.size + 1) [] r.rest b h (by rw [h.size_eq]; omega)
  refine ⟨b', ?_, h2, rfl⟩
  rw [Bufio.readString, h1]
  simp only [Reader.readString, List.nil_append]
  rw [hr]
  cases fin <;> rfl

end Leaves
