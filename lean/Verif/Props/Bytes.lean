import Verif.Proofs.ByteText
import Verif.Props.Streaming
import Verif.Props.TextLayout

/-!
# C96: text files are read as the characters their bytes hold, also when they are not UTF-8
-/

namespace Leaves
open Spec

/-! ## Numerals are ASCII -/

namespace Strconv

/-- a character beyond ASCII -/
def Big (s : Str) : Prop := ∃ c ∈ s, 0x80 ≤ c.toNat

theorem big_cons {c : Char} {s : Str} (h : Big (c :: s)) (hc : c.toNat < 0x80) : Big s := by
  obtain ⟨x, hx, h⟩ := h
  rcases List.mem_cons.1 hx with rfl | hx
  · omega
  · exact ⟨x, hx, h⟩

theorem digitOf_lt {hex : Bool} {c : Char} {d : Nat} (h : digitOf hex c = some d) : c.toNat < 0x80 := by
  unfold digitOf at h
  split at h
  · next hd => exact Oct.isDigit_lt hd
  · split at h
    · next hd =>
      rw [Bool.and_eq_true, decide_eq_true_eq] at hd
      have : c.toNat ≤ 'f'.toNat := hd.2.2
      exact lt_of_le_of_lt this (by decide)
    · split at h
      · next hd =>
        rw [Bool.and_eq_true, decide_eq_true_eq] at hd
        have : c.toNat ≤ 'F'.toNat := hd.2.2
        exact lt_of_le_of_lt this (by decide)
      · cases h

theorem mantissa_big {hex : Bool} {s : Str} (h : Big s) (m : Mantissa) : Big (mantissa hex s m).2 := by
  induction s generalizing m with
  | nil => exact h
  | cons c s ih =>
    unfold mantissa
    split
    · next hc => exact ih (big_cons h (by rw [hc]; decide)) _
    · split
      · next hc =>
        split
        · exact h
        · exact ih (big_cons h (by rw [hc]; decide)) _
      · split
        · next d hd => exact ih (big_cons h (digitOf_lt hd)) _
        · exact h

theorem expDigits_big {s : Str} (h : Big s) (e : Nat) : Big (expDigits s e).2 := by
  induction s generalizing e with
  | nil => exact h
  | cons c s ih =>
    unfold expDigits
    split
    · next hc => exact ih (big_cons h (by rw [hc]; decide)) _
    · split
      · next hc => exact ih (big_cons h (Oct.isDigit_lt hc)) _
      · exact h

theorem sign_big {s : Str} (h : Big s) : Big (sign s).2 := by
  unfold sign
  split
  · exact big_cons h (by decide)
  · exact big_cons h (by decide)
  · exact h

theorem hexPrefix_big {s : Str} (h : Big s) : Big (hexPrefix s).2 := by
  unfold hexPrefix
  split
  · split
    · next hx =>
      refine big_cons (big_cons h (by decide)) ?_
      rcases hx with rfl | rfl <;> decide
    · exact h
  · exact h

theorem exponent_big {hex : Bool} {s rest : Str} {e : Int} (h : Big s) (he : exponent hex s = some (e, rest)) : Big rest := by
  cases s with
  | nil => exact absurd h (by rintro ⟨_, hx, _⟩; cases hx)
  | cons c s =>
    by_cases hc : c ∈ (if hex then ['p', 'P'] else ['e', 'E'])
    · have hlt : c.toNat < 0x80 := by
        cases hex
        · rcases List.mem_cons.1 hc with rfl | hc
          · decide
          · rw [List.mem_singleton.1 hc]; decide
        · rcases List.mem_cons.1 hc with rfl | hc
          · decide
          · rw [List.mem_singleton.1 hc]; decide
      rw [exponent, if_pos hc] at he
      dsimp only at he
      split at he
      · cases he
        exact expDigits_big (sign_big (big_cons h hlt)) 0
      · cases he
    · rw [exponent, if_neg hc] at he
      cases hex
      · cases he
        exact h
      · cases he

theorem lowerAll_big {s : Str} (h : Big s) : Big (lowerAll s) := by
  obtain ⟨c, hc, h⟩ := h
  refine ⟨c, List.mem_map.2 ⟨c, hc, if_neg ?_⟩, h⟩
  rintro ⟨-, hx⟩
  have : c.toNat ≤ 'Z'.toNat := hx
  have : 'Z'.toNat = 90 := rfl
  omega

theorem special_big {s : Str} (h : Big s) : special s = none := by
  have h1 := lowerAll_big (sign_big h)
  have h2 := lowerAll_big h
  unfold special
  dsimp only
  rw [if_neg, if_neg]
  · intro e
    rw [e] at h2
    revert h2
    unfold Big
    decide
  · rintro (e | e) <;>
    · rw [e] at h1
      revert h1
      unfold Big
      decide

theorem readFloat_big {s : Str} (h : Big s) : readFloat s = none := by
  unfold readFloat
  dsimp only
  split
  · rfl
  · split
    · rfl
    · next e rest he =>
      have := exponent_big (mantissa_big (hexPrefix_big (sign_big h)) _) he
      rw [if_pos]
      left
      rintro rfl
      obtain ⟨_, hx, _⟩ := this
      cases hx

/-- with Go's `strconv.ParseFloat`, no numeral has a character beyond ASCII -/
theorem Standard.ascii {P : Platform} (h : Standard P) : Oct.AsciiFloats P := by
  intro s hs
  rw [h.parse, parseFloat, special_big hs]
  dsimp only
  rw [readFloat_big hs]

end Strconv

/-! ## The characters of a file -/

/-- C96: every sequence of bytes holds exactly one sequence of characters, and the UTF-8 encoding of a text holds that text. -/
theorem C96_characters : (∀ bs, ∃! t, Chars bs t) ∧ ∀ t : Str, Chars (t.flatMap String.utf8EncodeChar) t := by
  refine ⟨fun bs => ?_, Oct.chars_utf8⟩
  obtain ⟨t, h⟩ := Oct.chars_exists bs
  exact ⟨t, h, fun u hu => Oct.chars_unique hu h⟩

theorem readsBytes_of_arrives {k : Nat} {b : Bufio UInt8} {bs : List UInt8} {t : Str} {fin : Fault} (hk : k ≤ 99) (h : Arrives k b bs fin)
    (hc : Chars bs t) : Oct.ReadsBytes k b ⟨t, fin == .fail⟩ := by
  have := h.represents hk
  refine ⟨bs, ?_, hc⟩
  cases fin <;> exact this

/-- C96: loading a LightGBM text model from any bytes, in whatever pieces they arrive, is loading it from the characters they hold. -/
theorem C96_lightgbm (P : Platform) (hP : Oct.AsciiFloats P) {k : Nat} {b : Bufio UInt8} {bs : List UInt8} {t : Str} {fin : Fault}
    (hk : k ≤ 99) (h : Arrives k b bs fin) (hc : Chars bs t) (lt : Bool) :
    loaderOf (fun b => Oct.lgEnsembleFromReader P b lt) b
      = (do let (e, _) ← lgEnsembleFromReader P ⟨t, fin == .fail⟩ lt; return e) :=
  (Oct.lgEnsemble_tracks hP (readsBytes_of_arrives hk h hc) lt).value

/-- C96: matrices are read from any bytes as from the characters they hold. The delimiter of a CSV file is valid UTF-8 and does not
contain the replacement character. -/
theorem C96_matrix (P : Platform) (hP : Oct.AsciiFloats P) {k : Nat} {b : Bufio UInt8} {bs : List UInt8} {t : Str} {fin : Fault}
    (hk : k ≤ 99) (h : Arrives k b bs fin) (hc : Chars bs t) (limit : Int) (skip : Bool) (delimiter : Str)
    (hd : Char.ofNat 0xFFFD ∉ delimiter) (d : F64) :
    Oct.denseMatFromLibsvm P b limit skip = Mat.denseMatFromLibsvm P ⟨t, fin == .fail⟩ limit skip ∧
    Oct.csrMatFromLibsvm P b limit skip = Mat.csrMatFromLibsvm P ⟨t, fin == .fail⟩ limit skip ∧
    Oct.denseMatFromCsv P b limit skip (delimiter.flatMap String.utf8EncodeChar) d
      = Mat.denseMatFromCsv P ⟨t, fin == .fail⟩ limit skip delimiter d := by
  have hr := readsBytes_of_arrives hk h hc
  refine ⟨?_, ?_, ?_⟩
  · exact Oct.readRows_chars (fun s t => Oct.libsvmLine_chars hP skip) _ limit _ _ 0 b _ _ hr (Nat.lt_succ_self _) (Nat.lt_succ_self _)
  · exact Oct.readRows_chars (fun s t => Oct.libsvmLine_chars hP skip) _ limit _ _ 0 b _ _ hr (Nat.lt_succ_self _) (Nat.lt_succ_self _)
  · exact Oct.readRows_chars (fun s t => Oct.csvLine_chars hP skip hd d) _ limit _ _ 0 b _ _ hr (Nat.lt_succ_self _) (Nat.lt_succ_self _)

/-- two loads of a model: the same model, or both return an error, or both panic, or none returns -/
def SameEnsemble : Res Ensemble → Res Ensemble → Prop
  | .ok e, .ok e' => e = e'
  | .err _, .err _ => True
  | .panic, .panic => True
  | .hang, .hang => True
  | _, _ => False

/-- C96: two files in any encodings load alike if their characters agree in the fields of the model (whatever the bytes of the other
fields are, such as the names of features). -/
theorem C96_encoding (P : Platform) (hP : Oct.AsciiFloats P) {k k' : Nat} {b b' : Bufio UInt8} {bs bs' : List UInt8} {t t' : Str}
    (hk : k ≤ 99) (hk' : k' ≤ 99) (h : Arrives k b bs .eof) (h' : Arrives k' b' bs' .eof) (hc : Chars bs t) (hc' : Chars bs' t')
    (ha : Alike t t') (lt : Bool) :
    SameEnsemble (loaderOf (fun b => Oct.lgEnsembleFromReader P b lt) b) (loaderOf (fun b => Oct.lgEnsembleFromReader P b lt) b') := by
  rw [C96_lightgbm P hP hk h hc, C96_lightgbm P hP hk' h' hc', show (Fault.eof == Fault.fail) = false from rfl]
  have := C94_fields P lt t t' ha
  revert this
  generalize lgEnsembleFromReader P ⟨t, false⟩ lt = x
  generalize lgEnsembleFromReader P ⟨t', false⟩ lt = y
  intro this
  cases x <;> cases y <;> exact this

/-- C96: so a loader never hangs and its outcome does not depend on the pieces in which the bytes arrive. -/
theorem C96_pieces (P : Platform) (hP : Oct.AsciiFloats P) {k k' : Nat} {b b' : Bufio UInt8} {bs : List UInt8} {fin : Fault}
    (hk : k ≤ 99) (hk' : k' ≤ 99) (h : Arrives k b bs fin) (h' : Arrives k' b' bs fin) (lt : Bool) :
    loaderOf (fun b => Oct.lgEnsembleFromReader P b lt) b = loaderOf (fun b => Oct.lgEnsembleFromReader P b lt) b' := by
  obtain ⟨t, hc⟩ := Oct.chars_exists bs
  rw [C96_lightgbm P hP hk h hc, C96_lightgbm P hP hk' h' hc]

/-! ## A byte that is not UTF-8 -/

namespace BytesExample

/-- a reader that delivers the bytes three at a time -/
def feed (bs : List UInt8) : Bufio UInt8 := Bufio.new { rest := bs, lim := fun _ => 3 }

/-- loading from the bytes, with the outcome only -/
def loaded (bs : List UInt8) : Res Unit :=
  match Oct.lgEnsembleFromReader LgExample.platform (feed bs) false with
  | .ok _ => .ok ⟨⟩
  | .err e => .err e
  | .panic => .panic
  | .hang => .hang

/-- the name "grün" in Latin-1 -/
def latin1 : List UInt8 := Oct.lit "feature_names=gr" ++ [0xFC] ++ Oct.lit "n\n"

/-- the name "grün" in UTF-8 -/
def utf8 : List UInt8 := Oct.lit "feature_names=gr" ++ [0xC3, 0xBC] ++ Oct.lit "n\n"

/-- the rest of the file -/
def body : List UInt8 := Mat.utf8 (TruncationExample.head ++ TruncationExample.leaf)

end BytesExample

open BytesExample in
/-- Non-vacuity: a model with a feature named in Latin-1, which is not UTF-8, loads like one named in UTF-8; the first letter of its
name that is not ASCII is garbled. -/
theorem C96_example : loaded (latin1 ++ body) = .ok ⟨⟩ ∧ loaded (BytesExample.utf8 ++ body) = .ok ⟨⟩ ∧ Garbled [0xFC, 0x6E] ∧
    Arrives 0 (feed (latin1 ++ body)) (latin1 ++ body) .eof := by
  refine ⟨by decide +kernel, by decide +kernel, ?_, rfl, rfl, by decide, rfl, rfl, fun i => ⟨0, Nat.le_refl _, by simp [feed, Bufio.new]⟩⟩
  intro c rest e
  have := Oct.decodeRune_enc c rest
  rw [← e] at this
  have h1 : (c, (Oct.enc c).length) = (Oct.runeError, 1) := this.symm.trans (by decide)
  obtain ⟨rfl, h2⟩ := Prod.mk.inj h1
  exact absurd h2 (by decide)

end Leaves
