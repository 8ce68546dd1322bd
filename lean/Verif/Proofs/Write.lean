import Verif.Spec.Writing

/-! # Lemmas on writers -/

namespace Leaves.Mat

open Spec

variable {σ : Type} {S : Sink σ} {content : σ → List UInt8}

@[simp] theorem utf8_append (a b : Str) : utf8 (a ++ b) = utf8 a ++ utf8 b := List.flatMap_append

theorem utf8_injective {a b : Str} (h : utf8 a = utf8 b) : a = b := by
  have e : a.utf8Encode = b.utf8Encode := by
    unfold List.utf8Encode
    exact congrArg List.toByteArray h
  have := congrArg ByteArray.utf8Decode? e
  rw [List.utf8Decode?_utf8Encode, List.utf8Decode?_utf8Encode] at this
  exact List.toArray_inj (Option.some.inj this)

/-- `run` writes `text`, or the first part of it and fails; it does not fail when no write fails, and keeps what every write keeps -/
structure Delivers (S : Sink σ) (content : σ → List UInt8) (run : σ → Res Unit × σ) (text : List UInt8) : Prop where
  out : ∀ s, ((run s).1 = .ok ⟨⟩ ∧ content (run s).2 = content s ++ text) ∨
    ((run s).1 = .err "write" ∧ ∃ part, part <+: text ∧ content (run s).2 = content s ++ part)
  safe : ∀ I : σ → Prop, (∀ s p, I s → (S.write s p).2.1 = false ∧ I (S.write s p).2.2) → ∀ s, I s → (run s).1 = .ok ⟨⟩ ∧ I (run s).2
  keeps : ∀ I : σ → Prop, (∀ s p, I s → I (S.write s p).2.2) → ∀ s, I s → I (run s).2

theorem Delivers.done : Delivers S content (fun s => (.ok ⟨⟩, s)) [] :=
  ⟨fun s => .inl ⟨rfl, by simp⟩, fun _ _ _ h => ⟨rfl, h⟩, fun _ _ _ h => h⟩

theorem Delivers.print (hS : Contract S content) {k : σ → Res Unit × σ} {t : List UInt8} (hk : Delivers S content k t) (text : Str) :
    Delivers S content (printThen S text k) (utf8 text ++ t) where
  out s := by
    unfold printThen
    dsimp only
    have hr := hS.received s (utf8 text)
    split
    next hf => exact .inr ⟨rfl, _, (List.take_prefix _ _).trans (List.prefix_append _ _), hr⟩
    next hf =>
      rw [hS.complete _ _ (by simpa using hf), List.take_length] at hr
      rcases hk.out (S.write s (utf8 text)).2.2 with ⟨h1, h2⟩ | ⟨h1, part, h2, h3⟩
      · exact .inl ⟨h1, by rw [h2, hr, List.append_assoc]⟩
      · exact .inr ⟨h1, utf8 text ++ part, (List.prefix_append_right_inj _).2 h2, by rw [h3, hr, List.append_assoc]⟩
  safe I hI s hs := by
    unfold printThen
    dsimp only
    rw [(hI s _ hs).1]
    exact hk.safe I hI _ (hI s _ hs).2
  keeps I hI s hs := by
    unfold printThen
    dsimp only
    split
    · exact hI _ _ hs
    · exact hk.keeps I hI _ (hI _ _ hs)

theorem Delivers.fields (hS : Contract S content) {P : Platform} {m : DenseMat} {delim : Str} {i : Nat} {k : σ → Res Unit × σ} {t : List UInt8}
    (hk : Delivers S content k t) : ∀ (n j : Nat) (text : Str), writeFields P m delim i j n = .ok text →
    Delivers S content (writeFieldsTo P S m delim i j n k) (utf8 text ++ t)
  | 0, j, text, h => by
    cases h
    exact hk
  | n + 1, j, text, h => by
    rw [writeFields] at h
    obtain ⟨v, hv, h⟩ := Res.bind_eq_ok.1 h
    obtain ⟨rest, hrest, h⟩ := Res.bind_eq_ok.1 h
    cases h
    have ih := Delivers.fields hS hk n (j + 1) rest hrest
    have e : writeFieldsTo P S m delim i j (n + 1) k = printThen S (P.formatG19 v)
        (fun s => if (j : Int) ≠ m.cols - 1 then printThen S delim (writeFieldsTo P S m delim i (j + 1) n k) s
          else writeFieldsTo P S m delim i (j + 1) n k s) := by
      funext s
      rw [writeFieldsTo, hv]
    rw [e, utf8_append, utf8_append, List.append_assoc, List.append_assoc]
    refine Delivers.print hS ?_ _
    by_cases hj : (j : Int) ≠ m.cols - 1
    · simp only [if_pos hj]
      exact Delivers.print hS ih _
    · simp only [if_neg hj]
      exact ih

theorem Delivers.rows (hS : Contract S content) {P : Platform} {m : DenseMat} {delim : Str} : ∀ (n i : Nat) (text : Str),
    writeRows P m delim i n = .ok text → Delivers S content (writeRowsTo P S m delim i n) (utf8 text)
  | 0, i, text, h => by
    cases h
    exact Delivers.done
  | n + 1, i, text, h => by
    rw [writeRows] at h
    obtain ⟨line, hl, h⟩ := Res.bind_eq_ok.1 h
    obtain ⟨rest, hrest, h⟩ := Res.bind_eq_ok.1 h
    cases h
    have e : writeRowsTo P S m delim i (n + 1) =
        writeFieldsTo P S m delim i 0 m.cols.toNat (printThen S "\n".toList (writeRowsTo P S m delim (i + 1) n)) := by
      funext s
      rw [writeRowsTo]
    rw [e, utf8_append, utf8_append, List.append_assoc]
    exact Delivers.fields hS (Delivers.print hS (Delivers.rows hS n (i + 1) rest hrest) _) _ _ _ hl

/-- whatever `writeStr` says is delivered -/
theorem Delivers.str (hS : Contract S content) {P : Platform} {m : DenseMat} {delim : Str} {text : Str} (h : writeStr P m delim = .ok text) :
    Delivers S content (writeStrTo P S m delim) (utf8 text) := by
  unfold writeStr at h
  split at h
  · cases h
  next h1 =>
    split at h
    next h2 =>
      cases h
      have e : writeStrTo P S m delim = printThen S "\n".toList (fun s => (.ok ⟨⟩, s)) := by
        funext s
        rw [writeStrTo, if_neg h1, if_pos h2]
      rw [e]
      simpa using Delivers.print hS Delivers.done "\n".toList
    next h2 =>
      have e : writeStrTo P S m delim = writeRowsTo P S m delim 0 m.rows.toNat := by
        funext s
        rw [writeStrTo, if_neg h1, if_neg h2]
      rw [e]
      exact Delivers.rows hS _ _ _ h

/-! ### buffered writers -/

/-- everything a buffered writer has taken -/
def taken (content : σ → List UInt8) (b : Buffered σ) : List UInt8 := content b.file ++ b.pending

theorem flush_taken (hS : Contract S content) (b : Buffered σ) : taken content (flush S b) = taken content b := by
  unfold flush
  split
  · rfl
  · split
    · rfl
    · dsimp only
      split
      next h => simp only [taken, hS.received, List.append_assoc, List.take_append_drop]
      next h =>
        simp only [Bool.or_eq_true, decide_eq_true_eq, not_or, not_lt] at h
        simp only [taken, hS.received, List.append_nil]
        rw [List.take_of_length_le h.2]

/-- a flush that does not fail leaves nothing in the buffer -/
theorem flush_empty (b : Buffered σ) (h : (flush S b).failed = false) : (flush S b).pending = [] := by
  unfold flush at h ⊢
  split
  next hf => rw [if_pos hf] at h; rw [hf] at h; cases h
  next hf =>
    split
    next he => exact he
    next he =>
      rw [if_neg hf, if_neg he] at h
      dsimp only at h ⊢
      split at h
      · cases h
      next hn => rw [if_neg hn]

theorem flush_short (b : Buffered σ) : (flush S b).pending.length ≤ b.pending.length := by
  unfold flush
  split
  · exact le_rfl
  · split
    · exact le_rfl
    · dsimp only
      split
      · simp
      · simp

theorem flush_fail {b : Buffered σ} (hS : NeverFails S) (hC : Contract S content) (hb : b.failed = false) : (flush S b).failed = false := by
  unfold flush
  rw [hb, if_neg Bool.false_ne_true]
  split
  · exact hb
  · dsimp only
    rw [if_neg (by rw [hS, hC.complete _ _ (hS _ _)]; simp)]

theorem bufLoop_taken (hS : Contract S content) : ∀ (fuel : Nat) (b : Buffered σ) (p : List UInt8) (nn : Nat), ∃ n ≤ p.length,
    (bufLoop S fuel b p nn).2 = (p.drop n, nn + n) ∧ taken content (bufLoop S fuel b p nn).1 = taken content b ++ p.take n
  | 0, b, p, nn => ⟨0, by omega, by simp [bufLoop], by simp [bufLoop]⟩
  | fuel + 1, b, p, nn => by
    rw [bufLoop]
    split
    next hc =>
      split
      next he =>
        obtain ⟨n, h1, h2, h3⟩ := bufLoop_taken hS fuel ⟨[], (S.write b.file p).2.1, (S.write b.file p).2.2⟩ (p.drop (S.write b.file p).1)
          (nn + (S.write b.file p).1)
        have hc := hS.count b.file p
        rw [List.length_drop] at h1
        refine ⟨(S.write b.file p).1 + n, by omega, ?_, ?_⟩
        · dsimp only
          rw [h2, List.drop_drop, Nat.add_assoc]
        · dsimp only
          rw [h3, List.take_add]
          simp only [taken, hS.received, he, List.append_nil, List.append_assoc]
      next he =>
        obtain ⟨n, h1, h2, h3⟩ := bufLoop_taken hS fuel (flush S { b with pending := b.pending ++ p.take (bufSize - b.pending.length) })
          (p.drop (bufSize - b.pending.length)) (nn + (bufSize - b.pending.length))
        rw [List.length_drop] at h1
        refine ⟨bufSize - b.pending.length + n, by omega, ?_, ?_⟩
        · dsimp only
          rw [h2, List.drop_drop, Nat.add_assoc]
        · dsimp only
          rw [h3, List.take_add, flush_taken hS]
          simp only [taken, List.append_assoc]
    next => exact ⟨0, by omega, by simp, by simp⟩

theorem bufSink_contract (hS : Contract S content) : Contract (bufSink S) (taken content) where
  count b p := by
    obtain ⟨n, h1, h2, -⟩ := bufLoop_taken hS 3 b p 0
    show (bufWrite S b p).1 ≤ p.length
    unfold bufWrite
    dsimp only
    rw [h2]
    split
    · simpa using h1
    · simp [h1]
  complete b p h := by
    obtain ⟨n, h1, h2, -⟩ := bufLoop_taken hS 3 b p 0
    show (bufWrite S b p).1 = p.length
    have h : (bufWrite S b p).2.1 = false := h
    unfold bufWrite at h ⊢
    dsimp only at h ⊢
    split at h
    · cases h
    next hf =>
      rw [if_neg hf, h2]
      simp [h1]
  received b p := by
    obtain ⟨n, h1, h2, h3⟩ := bufLoop_taken hS 3 b p 0
    show taken content (bufWrite S b p).2.2 = taken content b ++ p.take (bufWrite S b p).1
    unfold bufWrite
    dsimp only
    rw [h2]
    split
    · simpa using h3
    · have : taken content { (bufLoop S 3 b p 0).1 with pending := (bufLoop S 3 b p 0).1.pending ++ p.drop n } =
          taken content (bufLoop S 3 b p 0).1 ++ p.drop n := by simp [taken]
      rw [this, h3, List.append_assoc, List.take_append_drop]
      simp [h1]

/-- The loop condition is false after two rounds at most; the buffer never overflows. -/
theorem bufLoop_done (hS : Contract S content) (b : Buffered σ) (hb : b.pending.length ≤ bufSize) (p : List UInt8) (nn : Nat) :
    (bufLoop S 3 b p nn).1.pending.length ≤ bufSize ∧
    ((bufLoop S 3 b p nn).1.failed = false →
      (bufLoop S 3 b p nn).1.pending.length + (bufLoop S 3 b p nn).2.1.length ≤ bufSize) ∧
    ∀ k, bufLoop S (3 + k) b p nn = bufLoop S 3 b p nn := by
  -- a state in which the loop stops
  have stop : ∀ (b : Buffered σ) (p : List UInt8) (nn : Nat), b.pending.length ≤ bufSize →
      ¬ (bufSize - b.pending.length < p.length ∧ b.failed = false) →
      ∀ k, bufLoop S k b p nn = (b, p, nn) := by
    intro b p nn hb hc k
    cases k with
    | zero => rfl
    | succ k => rw [bufLoop, if_neg hc]
  have fin : ∀ (b : Buffered σ) (p : List UInt8) (nn : Nat), b.pending.length ≤ bufSize →
      ¬ (bufSize - b.pending.length < p.length ∧ b.failed = false) → b.failed = false → b.pending.length + p.length ≤ bufSize := by
    intro b p nn hb hc hf
    simp only [hf, and_true, not_lt] at hc
    omega
  -- after a direct write
  have direct : ∀ (f : σ) (p : List UInt8), ¬ (bufSize - ([] : List UInt8).length < (p.drop (S.write f p).1).length ∧ (S.write f p).2.1 = false) := by
    rintro f p ⟨h1, h2⟩
    rw [hS.complete _ _ h2, List.drop_length] at h1
    simp at h1
  -- with an empty buffer
  have empty : ∀ (b : Buffered σ) (p : List UInt8) (nn : Nat), b.pending = [] → ∃ b' p' nn', b'.pending.length ≤ bufSize ∧
      ¬ (bufSize - b'.pending.length < p'.length ∧ b'.failed = false) ∧ ∀ k, bufLoop S (1 + k) b p nn = (b', p', nn') := by
    intro b p nn he
    by_cases hc : bufSize - b.pending.length < p.length ∧ b.failed = false
    · refine ⟨⟨[], (S.write b.file p).2.1, (S.write b.file p).2.2⟩, p.drop (S.write b.file p).1, nn + (S.write b.file p).1, ?_,
        direct b.file p, fun k => ?_⟩
      · exact Nat.zero_le _
      · rw [Nat.add_comm, bufLoop, if_pos hc, if_pos he]
        exact stop _ _ _ (Nat.zero_le _) (direct b.file p) k
    · exact ⟨b, p, nn, by rw [he]; exact Nat.zero_le _, hc, fun k => stop b p nn (by rw [he]; exact Nat.zero_le _) hc _⟩
  suffices h : ∃ b' p' nn', b'.pending.length ≤ bufSize ∧ ¬ (bufSize - b'.pending.length < p'.length ∧ b'.failed = false) ∧
      ∀ k, bufLoop S (2 + k) b p nn = (b', p', nn') by
    obtain ⟨b', p', nn', h1, h2, h3⟩ := h
    have e3 : bufLoop S 3 b p nn = (b', p', nn') := h3 1
    rw [e3]
    exact ⟨h1, fin b' p' nn' h1 h2, fun k => by rw [show 3 + k = 2 + (1 + k) by omega]; exact h3 _⟩
  by_cases hc : bufSize - b.pending.length < p.length ∧ b.failed = false
  · by_cases he : b.pending = []
    · obtain ⟨b', p', nn', h1, h2, h3⟩ := empty b p nn he
      exact ⟨b', p', nn', h1, h2, fun k => by rw [show 2 + k = 1 + (1 + k) by omega]; exact h3 _⟩
    · have step : ∀ k, bufLoop S (2 + k) b p nn = bufLoop S (1 + k)
          (flush S { b with pending := b.pending ++ p.take (bufSize - b.pending.length) }) (p.drop (bufSize - b.pending.length))
          (nn + (bufSize - b.pending.length)) := by
        intro k
        rw [show 2 + k = (1 + k) + 1 by omega, bufLoop, if_pos hc, if_neg he]
      have hfl : (flush S { b with pending := b.pending ++ p.take (bufSize - b.pending.length) }).pending.length ≤ bufSize := by
        refine (flush_short _).trans ?_
        simp only [List.length_append, List.length_take]
        omega
      by_cases hff : (flush S { b with pending := b.pending ++ p.take (bufSize - b.pending.length) }).failed = false
      · obtain ⟨b', p', nn', h1, h2, h3⟩ := empty _ (p.drop (bufSize - b.pending.length)) (nn + (bufSize - b.pending.length)) (flush_empty _ hff)
        exact ⟨b', p', nn', h1, h2, fun k => by rw [step]; exact h3 _⟩
      · have hst : ¬ (bufSize - (flush S { b with pending := b.pending ++ p.take (bufSize - b.pending.length) }).pending.length <
            (p.drop (bufSize - b.pending.length)).length ∧
            (flush S { b with pending := b.pending ++ p.take (bufSize - b.pending.length) }).failed = false) := fun h => hff h.2
        exact ⟨_, _, _, hfl, hst, fun k => by rw [step]; exact stop _ _ _ hfl hst _⟩
  · exact ⟨b, p, nn, hb, hc, fun k => stop b p nn hb hc _⟩

theorem bufWrite_bound (hS : Contract S content) (b : Buffered σ) (hb : b.pending.length ≤ bufSize) (p : List UInt8) :
    (bufWrite S b p).2.2.pending.length ≤ bufSize := by
  obtain ⟨h1, h2, -⟩ := bufLoop_done hS b hb p 0
  unfold bufWrite
  dsimp only
  split
  · exact h1
  next hf =>
    rw [List.length_append]
    exact h2 (by simpa using hf)

theorem bufLoop_failed (hN : NeverFails S) (hS : Contract S content) : ∀ (fuel : Nat) (b : Buffered σ) (p : List UInt8) (nn : Nat), b.failed = false →
    (bufLoop S fuel b p nn).1.failed = false
  | 0, b, p, nn, h => h
  | fuel + 1, b, p, nn, h => by
    rw [bufLoop]
    split
    · split
      · exact bufLoop_failed hN hS fuel _ _ _ (hN _ _)
      · exact bufLoop_failed hN hS fuel _ _ _ (flush_fail hN hS h)
    · exact h

theorem bufWrite_safe (hN : NeverFails S) (hS : Contract S content) (b : Buffered σ) (p : List UInt8) (h : b.failed = false) :
    (bufWrite S b p).2.1 = false ∧ (bufWrite S b p).2.2.failed = false := by
  have := bufLoop_failed hN hS 3 b p 0 h
  unfold bufWrite
  dsimp only
  rw [if_neg (by rw [this]; exact Bool.false_ne_true)]
  exact ⟨rfl, this⟩

end Leaves.Mat
