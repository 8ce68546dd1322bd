import Verif.Proofs.Write
import Verif.Props.Mat
import Verif.Props.Decimal

/-!
# C87: writing matrices to writers that can fail, and to files
-/

namespace Leaves

open Mat

open Spec (Contract NeverFails csvText DenseOf linesText join numberChars)

/-- the text that `writeStr` gives -/
theorem writeStr_text {P : Platform} {m : DenseMat} {delim : Str} {rows : List (List F64)} {c : Nat} (hm : DenseOf rows c m)
    (hl : ∀ row ∈ rows, row.length = c) (h1 : rows ≠ []) (h2 : 1 ≤ c) (hb : rows.length * c < 2 ^ 63) :
    writeStr P m delim = .ok (csvText P.formatG19 delim rows) := by
  have hlen : m.values.length = rows.length * c := by
    rw [hm.values, List.length_flatten]
    have : rows.map List.length = List.replicate rows.length c := by
      rw [List.eq_replicate_iff]
      refine ⟨by simp, fun n hn => ?_⟩
      obtain ⟨row, hr, rfl⟩ := List.mem_map.1 hn
      exact hl row hr
    rw [this, List.sum_replicate_nat]
  have hw : wrap64 (m.cols * m.rows) = (m.values.length : Int) := by
    rw [hm.cols, hm.rows, show (c : Int) * rows.length = ((rows.length * c : Nat) : Int) by push_cast; ring, hlen]
    exact wrap64_id (by omega) (by omega)
  have h3 : 0 < rows.length := List.length_pos_iff.2 h1
  unfold writeStr
  rw [hw, if_neg (by simp), if_neg (by rw [hm.cols, hm.rows]; omega), hm.rows, Int.toNat_natCast]
  refine writeRows_rows hm.cols rows 0 fun j row hj => ?_
  rw [Nat.zero_add, hm.values]
  exact flatten_row rows hl j row hj

/-- **C87, WriteStr.** On a writer that keeps to the contract of `io.Writer`, WriteStr returns nil only if the writer has received the
whole text of the matrix; otherwise it returns an error and the writer has received a first part of the text. It does not fail unless a
write fails. -/
theorem C87_write_str (P : Platform) {σ : Type} (S : Sink σ) (content : σ → List UInt8) (hS : Contract S content) (m : DenseMat)
    (delim : Str) (rows : List (List F64)) (c : Nat) (hm : DenseOf rows c m) (hl : ∀ row ∈ rows, row.length = c) (h1 : rows ≠ [])
    (h2 : 1 ≤ c) (hb : rows.length * c < 2 ^ 63) (s : σ) :
    (((writeStrTo P S m delim s).1 = .ok ⟨⟩ ∧
        content (writeStrTo P S m delim s).2 = content s ++ utf8 (csvText P.formatG19 delim rows)) ∨
      (∃ tag, (writeStrTo P S m delim s).1 = .err tag) ∧
        ∃ part, part <+: utf8 (csvText P.formatG19 delim rows) ∧ content (writeStrTo P S m delim s).2 = content s ++ part) ∧
    (NeverFails S → (writeStrTo P S m delim s).1 = .ok ⟨⟩) := by
  have hd := Delivers.str hS (writeStr_text (P := P) (delim := delim) hm hl h1 h2 hb)
  refine ⟨(hd.out s).imp_right fun h => ⟨⟨_, h.1⟩, h.2⟩, fun hN => (hd.safe (fun _ => True) (fun s p _ => ⟨hN s p, trivial⟩) s trivial).1⟩

/-- **C87, WriteStr.** A matrix whose dimensions do not fit the number of values is rejected before anything is written. -/
theorem C87_inconsistent (P : Platform) {σ : Type} (S : Sink σ) (m : DenseMat) (delim : Str) (s : σ) (r c : Nat) (hr : m.rows = r)
    (hc : m.cols = c) (hb : r * c < 2 ^ 63) (h : m.values.length ≠ r * c) :
    ∃ tag, writeStrTo P S m delim s = (.err tag, s) := by
  have hw : wrap64 (m.cols * m.rows) = ((r * c : Nat) : Int) := by
    rw [hr, hc, show (c : Int) * r = ((r * c : Nat) : Int) by push_cast; ring]
    exact wrap64_id (by omega) (by omega)
  unfold writeStrTo
  rw [hw, if_pos (by omega)]
  exact ⟨_, rfl⟩

/-- C87 for files, the part that holds: if ToCsvFile returns nil, the file has the text of the matrix except for at most 4096 bytes at its
end; if it returns an error, the file (if there is one) has a first part of the text. If no write to the file fails, nil is returned and the
file has exactly the text of the matrix.

Missing for the full property, that nil is only returned if the file has the whole text: see `C87_to_csv_silent`. -/
theorem C87_to_csv_partial (P : Platform) {σ : Type} (S : Sink σ) (content : σ → List UInt8) (hS : Contract S content) (m : DenseMat)
    (delim : Str) (rows : List (List F64)) (c : Nat) (hm : DenseOf rows c m) (hl : ∀ row ∈ rows, row.length = c) (h1 : rows ≠ [])
    (h2 : 1 ≤ c) (hb : rows.length * c < 2 ^ 63) (f : σ) (hf : content f = []) :
    ∃ res f', toCsvFile P S m delim (some f) = (res, some f') ∧
      (res = .ok ⟨⟩ ∧ (∃ missing, missing.length ≤ 4096 ∧ content f' ++ missing = utf8 (csvText P.formatG19 delim rows)) ∨
        (∃ tag, res = .err tag) ∧ content f' <+: utf8 (csvText P.formatG19 delim rows)) ∧
      (NeverFails S → res = .ok ⟨⟩ ∧ content f' = utf8 (csvText P.formatG19 delim rows)) := by
  have hB := bufSink_contract hS
  have hd := Delivers.str hB (writeStr_text (P := P) (delim := delim) hm hl h1 h2 hb)
  have hbound := hd.keeps (fun b => b.pending.length ≤ bufSize) (fun b p hb => bufWrite_bound hS b hb p) ⟨[], false, f⟩ (Nat.zero_le _)
  refine ⟨_, _, rfl, ?_, fun hN => ?_⟩
  · rcases hd.out ⟨[], false, f⟩ with ⟨g1, g2⟩ | ⟨g1, part, g2, g3⟩
    · refine .inl ⟨g1, _, (flush_short (S := S) _).trans hbound, ?_⟩
      have := flush_taken hS (writeStrTo P (bufSink S) m delim ⟨[], false, f⟩).2
      unfold taken at this
      rw [this]
      unfold taken at g2
      rw [g2, hf]
      rfl
    · refine .inr ⟨⟨_, g1⟩, ?_⟩
      have := flush_taken hS (writeStrTo P (bufSink S) m delim ⟨[], false, f⟩).2
      rw [g3] at this
      unfold taken at this
      rw [hf] at this
      exact (List.prefix_append _ _).trans (by rw [this]; exact g2)
  · obtain ⟨g1, g2⟩ := hd.safe (fun b => b.failed = false) (fun b p hb => bufWrite_safe hN hS b p hb) ⟨[], false, f⟩ rfl
    refine ⟨g1, ?_⟩
    have hfl := flush_fail hN hS g2
    have he := flush_empty _ hfl
    have := flush_taken hS (writeStrTo P (bufSink S) m delim ⟨[], false, f⟩).2
    rcases hd.out ⟨[], false, f⟩ with ⟨-, g3⟩ | ⟨g3, -⟩
    · rw [g3] at this
      unfold taken at this
      rw [he, hf] at this
      simpa using this
    · rw [g1] at g3
      cases g3

/-- **C87.** A matrix written with ToCsvFile to a file on which no write fails, and read again with DenseMatFromCsvFile, is the same
matrix, bit for bit. -/
theorem C87_file_roundtrip (P : Platform) (hP : Strconv.Standard P) {σ : Type} (S : Sink σ) (content : σ → List UInt8)
    (hS : Contract S content) (hN : NeverFails S) (m : DenseMat) (delim : Str) (d : F64) (rows : List (List F64)) (c : Nat)
    (hm : DenseOf rows c m) (hl : ∀ row ∈ rows, row.length = c) (h1 : rows ≠ []) (h2 : 1 ≤ c) (hb : rows.length * c < 2 ^ 63)
    (hd : delim ≠ []) (hdn : '\n' ∉ delim) (hda : ∀ ch ∈ delim, ch ∉ numberChars) (f : σ) (hf : content f = []) :
    ∃ f', toCsvFile P S m delim (some f) = (.ok ⟨⟩, some f') ∧ (∃ text, utf8 text = content f') ∧
      ∀ text, utf8 text = content f' → denseMatFromCsv P ⟨text, false⟩ 0 false delim d = .ok m := by
  obtain ⟨res, f', g1, -, g2⟩ := C87_to_csv_partial P S content hS m delim rows c hm hl h1 h2 hb f hf
  obtain ⟨rfl, g3⟩ := g2 hN
  refine ⟨f', g1, ⟨_, g3.symm⟩, fun text ht => ?_⟩
  rw [g3] at ht
  obtain rfl := utf8_injective ht
  have hlen : m.values.length = rows.length * c := by
    rw [hm.values, List.length_flatten]
    have : rows.map List.length = List.replicate rows.length c := by
      rw [List.eq_replicate_iff]
      refine ⟨by simp, fun n hn => ?_⟩
      obtain ⟨row, hr, rfl⟩ := List.mem_map.1 hn
      exact hl row hr
    rw [this, List.sum_replicate_nat]
  obtain ⟨text, t1, t2⟩ := C83_csv_roundtrip P hP m delim d rows.length c hm.rows hm.cols (List.length_pos_iff.2 h1) h2 hlen hb hd hdn hda
  rw [writeStr_text hm hl h1 h2 hb] at t1
  cases t1
  exact t2

namespace WriteExample

/-- a file system with room for a number of bytes: the bytes written, and the bytes left -/
def disk : Sink (List UInt8 × Nat) :=
  ⟨fun s p => (min s.2 p.length, decide (s.2 < p.length), (s.1 ++ p.take s.2, s.2 - p.length))⟩

theorem disk_contract : Contract disk Prod.fst where
  count s p := Nat.min_le_right _ _
  complete s p h := by
    have : ¬ s.2 < p.length := by simpa [disk] using h
    show min s.2 p.length = p.length
    omega
  received s p := by
    show s.1 ++ p.take s.2 = s.1 ++ p.take (min s.2 p.length)
    congr 1
    rcases Nat.le_total s.2 p.length with h | h
    · rw [Nat.min_eq_left h]
    · rw [Nat.min_eq_right h, List.take_of_length_le h, List.take_length]

/-- a file system with room for everything -/
def roomy : Sink (List UInt8) := ⟨fun s p => (p.length, false, s ++ p)⟩

theorem roomy_contract : Contract roomy id where
  count s p := le_rfl
  complete s p h := rfl
  received s p := by show s ++ p = s ++ p.take p.length; rw [List.take_length]

def rows : List (List F64) := [[F64.ofNat 1, F64.ofNat 2], [F64.ofNat 3, F64.ofNat 4]]
def mat : DenseMat := ⟨rows.flatten, 2, 2⟩

theorem mat_of : DenseOf rows 2 mat := ⟨rfl, rfl, rfl⟩

/-- C87 applies to this matrix on the small disk, on the large one, and with the printing and parsing of the Go library. -/
example (P : Platform) (room : Nat) := C87_write_str P disk Prod.fst disk_contract mat ";".toList rows 2 mat_of (by decide) (by decide) (by decide) (by decide) ([], room)

example (P : Platform) (room : Nat) := C87_to_csv_partial P disk Prod.fst disk_contract mat ";".toList rows 2 mat_of (by decide) (by decide) (by decide) (by decide) ([], room) rfl

example (P : Platform) (hP : Strconv.Standard P) := C87_file_roundtrip P hP roomy id roomy_contract (fun _ _ => rfl) mat ";".toList F64.nan rows 2 mat_of (by decide) (by decide)
  (by decide) (by decide) (by decide) (by decide) (by decide) [] rfl

/-- C87 is false for files: on a full disk, ToCsvFile returns nil and leaves an empty file. -/
theorem C87_to_csv_silent : toCsvFile Platform.demo disk mat ",".toList (some ([], 0)) = (.ok ⟨⟩, some ([], 0)) ∧
    utf8 (csvText Platform.demo.formatG19 ",".toList rows) ≠ [] := by
  constructor
  · decide +kernel
  · decide +kernel

/-- WriteStr itself reports the error of the same disk. -/
example : (writeStrTo Platform.demo disk mat ",".toList ([], 0)).1 = .err "write" := by decide +kernel

end WriteExample

end Leaves
