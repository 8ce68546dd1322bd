import Verif.Model.Mat

/-!
# mat/mat_io.go: writing to an io.Writer that can fail, and to a file

`bufio.Writer` and `os.File.Write` are written out as in the Go library. Text is written as UTF-8.
-/

namespace Leaves.Mat

/-- the bytes of a string -/
def utf8 (s : Str) : List UInt8 := s.flatMap String.utf8EncodeChar

/-- An `io.Writer` with state `σ`: `Write(p)` returns how many bytes it has taken, whether it returns an error, and changes the state. -/
structure Sink (σ : Type) where
  write : σ → List UInt8 → Nat × Bool × σ

section
variable {σ : Type}

/-- `_, err := fmt.Fprint(writer, s); if err != nil { return err }`, followed by `k`; `fmt` calls `Write` once with all bytes -/
def printThen (S : Sink σ) (text : Str) (k : σ → Res Unit × σ) (s : σ) : Res Unit × σ :=
  let r := S.write s (utf8 text)
  if r.2.1 then (.err "write", r.2.2) else k r.2.2

/-- mat/mat_io.go 256-267: fields of row `i` from column `j`, followed by `k` -/
def writeFieldsTo (P : Platform) (S : Sink σ) (m : DenseMat) (delimiter : Str) (i : Nat) : (j count : Nat) → (k : σ → Res Unit × σ) → σ → Res Unit × σ
  | _, 0, k, s => k s
  | j, n + 1, k, s =>
    match Res.idxI m.values (i * m.cols + j) with
    | .ok v =>
      printThen S (P.formatG19 v)
        (fun s => if (j : Int) ≠ m.cols - 1 then printThen S delimiter (writeFieldsTo P S m delimiter i (j + 1) n k) s
          else writeFieldsTo P S m delimiter i (j + 1) n k s) s
    | _ => (.panic, s)

/-- mat/mat_io.go 255-272: rows from `i` -/
def writeRowsTo (P : Platform) (S : Sink σ) (m : DenseMat) (delimiter : Str) : (i count : Nat) → σ → Res Unit × σ
  | _, 0, s => (.ok ⟨⟩, s)
  | i, n + 1, s =>
    writeFieldsTo P S m delimiter i 0 m.cols.toNat (printThen S "\n".toList (writeRowsTo P S m delimiter (i + 1) n)) s

/-- mat/mat_io.go 246-274 `WriteStr`: the result, and the writer afterwards -/
def writeStrTo (P : Platform) (S : Sink σ) (m : DenseMat) (delimiter : Str) (s : σ) : Res Unit × σ :=
  if wrap64 (m.cols * m.rows) ≠ m.values.length then (.err "matrix unconsistent", s)
  else if m.cols = 0 ∨ m.rows = 0 then printThen S "\n".toList (fun s => (.ok ⟨⟩, s)) s
  else writeRowsTo P S m delimiter 0 m.rows.toNat s

/-- `bufio.Writer`: the bytes in the buffer, whether an error has occurred, and the writer behind it -/
structure Buffered (σ : Type) where
  pending : List UInt8
  failed : Bool
  file : σ

/-- size of the buffer (`bufio.defaultBufSize`) -/
def bufSize : Nat := 4096

/-- `bufio.Writer.Flush` -/
def flush (S : Sink σ) (b : Buffered σ) : Buffered σ :=
  if b.failed then b
  else if b.pending = [] then b
  else
    let r := S.write b.file b.pending
    if r.2.1 || r.1 < b.pending.length then ⟨b.pending.drop r.1, true, r.2.2⟩
    else ⟨[], false, r.2.2⟩

/-- The loop in `bufio.Writer.Write`: `nn` bytes have been taken, `p` is left. For a writer that keeps to the contract of `io.Writer` it is
left after at most two rounds (`bufLoop_done`), so that `fuel` does not matter. -/
def bufLoop (S : Sink σ) : (fuel : Nat) → Buffered σ → List UInt8 → (nn : Nat) → Buffered σ × List UInt8 × Nat
  | 0, b, p, nn => (b, p, nn)
  | fuel + 1, b, p, nn =>
    if bufSize - b.pending.length < p.length ∧ b.failed = false then
      if b.pending = [] then
        let r := S.write b.file p
        bufLoop S fuel ⟨[], r.2.1, r.2.2⟩ (p.drop r.1) (nn + r.1)
      else
        let n := bufSize - b.pending.length
        bufLoop S fuel (flush S { b with pending := b.pending ++ p.take n }) (p.drop n) (nn + n)
    else (b, p, nn)

/-- `bufio.Writer.Write` -/
def bufWrite (S : Sink σ) (b : Buffered σ) (p : List UInt8) : Nat × Bool × Buffered σ :=
  let r := bufLoop S 3 b p 0
  if r.1.failed then (r.2.2, true, r.1)
  else (r.2.2 + r.2.1.length, false, { r.1 with pending := r.1.pending ++ r.2.1 })

/-- a `bufio.Writer` is an `io.Writer` -/
def bufSink (S : Sink σ) : Sink (Buffered σ) := ⟨bufWrite S⟩

/-- mat/mat_io.go 277-287 `ToCsvFile`: the result, and the file. `created` is the empty file, `none` if `os.Create` fails. The deferred
`Flush` runs whatever `WriteStr` returns; its error (and that of `Close`) is dropped. -/
def toCsvFile (P : Platform) (S : Sink σ) (m : DenseMat) (delimiter : Str) (created : Option σ) : Res Unit × Option σ :=
  match created with
  | none => (.err "create", none)
  | some f =>
    let r := writeStrTo P (bufSink S) m delimiter ⟨[], false, f⟩
    (r.1, some (flush S r.2).file)

end

end Leaves.Mat
