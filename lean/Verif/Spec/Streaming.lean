import Verif.Model.Bufio

/-!
# What "the same bytes, delivered in pieces" means
-/

namespace Leaves.Spec

/-- At most `k` reads in a row are empty; `k = 0`: every read delivers something (or the final error). -/
def Patient (k : Nat) (lim : Nat → Nat) : Prop := ∀ i, ∃ j ≤ k, lim (i + j) ≠ 0

/-- A `*bufio.Reader` that has handed out nothing yet, over a reader that delivers exactly `input` and then
`fin`, in pieces of any size with at most `k` empty reads in a row. Its buffer has any size that
`bufio.NewReaderSize` allows (16 or more). -/
structure Arrives {α : Type} (k : Nat) (b : Bufio α) (input : List α) (fin : Fault) : Prop where
  fresh : b.buf = []
  noError : b.err = none
  room : 16 ≤ b.cap
  content : b.feed.rest = input
  ending : b.feed.fin = fin
  patient : Patient k b.feed.lim

end Leaves.Spec
