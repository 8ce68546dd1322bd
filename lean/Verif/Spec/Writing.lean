import Verif.Spec.MatText
import Verif.Model.Write

/-!
# Writers

The contract of `io.Writer`, and what a matrix should look like in a file.
-/

namespace Leaves.Spec

open Mat

/-- `S` keeps to the contract of `io.Writer`: it takes a first part of what it is given, adds this to what it has received (`content`),
and reports an error if it has not taken everything. -/
structure Contract {σ : Type} (S : Sink σ) (content : σ → List UInt8) : Prop where
  count : ∀ s p, (S.write s p).1 ≤ p.length
  complete : ∀ s p, (S.write s p).2.1 = false → (S.write s p).1 = p.length
  received : ∀ s p, content (S.write s p).2.2 = content s ++ p.take (S.write s p).1

/-- no write fails -/
def NeverFails {σ : Type} (S : Sink σ) : Prop := ∀ s p, (S.write s p).2.1 = false

/-- the text of a matrix: a line for every row -/
def csvText (print : F64 → Str) (delimiter : Str) (rows : List (List F64)) : Str :=
  linesText (rows.map fun row => join delimiter (row.map print))

end Leaves.Spec
