import Verif.Model.Parallel
import Verif.Spec.JsonModel
import Verif.Spec.Matrix
import Verif.Spec.XgModel

/-!
# When two machines have to predict the same

A `Platform` is what Go leaves to the machine. Two of them may differ in everything: in whether `x*y + z` is rounded once or twice (even
from one operation to the next), in what out-of-range conversions deliver, in the number of processors, in memory.
-/

namespace Leaves.Spec

/-- The value is a category that Go's conversion to int32 defines, or it is NaN at a split that declares NaN as missing. -/
def Definite (m : Missing) (x : F64) : Prop :=
  (x = .nan ∧ m = .nan) ∨ ∃ q, IsVal x q ∧ -2 ^ 31 ≤ truncQ q ∧ truncQ q < 2 ^ 31

/-- the row has definite values wherever the tree splits by category; the other values are arbitrary -/
def TreeDesc.DefiniteOn (d : TreeDesc) (row : List F64) : Prop :=
  d.inner ≠ 0 → ∀ i ∈ d.tree.inner, ∀ f m set x, LgSplit d.arrays i f (.cat m set) → row[f]? = some x → Definite m x

/-- the same for a tree of a JSON dump -/
def JDefiniteOn (row : List F64) : JRaw → Prop
  | .split f thr d dl m ms l r =>
    (∀ mis set x, JSplit thr d dl (m :: ms) (.cat mis set) → row[f]? = some x → Definite mis x) ∧ JDefiniteOn row l ∧ JDefiniteOn row r
  | _ => True

/-- the value is a float32 -/
def IsFloat32 (x : F64) : Prop := ∃ b, x = F64.ofBits32 b

/-- Whatever `e` predicts on machine `P`, `e'` predicts on machine `Q`: one row at a time, and for whole matrices with any numbers of
threads under every schedule. Only rows that satisfy `ok` are considered. -/
structure Transfers (P : Platform) (e : Ensemble) (Q : Platform) (e' : Ensemble) (ok : List F64 → Prop) : Prop where
  row : ∀ row req m m', ok row → (e.predict P row req m.length).run m = (.ok ⟨⟩, m') → (e'.predict Q row req m.length).run m = (.ok ⟨⟩, m')
  dense : ∀ (vals m m' : List F64) (r ncols : Nat) (req nt nt' : Int), 0 < r → e.nOutputGroups * r < 2 ^ 63 → r ≤ 2 ^ 53 →
    (∀ i < r, ∀ row, DenseRow vals ncols i row → ok row) → e.PredictDense P vals r ncols m req nt (.ok ⟨⟩, m') →
    ∀ out, e'.PredictDense Q vals r ncols m req nt' out ↔ out = (.ok ⟨⟩, m')
  csr : ∀ (indptr cols : List Int) (vals m m' : List F64) (r nf : Nat) (req nt nt' : Int), 0 < r → e.nOutputGroups * r < 2 ^ 63 →
    r ≤ 2 ^ 53 → indptr.length = r + 1 → e.nFeatures = nf → nf * 8 ≤ P.maxAlloc → nf * 8 ≤ Q.maxAlloc →
    (∀ i < r, ∀ row, SparseRow indptr cols vals nf (dflt e.base) i row → ok row) →
    e.PredictCSR P indptr cols vals m req nt (.ok ⟨⟩, m') →
    ∀ out, e'.PredictCSR Q indptr cols vals m req nt' out ↔ out = (.ok ⟨⟩, m')

/-- the two models predict the same on their machines -/
def Interchangeable (P : Platform) (e : Ensemble) (Q : Platform) (e' : Ensemble) (ok : List F64 → Prop) : Prop :=
  Transfers P e Q e' ok ∧ Transfers Q e' P e ok

end Leaves.Spec
