import Verif.Model.Calls
import Verif.Spec.Output

/-! # What a call does when it is the only one -/

namespace Leaves.Spec

/-- the call, made alone on a `predictions` slice with contents `before`, may return `r` and leave `after` there -/
def Alone (P : Platform) (before : List F64) (r : Res Unit) (after : List F64) : Call → Prop
  | .predict e fvals nEstimators => (e.predict P fvals nEstimators before.length).run before = (r, after)
  | .dense e vals nrows ncols nEstimators nThreads => e.PredictDense P vals nrows ncols before nEstimators nThreads (r, after)
  | .csr e indptr cols vals nEstimators nThreads => e.PredictCSR P indptr cols vals before nEstimators nThreads (r, after)

/-- no two of the `predictions` slices overlap -/
def Apart (ts : List Thread) : Prop :=
  ∀ (i j : Nat) (t u : Thread), ts[i]? = some t → ts[j]? = some u → i ≠ j → t.off + t.len ≤ u.off ∨ u.off + u.len ≤ t.off

/-- the `predictions` slices lie in a memory of the given size -/
def Inside (ts : List Thread) (size : Nat) : Prop := ∀ t ∈ ts, t.off + t.len ≤ size

/-- element `k` belongs to none of the `predictions` slices -/
def Free (ts : List Thread) (k : Nat) : Prop := ∀ t ∈ ts, k < t.off ∨ t.off + t.len ≤ k

/-- the call succeeds when it is made alone (for the matrix calls: with one thread), leaving `after`; the model's parts fit together and
the matrix is not gigantic -/
def SucceedsAlone (P : Platform) (before after : List F64) : Call → Prop
  | .predict e fvals nEstimators => (e.predict P fvals nEstimators before.length).run before = (.ok ⟨⟩, after)
  | .dense e vals nrows ncols nEstimators _ => Fits e ∧ ∃ r c w : Nat, nrows = r ∧ ncols = c ∧ e.nOutputGroups = w ∧ w * r < 2 ^ 63 ∧
      r ≤ 2 ^ 53 ∧ e.PredictDense P vals nrows ncols before nEstimators 1 (.ok ⟨⟩, after)
  | .csr e indptr cols vals nEstimators _ => Fits e ∧ ∃ r w nf : Nat, indptr.length = r + 1 ∧ e.nOutputGroups = w ∧ e.nFeatures = nf ∧
      nf * 8 ≤ P.maxAlloc ∧ w * r < 2 ^ 63 ∧ r ≤ 2 ^ 53 ∧ e.PredictCSR P indptr cols vals before nEstimators 1 (.ok ⟨⟩, after)

/-- the calls at their beginning -/
def starting (P : Platform) (cs : List (Call × Nat × Nat)) : List Thread :=
  cs.map fun c => ⟨c.2.1, c.2.2, c.1.start P c.2.2⟩

end Leaves.Spec
