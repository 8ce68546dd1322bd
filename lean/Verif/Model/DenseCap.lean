import Verif.Model.Parallel

/-! # leaves.go: PredictDense on slices with spare capacity -/

namespace Leaves.Ensemble

/-- leaves.go 187-249 `PredictDense` on a slice `vals` whose array goes on with `spare` behind its end (up to the capacity). The code
looks at `vals` only in the expressions `vals[a:b]` (211, 236), and Go compares `b` with the capacity there, not with the length. -/
def PredictDenseCap (P : Platform) (e : Ensemble) (vals spare : List F64) (nrows ncols : Int) (predictions : List F64)
    (nEstimators nThreads : Int) (out : Res Unit × List F64) : Prop :=
  e.PredictDense P (vals ++ spare) nrows ncols predictions nEstimators nThreads out

end Leaves.Ensemble
