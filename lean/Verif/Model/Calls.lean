import Verif.Model.Parallel

/-!
# Several goroutines of a program calling Predict, PredictDense and PredictCSR at the same time

The three methods read the model and their arguments and write only `predictions` (leaves.go 33-44, 80-96, 104-180, 187-249; nothing in
these functions or in the functions they call assigns to a field of the model), so the shared state of the calls is the memory that
their `predictions` slices point into. Each call is a state machine that loads and stores one element at a time; the calls take steps in
any order.

Simplification: the arguments other than `predictions` do not overlap with any `predictions` slice. A panic ends the call it occurs in;
in Go it also ends the other calls (unless recovered), so the executions of the model include all those of the program.
-/

namespace Leaves

/-- A call with its arguments other than `predictions` (leaves.go 80, 104, 187). -/
inductive Call where
  | predict (e : Ensemble) (fvals : List F64) (nEstimators : Int)
  | dense (e : Ensemble) (vals : List F64) (nrows ncols nEstimators nThreads : Int)
  | csr (e : Ensemble) (indptr cols : List Int) (vals : List F64) (nEstimators nThreads : Int)

/-- What is left to do of a call. -/
inductive CallState where
  /-- executing in the goroutine of the caller -/
  | prog (p : GoM Unit)
  /-- the worker pool of PredictDense -/
  | densePool (J : Job Unit) (pc : MainPc) (ws : List (Worker Unit))
  /-- the worker pool of PredictCSR -/
  | csrPool (J : Job (List F64)) (pc : MainPc) (ws : List (Worker (List F64)))
  /-- returned or panicked -/
  | done (r : Res Unit)

/-- The call at its beginning; `len` is `len(predictions)`. The checks (leaves.go 81-90, 105-113, 195-206) load and store nothing. -/
def Call.start (P : Platform) (len : Nat) : Call → CallState
  | .predict e fvals nEstimators => .prog (e.predict P fvals nEstimators len)
  | .dense e vals nrows ncols nEstimators nThreads =>
    match e.denseChecks nrows ncols nEstimators len with
    | .ok n =>
      match plan P nrows nThreads with
      | .sequential => .prog (e.denseRows P vals ncols n 0 nrows.toNat)
      | .parallel t b => .densePool (e.denseJob P vals ncols n nrows.toNat t b) (.spawning 0) []
    | .err t => .prog (.stop (.err t))
    | .panic => .prog (.stop .panic)
    | .hang => .prog (.stop .hang)
  | .csr e indptr cols vals nEstimators nThreads =>
    let nRows : Int := indptr.length - 1
    match e.csrChecks nRows nEstimators len with
    | .ok n =>
      match plan P nRows nThreads with
      | .sequential => .prog (e.csrSequential P indptr cols vals n)
      | .parallel t b => .csrPool (e.csrJob P indptr cols vals n nRows.toNat t b) (.spawning 0) []
    | .err t => .prog (.stop (.err t))
    | .panic => .prog (.stop .panic)
    | .hang => .prog (.stop .hang)

/-- One step of one goroutine of a call; the list is the contents of its `predictions`. -/
inductive CallState.Step : CallState × List F64 → CallState × List F64 → Prop where
  | load {i k m} (hr : GoM.inRange i m.length = true) : Step (.prog (.load i k), m) (.prog (k (m.getD i.toNat .zero)), m)
  | store {i v k m} (hr : GoM.inRange i m.length = true) : Step (.prog (.store i v k), m) (.prog k, m.set i.toNat v)
  | loadPanic {i k m} (hr : GoM.inRange i m.length = false) : Step (.prog (.load i k), m) (.done .panic, m)
  | storePanic {i v k m} (hr : GoM.inRange i m.length = false) : Step (.prog (.store i v k), m) (.done .panic, m)
  | ret {m} : Step (.prog (.ret ⟨⟩), m) (.done (.ok ⟨⟩), m)
  /-- an error is returned, or a panic that is no index error; a program that hangs takes no step -/
  | stop {s m} (hs : s ≠ .hang) : Step (.prog (.stop s), m) (.done s.toRes, m)
  | dense {J pc ws m pc' ws' m'} (h : PState.Step J ⟨pc, ws, m⟩ ⟨pc', ws', m'⟩) : Step (.densePool J pc ws, m) (.densePool J pc' ws', m')
  | denseRet {J ws m} : Step (.densePool J .returned ws, m) (.done (.ok ⟨⟩), m)
  | densePanic {J ws m} : Step (.densePool J .crashed ws, m) (.done .panic, m)
  | csr {J pc ws m pc' ws' m'} (h : PState.Step J ⟨pc, ws, m⟩ ⟨pc', ws', m'⟩) : Step (.csrPool J pc ws, m) (.csrPool J pc' ws', m')
  | csrRet {J ws m} : Step (.csrPool J .returned ws, m) (.done (.ok ⟨⟩), m)
  | csrPanic {J ws m} : Step (.csrPool J .crashed ws, m) (.done .panic, m)

/-- any number of steps of a call that runs alone -/
inductive CallState.Steps : Nat → CallState × List F64 → CallState × List F64 → Prop where
  | refl (s) : Steps 0 s s
  | tail {n s t u} : Steps n s t → Step t u → Steps (n + 1) s u

/-- A running call: its `predictions` are the elements `[off, off + len)` of the memory. -/
structure Thread where
  off : Nat
  len : Nat
  st : CallState

/-- the contents of the call's `predictions` -/
def Thread.view (t : Thread) (mem : List F64) : List F64 := (mem.drop t.off).take t.len

/-- the memory after the call has changed its `predictions` to `w` -/
def Thread.put (t : Thread) (mem w : List F64) : List F64 := mem.take t.off ++ w ++ mem.drop (t.off + t.len)

/-- One step of one of the calls. -/
inductive World.Step : List Thread × List F64 → List Thread × List F64 → Prop where
  | step {ts m} {i : Nat} {t st w} (hi : ts[i]? = some t) (h : CallState.Step (t.st, t.view m) (st, w)) :
      Step (ts, m) (ts.set i ⟨t.off, t.len, st⟩, t.put m w)

/-- any number of steps of any of the calls in any order -/
inductive World.Steps : Nat → List Thread × List F64 → List Thread × List F64 → Prop where
  | refl (s) : Steps 0 s s
  | tail {n s t u} : Steps n s t → Step t u → Steps (n + 1) s u

end Leaves
