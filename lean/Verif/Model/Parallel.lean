import Verif.Model.Predict

/-!
# leaves.go 129-155 and 223-248: the worker pool as a transition system

The main goroutine starts `nThreads` workers, sends the start index of every batch over an unbuffered
channel, closes the channel and waits for the workers. Each worker executes its batch one load or store
of `predictions` at a time. Worker-private data (the CSR row buffer) is the local state `σ`.
-/

namespace Leaves

/-- A worker goroutine. -/
inductive Worker (σ : Type) where
  /-- `go func()` executed, body not started yet -/
  | created
  /-- blocked on `range tasks` (leaves.go 138, 230) with local state -/
  | idle (s : σ)
  /-- executing a batch; the rest of the program -/
  | busy (p : GoM σ)
  /-- returned: `wg.Done()` executed -/
  | exited

/-- Program counter of the calling goroutine. -/
inductive MainPc where
  /-- about to start worker `i` (leaves.go 132, 226) -/
  | spawning (i : Nat)
  /-- about to send batch `i` (leaves.go 150, 243) -/
  | sending (i : Nat)
  /-- channel closed, in `wg.Wait()` (leaves.go 153-154, 246-247) -/
  | waiting
  /-- returned nil (leaves.go 155, 248) -/
  | returned
  /-- a goroutine panicked: the process is gone -/
  | crashed
deriving DecidableEq

/-- Global state of a parallel prediction. -/
structure PState (σ : Type) where
  main : MainPc
  workers : List (Worker σ)
  mem : List F64

/-- Everything that is fixed during a parallel prediction. -/
structure Job (σ : Type) where
  nThreads : Nat
  nBatches : Nat
  /-- allocation of the worker-local state at goroutine start (leaves.go 136-137) -/
  init : Res σ
  /-- the work done for the batch starting at row `startIndex` (leaves.go 139-144, 231-237) -/
  task : (startIndex : Nat) → σ → GoM σ

namespace PState

/-- Initial state: `predictions` as passed in, no workers. -/
def start {σ : Type} (mem : List F64) : PState σ := ⟨.spawning 0, [], mem⟩

/-- One step of one goroutine. -/
inductive Step {σ : Type} (J : Job σ) : PState σ → PState σ → Prop where
  /-- leaves.go 132-147, 226-240: `wg.Add(1); go func() …` -/
  | spawn {i ws m} (h : i < J.nThreads) :
      Step J ⟨.spawning i, ws, m⟩ ⟨.spawning (i + 1), ws ++ [Worker.created], m⟩
  /-- leaves.go 132, 226: loop exit -/
  | spawned {i ws m} (h : ¬ i < J.nThreads) :
      Step J ⟨.spawning i, ws, m⟩ ⟨.sending 0, ws, m⟩
  /-- leaves.go 136-137: the worker allocates its local state -/
  | begin {pc ws m} {w : Nat} {s} (hw : ws[w]? = some Worker.created) (hs : J.init = .ok s) (hc : pc ≠ .crashed) :
      Step J ⟨pc, ws, m⟩ ⟨pc, ws.set w (Worker.idle s), m⟩
  /-- allocation failure -/
  | beginPanic {pc ws m} {w : Nat} (hw : ws[w]? = some Worker.created) (hs : J.init = .panic) (hc : pc ≠ .crashed) :
      Step J ⟨pc, ws, m⟩ ⟨.crashed, ws, m⟩
  /-- leaves.go 138/151, 230/244: unbuffered hand-over of `i * BatchSize` to an idle worker -/
  | handOver {i ws m} {w : Nat} {s} (h : i < J.nBatches) (hw : ws[w]? = some (Worker.idle s)) :
      Step J ⟨.sending i, ws, m⟩ ⟨.sending (i + 1), ws.set w (Worker.busy (J.task (i * batchSize) s)), m⟩
  /-- leaves.go 153, 246: `close(tasks)` -/
  | close {i ws m} (h : ¬ i < J.nBatches) :
      Step J ⟨.sending i, ws, m⟩ ⟨.waiting, ws, m⟩
  /-- the worker's range loop ends because the channel is closed; `wg.Done()` -/
  | exit {ws m} {w : Nat} {s} (hw : ws[w]? = some (Worker.idle s)) :
      Step J ⟨.waiting, ws, m⟩ ⟨.waiting, ws.set w Worker.exited, m⟩
  /-- leaves.go 154-155, 247-248: `wg.Wait()` returns -/
  | ret {ws m} (h : ∀ w ∈ ws, w matches Worker.exited) :
      Step J ⟨.waiting, ws, m⟩ ⟨.returned, ws, m⟩
  /-- a busy worker finished its batch -/
  | done {pc ws m} {w : Nat} {s} (hw : ws[w]? = some (Worker.busy (.ret s))) (hc : pc ≠ .crashed) :
      Step J ⟨pc, ws, m⟩ ⟨pc, ws.set w (Worker.idle s), m⟩
  /-- a busy worker reads one element -/
  | load {pc ws m} {w : Nat} {i k} (hw : ws[w]? = some (Worker.busy (.load i k))) (hc : pc ≠ .crashed)
      (hr : GoM.inRange i m.length = true) :
      Step J ⟨pc, ws, m⟩ ⟨pc, ws.set w (Worker.busy (k (m.getD i.toNat .zero))), m⟩
  /-- a busy worker writes one element -/
  | store {pc ws m} {w : Nat} {i v k} (hw : ws[w]? = some (Worker.busy (.store i v k))) (hc : pc ≠ .crashed)
      (hr : GoM.inRange i m.length = true) :
      Step J ⟨pc, ws, m⟩ ⟨pc, ws.set w (Worker.busy k), m.set i.toNat v⟩
  /-- index out of range while reading -/
  | loadPanic {pc ws m} {w : Nat} {i k} (hw : ws[w]? = some (Worker.busy (.load i k))) (hc : pc ≠ .crashed)
      (hr : GoM.inRange i m.length = false) :
      Step J ⟨pc, ws, m⟩ ⟨.crashed, ws, m⟩
  /-- index out of range while writing -/
  | storePanic {pc ws m} {w : Nat} {i v k} (hw : ws[w]? = some (Worker.busy (.store i v k))) (hc : pc ≠ .crashed)
      (hr : GoM.inRange i m.length = false) :
      Step J ⟨pc, ws, m⟩ ⟨.crashed, ws, m⟩
  /-- any other panic inside a worker -/
  | panic {pc ws m} {w : Nat} (hw : ws[w]? = some (Worker.busy (.stop .panic))) (hc : pc ≠ .crashed) :
      Step J ⟨pc, ws, m⟩ ⟨.crashed, ws, m⟩

/-- Reachability: any number of steps of any goroutines in any order. -/
inductive Steps {σ : Type} (J : Job σ) : Nat → PState σ → PState σ → Prop where
  | refl (s) : Steps J 0 s s
  | tail {n s t u} : Steps J n s t → Step J t u → Steps J (n + 1) s u

end PState

namespace Ensemble

/-- leaves.go 230-238: the work of one worker of PredictDense for one batch -/
def denseTask (P : Platform) (e : Ensemble) (vals : List F64) (ncols nEstimators : Int) (nRows : Nat)
    (startIndex : Nat) (_ : Unit) : GoM Unit :=
  let endIndex := startIndex + batchSize
  let endIndex := if endIndex > nRows then nRows else endIndex
  e.denseRows P vals ncols nEstimators startIndex endIndex

/-- leaves.go 138-145: the work of one worker of PredictCSR for one batch -/
def csrTask (P : Platform) (e : Ensemble) (indptr cols : List Int) (vals : List F64) (nEstimators : Int)
    (nRows : Nat) (startIndex : Nat) (fvals : List F64) : GoM (List F64) :=
  let endIndex := startIndex + batchSize
  let endIndex := if endIndex > nRows then nRows else endIndex
  e.predictCSRInner P indptr cols vals startIndex endIndex nEstimators fvals

/-- the worker pool of PredictDense -/
def denseJob (P : Platform) (e : Ensemble) (vals : List F64) (ncols nEstimators : Int) (nRows : Nat)
    (nThreads nBatches : Int) : Job Unit where
  nThreads := nThreads.toNat
  nBatches := nBatches.toNat
  init := .ok ⟨⟩
  task := e.denseTask P vals ncols nEstimators nRows

/-- the worker pool of PredictCSR -/
def csrJob (P : Platform) (e : Ensemble) (indptr cols : List Int) (vals : List F64) (nEstimators : Int)
    (nRows : Nat) (nThreads nBatches : Int) : Job (List F64) where
  nThreads := nThreads.toNat
  nBatches := nBatches.toNat
  init := e.newFVals P
  task := e.csrTask P indptr cols vals nEstimators nRows

end Ensemble

/-- The observable results of a parallel prediction: some schedule leads to it. -/
inductive ParResult {σ : Type} (J : Job σ) (mem : List F64) : Res Unit × List F64 → Prop where
  | ok {n s} (h : PState.Steps J n (.start mem) s) (hr : s.main = .returned) : ParResult J mem (.ok ⟨⟩, s.mem)
  | panic {n s} (h : PState.Steps J n (.start mem) s) (hr : s.main = .crashed) : ParResult J mem (.panic, s.mem)

namespace Ensemble

/-- leaves.go 187-249 `PredictDense`: the possible outcomes (error value and final contents of
`predictions`) of a call. Deterministic unless the worker pool is used. -/
def PredictDense (P : Platform) (e : Ensemble) (vals : List F64) (nrows ncols : Int)
    (predictions : List F64) (nEstimators nThreads : Int) (out : Res Unit × List F64) : Prop :=
  match e.denseChecks nrows ncols nEstimators predictions.length with
  | .ok n =>
    match plan P nrows nThreads with
    | .sequential => out = (e.denseRows P vals ncols n 0 nrows.toNat).run predictions
    | .parallel t b => ParResult (e.denseJob P vals ncols n nrows.toNat t b) predictions out
  | .err t => out = (.err t, predictions)
  | .panic => out = (.panic, predictions)
  | .hang => out = (.hang, predictions)

/-- leaves.go 117-120: the sequential branch of PredictCSR -/
def csrSequential (P : Platform) (e : Ensemble) (indptr cols : List Int) (vals : List F64)
    (nEstimators : Int) : GoM Unit := do
  let fvals ← GoM.ofRes (e.newFVals P)
  let _ ← e.predictCSRInner P indptr cols vals 0 (indptr.length - 1) nEstimators fvals
  return ⟨⟩

/-- leaves.go 104-156 `PredictCSR`: the possible outcomes of a call -/
def PredictCSR (P : Platform) (e : Ensemble) (indptr cols : List Int) (vals : List F64)
    (predictions : List F64) (nEstimators nThreads : Int) (out : Res Unit × List F64) : Prop :=
  let nRows : Int := indptr.length - 1
  match e.csrChecks nRows nEstimators predictions.length with
  | .ok n =>
    match plan P nRows nThreads with
    | .sequential => out = (e.csrSequential P indptr cols vals n).run predictions
    | .parallel t b => ParResult (e.csrJob P indptr cols vals n nRows.toNat t b) predictions out
  | .err t => out = (.err t, predictions)
  | .panic => out = (.panic, predictions)
  | .hang => out = (.hang, predictions)

end Ensemble
end Leaves
