import Verif.Model.Tree

/-!
# Programs over a shared `[]float64`

`predictions` is shared between goroutines, so code that accesses it is modelled as a tree of individual
loads and stores. The same tree has a sequential semantics (`GoM.run`) and, in `Model/Parallel.lean`, an
interleaved one.
-/

namespace Leaves

/-- Why a program stops without returning normally. -/
inductive Stop where
  | err (tag : String)
  | panic
  | hang
deriving DecidableEq, Repr

/-- the outcome corresponding to an abnormal stop -/
def Stop.toRes {α : Type u} : Stop → Res α
  | .err t => .err t
  | .panic => .panic
  | .hang => .hang

/-- A Go program fragment that loads from and stores to one shared float64 slice. -/
inductive GoM (α : Type u) where
  | ret (a : α)
  /-- read `mem[i]`, continue with the value; panics if `i` is out of range -/
  | load (i : Int) (k : F64 → GoM α)
  /-- write `mem[i] = v`, continue; panics if `i` is out of range -/
  | store (i : Int) (v : F64) (k : GoM α)
  | stop (s : Stop)

namespace GoM

protected def bind {α : Type u} {β : Type v} : GoM α → (α → GoM β) → GoM β
  | .ret a, f => f a
  | .load i k, f => .load i (fun v => (k v).bind f)
  | .store i v k, f => .store i v (k.bind f)
  | .stop s, _ => .stop s

instance : Monad GoM where
  pure := GoM.ret
  bind := GoM.bind

/-- lift an outcome that involves no shared memory -/
def ofRes {α : Type u} : Res α → GoM α
  | .ok a => .ret a
  | .err t => .stop (.err t)
  | .panic => .stop .panic
  | .hang => .stop .hang

/-- `mem[i]` -/
def get (i : Int) : GoM F64 := .load i .ret

/-- `mem[i] = v` -/
def set (i : Int) (v : F64) : GoM Unit := .store i v (.ret ⟨⟩)

/-- Go's bounds check for a slice of length `n` -/
def inRange (i : Int) (n : Nat) : Bool := decide (0 ≤ i) && decide (i < n)

/-- Sequential execution: outcome and final memory contents (also after a panic). -/
def run {α : Type u} : GoM α → List F64 → Res α × List F64
  | .ret a, m => (.ok a, m)
  | .load i k, m => if inRange i m.length then (k (m.getD i.toNat .zero)).run m else (.panic, m)
  | .store i v k, m => if inRange i m.length then k.run (m.set i.toNat v) else (.panic, m)
  | .stop s, m => (s.toRes, m)

/-- Run a program on a function-local slice with the given initial contents and return its final
contents. -/
def runLocal {α : Type u} (p : GoM α) (init : List F64) : Res (List F64) :=
  match p.run init with
  | (.ok _, m) => .ok m
  | (.err t, _) => .err t
  | (.panic, _) => .panic
  | (.hang, _) => .hang

/-- `for i := start; i < start+count; i++ { body }` -/
def forRange (body : Nat → GoM Unit) : (start count : Nat) → GoM Unit
  | _, 0 => .ret ⟨⟩
  | s, n + 1 => do body s; forRange body (s + 1) n

/-- `for i := start; i < start+count; i++ { st = body(i, st) }`: a loop with local state -/
def forState {σ : Type u} (body : Nat → σ → GoM σ) : (start count : Nat) → σ → GoM σ
  | _, 0, st => .ret st
  | s, n + 1, st => do forState body (s + 1) n (← body s st)

end GoM
end Leaves
