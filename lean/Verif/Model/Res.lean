/-!
# Outcomes of Go calls

A Go call can return normally, return a non-nil `error`, panic (index out of range, integer division by
zero, `makeslice: len out of range`, nil map/interface misuse) or never return.
-/

namespace Leaves

/-- Outcome of a Go call. `err` carries a static tag instead of the formatted message
(simplification: message texts are not modelled). -/
inductive Res (α : Type u) where
  /-- normal return (with a nil error, if the Go function returns an error) -/
  | ok (a : α)
  /-- a non-nil error was returned -/
  | err (tag : String)
  /-- runtime panic -/
  | panic
  /-- the call never returns -/
  | hang
deriving DecidableEq, Repr

namespace Res

@[inline] protected def bind {α : Type u} {β : Type v} (x : Res α) (f : α → Res β) : Res β :=
  match x with
  | ok a => f a
  | err e => err e
  | panic => panic
  | hang => hang

instance : Monad Res where
  pure := Res.ok
  bind := Res.bind

/- The proofs below are not literally `rfl`, so that `simp` records real rewriting steps; definitional
unfolding of large binds is slow to re-check. -/
@[simp] theorem pure_eq {α : Type u} (a : α) : (pure a : Res α) = Res.ok a := id rfl
@[simp] theorem ok_bind {α β : Type u} (a : α) (f : α → Res β) : (Res.ok a >>= f) = f a := id rfl
@[simp] theorem err_bind {α β : Type u} (e : String) (f : α → Res β) :
    (Res.err e >>= f) = Res.err e := id rfl
@[simp] theorem panic_bind {α β : Type u} (f : α → Res β) : (Res.panic >>= f) = Res.panic := id rfl
@[simp] theorem hang_bind {α β : Type u} (f : α → Res β) : (Res.hang >>= f) = Res.hang := id rfl

theorem bind_eq_ok {α β : Type u} {x : Res α} {f : α → Res β} {b : β} :
    (x >>= f) = Res.ok b ↔ ∃ a, x = Res.ok a ∧ f a = Res.ok b := by
  cases x <;> simp

instance : LawfulMonad Res := LawfulMonad.mk'
  (id_map := by intro α x; cases x <;> rfl)
  (pure_bind := by intros; rfl)
  (bind_assoc := by intro α β γ x f g; cases x <;> rfl)

/-- Go's slice indexing with a non-negative index: panics when out of range. -/
def idx {α : Type u} (l : List α) (i : Nat) : Res α :=
  match l[i]? with
  | some a => ok a
  | none => panic

/-- Go's slice indexing with an `int` index: panics when negative or out of range. -/
def idxI {α : Type u} (l : List α) (i : Int) : Res α :=
  if i < 0 then panic else idx l i.toNat

/-- turn a Go `(value, ok/err)` result given as an option into an outcome -/
def ofOption {α : Type u} (tag : String) : Option α → Res α
  | some a => ok a
  | none => err tag

theorem idx_eq_ok {α : Type u} {l : List α} {i : Nat} {a : α} :
    idx l i = ok a ↔ l[i]? = some a := by
  unfold idx; split <;> simp_all

theorem idx_of_lt {α : Type u} {l : List α} {i : Nat} (h : i < l.length) : idx l i = ok l[i] := by
  simp [idx, h]

@[simp] theorem idxI_ofNat {α : Type u} (l : List α) (i : Nat) : idxI l (i : Int) = idx l i := by
  unfold idxI; split
  · omega
  · simp

end Res
end Leaves
