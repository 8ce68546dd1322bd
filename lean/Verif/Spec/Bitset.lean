import Verif.Model.Res

/-! # Sets of small numbers represented by 32-bit words -/

namespace Leaves.Spec

/-- `i` is in the set represented by the words: bit `i % 32` of word `i / 32` is set -/
def Member (ws : List (BitVec 32)) (i : Nat) : Prop := ∃ w, ws[i / 32]? = some w ∧ w.getLsbD (i % 32) = true

/-- membership as a Boolean -/
def memberB (ws : List (BitVec 32)) (i : Nat) : Bool :=
  match ws[i / 32]? with
  | some w => w.getLsbD (i % 32)
  | none => false

theorem memberB_iff (ws : List (BitVec 32)) (i : Nat) : memberB ws i = true ↔ Member ws i := by
  unfold memberB Member; split <;> simp_all

instance (ws : List (BitVec 32)) (i : Nat) : Decidable (Member ws i) :=
  decidable_of_iff _ (memberB_iff ws i)

/-- number of positions in the set -/
def card (ws : List (BitVec 32)) : Nat := (List.range (32 * ws.length)).countP fun i => memberB ws i

end Leaves.Spec
