import Verif.Model.Alias

/-! # Slices of one array -/

namespace Leaves.Spec

/-- the elements of the slice -/
def elems (s : Win) (mem : List F64) : List F64 := (mem.drop s.off).take s.len

/-- the memory with the elements of the slice replaced -/
def replaced (s : Win) (mem w : List F64) : List F64 := mem.take s.off ++ w ++ mem.drop (s.off + s.len)

/-- the slices have no element in common -/
def Separate (s t : Win) : Prop := s.off + s.len ≤ t.off ∨ t.off + t.len ≤ s.off

end Leaves.Spec
