import Verif.Model.Tree

/-! # The splits that a prediction looks at

`predict` returns a value and a leaf; the definitions here follow the same loop and list the nodes on its way. -/

namespace Leaves.LgTree

/-- lgtree.go 79-93: the node index after one iteration of the loop of `predict` at `idx`; none if the iteration returns or panics -/
def next (P : Platform) (t : LgTree) (fvals : List F64) (idx : Nat) : Option Nat :=
  match t.nodes[idx]? with
  | none => none
  | some node =>
    match fvals[node.feature]? with
    | none => none
    | some fval =>
      match t.decision P node fval with
      | .ok true => if hasFlag node.flags Flag.leftLeaf then none else some node.left
      | .ok false => if hasFlag node.flags Flag.rightLeaf then none else some (u32 (idx + 1))
      | _ => none

/-- lgtree.go 79-93: the node indices of the first `n` iterations of the loop, from `idx` on -/
def visits (P : Platform) (t : LgTree) (fvals : List F64) : (n : Nat) → (idx : Nat) → List Nat
  | 0, _ => []
  | n + 1, idx => idx :: match next P t fvals idx with
    | none => []
    | some i => visits P t fvals n i

/-- lgtree.go 74-94: the nodes that `predict` looks at in its first `n` iterations -/
def examined (P : Platform) (t : LgTree) (fvals : List F64) (n : Nat) : List Nat :=
  if t.nodes.length = 0 then [] else visits P t fvals n 0

end Leaves.LgTree
