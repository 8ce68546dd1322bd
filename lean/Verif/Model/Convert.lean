import Verif.Model.Tree

/-!
# The node conversion loop

lgensemble_io.go 241-289, xgensemble_io.go 84-132 and skensemble_io.go 65-113 are the same depth-first
loop over an array-encoded tree; they differ in how a node is created and where the child indices are
read from. `Source` collects the differences.
-/

namespace Leaves

/-- What differs between the three copies of the loop. `σ` is the part of the tree under construction
that `createNode` changes (categorical tables or leaf values). -/
structure Source (σ : Type) where
  /-- `createNode(origIdx)` -/
  createNode : Int → σ → Res (LgNode × σ)
  /-- right child index of original node: `rightChilds[i]` / `Nodes[i].CRight` / `Nodes[i].RightChild` -/
  rightChild : Nat → Res Int
  /-- left child index of original node -/
  leftChild : Nat → Res Int

/-- Loop state: `t.nodes`, `visited`, the two stacks (same length; top first) and the rest of `t`. -/
structure Conv (σ : Type) where
  nodes : List LgNode
  visited : List Bool
  stack : List (Nat × Nat)   -- (origNodeIdx, convNodeIdx)
  aux : σ

/-- Go `t.nodes[i].Right = v` -/
def setRight (nodes : List LgNode) (i v : Nat) : Res (List LgNode) := do
  let n ← Res.idx nodes i
  return nodes.set i { n with right := v }

/-- Go `t.nodes[i].Left = v` -/
def setLeft (nodes : List LgNode) (i v : Nat) : Res (List LgNode) := do
  let n ← Res.idx nodes i
  return nodes.set i { n with left := v }

/-- lgensemble_io.go 256-267 / 272-283 (and the copies): visit child `origIdx` of converted node `convIdx`
unless it was visited before (`none`). -/
def visitChild {σ : Type} (S : Source σ) (setChild : List LgNode → Nat → Nat → Res (List LgNode))
    (s : Conv σ) (convIdx : Nat) (origIdx : Int) : Res (Option (Conv σ)) := do
  let v ← Res.idxI s.visited origIdx
  if v then return none
  else
    let (node, aux) ← S.createNode origIdx s.aux
    let nodes := s.nodes ++ [node]
    let convNewIdx := nodes.length - 1
    let nodes ← setChild nodes convIdx (u32 convNewIdx)
    return some { nodes := nodes, visited := s.visited.set origIdx.toNat true,
                  stack := (u32I origIdx, u32 convNewIdx) :: s.stack, aux := aux }

/-- lgensemble_io.go 254-269 / 270-285: the part of an iteration that deals with one child, which is skipped
when the node's flags say that the child is a leaf; `child` reads the child's index -/
def tryChild {σ : Type} (S : Source σ) (setChild : List LgNode → Nat → Nat → Res (List LgNode))
    (s : Conv σ) (convIdx : Nat) (isLeaf : Bool) (child : Res Int) : Res (Option (Conv σ)) :=
  if isLeaf then .ok none else child >>= fun origIdx => visitChild S setChild s convIdx origIdx

/-- lgensemble_io.go 252-288: one iteration of the loop with `(origTop, convIdx)` on top of the stacks -/
def convStep {σ : Type} (S : Source σ) (s : Conv σ) (origTop convIdx : Nat)
    (below : List (Nat × Nat)) : Res (Conv σ) := do
  let node ← Res.idx s.nodes convIdx
  match ← tryChild S setRight s convIdx (hasFlag node.flags Flag.rightLeaf) (S.rightChild origTop) with
  | some s' => return s'
  | none =>
    match ← tryChild S setLeft s convIdx (hasFlag node.flags Flag.leftLeaf) (S.leftChild origTop) with
    | some s' => return s'
    | none => return { s with stack := below }

/-- The loop; `fuel` bounds the number of iterations (theorem `convLoop_fuel`: never exhausted). -/
def convLoop {σ : Type} (S : Source σ) : (fuel : Nat) → Conv σ → Res (Conv σ)
  | 0, _ => .hang
  | fuel + 1, s =>
    match s.stack with
    | [] => .ok s
    | (o, c) :: below => do convLoop S fuel (← convStep S s o c below)

/-- lgensemble_io.go 241-289: create the root, run the loop; returns the nodes and the rest of the tree.
`nVisited` is the length of `visited`; `numNodes` the capacity of the other slices. -/
def convert {σ : Type} (P : Platform) (S : Source σ) (numNodes nVisited : Int) (aux : σ) :
    Res (List LgNode × σ) := do
  allocCheck P numNodes 4
  allocCheck P numNodes 4
  allocCheck P nVisited 1
  allocCheck P numNodes 24
  let (node, aux) ← S.createNode 0 aux
  let s ← convLoop S (2 * nVisited.toNat + 2)
    { nodes := [node], visited := List.replicate nVisited.toNat false, stack := [(0, 0)], aux := aux }
  return (s.nodes, s.aux)

end Leaves
