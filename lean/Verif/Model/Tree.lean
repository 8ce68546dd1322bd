import Verif.Model.Util

/-! # lgtree.go: decision nodes and tree evaluation -/

namespace Leaves

/-- lgtree.go 9-18: node flags -/
abbrev Flags := BitVec 8

namespace Flag
def categorical : Flags := 1#8 <<< 0
def defaultLeft : Flags := 1#8 <<< 1
def leftLeaf : Flags := 1#8 <<< 2
def rightLeaf : Flags := 1#8 <<< 3
def missingZero : Flags := 1#8 <<< 4
def missingNan : Flags := 1#8 <<< 5
def catOneHot : Flags := 1#8 <<< 6
def catSmall : Flags := 1#8 <<< 7
end Flag

/-- Go `flags & m > 0` -/
def hasFlag (flags m : Flags) : Bool := decide ((flags &&& m).toNat > 0)

/-- lgtree.go 20 `zeroThreshold = 1e-35`, converted to float64 -/
def zeroThreshold : F64 := F64.const 1 (10 ^ 35)

/-- lgtree.go 22-28 `lgNode`; uint32 fields are naturals below 2^32 -/
structure LgNode where
  threshold : F64
  left : Nat := 0
  right : Nat := 0
  feature : Nat
  flags : Flags
deriving DecidableEq

/-- lgtree.go 30-36 `lgTree` -/
structure LgTree where
  nodes : List LgNode := []
  leafValues : List F64 := []
  catBoundaries : List Nat := []
  catThresholds : List (BitVec 32) := []
  nCategorical : Nat := 0
deriving DecidableEq

/-- lgtree.go 115-117 `isZero` -/
def isZero (fval : F64) : Bool :=
  F64.lt zeroThreshold.neg fval && F64.le fval zeroThreshold

/-- lgtree.go 119-125 `categoricalNode` -/
def categoricalNode (feature : Nat) (missingType : Flags) (threshold : Nat) (catType : Flags) : LgNode :=
  { feature := feature, flags := Flag.categorical ||| missingType ||| catType,
    threshold := F64.ofNat threshold }

/-- lgtree.go 127-133 `numericalNode` -/
def numericalNode (feature : Nat) (missingType : Flags) (threshold : F64) (defaultType : Flags) : LgNode :=
  { feature := feature, flags := missingType ||| defaultType, threshold := threshold }

namespace LgTree

/-- lgtree.go 38-47 `numericalDecision` -/
def numericalDecision (node : LgNode) (fval : F64) : Bool :=
  let fval := if fval.isNaN && !hasFlag node.flags Flag.missingNan then F64.zero else fval
  if (hasFlag node.flags Flag.missingZero && isZero fval) ||
     (hasFlag node.flags Flag.missingNan && fval.isNaN) then
    hasFlag node.flags Flag.defaultLeft
  else F64.le fval node.threshold

/-- lgtree.go 96-105 `findInBitset`; all arithmetic is uint32 and wraps -/
def findInBitset (t : LgTree) (idx : Nat) (pos : Nat) : Res Bool := do
  let i1 := pos / 32
  let idxS ← Res.idx t.catBoundaries idx
  let idxE ← Res.idx t.catBoundaries (u32 (idx + 1))
  if i1 ≥ u32 (idxE + 2 ^ 32 - idxS) then return false
  let i2 := pos % 32
  let w ← Res.idx t.catThresholds (u32 (idxS + i1))
  return decide (((w >>> i2) &&& 1#32).toNat > 0)

/-- lgtree.go 49-65 `categoricalDecision` -/
def categoricalDecision (P : Platform) (t : LgTree) (node : LgNode) (fval : F64) : Res Bool :=
  let ifval := P.toInt32 fval
  if ifval < 0 then .ok false
  else if fval.isNaN && hasFlag node.flags Flag.missingNan then .ok false
  else
    let ifval := if fval.isNaN then 0 else ifval
    if hasFlag node.flags Flag.catOneHot then .ok (decide (P.toInt32 node.threshold = ifval))
    else if hasFlag node.flags Flag.catSmall then
      .ok (Util.findInBitsetUint32 (BitVec.ofNat 32 (P.toUint32 node.threshold)) (u32I ifval))
    else t.findInBitset (P.toUint32 node.threshold) (u32I ifval)

/-- lgtree.go 67-72 `decision` -/
def decision (P : Platform) (t : LgTree) (node : LgNode) (fval : F64) : Res Bool :=
  if hasFlag node.flags Flag.categorical then t.categoricalDecision P node fval
  else .ok (numericalDecision node fval)

/-- lgtree.go 79-93: the loop of `predict` at node index `idx`. The only loop state is `idx`, so
executing more iterations than there are nodes without returning or panicking means that an index
repeats, i.e. the Go loop never returns; `fuel` counts the remaining iterations before that conclusion
(theorem `predict_adequate`). -/
def predictLoop (P : Platform) (t : LgTree) (fvals : List F64) : (fuel : Nat) → (idx : Nat) → Res (F64 × Nat)
  | 0, _ => .hang
  | fuel + 1, idx => do
    let node ← Res.idx t.nodes idx
    let fval ← Res.idx fvals node.feature
    let left ← t.decision P node fval
    if left then
      if hasFlag node.flags Flag.leftLeaf then
        let v ← Res.idx t.leafValues node.left
        return (v, node.left)
      else predictLoop P t fvals fuel node.left
    else
      if hasFlag node.flags Flag.rightLeaf then
        let v ← Res.idx t.leafValues node.right
        return (v, node.right)
      else predictLoop P t fvals fuel (u32 (idx + 1))

/-- lgtree.go 74-94 `predict`: leaf value and leaf index -/
def predict (P : Platform) (t : LgTree) (fvals : List F64) : Res (F64 × Nat) :=
  if t.nodes.length = 0 then do
    let v ← Res.idx t.leafValues 0
    return (v, 0)
  else predictLoop P t fvals (t.nodes.length + 1) 0

/-- lgtree.go 107-109 `nLeaves` -/
def nLeaves (t : LgTree) : Nat := t.nodes.length + 1

/-- lgtree.go 111-113 `nNodes` -/
def nNodes (t : LgTree) : Nat := t.nodes.length

end LgTree

/-- misc.go 3-10 `GetNLeaves` -/
def getNLeaves (trees : List LgTree) : List Nat := trees.map LgTree.nLeaves

end Leaves
