import Verif.Model.Text
import Verif.Model.Util

/-!
# internal/pickle: decoder.go, machine.go, types.go

Dicts are Go maps (references); lists are Go slices (a header pointing into a backing array that several
headers may share). Both live on a heap. Tuples are never modified after construction and are values.
-/

namespace Leaves.Pickle

abbrev Bytes := List (BitVec 8)

/-- A Go `interface{}` built by the decoder (types.go 5-38). -/
inductive PVal where
  /-- a nil interface (a memo key that was never stored) -/
  | nil
  | none
  | int (i : Int)
  | float (x : F64)
  | unicode (b : Bytes)
  | tuple (xs : List PVal)
  /-- a slice header: backing array and length -/
  | list (arr : Nat) (len : Nat)
  /-- a map reference -/
  | dict (ref : Nat)
  | global (modul name : Bytes)
  | reduce (callable : PVal) (args : List PVal)
  | build (object args : PVal)

/-- a backing array: contents and capacity (contents beyond it do not exist) -/
structure Arr where
  elems : List PVal
  cap : Nat

/-- the contents of a map; the first binding of a key counts -/
abbrev DictCells := List (Bytes × PVal)

/-- machine.go 6-10 `machine` and the heap -/
structure Machine where
  /-- top first -/
  stack : List PVal := []
  /-- memo: the first binding of a key counts -/
  memory : List (Bytes × PVal) := []
  /-- marks: stack heights, most recent first -/
  marks : List Nat := []
  arrays : List Arr := []
  dicts : List DictCells := []

/-- map lookup -/
def lookup {α : Type} (k : Bytes) : List (Bytes × α) → Option α
  | [] => Option.none
  | (k', v) :: rest => if k' = k then some v else lookup k rest

namespace Machine

/-- machine.go 19-21 `pushMark` -/
def pushMark (m : Machine) : Machine := { m with marks := m.stack.length :: m.marks }

/-- machine.go 23-29 `popMark`: the objects above the mark, oldest first. Panics without a mark or when the
stack is lower than the mark. -/
def popMark (m : Machine) : Res (List PVal × Machine) :=
  match m.marks with
  | [] => .panic
  | idx :: marks =>
    if m.stack.length < idx then .panic
    else
      let n := m.stack.length - idx
      .ok ((m.stack.take n).reverse, { m with stack := m.stack.drop n, marks := marks })

/-- machine.go 31-33 `push` -/
def push (m : Machine) (v : PVal) : Machine := { m with stack := v :: m.stack }

/-- machine.go 35-39 `pop` -/
def pop (m : Machine) : Res (PVal × Machine) :=
  match m.stack with
  | [] => .panic
  | v :: st => .ok (v, { m with stack := st })

/-- machine.go 41-43 `back` -/
def back (m : Machine) : Res PVal :=
  match m.stack with
  | [] => .panic
  | v :: _ => .ok v

/-- machine.go 45-47 `putMemory` -/
def putMemory (m : Machine) (key : Bytes) : Res Machine := do
  let v ← m.back
  return { m with memory := (key, v) :: m.memory }

/-- machine.go 49-51 `getMemory` -/
def getMemory (m : Machine) (key : Bytes) : PVal := (lookup key m.memory).getD .nil

/-- allocate a backing array -/
def newArr (m : Machine) (a : Arr) : Nat × Machine := (m.arrays.length, { m with arrays := m.arrays ++ [a] })

/-- decoder.go 105 `append(List{}, objs...)` -/
def newList (P : Platform) (m : Machine) (objs : List PVal) : PVal × Machine :=
  let cap := if objs.isEmpty then 0 else objs.length + P.growExtra objs.length
  let (r, m) := m.newArr { elems := objs, cap := cap }
  (.list r objs.length, m)

/-- decoder.go 114 `append(list, el)`: in place when the backing array has room, else a copy -/
def appendList (P : Platform) (m : Machine) (arr len : Nat) (el : PVal) : Res (PVal × Machine) := do
  let a ← Res.idx m.arrays arr
  if len < a.cap then
    let elems := if len < a.elems.length then a.elems.set len el else a.elems ++ [el]
    return (.list arr (len + 1), { m with arrays := m.arrays.set arr { a with elems := elems } })
  else
    let (r, m) := m.newArr { elems := a.elems.take len ++ [el], cap := len + 1 + P.growExtra len }
    return (.list r (len + 1), m)

/-- allocate a map with contents -/
def newDict (m : Machine) (cells : DictCells) : PVal × Machine :=
  (.dict m.dicts.length, { m with dicts := m.dicts ++ [cells] })

/-- `dict[key] = v` -/
def setDict (m : Machine) (ref : Nat) (key : Bytes) (v : PVal) : Res Machine := do
  let c ← Res.idx m.dicts ref
  return { m with dicts := m.dicts.set ref ((key, v) :: c) }

end Machine

/-- a byte literal -/
def byte (c : Char) : BitVec 8 := BitVec.ofNat 8 c.toNat

/-- bytes as characters for strconv (which only accepts ASCII) -/
def toStr (b : Bytes) : Str := b.map fun x => Char.ofNat x.toNat

/-- decoder.go 177-193 `readLine`: up to and excluding the next newline; error at end of input -/
def readLine : Bytes → Res (Bytes × Bytes)
  | [] => .err "EOF"
  | b :: bs =>
    if b = byte '\n' then .ok ([], bs)
    else do
      let (l, rest) ← readLine bs
      return (b :: l, rest)

/-- `bytes.Replace(s, old, new, -1)` for non-empty `old`: left to right, not overlapping; `skip` bytes of a
match remain to be dropped -/
def replaceGo (old new : Bytes) : (skip : Nat) → Bytes → Bytes
  | _, [] => []
  | 0, b :: bs =>
    if old.isPrefixOf (b :: bs) then new ++ replaceGo old new (old.length - 1) bs
    else b :: replaceGo old new 0 bs
  | k + 1, _ :: bs => replaceGo old new k bs

/-- decoder.go 195-201 `decodeUnicode` -/
def decodeUnicode (raw : Bytes) : Bytes :=
  let ret := replaceGo [byte '\\', byte 'u', byte '0', byte '0', byte '0', byte 'a'] [byte '\n'] 0 raw
  replaceGo [byte '\\', byte 'u', byte '0', byte '0', byte '5', byte 'c'] [byte '\\'] 0 ret

/-- decoder.go 146-153: key/value pairs of a dict, in order -/
def dictCells : List PVal → DictCells → Res DictCells
  | [], acc => .ok acc
  | k :: v :: rest, acc =>
    match k with
    | .unicode key => dictCells rest ((key, v) :: acc)
    | _ => .err "expected Unicode object"
  | [_], _ => .err "dict: expected even number of objects"

/-- the outcome of one opcode -/
inductive Next where
  | continue (m : Machine) (rest : Bytes)
  | stop (m : Machine)

/-- decoder.go 41-172: one opcode -/
def stepOp (P : Platform) (op : BitVec 8) (bs : Bytes) (m : Machine) : Res Next :=
  if op = byte '(' then .ok (.continue m.pushMark bs)
  else if op = byte 'p' then do
    let (line, bs) ← readLine bs
    return .continue (← m.putMemory line) bs
  else if op = byte 'g' then do
    let (line, bs) ← readLine bs
    return .continue (m.push (m.getMemory line)) bs
  else if op = byte 'c' then do
    let (modul, bs) ← readLine bs
    let (name, bs) ← readLine bs
    return .continue (m.push (.global modul name)) bs
  else if op = byte 'L' then do
    let (line, bs) ← readLine bs
    if line.length < 2 ∨ line.getLast? ≠ some (byte 'L') then .err "unexpected long format"
    else
      let v ← Res.ofOption "unexpected long format" (atoi (toStr line.dropLast))
      return .continue (m.push (.int v)) bs
  else if op = byte 'I' then do
    let (line, bs) ← readLine bs
    let v ← Res.ofOption "atoi" (atoi (toStr line))
    return .continue (m.push (.int v)) bs
  else if op = byte 'F' then do
    let (line, bs) ← readLine bs
    let v ← Res.ofOption "parse float" (P.parseFloat (toStr line))
    return .continue (m.push (.float v)) bs
  else if op = byte 't' then do
    let (objs, m) ← m.popMark
    return .continue (m.push (.tuple objs)) bs
  else if op = byte 'l' then do
    let (objs, m) ← m.popMark
    let (l, m) := m.newList P objs
    return .continue (m.push l) bs
  else if op = byte 'a' then do
    let (el, m) ← m.pop
    let (obj, m) ← m.pop
    match obj with
    | .list arr len =>
      let (l, m) ← m.appendList P arr len el
      return .continue (m.push l) bs
    | _ => .err "expected List object"
  else if op = byte 'V' then do
    let (line, bs) ← readLine bs
    return .continue (m.push (.unicode (decodeUnicode line))) bs
  else if op = byte 'R' then do
    let (args, m) ← m.pop
    let (callable, m) ← m.pop
    match args with
    | .tuple t => return .continue (m.push (.reduce callable t)) bs
    | _ => .err "reduce: unexpected args"
  else if op = byte 'N' then .ok (.continue (m.push .none) bs)
  else if op = byte 'b' then do
    let (args, m) ← m.pop
    let (obj, m) ← m.pop
    return .continue (m.push (.build obj args)) bs
  else if op = byte 'd' then do
    let (objs, m) ← m.popMark
    if objs.length % 2 ≠ 0 then .err "dict: expected even number of objects"
    else
      let cells ← dictCells objs []
      let (d, m) := m.newDict cells
      return .continue (m.push d) bs
  else if op = byte 's' then do
    let (v, m) ← m.pop
    let (k, m) ← m.pop
    let d ← m.back
    match d with
    | .dict ref =>
      match k with
      | .unicode key => return .continue (← m.setDict ref key v) bs
      | _ => .err "expected Unicode object"
    | _ => .err "expected Dict object"
  else if op = byte '.' then .ok (.stop m)
  else .err "unknown op code"

/-- decoder.go 32-173: the loop. Every iteration consumes a byte, so `fuel = number of bytes + 1` is never
exhausted (theorem `decodeLoop_ne_hang`). Returns the machine at STOP. -/
def decodeLoop (P : Platform) : (fuel : Nat) → Bytes → Machine → Res Machine
  | 0, _, _ => .hang
  | _ + 1, [], _ => .err "EOF"
  | fuel + 1, op :: bs, m => do
    match ← stepOp P op bs m with
    | .continue m bs => decodeLoop P fuel bs m
    | .stop m => return m

/-- decoder.go 28-175 `Decode`: the result object and the heap it refers to -/
def decode (P : Platform) (bs : Bytes) : Res (PVal × Machine) := do
  let m ← decodeLoop P (bs.length + 1) bs {}
  let v ← m.back
  return (v, m)

end Leaves.Pickle
