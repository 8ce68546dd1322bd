import Verif.Model.Pickle
import Verif.Spec.Text

/-!
# What a protocol-0 pickle means

Python's pickle protocol 0 (Lib/pickle.py, `_Pickler` with `proto = 0`): the values it can describe, and the byte
strings that describe them. Nothing here refers to the decoder's functions; `Machine` is used only for the objects a
decoder leaves behind.
-/

namespace Leaves.Spec

open Pickle (Bytes PVal Arr DictCells)

/-! ### Python values -/

mutual
/-- a Python value, as far as protocol 0 without sharing describes it -/
inductive PyVal where
  | none
  | int (i : Int)
  | float (x : F64)
  | str (s : Bytes)
  | tuple (xs : PySeq)
  | list (xs : PySeq)
  | dict (kvs : PyMap)
  /-- a class or function by name -/
  | global (modul name : Bytes)
  /-- the result of calling `f(*args)` -/
  | reduce (f : PyVal) (args : PySeq)
  /-- the result of calling `f(*args)` and then setting the state -/
  | build (f : PyVal) (args : PySeq) (state : PyVal)
  /-- another occurrence of such an object, which Python shares -/
  | again (f : PyVal) (args : PySeq) (state : PyVal)
/-- a sequence of values -/
inductive PySeq where
  | nil
  | cons (x : PyVal) (xs : PySeq)
/-- the assignments `d[k] = v` made to an empty dict, in order -/
inductive PyMap where
  | nil
  | cons (k : Bytes) (v : PyVal) (rest : PyMap)
end

mutual
/-- no object with state occurs a second time -/
def PyVal.Plain : PyVal → Prop
  | .tuple xs => xs.Plain
  | .list xs => xs.Plain
  | .dict kvs => kvs.Plain
  | .reduce f args => f.Plain ∧ args.Plain
  | .build f args s => f.Plain ∧ args.Plain ∧ s.Plain
  | .again _ _ _ => False
  | _ => True
/-- all elements are plain -/
def PySeq.Plain : PySeq → Prop
  | .nil => True
  | .cons x xs => x.Plain ∧ xs.Plain
/-- all values are plain -/
def PyMap.Plain : PyMap → Prop
  | .nil => True
  | .cons _ v kvs => v.Plain ∧ kvs.Plain
end

/-- the elements -/
def PySeq.toList : PySeq → List PyVal
  | .nil => []
  | .cons x xs => x :: xs.toList

/-- a sequence from its elements -/
def PySeq.ofList : List PyVal → PySeq
  | [] => .nil
  | x :: xs => .cons x (PySeq.ofList xs)

/-- the value of a key: the last assignment counts -/
def PyMap.get (k : Bytes) : PyMap → Option PyVal
  | .nil => Option.none
  | .cons k' v rest =>
    match PyMap.get k rest with
    | some w => some w
    | Option.none => if k' = k then some v else Option.none

/-! ### bytes -/

/-- an ASCII character as a byte -/
def octet (c : Char) : BitVec 8 := BitVec.ofNat 8 c.toNat

/-- ASCII text as bytes -/
def octets (s : Str) : Bytes := s.map octet

/-- newline -/
def nl : BitVec 8 := octet '\n'

/-- Protocol 0 writes a backslash as `\u005c` and a newline as `\u000a`; all other bytes stand for themselves. -/
def escape : Bytes → Bytes
  | [] => []
  | b :: bs =>
    (if b = octet '\\' then octets "\\u005c".toList
     else if b = nl then octets "\\u000a".toList
     else [b]) ++ escape bs

/-! ### pickles -/

/-- what is known about a memo key -/
inductive Slot where
  /-- not stored yet -/
  | unused
  /-- stored, but the object has been or is being changed since -/
  | hidden
  /-- stored, and the object is this value -/
  | holds (v : PyVal)

/-- the memo of a pickler -/
abbrev Memo := Bytes → Slot

/-- the memo after storing at `key` -/
def Memo.set (μ : Memo) (key : Bytes) (s : Slot) : Memo := fun k => if k = key then s else μ k

/-- an optional PUT under a key not used before -/
inductive Remember (μ : Memo) (s : Slot) : Bytes → Memo → Prop
  | skip : Remember μ s [] μ
  | put (key : Bytes) (hk : nl ∉ key) (hu : μ key = .unused) : Remember μ s (octet 'p' :: (key ++ [nl])) (μ.set key s)

/-- Go's `int` -/
def IsInt64 (i : Int) : Prop := -(2 ^ 63) ≤ i ∧ i < 2 ^ 63

mutual
/-- `Dumps P μ v bs μ'`: with memo `μ`, the bytes `bs` are a protocol-0 pickle of `v` that leaves memo `μ'`. An object
may be fetched from the memo as long as it is complete and was not changed after it had been stored, except that dicts,
which Python stores empty, may be fetched when they are complete, and that an object fetched after its state was set is
marked as `again`. Floats are any text that strconv.ParseFloat reads as
the number. -/
inductive Dumps (P : Platform) : Memo → PyVal → Bytes → Memo → Prop
  | none (μ) : Dumps P μ .none [octet 'N'] μ
  | int (μ) (i : Int) (hi : IsInt64 i) : Dumps P μ (.int i) (octet 'I' :: (octets (decimalI i) ++ [nl])) μ
  | bool (μ) (b : Bool) : Dumps P μ (.int (if b then 1 else 0)) (octet 'I' :: octet '0' :: (if b then octet '1' else octet '0') :: [nl]) μ
  | long (μ) (i : Int) (hi : IsInt64 i) :
      Dumps P μ (.int i) (octet 'L' :: (octets (decimalI i) ++ [octet 'L', nl])) μ
  | float (μ) (x : F64) (text : Str) (ha : ∀ c ∈ text, c.toNat < 128 ∧ c ≠ '\n') (hx : P.parseFloat text = some x) :
      Dumps P μ (.float x) (octet 'F' :: (octets text ++ [nl])) μ
  | str (μ μ') (s put : Bytes) (hp : Remember μ (.holds (.str s)) put μ') :
      Dumps P μ (.str s) (octet 'V' :: (escape s ++ nl :: put)) μ'
  | global (μ μ') (m n put : Bytes) (hm : nl ∉ m) (hn : nl ∉ n) (hp : Remember μ (.holds (.global m n)) put μ') :
      Dumps P μ (.global m n) (octet 'c' :: (m ++ nl :: (n ++ nl :: put))) μ'
  | get (μ) (key : Bytes) (v : PyVal) (hk : nl ∉ key) (hv : μ key = .holds v) :
      Dumps P μ v (octet 'g' :: (key ++ [nl])) μ
  | tuple (μ μ₁ μ₂) (xs : PySeq) (bs put : Bytes) (hx : DumpsSeq P μ xs bs μ₁)
      (hp : Remember μ₁ (.holds (.tuple xs)) put μ₂) : Dumps P μ (.tuple xs) (octet '(' :: (bs ++ octet 't' :: put)) μ₂
  /-- a list given at once -/
  | listOf (μ μ₁ μ₂) (xs : PySeq) (bs put : Bytes) (hx : DumpsSeq P μ xs bs μ₁)
      (hp : Remember μ₁ (.holds (.list xs)) put μ₂) : Dumps P μ (.list xs) (octet '(' :: (bs ++ octet 'l' :: put)) μ₂
  /-- a list as Python writes it: an empty list, stored, then extended -/
  | list (μ μ₁ μ₂) (xs : PySeq) (put bs : Bytes) (hp : Remember μ .hidden put μ₁) (hx : DumpsAppends P μ₁ xs bs μ₂) :
      Dumps P μ (.list xs) (octet '(' :: octet 'l' :: (put ++ bs)) μ₂
  /-- a dict given at once -/
  | dictOf (μ μ₁ μ₂) (kvs : PyMap) (bs put : Bytes) (hx : DumpsPairs P μ kvs bs μ₁)
      (hp : Remember μ₁ (.holds (.dict kvs)) put μ₂) : Dumps P μ (.dict kvs) (octet '(' :: (bs ++ octet 'd' :: put)) μ₂
  /-- a dict that is not stored -/
  | dict (μ μ₁) (kvs : PyMap) (bs : Bytes) (hx : DumpsItems P μ kvs bs μ₁) :
      Dumps P μ (.dict kvs) (octet '(' :: octet 'd' :: bs) μ₁
  /-- a dict that is stored when empty; once complete, it can be fetched -/
  | dictPut (μ μ₁) (kvs : PyMap) (key bs : Bytes) (hk : nl ∉ key) (hu : μ key = .unused)
      (hx : DumpsItems P (μ.set key .hidden) kvs bs μ₁) :
      Dumps P μ (.dict kvs) (octet '(' :: octet 'd' :: octet 'p' :: (key ++ nl :: bs)) (μ₁.set key (.holds (.dict kvs)))
  | reduce (μ μ₁ μ₂ μ₃) (f : PyVal) (args : PySeq) (bf ba put : Bytes) (hf : Dumps P μ f bf μ₁)
      (ha : Dumps P μ₁ (.tuple args) ba μ₂) (hp : Remember μ₂ (.holds (.reduce f args)) put μ₃) :
      Dumps P μ (.reduce f args) (bf ++ (ba ++ octet 'R' :: put)) μ₃
  /-- an object is stored before its state is set -/
  | build (μ μ₁ μ₂ μ₃ μ₄) (f : PyVal) (args : PySeq) (state : PyVal) (bf ba put bs : Bytes) (hf : Dumps P μ f bf μ₁)
      (ha : Dumps P μ₁ (.tuple args) ba μ₂) (hp : Remember μ₂ .hidden put μ₃) (hs : Dumps P μ₃ state bs μ₄) :
      Dumps P μ (.build f args state) (bf ++ (ba ++ octet 'R' :: (put ++ (bs ++ [octet 'b'])))) μ₄
  /-- … and can be fetched once its state is set -/
  | buildPut (μ μ₁ μ₂ μ₃) (f : PyVal) (args : PySeq) (state : PyVal) (bf ba key bs : Bytes) (hf : Dumps P μ f bf μ₁)
      (ha : Dumps P μ₁ (.tuple args) ba μ₂) (hk : nl ∉ key) (hu : μ₂ key = .unused)
      (hs : Dumps P (μ₂.set key .hidden) state bs μ₃) :
      Dumps P μ (.build f args state) (bf ++ (ba ++ octet 'R' :: octet 'p' :: (key ++ nl :: (bs ++ [octet 'b']))))
        (μ₃.set key (.holds (.again f args state)))
/-- the pickles of the elements in sequence -/
inductive DumpsSeq (P : Platform) : Memo → PySeq → Bytes → Memo → Prop
  | nil (μ) : DumpsSeq P μ .nil [] μ
  | cons (μ μ₁ μ₂) (x : PyVal) (xs : PySeq) (b bs : Bytes) (hx : Dumps P μ x b μ₁) (hs : DumpsSeq P μ₁ xs bs μ₂) :
      DumpsSeq P μ (.cons x xs) (b ++ bs) μ₂
/-- each element followed by APPEND -/
inductive DumpsAppends (P : Platform) : Memo → PySeq → Bytes → Memo → Prop
  | nil (μ) : DumpsAppends P μ .nil [] μ
  | cons (μ μ₁ μ₂) (x : PyVal) (xs : PySeq) (b bs : Bytes) (hx : Dumps P μ x b μ₁) (hs : DumpsAppends P μ₁ xs bs μ₂) :
      DumpsAppends P μ (.cons x xs) (b ++ octet 'a' :: bs) μ₂
/-- each key followed by its value -/
inductive DumpsPairs (P : Platform) : Memo → PyMap → Bytes → Memo → Prop
  | nil (μ) : DumpsPairs P μ .nil [] μ
  | cons (μ μ₁ μ₂ μ₃) (k : Bytes) (v : PyVal) (kvs : PyMap) (bk bv bs : Bytes) (hk : Dumps P μ (.str k) bk μ₁)
      (hv : Dumps P μ₁ v bv μ₂) (hs : DumpsPairs P μ₂ kvs bs μ₃) :
      DumpsPairs P μ (.cons k v kvs) (bk ++ (bv ++ bs)) μ₃
/-- each key and value followed by SETITEM -/
inductive DumpsItems (P : Platform) : Memo → PyMap → Bytes → Memo → Prop
  | nil (μ) : DumpsItems P μ .nil [] μ
  | cons (μ μ₁ μ₂ μ₃) (k : Bytes) (v : PyVal) (kvs : PyMap) (bk bv bs : Bytes) (hk : Dumps P μ (.str k) bk μ₁)
      (hv : Dumps P μ₁ v bv μ₂) (hs : DumpsItems P μ₂ kvs bs μ₃) :
      DumpsItems P μ (.cons k v kvs) (bk ++ (bv ++ octet 's' :: bs)) μ₃
end

/-! ### what a decoded object denotes -/

mutual
/-- the object `x`, with the given backing arrays and maps, is the value -/
def Denotes (A : List Arr) (D : List DictCells) : PVal → PyVal → Prop
  | x, .none => x = PVal.none
  | x, .int i => x = PVal.int i
  | x, .float y => x = PVal.float y
  | x, .str s => x = PVal.unicode s
  | x, .global m n => x = PVal.global m n
  | x, .tuple vs => ∃ xs, x = PVal.tuple xs ∧ DenotesSeq A D xs vs
  | x, .list vs => ∃ arr len a, x = PVal.list arr len ∧ A[arr]? = some a ∧ len ≤ a.elems.length ∧
      DenotesSeq A D (a.elems.take len) vs
  | x, .dict kvs => ∃ ref cells, x = PVal.dict ref ∧ D[ref]? = some cells ∧ DenotesMap A D cells kvs
  | x, .reduce f args => ∃ y ys, x = PVal.reduce y ys ∧ Denotes A D y f ∧ DenotesSeq A D ys args
  | x, .build f args s => ∃ y ys z, x = PVal.build (PVal.reduce y ys) z ∧ Denotes A D y f ∧ DenotesSeq A D ys args ∧
      Denotes A D z s
  -- a decoder without references to objects has only what was there when the object was stored
  | x, .again f args _ => ∃ y ys, x = PVal.reduce y ys ∧ Denotes A D y f ∧ DenotesSeq A D ys args
/-- element by element -/
def DenotesSeq (A : List Arr) (D : List DictCells) : List PVal → PySeq → Prop
  | xs, .nil => xs = []
  | xs, .cons v vs => ∃ x rest, xs = x :: rest ∧ Denotes A D x v ∧ DenotesSeq A D rest vs
/-- assignment by assignment, the oldest binding last -/
def DenotesMap (A : List Arr) (D : List DictCells) : DictCells → PyMap → Prop
  | cells, .nil => cells = []
  | cells, .cons k v kvs => ∃ x rest, cells = rest ++ [(k, x)] ∧ Denotes A D x v ∧ DenotesMap A D rest kvs
end

/-! ### every value has a pickle -/

mutual
/-- the value can be written: integers fit, names have no newline and `print` gives ASCII text that reads back -/
def PyVal.Writable (P : Platform) (print : F64 → Str) : PyVal → Prop
  | .none => True
  | .int i => IsInt64 i
  | .float x => (∀ c ∈ print x, c.toNat < 128 ∧ c ≠ '\n') ∧ P.parseFloat (print x) = some x
  | .str _ => True
  | .global m n => nl ∉ m ∧ nl ∉ n
  | .tuple xs => xs.Writable P print
  | .list xs => xs.Writable P print
  | .dict kvs => kvs.Writable P print
  | .reduce f args => f.Writable P print ∧ args.Writable P print
  | .build f args s => f.Writable P print ∧ args.Writable P print ∧ s.Writable P print
  | .again _ _ _ => False
/-- all elements can be written -/
def PySeq.Writable (P : Platform) (print : F64 → Str) : PySeq → Prop
  | .nil => True
  | .cons x xs => x.Writable P print ∧ xs.Writable P print
/-- all values can be written -/
def PyMap.Writable (P : Platform) (print : F64 → Str) : PyMap → Prop
  | .nil => True
  | .cons _ v kvs => v.Writable P print ∧ kvs.Writable P print
end

mutual
/-- the pickle of a value without memo -/
def PyVal.dump (print : F64 → Str) : PyVal → Bytes
  | .none => [octet 'N']
  | .int i => octet 'I' :: (octets (decimalI i) ++ [nl])
  | .float x => octet 'F' :: (octets (print x) ++ [nl])
  | .str s => octet 'V' :: (escape s ++ [nl])
  | .global m n => octet 'c' :: (m ++ nl :: (n ++ [nl]))
  | .tuple xs => octet '(' :: (xs.dump print ++ [octet 't'])
  | .list xs => octet '(' :: octet 'l' :: xs.dumpAppends print
  | .dict kvs => octet '(' :: octet 'd' :: kvs.dump print
  | .reduce f args => f.dump print ++ (octet '(' :: (args.dump print ++ [octet 't', octet 'R']))
  | .build f args s => f.dump print ++ (octet '(' :: (args.dump print ++ octet 't' :: octet 'R' :: (s.dump print ++ [octet 'b'])))
  | .again _ _ _ => []
/-- the elements in sequence -/
def PySeq.dump (print : F64 → Str) : PySeq → Bytes
  | .nil => []
  | .cons x xs => x.dump print ++ xs.dump print
/-- the elements, each appended -/
def PySeq.dumpAppends (print : F64 → Str) : PySeq → Bytes
  | .nil => []
  | .cons x xs => x.dump print ++ octet 'a' :: xs.dumpAppends print
/-- the assignments -/
def PyMap.dump (print : F64 → Str) : PyMap → Bytes
  | .nil => []
  | .cons k v kvs => octet 'V' :: (escape k ++ nl :: (v.dump print ++ octet 's' :: kvs.dump print))
end

/-! ### opcodes and the number of values they take

The stack is described by the number of values above each mark, the most recent mark first; the last number counts the
values below all marks. -/

/-- how many of the values above the last mark an opcode takes or looks at -/
inductive Takes : BitVec 8 → Nat → Prop
  | put : Takes (octet 'p') 1
  | append : Takes (octet 'a') 2
  | reduce : Takes (octet 'R') 2
  | build : Takes (octet 'b') 2
  | setitem : Takes (octet 's') 3
  | stop : Takes (octet '.') 1

/-- the opcodes that take everything above the last mark and leave one value -/
inductive Closes : BitVec 8 → Prop
  | tuple : Closes (octet 't')
  | list : Closes (octet 'l')
  | dict : Closes (octet 'd')

/-- the opcodes with one line as argument that leave one more value -/
inductive PushesLine : BitVec 8 → Prop
  | get : PushesLine (octet 'g')
  | long : PushesLine (octet 'L')
  | int : PushesLine (octet 'I')
  | float : PushesLine (octet 'F')
  | unicode : PushesLine (octet 'V')

/-- one opcode with its argument lines: what is left of the input, and the numbers of values before and after -/
inductive Opcode : Bytes → List Nat → Bytes → List Nat → Prop
  | mark (bs) (hs) : Opcode (octet '(' :: bs) hs bs (0 :: hs)
  | put (key bs) (h hs) (hk : nl ∉ key) : Opcode (octet 'p' :: (key ++ nl :: bs)) ((h + 1) :: hs) bs ((h + 1) :: hs)
  | line (op line bs) (h hs) (ho : PushesLine op) (hl : nl ∉ line) : Opcode (op :: (line ++ nl :: bs)) (h :: hs) bs ((h + 1) :: hs)
  | global (m n bs) (h hs) (hm : nl ∉ m) (hn : nl ∉ n) : Opcode (octet 'c' :: (m ++ nl :: (n ++ nl :: bs))) (h :: hs) bs ((h + 1) :: hs)
  | none (bs) (h hs) : Opcode (octet 'N' :: bs) (h :: hs) bs ((h + 1) :: hs)
  | close (op bs) (g h hs) (ho : Closes op) : Opcode (op :: bs) (g :: h :: hs) bs ((h + 1) :: hs)
  | two (op bs) (h hs) (ho : op = octet 'a' ∨ op = octet 'R' ∨ op = octet 'b') : Opcode (op :: bs) ((h + 2) :: hs) bs ((h + 1) :: hs)
  | setitem (bs) (h hs) : Opcode (octet 's' :: bs) ((h + 3) :: hs) bs ((h + 1) :: hs)

/-- at some opcode, reached from these numbers of values, a mark or values are missing -/
inductive Underflow : Bytes → List Nat → Prop
  | mark (op bs h) (ho : Closes op) : Underflow (op :: bs) [h]
  | value (op bs k h hs) (ho : Takes op k) (hk : h < k) : Underflow (op :: bs) (h :: hs)
  | later (bs hs bs' hs') (ho : Opcode bs hs bs' hs') (hu : Underflow bs' hs') : Underflow bs hs

end Leaves.Spec
