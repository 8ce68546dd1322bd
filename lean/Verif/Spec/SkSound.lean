import Verif.Spec.Pickle

/-!
# Which objects the scikit-learn loader can take apart

A decoded pickle is an object on a heap of lists and dictionaries. What follows says, without reference to how the loader
walks through it, which of the objects inside must have a certain size.
-/

namespace Leaves.Spec

open Pickle

/-- The object occurs somewhere inside `root`: as a part, an argument, an element of a list or a value of a dictionary. -/
inductive Occurs (A : List Arr) (D : List DictCells) (root : PVal) : PVal → Prop
  | self : Occurs A D root root
  | object (o s : PVal) (h : Occurs A D root (.build o s)) : Occurs A D root o
  | state (o s : PVal) (h : Occurs A D root (.build o s)) : Occurs A D root s
  | callable (f : PVal) (args : List PVal) (h : Occurs A D root (.reduce f args)) : Occurs A D root f
  | arg (f : PVal) (args : List PVal) (x : PVal) (h : Occurs A D root (.reduce f args)) (hx : x ∈ args) : Occurs A D root x
  | part (xs : List PVal) (x : PVal) (h : Occurs A D root (.tuple xs)) (hx : x ∈ xs) : Occurs A D root x
  | elem (r len : Nat) (a : Arr) (x : PVal) (h : Occurs A D root (.list r len)) (ha : A[r]? = some a) (hx : x ∈ a.elems.take len) :
      Occurs A D root x
  | value (r : Nat) (cells : DictCells) (key : Bytes) (x : PVal) (h : Occurs A D root (.dict r)) (hd : D[r]? = some cells)
      (hx : (key, x) ∈ cells) : Occurs A D root x

/-- the dictionary entry occurs somewhere inside `root` -/
def Entry (A : List Arr) (D : List DictCells) (root : PVal) (key : String) (x : PVal) : Prop :=
  ∃ r cells, Occurs A D root (.dict r) ∧ D[r]? = some cells ∧ (octets key.toList, x) ∈ cells

/-- the bytes as numpy writes them: encoded text -/
inductive RawBytes : PVal → Bytes → Prop
  | plain (f enc : PVal) (b : Bytes) : RawBytes (.reduce f [.unicode b, enc]) b
  | built (f enc s : PVal) (b : Bytes) : RawBytes (.build (.reduce f [.unicode b, enc]) s) b

/-- a numpy scalar: a type and the bytes of its value -/
inductive ScalarBytes : PVal → Bytes → Prop
  | plain (f t raw : PVal) (b : Bytes) (h : RawBytes raw b) : ScalarBytes (.reduce f [t, raw]) b
  | built (f t raw s : PVal) (b : Bytes) (h : RawBytes raw b) : ScalarBytes (.build (.reduce f [t, raw]) s) b

/-- an array without dimensions: it was never given a state, or its shape is the empty tuple -/
inductive Dimensionless : PVal → Prop
  | bare (f : PVal) (args : List PVal) : Dimensionless (.reduce f args)
  | filled (o version t fortran data : PVal) : Dimensionless (.build o (.tuple [version, .tuple [], t, fortran, data]))

/-- memory for `n` values of `size` bytes can be had -/
def MemFits (P : Platform) (n : Int) (size : Nat) : Prop := 0 ≤ n ∧ n * size ≤ P.maxAlloc

/-- Every number that says how much memory to take is reasonable, every number in numpy's format has its 8 bytes, and every
array of class numbers has a dimension. -/
structure SkSound (P : Platform) (A : List Arr) (D : List DictCells) (root : PVal) : Prop where
  classCount : ∀ i, Entry A D root "n_classes_" (.int i) → MemFits P i 8
  classCounts : ∀ x b, Entry A D root "n_classes_" x → ScalarBytes x b → 8 ≤ b.length
  prior : ∀ x b, Entry A D root "prior" x → ScalarBytes x b → 8 ≤ b.length
  classes : ∀ x, Entry A D root "classes_" x → ¬ Dimensionless x
  outputs : ∀ f features classes i, Occurs A D root (.reduce f [features, classes, .int i]) →
    f = .global (octets "sklearn.tree._tree".toList) (octets "Tree".toList) → MemFits P i 8 ∧ ¬ Dimensionless classes
  lists : ∀ r len, Occurs A D root (.list r len) → MemFits P len 112

end Leaves.Spec
