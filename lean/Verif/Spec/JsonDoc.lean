import Verif.Model.JsonDoc
import Verif.Spec.JsonModel

/-!
# LightGBM JSON dumps as JSON documents

Which document describes which model, and which documents are to be taken for the same. Nothing here calls the functions that decode
documents.
-/

namespace Leaves.Spec

/-- the elements -/
def _root_.Leaves.JsonArr.toList : JsonArr → List Json
  | .nil => []
  | .cons x rest => x :: rest.toList

/-- the members -/
def _root_.Leaves.JsonObj.toList : JsonObj → List (Str × Json)
  | .nil => []
  | .cons k v rest => (k, v) :: rest.toList

/-- letters that differ in case only; the long s and the Kelvin sign are forms of `s` and `k` -/
def SameLetter (c d : Char) : Prop :=
  c = d ∨ (c.isAlpha ∧ d.isAlpha ∧ c.toLower = d.toLower) ∨
    (∃ l, (l = 's' ∨ l = 'S') ∧ ((c = l ∧ d.toNat = 0x17f) ∨ (d = l ∧ c.toNat = 0x17f))) ∨
    (∃ l, (l = 'k' ∨ l = 'K') ∧ ((c = l ∧ d.toNat = 0x212a) ∨ (d = l ∧ c.toNat = 0x212a)))

/-- keys that differ in letter case only -/
def SameKey (a b : Str) : Prop := List.Forall₂ SameLetter a b

/-- no member has this name -/
def Absent (o : JsonObj) (name : String) : Prop := ∀ m ∈ o.toList, ¬ SameKey m.1 name.toList

/-- exactly one member has this name, and it has this value -/
def Sole (o : JsonObj) (name : String) (v : Json) : Prop :=
  ∃ a b, o.toList = a ++ (name.toList, v) :: b ∧ ∀ m ∈ a ++ b, ¬ SameKey m.1 name.toList

mutual
/-- every number in the value can be read as a float64 -/
inductive Floats (P : Platform) : Json → Prop
  | null : Floats P .null
  | bool (b) : Floats P (.bool b)
  | num (t : Str) (x : F64) (h : P.parseFloat t = some x) : Floats P (.num t)
  | str (s) : Floats P (.str s)
  | arr (items) (h : FloatsArr P items) : Floats P (.arr items)
  | obj (members) (h : FloatsObj P members) : Floats P (.obj members)
/-- … in the elements -/
inductive FloatsArr (P : Platform) : JsonArr → Prop
  | nil : FloatsArr P .nil
  | cons (x rest) (hx : Floats P x) (h : FloatsArr P rest) : FloatsArr P (.cons x rest)
/-- … in the members -/
inductive FloatsObj (P : Platform) : JsonObj → Prop
  | nil : FloatsObj P .nil
  | cons (k v rest) (hv : Floats P v) (h : FloatsObj P rest) : FloatsObj P (.cons k v rest)
end

/-- the value of a `threshold` member: a number, or the text of a list of categories -/
inductive ThresholdValue (P : Platform) : Json → JVal → Prop
  | num (t : Str) (x : F64) (h : P.parseFloat t = some x) : ThresholdValue P (.num t) (.num x)
  | str (s : Str) : ThresholdValue P (.str s) (.str s)

/-- names that mark an object as a split or belong to the loader -/
def nodeNames : List String :=
  ["split_index", "split_feature", "threshold", "decision_type", "default_left", "missing_type", "LeftChild", "RightChild"]

/-- The document is a node: an object with a `leaf_value`, or one with the members of a split and the documents of its children.
Other members may be present. -/
inductive NodeDoc (P : Platform) : Json → JRaw → Prop
  | leaf (o : JsonObj) (t : Str) (v : F64) (hv : Sole o "leaf_value" (.num t)) (ht : P.parseFloat t = some v)
      (hn : ∀ name ∈ nodeNames, Absent o name) (hr : FloatsObj P o) : NodeDoc P (.obj o) (.leafLike (some v))
  | split (o : JsonObj) (i f : Nat) (t : Json) (thr : JVal) (d : Str) (dl : Bool) (m : Char) (ms : Str) (l r : Json) (jl jr : JRaw)
      (hi : Absent o "split_index" ∨ i < 2 ^ 32 ∧ Sole o "split_index" (.num (decimal i)))
      (hf : f < 2 ^ 32 ∧ Sole o "split_feature" (.num (decimal f)))
      (ht : Sole o "threshold" t ∧ ThresholdValue P t thr) (hd : Sole o "decision_type" (.str d)) (hdl : Sole o "default_left" (.bool dl))
      (hm : Sole o "missing_type" (.str (m :: ms))) (hno : Absent o "LeftChild" ∧ Absent o "RightChild")
      (hl : Sole o "left_child" l) (hr : Sole o "right_child" r) (hlj : NodeDoc P l jl) (hrj : NodeDoc P r jr) :
      NodeDoc P (.obj o) (.split f thr d dl m ms jl jr)

/-- the document is a tree -/
def TreeDoc (P : Platform) (v : Json) (t : JTree) : Prop :=
  ∃ (o : JsonObj) (n : Nat) (root : Json), v = .obj o ∧ n < 2 ^ 63 ∧ t.numLeaves = n ∧ Sole o "num_leaves" (.num (decimal n)) ∧
    t.numCat < 2 ^ 32 ∧ Sole o "num_cat" (.num (decimal t.numCat)) ∧ Sole o "tree_structure" root ∧ NodeDoc P root t.root ∧ Absent o "Root"

/-- The document is a dump with `K` groups, largest feature index `M` and the trees `ts`. Other members may be present. -/
def ModelDoc (P : Platform) (v : Json) (K : Nat) (M : Int) (ts : List JTree) : Prop :=
  ∃ (o : JsonObj) (items : JsonArr), v = .obj o ∧ Sole o "name" (.str "tree".toList) ∧ Sole o "version" (.str "v2".toList) ∧
    K < 2 ^ 63 ∧ Sole o "num_class" (.num (decimal K)) ∧ Sole o "num_tree_per_iteration" (.num (decimal K)) ∧
    -(2 ^ 63) ≤ M ∧ M < 2 ^ 63 - 1 ∧ Sole o "max_feature_idx" (.num (decimalI M)) ∧ Sole o "tree_info" (.arr items) ∧
    List.Forall₂ (TreeDoc P) items.toList ts

/-! ### documents that say the same -/

/-- all names that mean something to LightGBM's JSON format or to the loader -/
def knownNames : List String :=
  nodeNames ++ ["leaf_value", "left_child", "right_child", "num_leaves", "num_cat", "tree_structure", "Root", "name", "version", "num_class",
    "num_tree_per_iteration", "max_feature_idx", "tree_info"]

/-- the key is none of these names -/
def UnknownKey (k : Str) : Prop := ∀ name ∈ knownNames, ¬ SameKey k name.toList

/-- names of members whose values are strings, truth values or integers -/
def plainNames : List String :=
  ["split_index", "split_feature", "decision_type", "default_left", "missing_type", "num_leaves", "num_cat", "name", "version", "num_class",
    "num_tree_per_iteration", "max_feature_idx"]

/-- names of members whose values are nodes -/
def childNames : List String := ["left_child", "right_child", "tree_structure"]

/-- a value that a later value of the same kind replaces -/
inductive Replaced (P : Platform) : Json → Json → Prop
  | str (s t) : Replaced P (.str s) (.str t)
  | bool (b c) : Replaced P (.bool b) (.bool c)
  | num (n : Nat) (t : Str) (hn : n < 2 ^ 31) (hf : Floats P (.num (decimal n))) : Replaced P (.num (decimal n)) (.num t)
  | arr (a b) (hf : FloatsArr P a) : Replaced P (.arr a) (.arr b)
  | obj (a b) (hf : FloatsObj P a) : Replaced P (.obj a) (.obj b)

mutual
/-- The second value is the first one in which, at any depth, members with unknown keys have been left out, neighbouring members
with different keys have been swapped, members that are followed by a member with the same key and a value of the same kind have
been left out, `null` members with the name of a plain value have been left out, and empty nodes and trees have been replaced by
`null`. -/
inductive Rearranged (P : Platform) : Json → Json → Prop
  | refl (v) : Rearranged P v v
  | arr (a b) (h : RearrangedArr P a b) : Rearranged P (.arr a) (.arr b)
  | obj (a b) (h : RearrangedObj P a b) : Rearranged P (.obj a) (.obj b)
/-- … element by element -/
inductive RearrangedArr (P : Platform) : JsonArr → JsonArr → Prop
  | nil : RearrangedArr P .nil .nil
  | cons (x y a b) (hx : Rearranged P x y) (h : RearrangedArr P a b) : RearrangedArr P (.cons x a) (.cons y b)
  | empty (a b) (h : RearrangedArr P a b) : RearrangedArr P (.cons (.obj .nil) a) (.cons .null b)
/-- … members -/
inductive RearrangedObj (P : Platform) : JsonObj → JsonObj → Prop
  | nil : RearrangedObj P .nil .nil
  | cons (k v w a b) (hv : Rearranged P v w) (h : RearrangedObj P a b) : RearrangedObj P (.cons k v a) (.cons k w b)
  | drop (k v a b) (hk : UnknownKey k) (hv : Floats P v) (h : RearrangedObj P a b) : RearrangedObj P (.cons k v a) b
  | swap (k l v w a) (hk : ¬ SameKey k l) : RearrangedObj P (.cons k v (.cons l w a)) (.cons l w (.cons k v a))
  | replace (k v w a) (hv : Replaced P v w) : RearrangedObj P (.cons k v (.cons k w a)) (.cons k w a)
  | null (k name a b) (hn : name ∈ plainNames) (hk : SameKey k name.toList) (h : RearrangedObj P a b) : RearrangedObj P (.cons k .null a) b
  | empty (k name a b) (hn : name ∈ childNames) (hk : SameKey k name.toList) (h : RearrangedObj P a b) :
      RearrangedObj P (.cons k (.obj .nil) a) (.cons k .null b)
  | trans (a b c) (h : RearrangedObj P a b) (h' : RearrangedObj P b c) : RearrangedObj P a c
end

/-- no array or object is nested more deeply than this -/
inductive NestedAtMost : Nat → Json → Prop
  | null (n) : NestedAtMost n .null
  | bool (n b) : NestedAtMost n (.bool b)
  | num (n t) : NestedAtMost n (.num t)
  | str (n s) : NestedAtMost n (.str s)
  | arr (n items) (h : ∀ x ∈ items.toList, NestedAtMost n x) : NestedAtMost (n + 1) (.arr items)
  | obj (n members) (h : ∀ m ∈ members.toList, NestedAtMost n m.2) : NestedAtMost (n + 1) (.obj members)

end Leaves.Spec
