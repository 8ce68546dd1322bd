import Verif.Spec.LgModel

/-! # Writing a LightGBM model as text -/

namespace Leaves.Spec

/-- a line of a block: a key with its value, or a key alone -/
abbrev Field := String × Option Str

/-- the field as it is written -/
def Field.text (f : Field) : Str :=
  match f.2 with
  | some v => f.1.toList ++ '=' :: v
  | none => f.1.toList

/-- lines and the blank line that ends the block -/
def blockText (lines : List Str) : Str := lines.flatMap (fun s => s ++ ['\n']) ++ ['\n']

/-- the header of a model with `K` groups, `n` trees and largest feature index `M` -/
def headerFields (K : Nat) (M : Int) (n : Nat) (avg : Bool) : List Field :=
  [("tree", none), ("version", some "v3".toList), ("num_class", some (decimal K)), ("num_tree_per_iteration", some (decimal K)),
   ("max_feature_idx", some (decimalI M))] ++ (if avg then [("average_output", none)] else []) ++
  [("tree_sizes", some (join " ".toList (List.replicate n ['0'])))]

/-- the fields of a tree -/
def treeFields (print : F64 → Str) (d : TreeDesc) : List Field :=
  [("num_leaves", some (decimal (d.inner + 1))), ("num_cat", some (decimalI d.numCat))] ++
  (if d.inner = 0 then [] else
    [("split_feature", some (join " ".toList (d.arrays.splitFeatures.map decimal))),
     ("threshold", some (join " ".toList (d.arrays.thresholds.map print))),
     ("decision_type", some (join " ".toList (d.arrays.decisionTypes.map decimal))),
     ("left_child", some (Numbers d.arrays.leftChilds)), ("right_child", some (Numbers d.arrays.rightChilds))]) ++
  (if d.inner = 0 ∨ d.numCat ≤ 0 then [] else
    [("cat_boundaries", some (join " ".toList (d.arrays.catBoundaries.map decimal))),
     ("cat_threshold", some (join " ".toList (d.catThreshold.map decimal)))]) ++
  [("leaf_value", some (join " ".toList (d.leafValues.map print)))]

/-- the whole file -/
def modelText (print : F64 → Str) (ds : List TreeDesc) (K : Nat) (M : Int) (avg : Bool) : Str :=
  blockText ((headerFields K M ds.length avg).map Field.text) ++
    ds.flatMap fun d => blockText ((treeFields print d).map Field.text)

/-- the text has characters, none of them white space or an equals sign -/
def Plain (s : Str) : Prop := s ≠ [] ∧ ∀ c ∈ s, ¬ whiteSpace c ∧ c ≠ '='

/-- all floats of the tree are written as plain text -/
def PlainFloats (print : F64 → Str) (d : TreeDesc) : Prop :=
  (∀ x ∈ d.leafValues, Plain (print x)) ∧ (d.inner ≠ 0 → ∀ x ∈ d.arrays.thresholds, Plain (print x))

/-- the tree can be written: it is a tree, its arrays are not empty and its numbers fit the integer types (nothing is said about the
float64 values) -/
structure TreeDesc.Good (d : TreeDesc) : Prop where
  numCat : -2 ^ 63 ≤ d.numCat ∧ d.numCat < 2 ^ 63
  leafValues : d.leafValues ≠ []
  tree : d.inner ≠ 0 → LgTreeOK d.arrays d.inner d.tree
  left : d.inner ≠ 0 → d.arrays.leftChilds ≠ [] ∧ ∀ i ∈ d.arrays.leftChilds, -2 ^ 31 ≤ i ∧ i < 2 ^ 31
  right : d.inner ≠ 0 → d.arrays.rightChilds ≠ [] ∧ ∀ i ∈ d.arrays.rightChilds, -2 ^ 31 ≤ i ∧ i < 2 ^ 31
  decision : d.inner ≠ 0 → d.arrays.decisionTypes ≠ [] ∧ ∀ n ∈ d.arrays.decisionTypes, n < 2 ^ 32
  feature : d.inner ≠ 0 → d.arrays.splitFeatures ≠ [] ∧ ∀ n ∈ d.arrays.splitFeatures, n < 2 ^ 32
  threshold : d.inner ≠ 0 → d.arrays.thresholds ≠ []
  cats : d.inner ≠ 0 → d.arrays.catThresholds = d.catThreshold.map (BitVec.ofNat 32) ∧
    if 0 < d.numCat then d.catThreshold ≠ [] ∧ d.arrays.catBoundaries ≠ [] ∧ (∀ n ∈ d.catThreshold, n < 2 ^ 32) ∧
      ∀ n ∈ d.arrays.catBoundaries, n < 2 ^ 32
    else d.catThreshold = [] ∧ d.arrays.catBoundaries = []

end Leaves.Spec
