import Verif.Spec.Params
import Verif.Spec.LgFile
import Verif.Spec.Output

/-!
# What a LightGBM text file means

A file is a header block followed by one block per tree (`Spec.Block`). The fields of the blocks are given by
`Spec.Bound`; the arrays of a tree block mean a tree by `Spec.LgTreeOK`.
-/

namespace Leaves.Spec

/-- the text starts with a block whose trimmed lines are `lines` (the first one may be blank), after which `rest`
follows -/
def FileBlock (text : Str) (lines : List Str) (rest : Str) (atEnd : Bool) : Prop :=
  ∃ first s t ss, text = first ++ '\n' :: t ∧ '\n' ∉ first ∧ IsTrim first s ∧ Block t ss rest atEnd ∧ lines = s :: ss ∧
    Readable lines

/-- the text starts with these blocks, after which `rest` follows; `atEnd`: the last one is not followed by a blank line -/
inductive FileBlocks : Str → List (List Str) → Str → Bool → Prop
  | nil (t : Str) : FileBlocks t [] t false
  | cons {text rest rest' : Str} {lines : List Str} {bs : List (List Str)} {e e' : Bool} (h : FileBlock text lines rest e)
      (hb : FileBlocks rest bs rest' e') : FileBlocks text (lines :: bs) rest' (e || e')

/-- one tree of the file: its number of categorical splits and of inner nodes, its leaf values and arrays, and the tree
they describe (irrelevant when there is no inner node) -/
structure TreeDesc where
  numCat : Int
  inner : Nat
  leafValues : List F64
  catThreshold : List Nat
  arrays : LgArrays
  tree : BTree

/-- `w` is the value found for the row by walking the file's arrays -/
def TreeDesc.Value (d : TreeDesc) (out : F64 → Int) (fvals : List F64) (w : F64) : Prop :=
  if d.inner = 0 then d.leafValues[0]? = some w
  else ∃ k, Walk (Goes out (LgSplit d.arrays) fvals) d.tree k ∧ d.leafValues[k]? = some w

/-- the row ends in the leaf with this number of the file -/
def TreeDesc.Leaf (d : TreeDesc) (out : F64 → Int) (fvals : List F64) (k : Nat) : Prop :=
  if d.inner = 0 then k = 0
  else Walk (Goes out (LgSplit d.arrays) fvals) d.tree k ∧ k < d.leafValues.length

/-- the number of leaves of the tree -/
def TreeDesc.leafCount (d : TreeDesc) : Nat := if d.inner = 0 then 1 else d.tree.leaves.length

/-- the numbers written with blanks between them -/
def Numbers (ns : List Int) : Str := join " ".toList (ns.map decimalI)

/-- The lines of a tree block are those of the tree `d`: every field is the decimal text of its numbers. `print` is how
floats are written. -/
structure TreeLines (print : F64 → Str) (d : TreeDesc) (lines : List Str) : Prop where
  numCat : Bound lines "num_cat".toList (decimalI d.numCat)
  numLeaves : Bound lines "num_leaves".toList (decimal (d.inner + 1))
  leafValue : Bound lines "leaf_value".toList (join " ".toList (d.leafValues.map print))
  leftChild : d.inner ≠ 0 → Bound lines "left_child".toList (Numbers d.arrays.leftChilds)
  rightChild : d.inner ≠ 0 → Bound lines "right_child".toList (Numbers d.arrays.rightChilds)
  decisionType : d.inner ≠ 0 → Bound lines "decision_type".toList (join " ".toList (d.arrays.decisionTypes.map decimal))
  splitFeature : d.inner ≠ 0 → Bound lines "split_feature".toList (join " ".toList (d.arrays.splitFeatures.map decimal))
  threshold : d.inner ≠ 0 → Bound lines "threshold".toList (join " ".toList (d.arrays.thresholds.map print))
  catThreshold : d.inner ≠ 0 → 0 < d.numCat → Bound lines "cat_threshold".toList (join " ".toList (d.catThreshold.map decimal))
  catBoundaries : d.inner ≠ 0 → 0 < d.numCat →
    Bound lines "cat_boundaries".toList (join " ".toList (d.arrays.catBoundaries.map decimal))

/-- The tree can be written: there is a leaf value, the arrays are not empty and describe a tree, the numbers fit their
types, floats survive printing and parsing. -/
structure TreeDesc.OK (parse : Str → Option F64) (print : F64 → Str) (d : TreeDesc) : Prop where
  numCat : -2 ^ 63 ≤ d.numCat ∧ d.numCat < 2 ^ 63
  leafValues : d.leafValues ≠ []
  leafText : ∀ x ∈ d.leafValues, parse (print x) = some x ∧ ' ' ∉ print x
  tree : d.inner ≠ 0 → LgTreeOK d.arrays d.inner d.tree
  left : d.inner ≠ 0 → d.arrays.leftChilds ≠ [] ∧ ∀ i ∈ d.arrays.leftChilds, -2 ^ 31 ≤ i ∧ i < 2 ^ 31
  right : d.inner ≠ 0 → d.arrays.rightChilds ≠ [] ∧ ∀ i ∈ d.arrays.rightChilds, -2 ^ 31 ≤ i ∧ i < 2 ^ 31
  decision : d.inner ≠ 0 → d.arrays.decisionTypes ≠ [] ∧ ∀ n ∈ d.arrays.decisionTypes, n < 2 ^ 32
  feature : d.inner ≠ 0 → d.arrays.splitFeatures ≠ [] ∧ ∀ n ∈ d.arrays.splitFeatures, n < 2 ^ 32
  threshold : d.inner ≠ 0 → d.arrays.thresholds ≠ [] ∧ ∀ x ∈ d.arrays.thresholds, parse (print x) = some x ∧ ' ' ∉ print x
  cats : d.inner ≠ 0 → d.arrays.catThresholds = d.catThreshold.map (BitVec.ofNat 32) ∧
    if 0 < d.numCat then d.catThreshold ≠ [] ∧ d.arrays.catBoundaries ≠ [] ∧ (∀ n ∈ d.catThreshold, n < 2 ^ 32) ∧
      ∀ n ∈ d.arrays.catBoundaries, n < 2 ^ 32
    else d.catThreshold = [] ∧ d.arrays.catBoundaries = []

/-- The header announces `K` groups, the largest feature index `M` and `n` trees, and (`avg`) averaging. -/
structure HeaderLines (lines : List Str) (K : Nat) (M : Int) (n : Nat) (avg : Bool) : Prop where
  version : Bound lines "version".toList "v2".toList ∨ Bound lines "version".toList "v3".toList
  numClass : Bound lines "num_class".toList (decimal K)
  perIteration : Bound lines "num_tree_per_iteration".toList (decimal K)
  maxFeature : Bound lines "max_feature_idx".toList (decimalI M)
  maxFeatureRange : -2 ^ 63 ≤ M ∧ M < 2 ^ 63 - 1
  treeSizes : ∃ sizes : List Str, sizes.length = n ∧ (∀ s ∈ sizes, ' ' ∉ s) ∧
    Bound lines "tree_sizes".toList (join " ".toList sizes)
  average : avg = true ↔ ∃ v, Bound lines "average_output".toList v

/-- the raw scores that the trees of the file, stored by estimator and group, give with `n` estimators -/
def RefRaw (P : Platform) (out : F64 → Int) (ds : List TreeDesc) (K : Nat) (avg : Bool) (fvals : List F64) (n : Nat) (w : List F64) : Prop :=
  ∃ v : Nat → Nat → F64, (∀ i < n, ∀ k < K, ∃ d, ds[i * K + k]? = some d ∧ d.Value out fvals (v i k)) ∧
    w = (List.range K).map fun k => accumulate
      (fun i acc => P.mulAdd (v i k) (if avg then F64.div F64.one (F64.ofNat n) else F64.one) acc) n F64.zero

/-- a decimal numeral with an optional sign, in the range of `int` -/
def Numeral (s : Str) (n : Int) : Prop :=
  ∃ ds, ds ≠ [] ∧ (∀ c ∈ ds, c.isDigit = true) ∧ -2 ^ 63 ≤ n ∧ n < 2 ^ 63 ∧
    ((s = ds ∧ n = Nat.ofDigitChars 10 ds 0) ∨ (s = '+' :: ds ∧ n = Nat.ofDigitChars 10 ds 0) ∨
     (s = '-' :: ds ∧ n = -(Nat.ofDigitChars 10 ds 0 : Int)))

/-- the lines bind `key` to a list, separated by single blanks, whose members denote `xs` -/
def ListField {α : Type} (lines : List Str) (key : String) (R : Str → α → Prop) (xs : List α) : Prop :=
  ∃ toks, Bound lines key.toList (join " ".toList toks) ∧ (∀ t ∈ toks, ' ' ∉ t) ∧ List.Forall₂ R toks xs

/-- The lines announce `n` inner nodes, `n` positive, with the arrays `a`. -/
structure InnerLines (P : Platform) (lines : List Str) (n : Nat) (a : LgArrays) : Prop where
  leaves : ∃ v, Bound lines "num_leaves".toList v ∧ Numeral v (n + 1)
  pos : 0 < n
  left : ListField lines "left_child" Numeral a.leftChilds
  right : ListField lines "right_child" Numeral a.rightChilds
  types : ListField lines "decision_type" (fun t x => Numeral t (x : Nat)) a.decisionTypes
  features : ListField lines "split_feature" (fun t x => Numeral t (x : Nat)) a.splitFeatures
  thresholds : ListField lines "threshold" (fun t x => P.parseFloat t = some x) a.thresholds
  cats : ∃ v c, Bound lines "num_cat".toList v ∧ Numeral v c ∧
    (0 < c → ListField lines "cat_threshold" (fun t w => Numeral t (w.toNat : Nat)) a.catThresholds ∧
      ListField lines "cat_boundaries" (fun t x => Numeral t (x : Nat)) a.catBoundaries) ∧
    (c ≤ 0 → a.catThresholds = [] ∧ a.catBoundaries = [])

/-- the transformation that an objective asks for in a model with `K` groups -/
inductive Objective (K : Int) : Str → Transform → Prop
  | poisson : Objective K "poisson".toList .exponential
  | gamma : Objective K "gamma".toList .exponential
  | tweedie : Objective K "tweedie".toList .exponential
  | regression (s : Str) : Objective K ("regression".toList ++ s) (.raw K)
  | binary (v : Str) (hv : Numeral v 1) : Objective K ("binary sigmoid:".toList ++ v) .logistic
  | multiclass (v : Str) (hv : Numeral v K) : Objective K ("multiclass num_class:".toList ++ v) (.softmax K)

end Leaves.Spec
