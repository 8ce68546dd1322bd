import Verif.Spec.TextLayout

/-!
# LightGBM models that need more than the library computes
-/

namespace Leaves.Spec

/-- the fields in which LightGBM (3.2 and later, `linear_tree=true`) writes the linear models of the leaves of a tree -/
def linearFields : List String := ["is_linear", "leaf_const", "num_features", "leaf_features", "leaf_coeff"]

/-- a line that gives one of these fields a value -/
def LinearLine (s : Str) : Prop := ∃ k ∈ linearFields, ∃ v, '=' ∉ v ∧ s = k.toList ++ '=' :: v

/-- the lines of a block without and with the linear models of its leaves -/
inductive WithLinear : List Str → List Str → Prop
  | nil : WithLinear [] []
  | keep (s : Str) {a b : List Str} (h : WithLinear a b) : WithLinear (s :: a) (s :: b)
  | add {s : Str} (hs : LinearLine s) {a b : List Str} (h : WithLinear a b) : WithLinear a (s :: b)

/-- a text, and the same text with linear models in its blocks -/
inductive LinearText : Str → Str → Prop
  | same (t : Str) : LinearText t t
  | block {t t' rest rest' : Str} {lines lines' : List Str} (h : StartsWithBlock t lines rest) (h' : StartsWithBlock t' lines' rest')
      (hf : WithLinear lines lines') (hr : LinearText rest rest') : LinearText t t'

/-- what LightGBM computes for a leaf with a linear model (`Tree::Predict`): the constant plus the weighted features, or the plain value
of the leaf when one of the features is missing -/
def linearOutput (plain const : F64) (terms : List (Nat × F64)) (row : List F64) : F64 :=
  if terms.any fun t => (row.getD t.1 .nan).isNaN then plain
  else terms.foldl (fun acc t => acc.add (t.2.mul (row.getD t.1 .nan))) const

/-- what LightGBM answers for a model with objective `regression sqrt`, given the raw score: its square with its sign -/
def squared (x : F64) : F64 := if x.lt .zero then (x.mul x).neg else x.mul x

/-- headers of models that need something else than the formats and transformations that the library knows (with `loadTransformation` or
without) -/
inductive Unsupported (lines : List Str) : Bool → Prop
  | version (lt : Bool) (h : ¬ Bound lines "version".toList "v2".toList) (h' : ¬ Bound lines "version".toList "v3".toList) : Unsupported lines lt
  | perIteration (lt : Bool) {s s' : Str} {K K' : Int} (h : Bound lines "num_class".toList s) (hs : Numeral s K)
      (h' : Bound lines "num_tree_per_iteration".toList s') (hs' : Numeral s' K') (hne : K ≠ K') : Unsupported lines lt
  | sigmoid {v : Str} (hb : ∀ x, ¬ Bound lines "average_output".toList x)
      (h : Bound lines "objective".toList ("binary sigmoid:".toList ++ v)) (hv : ¬ Numeral v 1) : Unsupported lines true
  | objective {s : Str} (hb : ∀ x, ¬ Bound lines "average_output".toList x) (h : Bound lines "objective".toList s)
      (hn : ∀ k ∈ ["poisson", "gamma", "tweedie"], s ≠ k.toList) (hr : ¬ "regression".toList <+: s) (hs : ¬ "binary sigmoid:".toList <+: s)
      (hm : ¬ "multiclass num_class:".toList <+: s) : Unsupported lines true

end Leaves.Spec
