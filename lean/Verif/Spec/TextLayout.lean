import Verif.Spec.LgModel

/-!
# LightGBM text files that differ in their layout only
-/

namespace Leaves.Spec

/-- the texts consist of the same lines, up to white space at the beginning and at the end of lines -/
inductive SameLines : Str → Str → Prop
  | last {l l' s : Str} (hn : '\n' ∉ l) (hn' : '\n' ∉ l') (h : IsTrim l s) (h' : IsTrim l' s) : SameLines l l'
  | line {l l' s t t' : Str} (hn : '\n' ∉ l) (hn' : '\n' ∉ l') (h : IsTrim l s) (h' : IsTrim l' s) (ht : SameLines t t') :
      SameLines (l ++ '\n' :: t) (l' ++ '\n' :: t')

/-- the text with every newline replaced by a carriage return and a newline -/
def windows (t : Str) : Str := t.flatMap fun c => if c = '\n' then ['\r', '\n'] else [c]

/-- the fields that a LightGBM model is made of -/
def modelFields : List String :=
  ["version", "num_class", "num_tree_per_iteration", "max_feature_idx", "average_output", "tree_sizes", "objective",
   "num_cat", "num_leaves", "leaf_value", "left_child", "right_child", "decision_type", "split_feature", "threshold",
   "cat_threshold", "cat_boundaries"]

/-- the lines of two blocks give the fields the same values; either both blocks are readable or none -/
def SameFields (lines lines' : List Str) : Prop :=
  (Readable lines ↔ Readable lines') ∧ ∀ k ∈ modelFields, ∀ v, Bound lines k.toList v ↔ Bound lines' k.toList v

/-- the text starts with a block of these lines (its first line may be blank), after which `rest` follows -/
def StartsWithBlock (text : Str) (lines : List Str) (rest : Str) : Prop :=
  ∃ first s t ss e, text = first ++ '\n' :: t ∧ '\n' ∉ first ∧ IsTrim first s ∧ Block t ss rest e ∧ lines = s :: ss

/-- the texts consist, from their beginning on, of blocks with the same fields, and end in the same way -/
inductive Alike : Str → Str → Prop
  | same (t : Str) : Alike t t
  | noLine {t t' : Str} (h : '\n' ∉ t) (h' : '\n' ∉ t') : Alike t t'
  | block {t t' rest rest' : Str} {lines lines' : List Str} (h : StartsWithBlock t lines rest) (h' : StartsWithBlock t' lines' rest')
      (hf : SameFields lines lines') (hr : Alike rest rest') : Alike t t'

/-- two calls that load a model (and return what they have not read): both give the same model, or both return an error, or both
panic, or none returns -/
def SameLoad {α ρ : Type} : Res (α × ρ) → Res (α × ρ) → Prop
  | .ok (a, _), .ok (a', _) => a = a'
  | .err _, .err _ => True
  | .panic, .panic => True
  | .hang, .hang => True
  | _, _ => False

end Leaves.Spec
