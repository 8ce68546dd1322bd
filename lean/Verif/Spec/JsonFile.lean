import Verif.Model.LgJson
import Verif.Spec.Tree
import Verif.Spec.Text
import Verif.Spec.LgModel

/-!
# What a LightGBM JSON tree means

The nested objects (`JRaw`: what the JSON library delivers) read according to LightGBM's documentation.
-/

namespace Leaves.Spec

/-- the names of the missing types -/
def MissingName (s : Str) (m : Missing) : Prop :=
  (s = "None".toList ∧ m = .none) ∨ (s = "Zero".toList ∧ m = .zero) ∨ (s = "NaN".toList ∧ m = .nan)

/-- the split rule of an object with the given `threshold`, `decision_type`, `default_left` and `missing_type`: a
categorical threshold lists the categories in decimal, separated by `||` -/
inductive JSplit : JVal → Str → Bool → Str → Rule → Prop
  | num (t : F64) (dl : Bool) (mt : Str) (m : Missing) (hm : MissingName mt m) :
      JSplit (.num t) "<=".toList dl mt (.num ⟨m, dl, t⟩)
  | cat (values : List Nat) (dl : Bool) (mt : Str) (m : Missing) (hm : MissingName mt m) (hne : values ≠ []) :
      JSplit (.str (join "||".toList (values.map decimal))) "==".toList dl mt (.cat m (· ∈ values))

/-- the feature vector reaches a leaf with value `v` from this object, along the path `p` (`true`: left) -/
inductive JWalk (out : F64 → Int) (fvals : List F64) : JRaw → List Bool → F64 → Prop
  | leaf (v : F64) : JWalk out fvals (.leafLike (some v)) [] v
  | left {f : Nat} {thr : JVal} {d : Str} {dl : Bool} {m : Char} {ms : Str} {l r : JRaw} {rule : Rule} {x v : F64}
      {p : List Bool} (hs : JSplit thr d dl (m :: ms) rule) (hx : fvals[f]? = some x) (h : rule.Left out x)
      (w : JWalk out fvals l p v) : JWalk out fvals (.split f thr d dl m ms l r) (true :: p) v
  | right {f : Nat} {thr : JVal} {d : Str} {dl : Bool} {m : Char} {ms : Str} {l r : JRaw} {rule : Rule} {x v : F64}
      {p : List Bool} (hs : JSplit thr d dl (m :: ms) rule) (hx : fvals[f]? = some x) (h : ¬ rule.Left out x)
      (w : JWalk out fvals r p v) : JWalk out fvals (.split f thr d dl m ms l r) (false :: p) v

/-- the paths to the leaf objects -/
def jPaths : JRaw → List (List Bool)
  | .split _ _ _ _ _ _ l r => (jPaths l).map (true :: ·) ++ (jPaths r).map (false :: ·)
  | _ => [[]]

/-- Well-formed objects: every split is readable, categories are int32. The number bounds the 32-bit words needed for
all category sets; it is positive when there is a categorical split. -/
inductive JOK : JRaw → Nat → Prop
  | leaf (v : F64) : JOK (.leafLike (some v)) 0
  | num {f : Nat} {t : F64} {dl : Bool} {m : Char} {ms : Str} {mis : Missing} {l r : JRaw} {a b : Nat}
      (hm : MissingName (m :: ms) mis) (hl : JOK l a) (hr : JOK r b) :
      JOK (.split f (.num t) "<=".toList dl m ms l r) (a + b)
  | cat {f : Nat} {dl : Bool} {m : Char} {ms : Str} {mis : Missing} {l r : JRaw} {a b w : Nat} (values : List Nat)
      (hm : MissingName (m :: ms) mis) (hne : values ≠ []) (h31 : ∀ v ∈ values, v < 2 ^ 31)
      (hw : ∀ v ∈ values, v < 32 * w) (hl : JOK l a) (hr : JOK r b) :
      JOK (.split f (.str (join "||".toList (values.map decimal))) "==".toList dl m ms l r) (w + a + b)

/-- number of leaf objects -/
def jLeaves : JRaw → Nat
  | .split _ _ _ _ _ _ l r => jLeaves l + jLeaves r
  | _ => 1

/-- all features used by the splits are below `n` -/
def JFeatures (n : Nat) : JRaw → Prop
  | .split f _ _ _ _ _ l r => f < n ∧ JFeatures n l ∧ JFeatures n r
  | _ => True

/-- A well-formed tree: well-formed objects, `num_leaves` is the number of leaves, `num_cat` is positive if there are
categorical splits, sizes fit into 32 bits. -/
structure JTreeOK (t : JTree) (W : Nat) : Prop where
  objects : JOK t.root W
  leaves : t.numLeaves = jLeaves t.root
  cats : 0 < W → 0 < t.numCat
  small : jLeaves t.root < 2 ^ 32
  words : W < 2 ^ 32

/-- No numeral that occurs in a category list is negative or so large that a set of bits up to it does not fit into memory. -/
def JCategoriesFit (P : Platform) : JRaw → Prop
  | .split _ thr _ _ _ _ l r =>
    (∀ s, thr = .str s → ∀ tok, tok <:+: s → ∀ v, Numeral tok v → 0 ≤ v ∧ v < 2 ^ 63 - 1 ∧ (v / 32 + 1) * 4 ≤ P.maxAlloc) ∧
      JCategoriesFit P l ∧ JCategoriesFit P r
  | _ => True

end Leaves.Spec
