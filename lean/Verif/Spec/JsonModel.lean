import Verif.Spec.JsonFile
import Verif.Spec.LgModel
import Verif.Spec.Output

/-!
# What a LightGBM JSON dump means, and when it is a dump of the same model as a text file
-/

namespace Leaves.Spec

/-- The document is a well-formed dump: `K` groups, largest feature index `M`, and the trees `ts`, `N` per group. -/
structure JEnsembleOK (d : JEnsemble) (maxAlloc K N : Nat) (M : Int) (ts : List JTree) : Prop where
  name : d.name = "tree".toList
  version : d.version = "v2".toList
  numClasses : d.numClasses = K
  perIteration : d.numTreesPerIteration = K
  maxFeature : d.maxFeatureIdx = M ∧ M < 2 ^ 63 - 1
  trees : d.trees = ts.map some
  counts : 1 ≤ K ∧ 1 ≤ N ∧ ts.length = N * K
  treesOK : ∀ t ∈ ts, ∃ W, JTreeOK t W ∧ jLeaves t.root * 24 ≤ maxAlloc ∧ 4 * W ≤ maxAlloc

/-- the raw scores that the trees of the document, stored by estimator and group, give with `n` estimators -/
def JRefRaw (P : Platform) (out : F64 → Int) (ts : List JTree) (K : Nat) (fvals : List F64) (n : Nat) (w : List F64) : Prop :=
  ∃ v : Nat → Nat → F64, (∀ i < n, ∀ k < K, ∃ t p, ts[i * K + k]? = some t ∧ JWalk out fvals t.root p (v i k)) ∧
    w = (List.range K).map fun k => accumulate (fun i acc => P.mulAdd (v i k) F64.one acc) n F64.zero

/-- The nested objects say the same as the arrays of a text block: the same leaf values and, at every split, the same feature and
rule. -/
inductive SameNode (a : LgArrays) (leafValues : List F64) : BTree → JRaw → Prop
  | leaf (k : Nat) (v : F64) (hv : leafValues[k]? = some v) : SameNode a leafValues (.leaf k) (.leafLike (some v))
  | node {i f : Nat} {l r : BTree} {thr : JVal} {d : Str} {dl : Bool} {m : Char} {ms : Str} {jl jr : JRaw} (rule : Rule)
      (ht : LgSplit a i f rule) (hj : JSplit thr d dl (m :: ms) rule) (hl : SameNode a leafValues l jl) (hr : SameNode a leafValues r jr) :
      SameNode a leafValues (.node i l r) (.split f thr d dl m ms jl jr)

/-- the JSON tree and the tree of a text block are the same tree -/
def SameTree (d : TreeDesc) (t : JTree) : Prop :=
  if d.inner = 0 then ∃ v, d.leafValues[0]? = some v ∧ t.root = .leafLike (some v)
  else SameNode d.arrays d.leafValues d.tree t.root

end Leaves.Spec
