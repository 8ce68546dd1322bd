import Verif.Spec.LgModel
import Verif.Spec.XgModel
import Verif.Spec.SkModel
import Verif.Spec.JsonModel

/-! # Monotone constraints -/

namespace Leaves.Spec

/-- `x <= y`, or `y <= x` for a decreasing constraint -/
def Ordered (up : Bool) (x y : F64) : Prop := if up then Le x y else Le y x

/-- At every split of the constrained feature (`tests`), the leaves on the left are not above those on the right (not below for a
decreasing constraint). -/
def Constrained (up : Bool) (tests : Nat → Prop) (val : Nat → F64 → Prop) : BTree → Prop
  | .leaf _ => True
  | .node i l r =>
    (tests i → ∀ k ∈ l.leaves, ∀ k' ∈ r.leaves, ∀ x y, val k x → val k' y → Ordered up x y) ∧
    Constrained up tests val l ∧ Constrained up tests val r

/-- the rows differ at most at feature `f`, which rises from `x` to `y` -/
def Raised (f : Nat) (x y : F64) (row row' : List F64) : Prop :=
  row[f]? = some x ∧ row'[f]? = some y ∧ Le x y ∧ ∀ g, g ≠ f → row[g]? = row'[g]?

/-- The tree of a LightGBM file obeys a constraint on feature `f`, which is numerical and for which `x` and `y` do not count as
missing. -/
structure TreeDesc.Obeys (d : TreeDesc) (up : Bool) (f : Nat) (x y : F64) : Prop where
  leaves : d.inner ≠ 0 → Constrained up (fun i => ∃ rule, LgSplit d.arrays i f rule) (fun k v => d.leafValues[k]? = some v) d.tree
  numerical : d.inner ≠ 0 → ∀ i ∈ d.tree.inner, ∀ rule, LgSplit d.arrays i f rule →
    ∃ r, rule = .num r ∧ ¬ IsMissing r.missing x ∧ ¬ IsMissing r.missing y

/-- The node array of an XGBoost file obeys a constraint on feature `f`. -/
def XgObeys (nodes : List XgBin.Node) (T : BTree) (up : Bool) (f : Nat) : Prop :=
  Constrained up (fun i => ∃ n, nodes[i]? = some n ∧ xgFeature n = f) (XgVal nodes) T

/-- The node array of a scikit-learn tree obeys a constraint on feature `f`. -/
def SkObeys (t : Pickle.SkTree) (T : BTree) (up : Bool) (f : Nat) : Prop :=
  Constrained up (fun i => ∃ n, t.nodes[i]? = some n ∧ n.feature = f) (fun k v => t.values[k]? = some v) T

/-- the leaf values below an object of a JSON dump -/
def jValues : JRaw → List F64
  | .split _ _ _ _ _ _ l r => jValues l ++ jValues r
  | .leafLike (some v) => [v]
  | _ => []

/-- The objects of a JSON dump obey a constraint on feature `f`, which is numerical and for which `x` and `y` do not count as missing. -/
def JObeys (up : Bool) (f : Nat) (x y : F64) : JRaw → Prop
  | .split g thr d dl m ms l r =>
    (g = f → (∀ v ∈ jValues l, ∀ v' ∈ jValues r, Ordered up v v') ∧
      ∀ rule, JSplit thr d dl (m :: ms) rule → ∃ q, rule = .num q ∧ ¬ IsMissing q.missing x ∧ ¬ IsMissing q.missing y) ∧
    JObeys up f x y l ∧ JObeys up f x y r
  | _ => True

/-- The weights of feature `f` in a linear XGBoost file are not negative (not positive for a decreasing constraint). -/
def LinObeys (m : XgLinFile) (K : Nat) (up : Bool) (f : Nat) : Prop :=
  ∀ k < K, ∀ b, m.linear.weights[f * K + k]? = some b → Ordered up F64.zero (F64.ofBits32 b)

/-- `x*y + z` is fused everywhere or nowhere -/
def Uniform (P : Platform) : Prop :=
  (∀ x y z, P.mulAdd x y z = F64.add (F64.mul x y) z) ∨ ∀ x y z, P.mulAdd x y z = F64.fma x y z

end Leaves.Spec
