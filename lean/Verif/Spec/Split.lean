import Verif.Spec.Num
import Verif.Spec.Bitset
import Mathlib.Data.Rat.Floor
import Mathlib.Algebra.Order.Floor.Ring

/-!
# The split rules, as documented by LightGBM

Written against the denotation of float64 (`Spec.value`), without the model's comparison and conversion
functions.
-/

namespace Leaves.Spec

/-- how a split treats missing values -/
inductive Missing where
  | none
  | zero
  | nan
deriving DecidableEq

/-- a numerical split -/
structure NumRule where
  missing : Missing
  defaultLeft : Bool
  threshold : F64

/-- the double nearest to `1e-35` (`zeroBound_near`) -/
def zeroBound : ℚ := 0x1a95a5b7f87a0f / 2 ^ 169

/-- `zeroBound` is within half a unit in the last place of `1e-35` -/
theorem zeroBound_near : |zeroBound - 1 / 10 ^ 35| ≤ 1 / 2 ^ 170 := by
  unfold zeroBound; rw [abs_le]; constructor <;> norm_num

/-- the feature value is missing under the given treatment; a NaN counts as 0 under `zero` -/
def IsMissing (m : Missing) (x : F64) : Prop :=
  match m with
  | .none => False
  | .zero => x = .nan ∨ Within (-zeroBound) zeroBound x
  | .nan => x = .nan

/-- a numerical split sends the value left -/
def NumLeft (r : NumRule) (x : F64) : Prop :=
  (IsMissing r.missing x ∧ r.defaultLeft = true) ∨
  (¬ IsMissing r.missing x ∧ Le (if x = .nan then .zero else x) r.threshold)

/-- truncation toward zero -/
def truncQ (q : ℚ) : Int := if 0 ≤ q then ⌊q⌋ else ⌈q⌉

/-- `c` is the int32 category of `x`: its truncation if that exists and fits, else whatever the platform's
float-to-int32 conversion `out` delivers -/
def Category (out : F64 → Int) (x : F64) (c : Int) : Prop :=
  (∃ q, IsVal x q ∧ c = truncQ q ∧ -2 ^ 31 ≤ c ∧ c < 2 ^ 31) ∨
  ((¬ ∃ q, IsVal x q ∧ -2 ^ 31 ≤ truncQ q ∧ truncQ q < 2 ^ 31) ∧ c = out x)

/-- a categorical split with the given category set sends the value left: the category is not negative and
a member. A NaN goes right under missing type NaN; otherwise, if the platform converts it to a non-negative
int32, it counts as category 0. -/
def CatLeft (out : F64 → Int) (missing : Missing) (set : Nat → Prop) (x : F64) : Prop :=
  ∃ c, Category out x c ∧ 0 ≤ c ∧ (x = .nan → missing ≠ .nan) ∧ set (if x = .nan then 0 else c.toNat)

end Leaves.Spec

namespace Leaves.Spec

/-- the split rule of an inner node -/
inductive Rule where
  | num (r : NumRule)
  | cat (missing : Missing) (set : Nat → Prop)

/-- the rule sends the value left (`out`: the platform's float-to-int32 conversion outside the range) -/
def Rule.Left (out : F64 → Int) : Rule → F64 → Prop
  | .num r, x => NumLeft r x
  | .cat m s, x => CatLeft out m s x

/-- with `split i f rule` read as "inner node `i` splits on feature `f` by `rule`": at node `i` the feature
vector goes left (`b = true`) or right (`b = false`) -/
def Goes (out : F64 → Int) (split : Nat → Nat → Rule → Prop) (fvals : List F64) (i : Nat) (b : Bool) : Prop :=
  ∃ f rule x, split i f rule ∧ fvals[f]? = some x ∧ (b = true ↔ rule.Left out x)

end Leaves.Spec
