import Verif.Spec.Monotone
import Verif.Spec.LgModel
import Verif.Spec.XgModel
import Verif.Spec.SkModel
import Verif.Spec.Output

/-!
# Scores computed from bounds

The scores that a model would give if every tree returned the same number for all rows: its smallest, or its largest, leaf value.
-/

namespace Leaves.Spec

/-- the first entries of `s` are at least those of `l`, where both are numbers -/
def AtLeast (l s : List F64) : Prop :=
  ∀ (k : Nat) a, l[k]? = some a → ∃ y, s[k]? = some y ∧ (a ≠ F64.nan → y ≠ F64.nan → Le a y)

/-- the first entries of `s` are at most those of `h`, where both are numbers -/
def AtMost (h s : List F64) : Prop :=
  ∀ (k : Nat) a, h[k]? = some a → ∃ y, s[k]? = some y ∧ (a ≠ F64.nan → y ≠ F64.nan → Le y a)

/-- raw scores of a LightGBM model with `n` estimators in which tree `j` returns `b j` -/
def lgConstant (P : Platform) (b : Nat → F64) (K : Nat) (avg : Bool) (n : Nat) : List F64 :=
  (List.range K).map fun k => accumulate
    (fun i acc => P.mulAdd (b (i * K + k)) (if avg then F64.div F64.one (F64.ofNat n) else F64.one) acc) n F64.zero

/-- raw scores of an XGBoost model with `n` trees per group in which tree `j` returns `b j` and is weighted with `c j` -/
def xgConstant (P : Platform) (m : XgModel) (b c : Nat → F64) (K n : Nat) : List F64 :=
  (List.range K).map fun k => accumulate (fun i acc => P.mulAdd (b (i * K + k)) (c (i * K + k)) acc) n
    (F64.ofBits32 m.header.param.baseScore)

/-- raw scores of a scikit-learn model with `n` estimators in which tree `j` returns `b j` -/
def skConstant (P : Platform) (m : SkModel) (b prior : Nat → F64) (n : Nat) : List F64 :=
  (List.range m.groups).map fun k => accumulate
    (fun i acc => P.mulAdd (P.mulAdd (b (i * m.groups + k)) m.learningRate (if i = 0 then prior k else F64.zero)) F64.one acc) n F64.zero

end Leaves.Spec
