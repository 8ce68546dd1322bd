import Verif.Spec.Formats

/-! # Vocabulary of C128: trees that differ in the way they are written down -/

namespace Leaves.Spec

/-- node `j` of the second block tests the same feature as node `i` of the first one and sends the same values to the left -/
def SameSplit (out : F64 → Int) (d d' : TreeDesc) (i j : Nat) : Prop :=
  ∃ f rule rule', LgSplit d.arrays i f rule ∧ LgSplit d'.arrays j f rule' ∧ ∀ x, Rule.Left out rule x ↔ Rule.Left out rule' x

/-- The two blocks describe trees of the same form, corresponding nodes of which send the same values to the left and corresponding leaves of which
have the same value. -/
def TreeDesc.SameMeaning (out : F64 → Int) (d d' : TreeDesc) : Prop :=
  Twin (SameSplit out d d') (fun i k => d.leafValues[i]? = d'.leafValues[k]?) d.form d'.form

end Leaves.Spec
