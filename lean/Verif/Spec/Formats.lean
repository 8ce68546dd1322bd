import Verif.Spec.Prefix
import Verif.Spec.LgModel

/-! # Vocabulary of C126: the same forest written in two formats -/

namespace Leaves.Spec

/-- two trees of the same form; inner nodes in the same place are related by `S`, leaves in the same place by `V` -/
inductive Twin (S V : Nat → Nat → Prop) : BTree → BTree → Prop
  | leaf (i k : Nat) (h : V i k) : Twin S V (.leaf i) (.leaf k)
  | node (i j : Nat) (l r l' r' : BTree) (h : S i j) (hl : Twin S V l l') (hr : Twin S V r r') : Twin S V (.node i l r) (.node j l' r')

/-- the tree of a block -/
def TreeDesc.form (d : TreeDesc) : BTree := if d.inner = 0 then .leaf 0 else d.tree

/-- Node `j` of the LightGBM tree is the split of node `i` of the XGBoost tree: same feature, the same threshold, NaN is missing (8) and goes to
the default side (2: left). -/
def XgSplitTwin (ns : List XgBin.Node) (d : TreeDesc) (i j : Nat) : Prop :=
  ∃ n, ns[i]? = some n ∧ d.arrays.splitFeatures[j]? = some (xgFeature n) ∧ d.arrays.thresholds[j]? = some (F64.ofBits32 n.info) ∧
    ((XgDefaultLeft n ∧ d.arrays.decisionTypes[j]? = some 10) ∨ (¬ XgDefaultLeft n ∧ d.arrays.decisionTypes[j]? = some 8))

/-- the leaves have the same value -/
def XgLeafTwin (ns : List XgBin.Node) (d : TreeDesc) (i k : Nat) : Prop := ∃ n, ns[i]? = some n ∧ d.leafValues[k]? = some (F64.ofBits32 n.info)

/-- Node `j` of the LightGBM tree is the split of node `i` of the scikit-learn tree: same feature, same threshold, no missing values. -/
def SkSplitTwin (ns : List Pickle.SkNode) (d : TreeDesc) (i j : Nat) : Prop :=
  ∃ n f, ns[i]? = some n ∧ n.feature = (f : Nat) ∧ d.arrays.splitFeatures[j]? = some f ∧ d.arrays.thresholds[j]? = some n.threshold ∧
    (d.arrays.decisionTypes[j]? = some 0 ∨ d.arrays.decisionTypes[j]? = some 2)

/-- the LightGBM leaf has the value of the scikit-learn leaf times the learning rate plus `prior` -/
def SkLeafTwin (P : Platform) (rate prior : F64) (values : List F64) (d : TreeDesc) (i k : Nat) : Prop :=
  ∃ x, values[i]? = some x ∧ d.leafValues[k]? = some (P.mulAdd x rate prior)

/-- The two models, asked for `req` estimators, predict the same: one row at a time, and for whole dense matrices with any numbers of threads. -/
structure SameDense (P : Platform) (e e' : Ensemble) (req : Int) : Prop where
  row : ∀ row m m', (e.predict P row req m.length).run m = (.ok ⟨⟩, m') ↔ (e'.predict P row req m.length).run m = (.ok ⟨⟩, m')
  dense : ∀ (vals m m' : List F64) (r ncols : Nat) (nt nt' : Int), 0 < r → e.nOutputGroups * r < 2 ^ 63 → r ≤ 2 ^ 53 →
    (e.PredictDense P vals r ncols m req nt (.ok ⟨⟩, m') ↔ e'.PredictDense P vals r ncols m req nt' (.ok ⟨⟩, m'))

end Leaves.Spec
