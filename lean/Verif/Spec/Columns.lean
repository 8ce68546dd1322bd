import Mathlib.Logic.Equiv.Defs
import Verif.Spec.LgModel
import Verif.Spec.Machines
import Verif.Spec.Matrix
import Verif.Spec.XgModel
import Verif.Spec.JsonModel
import Verif.Spec.SkModel

/-! # Vocabulary of C110: features in another order -/

namespace Leaves.Spec

/-- the second row has the values of the first one in other places: feature `f` is now feature `σ f` -/
def Moved (σ : Equiv.Perm Nat) (row row' : List F64) : Prop := row'.length = row.length ∧ ∀ f, row'[σ f]? = row[f]?

/-- `σ` exchanges the first `n` features among themselves -/
def KeepsBelow (σ : Equiv.Perm Nat) (n : Nat) : Prop := ∀ f, σ f < n ↔ f < n

/-- a column index of a sparse matrix, renumbered (negative ones, which are not valid, stay) -/
def moveColumn (σ : Equiv.Perm Nat) (c : Int) : Int := if c < 0 then c else σ c.toNat

/-- The model `e'` predicts for rows with moved features what `e` predicts for the original rows: row by row, and for whole matrices with
any numbers of threads. In a sparse matrix only the column indexes change. -/
structure SameMoved (P : Platform) (σ : Equiv.Perm Nat) (e e' : Ensemble) : Prop where
  row : ∀ (row row' : List F64) (req : Int) (m m' : List F64), Moved σ row row' →
    ((e.predict P row req m.length).run m = (.ok ⟨⟩, m') ↔ (e'.predict P row' req m.length).run m = (.ok ⟨⟩, m'))
  dense : ∀ (vals vals' m m' : List F64) (r ncols : Nat) (req nt nt' : Int), 0 < r → e.nOutputGroups * r < 2 ^ 63 → r ≤ 2 ^ 53 →
    KeepsBelow σ ncols → (∀ i < r, ∀ f < ncols, vals'[i * ncols + σ f]? = vals[i * ncols + f]?) →
    (e.PredictDense P vals r ncols m req nt (.ok ⟨⟩, m') ↔ e'.PredictDense P vals' r ncols m req nt' (.ok ⟨⟩, m'))
  csr : ∀ (indptr cols : List Int) (vals m m' : List F64) (r nf : Nat) (req nt nt' : Int), 0 < r → e.nOutputGroups * r < 2 ^ 63 →
    r ≤ 2 ^ 53 → indptr.length = r + 1 → e.nFeatures = nf → nf * 8 ≤ P.maxAlloc → KeepsBelow σ nf →
    (e.PredictCSR P indptr cols vals m req nt (.ok ⟨⟩, m') ↔
      e'.PredictCSR P indptr (cols.map (moveColumn σ)) vals m req nt' (.ok ⟨⟩, m'))

/-- the tree of a LightGBM text file with renumbered features -/
def TreeDesc.moved (σ : Equiv.Perm Nat) (d : TreeDesc) : TreeDesc :=
  { d with arrays := { d.arrays with splitFeatures := d.arrays.splitFeatures.map σ } }

/-- The two XGBoost trees, of shape `T`, differ in the numbers of the tested features only. (What leaves have in place of a feature does
not matter.) -/
def NodesMoved (σ : Equiv.Perm Nat) (T : BTree) (ns ns' : List XgBin.Node) : Prop :=
  ns'.length = ns.length ∧ ∀ i n n', ns[i]? = some n → ns'[i]? = some n' →
    n'.info = n.info ∧ (i ∈ T.inner → xgFeature n' = σ (xgFeature n) ∧ (XgDefaultLeft n' ↔ XgDefaultLeft n))

/-- the two XGBoost files differ in the numbers of the tested features only -/
structure XgModel.MovedTo (σ : Equiv.Perm Nat) (m m' : XgModel) : Prop where
  features : m'.header.param.numFeatures = m.header.param.numFeatures
  score : m'.header.param.baseScore = m.header.param.baseScore
  objective : m'.header.nameObj = m.header.nameObj
  booster : m'.dart = m.dart
  count : m'.gbtree.trees.length = m.gbtree.trees.length
  trees : ∀ (k : Nat) (t t' : XgBin.TreeModel) (T : BTree), m.gbtree.trees[k]? = some t → m'.gbtree.trees[k]? = some t' → m.shapes[k]? = some T →
    NodesMoved σ T t.nodes t'.nodes
  shapes : m'.shapes = m.shapes
  weights : m'.weights = m.weights

/-- the objects of a JSON tree with renumbered features -/
def jMoved (σ : Equiv.Perm Nat) : JRaw → JRaw
  | .split f thr d dl m ms l r => .split (σ f) thr d dl m ms (jMoved σ l) (jMoved σ r)
  | v => v

/-- the tree of a JSON dump with renumbered features -/
def jTreeMoved (σ : Equiv.Perm Nat) (t : JTree) : JTree := { t with root := jMoved σ t.root }

/-- the two nodes of scikit-learn trees differ in the number of the tested feature only (leaves have negative numbers there, which stay
negative) -/
structure SkNodeMoved (σ : Equiv.Perm Nat) (n n' : Pickle.SkNode) : Prop where
  feature : ∀ f : Nat, n'.feature = σ f ↔ n.feature = f
  threshold : n'.threshold = n.threshold

/-- the two scikit-learn classifiers differ in the numbers of the tested features only -/
structure SkModel.MovedTo (σ : Equiv.Perm Nat) (m m' : SkModel) : Prop where
  classes : m'.classes = m.classes
  estimators : m'.estimators = m.estimators
  maxFeatures : m'.maxFeatures = m.maxFeatures
  learningRate : m'.learningRate = m.learningRate
  prior : m'.prior = m.prior
  trees : List.Forall₂ (fun t t' => List.Forall₂ (SkNodeMoved σ) t.nodes t'.nodes ∧ t'.values = t.values) m.trees m'.trees
  shapes : m'.shapes = m.shapes

end Leaves.Spec
