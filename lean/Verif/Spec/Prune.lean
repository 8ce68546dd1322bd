import Verif.Spec.Formats

/-! # Vocabulary of C127: trees without superfluous splits -/

namespace Leaves.Spec

/-- For the rows in `R` the tree `T'` is `T` without some superfluous splits. `goes row i b`: at inner node `i` of `T` the row goes left or right;
`S i j`: node `j` of `T'` has the split of node `i` of `T`; `V i k`: leaf `k` of `T'` has the value of leaf `i` of `T`.

* a part of `T` that no row reaches may be replaced by anything,
* a split both sides of which may be replaced by `T'` may be replaced by `T'`. -/
inductive Pruned (goes : List F64 → Nat → Bool → Prop) (S V : Nat → Nat → Prop) : (List F64 → Prop) → BTree → BTree → Prop
  | dead (R : List F64 → Prop) (T T' : BTree) (h : ∀ row, ¬ R row) : Pruned goes S V R T T'
  | leaf (R : List F64 → Prop) (i k : Nat) (h : V i k) : Pruned goes S V R (.leaf i) (.leaf k)
  | node (R : List F64 → Prop) (i j : Nat) (l r l' r' : BTree) (h : S i j) (hl : Pruned goes S V (fun row => R row ∧ goes row i true) l l')
      (hr : Pruned goes S V (fun row => R row ∧ goes row i false) r r') : Pruned goes S V R (.node i l r) (.node j l' r')
  | cut (R : List F64 → Prop) (i : Nat) (l r T' : BTree) (hl : Pruned goes S V (fun row => R row ∧ goes row i true) l T')
      (hr : Pruned goes S V (fun row => R row ∧ goes row i false) r T') : Pruned goes S V R (.node i l r) T'

/-- the second block has the tree of the first one without some superfluous splits -/
def TreeDesc.PrunedTo (out : F64 → Int) (d d' : TreeDesc) : Prop :=
  Pruned (Goes out (LgSplit d.arrays)) (fun i j => ∃ f rule, LgSplit d.arrays i f rule ∧ LgSplit d'.arrays j f rule)
    (fun i k => d.leafValues[i]? = d'.leafValues[k]?) (fun _ => True) d.form d'.form

/-- the second list of nodes has the tree of the first one without some superfluous splits -/
def XgPrunedTo (ns ns' : List XgBin.Node) (T T' : BTree) : Prop :=
  Pruned (XgGoesLe ns) (fun i j => ∃ n n', ns[i]? = some n ∧ ns'[j]? = some n' ∧ n'.sIndex = n.sIndex ∧ n'.info = n.info)
    (fun i k => ∃ n n', ns[i]? = some n ∧ ns'[k]? = some n' ∧ n'.info = n.info) (fun _ => True) T T'

/-- Whatever `e` predicts when asked for `req` estimators, `e'` predicts as well: one row at a time, and for whole matrices with any numbers of threads. -/
structure PredictsAs (P : Platform) (e e' : Ensemble) (req : Int) : Prop where
  row : ∀ row m m', (e.predict P row req m.length).run m = (.ok ⟨⟩, m') → (e'.predict P row req m.length).run m = (.ok ⟨⟩, m')
  dense : ∀ (vals m m' : List F64) (r ncols : Nat) (nt nt' : Int), 0 < r → e.nOutputGroups * r < 2 ^ 63 → r ≤ 2 ^ 53 →
    e.PredictDense P vals r ncols m req nt (.ok ⟨⟩, m') → e'.PredictDense P vals r ncols m req nt' (.ok ⟨⟩, m')
  csr : ∀ (indptr cols : List Int) (vals m m' : List F64) (r nf : Nat) (nt nt' : Int), 0 < r → e.nOutputGroups * r < 2 ^ 63 →
    r ≤ 2 ^ 53 → indptr.length = r + 1 → e.nFeatures = nf → nf * 8 ≤ P.maxAlloc →
    e.PredictCSR P indptr cols vals m req nt (.ok ⟨⟩, m') → e'.PredictCSR P indptr cols vals m req nt' (.ok ⟨⟩, m')

end Leaves.Spec
