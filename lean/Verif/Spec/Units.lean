import Verif.Spec.Formats

/-! # Vocabulary of C131: features measured in other units -/

namespace Leaves.Spec

/-- The second row has the values of the first one in other units: `g f` converts the values of feature `f`, all of which lie in `S f`. -/
def Measured (S : Nat → F64 → Prop) (g : Nat → F64 → F64) (row row' : List F64) : Prop :=
  row'.length = row.length ∧ ∀ f x, row[f]? = some x → S f x ∧ row'[f]? = some (g f x)

/-- The conversion keeps the order of the values it is used for, and what is NaN. (No conversion but the identity keeps the order of all float64.) -/
structure Converts (S : F64 → Prop) (g : F64 → F64) : Prop where
  order : ∀ x y, S x → S y → (Le x y ↔ Le (g x) (g y))
  nan : ∀ x, S x → (g x = .nan ↔ x = .nan)

/-- Node `j` of the second block is node `i` of the first one in other units:

* numerical splits have the same feature, the converted threshold and the same treatment of missing values; if zeros count as missing, the conversion keeps
  what counts as zero; if nothing is missing and there are NaN, which count as 0, the threshold stays on its side of 0,
* categorical splits are the same, and their feature is not converted. -/
def UnitSplit (S : Nat → F64 → Prop) (g : Nat → F64 → F64) (d d' : TreeDesc) (i j : Nat) : Prop :=
  (∃ f r, LgSplit d.arrays i f (.num r) ∧ LgSplit d'.arrays j f (.num { r with threshold := g f r.threshold }) ∧ S f r.threshold ∧ Converts (S f) (g f) ∧
    (r.missing = .zero → ∀ x, S f x → (Within (-zeroBound) zeroBound x ↔ Within (-zeroBound) zeroBound (g f x))) ∧
    (r.missing = .none → S f .nan → (Le .zero r.threshold ↔ Le .zero (g f r.threshold)))) ∨
  ∃ f m s, LgSplit d.arrays i f (.cat m s) ∧ LgSplit d'.arrays j f (.cat m s) ∧ ∀ x, g f x = x

/-- the second block is the first one in other units -/
def TreeDesc.InUnits (S : Nat → F64 → Prop) (g : Nat → F64 → F64) (d d' : TreeDesc) : Prop :=
  Twin (UnitSplit S g d d') (fun i k => d.leafValues[i]? = d'.leafValues[k]?) d.form d'.form

/-- node `j` of the second XGBoost tree is node `i` of the first one in other units -/
def XgUnitSplit (S : Nat → F64 → Prop) (g : Nat → F64 → F64) (ns ns' : List XgBin.Node) (i j : Nat) : Prop :=
  ∃ n n', ns[i]? = some n ∧ ns'[j]? = some n' ∧ n'.sIndex = n.sIndex ∧ F64.ofBits32 n'.info = g (xgFeature n) (F64.ofBits32 n.info) ∧
    S (xgFeature n) (F64.ofBits32 n.info) ∧ Converts (S (xgFeature n)) (g (xgFeature n))

/-- the second XGBoost tree is the first one in other units -/
def XgInUnits (S : Nat → F64 → Prop) (g : Nat → F64 → F64) (ns ns' : List XgBin.Node) (T T' : BTree) : Prop :=
  Twin (XgUnitSplit S g ns ns') (fun i k => ∃ n n', ns[i]? = some n ∧ ns'[k]? = some n' ∧ n'.info = n.info) T T'

/-- The model `e'` predicts for converted rows what `e` predicts for the original ones: row by row, and for whole matrices with any numbers of threads.
In sparse matrices the entries are converted; this needs the value of absent entries to stay what it is. -/
structure SameInUnits (P : Platform) (S : Nat → F64 → Prop) (g : Nat → F64 → F64) (e e' : Ensemble) (req : Int) : Prop where
  row : ∀ row row' m m', Measured S g row row' →
    ((e.predict P row req m.length).run m = (.ok ⟨⟩, m') ↔ (e'.predict P row' req m.length).run m = (.ok ⟨⟩, m'))
  dense : ∀ (vals vals' m m' : List F64) (r ncols : Nat) (nt nt' : Int), 0 < r → e.nOutputGroups * r < 2 ^ 63 → r ≤ 2 ^ 53 →
    (∀ i < r, ∀ f < ncols, ∃ x, vals[i * ncols + f]? = some x ∧ S f x ∧ vals'[i * ncols + f]? = some (g f x)) →
    (e.PredictDense P vals r ncols m req nt (.ok ⟨⟩, m') ↔ e'.PredictDense P vals' r ncols m req nt' (.ok ⟨⟩, m'))
  csr : ∀ (indptr cols : List Int) (vals vals' m m' : List F64) (r nf : Nat) (nt nt' : Int), 0 < r → e.nOutputGroups * r < 2 ^ 63 →
    r ≤ 2 ^ 53 → indptr.length = r + 1 → e.nFeatures = nf → nf * 8 ≤ P.maxAlloc → (∀ f < nf, S f (dflt e.base) ∧ g f (dflt e.base) = dflt e.base) →
    (∀ j f : Nat, f < nf → cols[j]? = some (f : Int) → ∃ x, vals[j]? = some x ∧ S f x ∧ vals'[j]? = some (g f x)) →
    (e.PredictCSR P indptr cols vals m req nt (.ok ⟨⟩, m') ↔ e'.PredictCSR P indptr cols vals' m req nt' (.ok ⟨⟩, m'))

end Leaves.Spec
