import Verif.Spec.Unused
import Verif.Spec.Renumber
import Verif.Spec.SkModel

/-! # Vocabulary of C124: trees whose nodes have been given other numbers -/

namespace Leaves.Spec

open XgBin

/-- a reference to one of the `n` nodes after they got their new numbers; other references stay what they are -/
def newRef (n : Nat) (ρ : Nat → Nat) (c : Int) : Int := if 0 ≤ c ∧ c < n then ρ c.toNat else c

/-- node `i` of the one node array is node `ρ i` of the other -/
structure NodesReordered (ρ : Nat → Nat) (ns ns' : List Node) : Prop where
  root : ρ 0 = 0
  length : ns'.length = ns.length
  node : ∀ (i : Nat) (n : Node), ns[i]? = some n → ∃ n', ns'[ρ i]? = some n' ∧ n'.info = n.info ∧ n'.sIndex = n.sIndex ∧
    n'.cLeft.toInt = newRef ns.length ρ n.cLeft.toInt ∧ n'.cRight.toInt = newRef ns.length ρ n.cRight.toInt

/-- the trees differ in the order of their nodes; the root is the first node -/
structure XgNodesMoved (t t' : TreeModel) : Prop where
  numRoots : t'.param.numRoots = t.param.numRoots
  numNodes : t'.param.numNodes = t.param.numNodes
  numFeature : t'.param.numFeature = t.param.numFeature
  nodes : ∃ ρ τ, Renumbering t.nodes.length ρ τ ∧ NodesReordered ρ t.nodes t'.nodes

/-- a child in a LightGBM text file: inner node `i` becomes `ρ i`, leaf `k` becomes `lam k` -/
def newChild (ρ lam : Nat → Nat) (c : Int) : Int := if 0 ≤ c then (ρ c.toNat : Int) else -(lam (-c - 1).toNat : Int) - 1

/-- inner node `i` of the one tree of a LightGBM text file is inner node `ρ i` of the other, and leaf `k` is leaf `lam k`; numbers that are not
those of leaves become such numbers -/
structure TreeDesc.NodesReordered (ρ lam : Nat → Nat) (d d' : TreeDesc) : Prop where
  root : ρ 0 = 0
  only : d.inner = 0 → lam 0 = 0
  inner : d'.inner = d.inner
  values : ∀ k, d'.leafValues[lam k]? = d.leafValues[k]?
  features : ∀ i < d.inner, d'.arrays.splitFeatures[ρ i]? = d.arrays.splitFeatures[i]?
  thresholds : ∀ i < d.inner, d'.arrays.thresholds[ρ i]? = d.arrays.thresholds[i]?
  types : ∀ i < d.inner, d'.arrays.decisionTypes[ρ i]? = d.arrays.decisionTypes[i]?
  left : ∀ i < d.inner, d'.arrays.leftChilds[ρ i]? = (d.arrays.leftChilds[i]?).map (newChild ρ lam)
  right : ∀ i < d.inner, d'.arrays.rightChilds[ρ i]? = (d.arrays.rightChilds[i]?).map (newChild ρ lam)
  catThresholds : d'.arrays.catThresholds = d.arrays.catThresholds
  catBoundaries : d'.arrays.catBoundaries = d.arrays.catBoundaries

/-- Node `i` of the one scikit-learn tree is node `ρ i` of the other. Impurities and numbers of samples are free. -/
structure SkNodesMoved (ρ : Nat → Nat) (t t' : Pickle.SkTree) : Prop where
  root : ρ 0 = 0
  node : ∀ (i : Nat) (n : Pickle.SkNode), t.nodes[i]? = some n → t'.values[ρ i]? = t.values[i]? ∧
    ∃ n', t'.nodes[ρ i]? = some n' ∧ n'.feature = n.feature ∧ n'.threshold = n.threshold ∧
      n'.leftChild = newRef t.nodes.length ρ n.leftChild ∧ n'.rightChild = newRef t.nodes.length ρ n.rightChild

/-- the classifiers differ in the order of the nodes of their trees -/
structure SkModel.NodesReordered (m m' : SkModel) : Prop where
  classes : m'.classes = m.classes
  estimators : m'.estimators = m.estimators
  maxFeatures : m'.maxFeatures = m.maxFeatures
  learningRate : m'.learningRate = m.learningRate
  prior : m'.prior = m.prior
  trees : List.Forall₂ (fun t t' => ∃ ρ, SkNodesMoved ρ t t') m.trees m'.trees

end Leaves.Spec
