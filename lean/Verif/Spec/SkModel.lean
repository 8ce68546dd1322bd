import Verif.Spec.Pickle
import Verif.Spec.SkFile
import Verif.Spec.XgImage
import Verif.Spec.Output

/-!
# What a pickled scikit-learn gradient boosting classifier means

The Python objects that `pickle.dump(clf, f, protocol=0)` writes for a fitted `GradientBoostingClassifier`
(scikit-learn 0.19/0.20), as values (`Spec.PyVal`): numpy dtypes, arrays and scalars, trees, the initial estimator and
the classifier itself. Nothing here refers to the loader's functions.
-/

namespace Leaves.Spec

open Pickle (Bytes SkNode SkTree)

/-! ### numpy -/

/-- eight bytes, the lowest first -/
def field64 (w : BitVec 64) : Bytes := bytesLE 8 w.toNat

/-- the record of a node (sklearn/tree/_tree.pyx, NODE_DTYPE): seven little-endian 64-bit fields -/
def nodeRecord (left right feature threshold impurity samples weighted : BitVec 64) : Bytes :=
  [left, right, feature, threshold, impurity, samples, weighted].flatMap field64

/-- the fields of a node -/
structure NodeWords where
  (left right feature threshold impurity samples weighted : BitVec 64)

/-- the record -/
def NodeWords.record (n : NodeWords) : Bytes :=
  nodeRecord n.left n.right n.feature n.threshold n.impurity n.samples n.weighted

/-- the node -/
def NodeWords.node (n : NodeWords) : SkNode :=
  ⟨n.left.toInt, n.right.toInt, n.feature.toInt, F64.ofBits n.threshold, F64.ofBits n.impurity, n.samples.toInt, F64.ofBits n.weighted⟩

/-- a class or function -/
def pyName (modul name : String) : PyVal := .global (octets modul.toList) (octets name.toList)

/-- an ASCII string -/
def pyStr (s : String) : PyVal := .str (octets s.toList)

/-- the value of an attribute -/
def PyMap.attr (kvs : PyMap) (k : String) : Option PyVal := kvs.get (octets k.toList)

/-- A numpy dtype with type code `t` and byte order `e`. A dtype without state has the byte order of the machine, taken
to be little-endian. A dtype that occurs again is not big-endian (for those the loader is wrong, see C53). -/
inductive IsDType (t : String) (e : BitVec 8) : PyVal → Prop
  | plain (a b : PyVal) (he : e = octet '<') : IsDType t e (.reduce (pyName "numpy" "dtype") (.ofList [pyStr t, a, b]))
  | built (a b s0 s2 s3 s4 s5 s6 s7 : PyVal) : IsDType t e
      (.build (pyName "numpy" "dtype") (.ofList [pyStr t, a, b]) (.tuple (.ofList [s0, .str [e], s2, s3, s4, s5, s6, s7])))
  | again (a b s0 s2 s3 s4 s5 s6 s7 : PyVal) (he : e ≠ octet '>') : IsDType t e
      (.again (pyName "numpy" "dtype") (.ofList [pyStr t, a, b]) (.tuple (.ofList [s0, .str [e], s2, s3, s4, s5, s6, s7])))

/-- a bytes object: `_codecs.encode(s, 'latin1')` -/
def IsBytes (bs : Bytes) (v : PyVal) : Prop := v = .reduce (pyName "_codecs" "encode") (.ofList [.str bs, pyStr "latin1"])

/-- a C-ordered numpy array -/
def IsArray (shape : List Int) (t : String) (e : BitVec 8) (data v : PyVal) : Prop :=
  ∃ a b version dtype, IsDType t e dtype ∧
    v = .build (pyName "numpy.core.multiarray" "_reconstruct") (.ofList [pyName "numpy" "ndarray", a, b])
      (.tuple (.ofList [.int version, .tuple (.ofList (shape.map PyVal.int)), dtype, .int 0, data]))

/-- the bytes of 64-bit floats in byte order `e` -/
def FloatBytes (e : BitVec 8) (bs : Bytes) (xs : List F64) : Prop :=
  ∃ ws : List (BitVec 64), xs = ws.map F64.ofBits ∧
    ((e = octet '<' ∧ bs = ws.flatMap field64) ∨ (e = octet '>' ∧ bs = ws.flatMap fun w => (field64 w).reverse))

/-- a one-dimensional array of little-endian int64 -/
def IsIntArray (is : List Int) (v : PyVal) : Prop :=
  ∃ (ws : List (BitVec 64)) (data : PyVal), IsArray [(is.length : Int)] "i8" (octet '<') data v ∧
    IsBytes (ws.flatMap field64) data ∧ is = ws.map BitVec.toInt

/-- an array of float64 of any shape, with its numbers in order -/
def IsFloatArray (xs : List F64) (v : PyVal) : Prop :=
  ∃ shape e bs data, IsArray shape "f8" e data v ∧ IsBytes bs data ∧ FloatBytes e bs xs

/-- an array of tree nodes (the byte orders of the fields are taken to be little-endian) -/
def IsNodeArray (nodes : List SkNode) (v : PyVal) : Prop :=
  ∃ (shape : List Int) (e : BitVec 8) (ws : List NodeWords) (data : PyVal), IsArray shape "V56" e data v ∧
    IsBytes (ws.flatMap NodeWords.record) data ∧ nodes = ws.map NodeWords.node

/-- a numpy scalar -/
def IsScalar (t : String) (e : BitVec 8) (bs : Bytes) (v : PyVal) : Prop :=
  ∃ dtype data, IsDType t e dtype ∧ IsBytes bs data ∧
    v = .reduce (pyName "numpy.core.multiarray" "scalar") (.ofList [dtype, data])

/-! ### scikit-learn -/

/-- an instance of a Python class with the given attributes -/
def IsInstance (modul name : String) (kvs : PyMap) (v : PyVal) : Prop :=
  ∃ a b, v = .build (pyName "copy_reg" "_reconstructor") (.ofList [pyName modul name, a, b]) (.dict kvs)

/-- a fitted tree -/
def IsTree (t : SkTree) (v : PyVal) : Prop :=
  ∃ nFeatures classes kvs nodes values,
    v = .build (pyName "sklearn.tree._tree" "Tree") (.ofList [nFeatures, classes, .int t.nOutputs]) (.dict kvs) ∧
    IsIntArray t.classes classes ∧ kvs.attr "node_count" = some (.int t.nNodes) ∧
    kvs.attr "nodes" = some nodes ∧ IsNodeArray t.nodes nodes ∧
    kvs.attr "values" = some values ∧ IsFloatArray t.values values

/-- a fitted `DecisionTreeRegressor` with this tree -/
def IsRegressor (t : SkTree) (v : PyVal) : Prop :=
  ∃ kvs nClasses w maxFeatures nOutputs tree, IsInstance "sklearn.tree.tree" "DecisionTreeRegressor" kvs v ∧
    kvs.attr "n_classes_" = some nClasses ∧ IsScalar "i8" (octet '<') (field64 w) nClasses ∧
    kvs.attr "max_features_" = some (.int maxFeatures) ∧ kvs.attr "n_outputs_" = some (.int nOutputs) ∧
    kvs.attr "tree_" = some tree ∧ IsTree t tree

/-- The initial estimator gives each of the `K` groups its prior score: log odds the same to each, prior probabilities
one to each. -/
inductive IsInit (K : Nat) : List F64 → PyVal → Prop
  | logOdds (kvs : PyMap) (prior v : PyVal) (e : BitVec 8) (bs : Bytes) (x : F64)
      (hv : IsInstance "sklearn.ensemble.gradient_boosting" "LogOddsEstimator" kvs v) (hp : kvs.attr "prior" = some prior)
      (hs : IsScalar "f8" e bs prior) (hx : FloatBytes e bs [x]) : IsInit K (List.replicate K x) v
  | priors (kvs : PyMap) (priors v : PyVal) (xs : List F64)
      (hv : IsInstance "sklearn.ensemble.gradient_boosting" "PriorProbabilityEstimator" kvs v)
      (hp : kvs.attr "priors" = some priors) (hs : IsFloatArray xs priors) (hl : xs.length = K) : IsInit K xs v

/-- a fitted classifier, with the trees that its arrays describe -/
structure SkModel where
  /-- number of classes -/
  classes : Nat
  /-- number of estimators -/
  estimators : Nat
  /-- the attribute `max_features_` -/
  maxFeatures : Int
  learningRate : F64
  /-- the prior score of each group -/
  prior : List F64
  /-- by estimator and group -/
  trees : List SkTree
  shapes : List BTree

/-- one score is enough for two classes -/
def SkModel.groups (m : SkModel) : Nat := if m.classes = 2 then 1 else m.classes

/-- the value is the classifier -/
def IsClassifier (m : SkModel) (v : PyVal) : Prop :=
  ∃ kvs loss init classes labels estimators dtype e list,
    IsInstance "sklearn.ensemble.gradient_boosting" "GradientBoostingClassifier" kvs v ∧
    kvs.attr "n_classes_" = some (.int m.classes) ∧ kvs.attr "learning_rate" = some (.float m.learningRate) ∧
    kvs.attr "loss" = some (.str loss) ∧ kvs.attr "init_" = some init ∧ IsInit m.groups m.prior init ∧
    kvs.attr "classes_" = some classes ∧ IsIntArray labels classes ∧
    kvs.attr "max_features_" = some (.int m.maxFeatures) ∧ kvs.attr "n_estimators" = some (.int m.estimators) ∧
    kvs.attr "estimators_" = some estimators ∧
    IsArray [(m.estimators : Int), (m.groups : Int)] dtype e (.list list) estimators ∧
    List.Forall₂ IsRegressor m.trees list.toList

/-- The classifier is fitted: there are trees for every estimator and group, each array describes a tree, and everything
fits into memory. -/
structure SkModel.OK (m : SkModel) (maxAlloc : Nat) : Prop where
  counts : 1 ≤ m.classes ∧ 1 ≤ m.estimators ∧ m.trees.length = m.estimators * m.groups
  trees : List.Forall₂ SkTreeOK m.trees m.shapes
  alloc : m.classes * 8 ≤ maxAlloc ∧ m.estimators * m.classes * 112 ≤ maxAlloc
  int : m.estimators * m.classes < 2 ^ 63
  features : -2 ^ 63 < m.maxFeatures ∧ m.maxFeatures < 2 ^ 63
  treeAlloc : ∀ t ∈ m.trees, t.nodes.length * 24 ≤ maxAlloc ∧ 0 ≤ t.nOutputs ∧ t.nOutputs * 8 ≤ maxAlloc

/-- Raw scores with `n` estimators: the value of a leaf is scaled by the learning rate, and the prior of the group is part
of the first estimator's value. NaN is read as 0; a row without values has no score. -/
def SkRefRaw (P : Platform) (m : SkModel) (fvals : List F64) (n : Nat) (w : List F64) : Prop :=
  ∃ v : Nat → Nat → F64,
    (∀ i < n, ∀ k < m.groups, ∃ t T leaf x p, m.trees[i * m.groups + k]? = some t ∧ m.shapes[i * m.groups + k]? = some T ∧
      fvals ≠ [] ∧ Walk (SkGoes t.nodes (nanToZero fvals)) T leaf ∧ t.values[leaf]? = some x ∧ m.prior[k]? = some p ∧
      v i k = P.mulAdd x m.learningRate (if i = 0 then p else F64.zero)) ∧
    w = (List.range m.groups).map fun k => accumulate (fun i acc => P.mulAdd (v i k) F64.one acc) n F64.zero

end Leaves.Spec
