import Verif.Spec.SkModel

/-!
# The pickles a scikit-learn loader may take for a classifier

Weaker than `IsClassifier`: everything in a pickle that determines predictions is fixed (classes, names of attributes,
types, byte order and C order of arrays), everything else is left open.
-/

namespace Leaves.Spec

open Pickle (Bytes SkNode SkTree)

/-- the result of a call, or another occurrence of an object that began as the result of that call -/
def Called (f : PyVal) (args : List PyVal) (v : PyVal) : Prop :=
  v = .reduce f (.ofList args) ∨ ∃ state, v = .again f (.ofList args) state

/-- the result of a call that was then given a state -/
def Built (f : PyVal) (args : List PyVal) (state v : PyVal) : Prop := v = .build f (.ofList args) state

/-- a numpy dtype with type code `t`, little-endian or not -/
inductive HasDType (t : Bytes) : (little : Bool) → PyVal → Prop
  | called (a b v : PyVal) (h : Called (pyName "numpy" "dtype") [.str t, a, b] v) : HasDType t true v
  | built (a b s0 s2 s3 s4 s5 s6 s7 v : PyVal) (e : BitVec 8) (little : Bool) (he : little = true ↔ e = octet '<')
      (h : Built (pyName "numpy" "dtype") [.str t, a, b] (.tuple (.ofList [s0, .str [e], s2, s3, s4, s5, s6, s7])) v) : HasDType t little v

/-- a bytes object -/
def HasBytes (bs : Bytes) (v : PyVal) : Prop :=
  ∃ coding, Called (pyName "_codecs" "encode") [.str bs, coding] v ∨ ∃ state, Built (pyName "_codecs" "encode") [.str bs, coding] state v

/-- a C-ordered numpy array -/
def HasArray (shape : List Int) (t : Bytes) (little : Bool) (data v : PyVal) : Prop :=
  ∃ a b version dtype, HasDType t little dtype ∧
    Built (pyName "numpy.core.multiarray" "_reconstruct") [pyName "numpy" "ndarray", a, b]
      (.tuple (.ofList [.int version, .tuple (.ofList (shape.map PyVal.int)), dtype, .int 0, data])) v

/-- the bytes of an array; a list of objects has none -/
def ArrayBytes (bs : Bytes) (data : PyVal) : Prop := HasBytes bs data ∨ bs = [] ∧ ∃ list, data = .list list

/-- 64-bit words in the given byte order -/
def wordBytes (little : Bool) (ws : List (BitVec 64)) : Bytes := ws.flatMap fun w => if little then field64 w else (field64 w).reverse

/-- an array of little-endian int64 -/
def HasIntArray (is : List Int) (v : PyVal) : Prop :=
  ∃ shape ws data, HasArray shape (octets "i8".toList) true data v ∧ ArrayBytes (wordBytes true ws) data ∧ is = ws.map BitVec.toInt

/-- an array of float64 -/
def HasFloatArray (xs : List F64) (v : PyVal) : Prop :=
  ∃ shape little ws data, HasArray shape (octets "f8".toList) little data v ∧ ArrayBytes (wordBytes little ws) data ∧ xs = ws.map F64.ofBits

/-- an array of tree nodes -/
def HasNodeArray (nodes : List SkNode) (v : PyVal) : Prop :=
  ∃ (shape : List Int) (little : Bool) (ws : List NodeWords) (data : PyVal), HasArray shape (octets "V56".toList) little data v ∧
    ArrayBytes (ws.flatMap NodeWords.record) data ∧ nodes = ws.map NodeWords.node

/-- a numpy scalar -/
def HasScalar (t : String) (little : Bool) (bs : Bytes) (v : PyVal) : Prop :=
  ∃ dtype data, HasDType (octets t.toList) little dtype ∧ HasBytes bs data ∧
    (Called (pyName "numpy.core.multiarray" "scalar") [dtype, data] v ∨
      ∃ state, Built (pyName "numpy.core.multiarray" "scalar") [dtype, data] state v)

/-- a fitted tree -/
def HasTree (t : SkTree) (v : PyVal) : Prop :=
  ∃ nFeatures classes kvs nodes values,
    Built (pyName "sklearn.tree._tree" "Tree") [nFeatures, classes, .int t.nOutputs] (.dict kvs) v ∧
    HasIntArray t.classes classes ∧ kvs.attr "node_count" = some (.int t.nNodes) ∧
    kvs.attr "nodes" = some nodes ∧ HasNodeArray t.nodes nodes ∧
    kvs.attr "values" = some values ∧ HasFloatArray t.values values

/-- a fitted `DecisionTreeRegressor` with this tree -/
def HasRegressor (t : SkTree) (v : PyVal) : Prop :=
  ∃ kvs nClasses bs maxFeatures nOutputs tree, IsInstance "sklearn.tree.tree" "DecisionTreeRegressor" kvs v ∧
    kvs.attr "n_classes_" = some nClasses ∧ HasScalar "i8" true bs nClasses ∧
    kvs.attr "max_features_" = some (.int maxFeatures) ∧ kvs.attr "n_outputs_" = some (.int nOutputs) ∧
    kvs.attr "tree_" = some tree ∧ HasTree t tree

/-- the initial estimator -/
inductive HasInit (K : Nat) : List F64 → PyVal → Prop
  | logOdds (kvs : PyMap) (prior v : PyVal) (little : Bool) (w : BitVec 64) (more : Bytes)
      (hv : IsInstance "sklearn.ensemble.gradient_boosting" "LogOddsEstimator" kvs v) (hp : kvs.attr "prior" = some prior)
      (hs : HasScalar "f8" little (wordBytes little [w] ++ more) prior) : HasInit K (List.replicate K (F64.ofBits w)) v
  | priors (kvs : PyMap) (priors v : PyVal) (xs : List F64)
      (hv : IsInstance "sklearn.ensemble.gradient_boosting" "PriorProbabilityEstimator" kvs v)
      (hp : kvs.attr "priors" = some priors) (hs : HasFloatArray xs priors) (hl : xs.length = K) : HasInit K xs v

/-- a classifier with trees for every estimator and group -/
def HasClassifier (m : SkModel) (v : PyVal) : Prop :=
  ∃ kvs loss init classes labels estimators dtype little list,
    IsInstance "sklearn.ensemble.gradient_boosting" "GradientBoostingClassifier" kvs v ∧
    kvs.attr "n_classes_" = some (.int m.classes) ∧ kvs.attr "learning_rate" = some (.float m.learningRate) ∧
    kvs.attr "loss" = some (.str loss) ∧ kvs.attr "init_" = some init ∧ HasInit m.groups m.prior init ∧
    kvs.attr "classes_" = some classes ∧ HasIntArray labels classes ∧
    kvs.attr "max_features_" = some (.int m.maxFeatures) ∧ kvs.attr "n_estimators" = some (.int m.estimators) ∧
    kvs.attr "estimators_" = some estimators ∧
    HasArray [(m.estimators : Int), (m.groups : Int)] dtype little (.list list) estimators ∧
    List.Forall₂ HasRegressor m.trees list.toList ∧ m.trees.length = m.estimators * m.groups

end Leaves.Spec
