import Verif.Model.Ensemble

/-!
# What a prediction is supposed to store

Written in terms of the trees' own predictions (`LgTree.predict`, whose meaning is the subject of C01-C07), the
platform's `exp` and its fused or unfused multiply-add. No loops, no memory.
-/

namespace Leaves.Spec

/-- `step 0`, `step 1`, …, `step (n-1)` applied in this order -/
def accumulate (step : Nat → F64 → F64) (n : Nat) (init : F64) : F64 :=
  (List.range n).foldl (fun acc i => step i acc) init

/-- `v i k` is the value of the tree of estimator `i` and group `k` (stored at `i * G + k`), for `n` estimators and
`G` groups -/
def TreeValues (P : Platform) (trees : List LgTree) (G n : Nat) (fvals : List F64) (v : Nat → Nat → F64) : Prop :=
  ∀ i < n, ∀ k < G, ∃ t j, trees[i * G + k]? = some t ∧ t.predict P fvals = .ok (v i k, j)

/-- `l i k` is the leaf index of the tree of estimator `i` and group `k` -/
def TreeLeaves (P : Platform) (trees : List LgTree) (G n : Nat) (fvals : List F64) (l : Nat → Nat → Nat) : Prop :=
  ∀ i < n, ∀ k < G, ∃ t x, trees[i * G + k]? = some t ∧ t.predict P fvals = .ok (x, l i k)

/-- the model under any number of views -/
def core : Base → Base
  | .lg e => .lg e
  | .xg e => .xg e
  | .lin e => .lin e
  | .wrap b _ => core b

/-- the raw scores with `n` estimators. LightGBM and scikit-learn: 0 plus tree values (times `1/n` for averaging
forests). XGBoost trees: base score plus tree values times the tree's weight. Linear models: base score plus bias
plus the weighted features, weights being stored feature by feature. -/
def IsRaw (P : Platform) (b : Base) (fvals : List F64) (n : Nat) (w : List F64) : Prop :=
  match core b with
  | .lg e => ∃ (G : Nat) (v : Nat → Nat → F64), e.nRawOutputGroups = G ∧ TreeValues P e.trees G n fvals v ∧
      w = (List.range G).map fun k => accumulate
        (fun i acc => P.mulAdd (v i k) (if e.averageOutput then F64.div F64.one (F64.ofNat n) else F64.one) acc) n F64.zero
  | .xg e => ∃ (G : Nat) (v c : Nat → Nat → F64), e.nRawOutputGroups = G ∧ TreeValues P e.trees G n fvals v ∧
      (∀ i < n, ∀ k < G, e.weightDrop[i * G + k]? = some (c i k)) ∧
      w = (List.range G).map fun k => accumulate (fun i acc => P.mulAdd (v i k) (c i k) acc) n e.baseScore
  | .lin e => ∃ (G F : Nat) (x : Nat → F64) (c : Nat → Nat → F64) (bias : Nat → F64), e.nRawOutputGroups = G ∧
      e.numFeature = F ∧ (∀ i < F, fvals[i]? = some (x i)) ∧ (∀ i < F, ∀ k < G, e.weights[G * i + k]? = some (c i k)) ∧
      (∀ k < G, e.weights[G * F + k]? = some (bias k)) ∧
      w = (List.range G).map fun k => accumulate (fun i acc => P.mulAdd (x i) (c i k) acc) F (F64.add e.baseScore (bias k))
  | .wrap .. => False

/-- the leaf indices with `n` estimators, as floats: position `k * n + i` belongs to group `k`, estimator `i` -/
def IsLeafVec (P : Platform) (b : Base) (fvals : List F64) (n : Nat) (w : List F64) : Prop :=
  match core b with
  | .lg e => ∃ (G : Nat) (l : Nat → Nat → Nat), e.nRawOutputGroups = G ∧ TreeLeaves P e.trees G n fvals l ∧
      w.length = G * n ∧ ∀ i < n, ∀ k < G, w[k * n + i]? = some (F64.ofNat (l i k))
  | .xg e => ∃ (G : Nat) (l : Nat → Nat → Nat), e.nRawOutputGroups = G ∧ TreeLeaves P e.trees G n fvals l ∧
      w.length = G * n ∧ ∀ i < n, ∀ k < G, w[k * n + i]? = some (F64.ofNat (l i k))
  | _ => False

/-- softmax of a vector: `exp` of each entry times one over their sum (left as they are when the sum is 0) -/
def softmaxOf (P : Platform) (w : List F64) : List F64 :=
  let es := w.map P.exp
  let s := es.foldl F64.add F64.zero
  if F64.feq s F64.zero then es else es.map fun y => F64.mul y (F64.div F64.one s)

/-- the transformation's result -/
def IsTransformed (P : Platform) (t : Transform) (w out : List F64) : Prop :=
  match t with
  | .raw _ => out = w
  | .leafIndex _ => out = w
  | .logistic => ∃ x, w = [x] ∧ out = [F64.div F64.one (F64.add F64.one (P.exp x.neg))]
  | .exponential => ∃ x, w = [x] ∧ out = [P.exp x]
  | .softmax n => (w.length : Int) = n ∧ out = softmaxOf P w

/-- what a prediction with `n` estimators stores -/
def IsOutput (P : Platform) (e : Ensemble) (fvals : List F64) (n : Nat) (out : List F64) : Prop :=
  match e.transform with
  | .leafIndex _ => IsLeafVec P e.base fvals n out
  | t => ∃ w, IsRaw P e.base fvals n w ∧ IsTransformed P t w out

/-- number of estimators in a model -/
def IsTotal (b : Base) (total : Nat) : Prop :=
  match core b with
  | .lg e => ∃ G : Nat, e.nRawOutputGroups = G ∧ 0 < G ∧ total = e.trees.length / G
  | .xg e => ∃ G : Nat, e.nRawOutputGroups = G ∧ 0 < G ∧ total = e.trees.length / G
  | .lin _ => total = 1
  | .wrap .. => False

/-- `n` estimators are used when `req` are requested of `total`: all of them unless `0 < req < total`. Linear models
always use their one. -/
def Used (req : Int) (total n : Nat) : Prop :=
  if 0 < req ∧ req < total then (n : Int) = req else n = total

/-- `m'` is `m` with `out` stored at position `s` -/
def Stored (m : List F64) (s : Nat) (out m' : List F64) : Prop :=
  s + out.length ≤ m.length ∧ m'.length = m.length ∧
  ∀ j, m'[j]? = if s ≤ j ∧ j < s + out.length then out[j - s]? else m[j]?

/-- The output width fits the model: the number of raw scores for raw output and softmax, one raw score for
logistic and exponential, all trees of a tree model for leaf indices. -/
def Fits (e : Ensemble) : Prop :=
  ∃ G total : Nat, e.base.nRawOutputGroups = G ∧ 0 < G ∧ IsTotal e.base total ∧
    match e.transform with
    | .raw n => n = G
    | .logistic => G = 1
    | .exponential => G = 1
    | .softmax n => n = G
    | .leafIndex n => n = G * total ∧ ∀ l, core e.base ≠ .lin l

end Leaves.Spec
