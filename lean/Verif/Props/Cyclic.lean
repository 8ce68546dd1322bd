import Verif.Props.Robust
import Verif.Props.SkModel
import Verif.Props.XgFile
import Verif.Props.JsonTree
import Verif.Props.LgLoad

/-! # C66: files of the other formats that load although a split is reached in two ways -/

namespace Leaves
open Spec

/-- with these values the prediction at a split goes on to another split (lgtree.go 79-93): the left child, or the next one -/
def GoesOn (P : Platform) (t : LgTree) (row : List F64) (i j : Nat) : Prop :=
  ∃ node x left, t.nodes[i]? = some node ∧ row[node.feature]? = some x ∧ t.decision P node x = .ok left ∧
    (if left then hasFlag node.flags Flag.leftLeaf = false ∧ j = node.left
     else hasFlag node.flags Flag.rightLeaf = false ∧ j = u32 (i + 1))

theorem body_goesOn {P : Platform} {t : LgTree} {row : List F64} {i j : Nat} : t.body P row i = .ok (.inr j) ↔ GoesOn P t row i j := by
  unfold LgTree.body GoesOn
  constructor
  · intro h
    obtain ⟨node, h1, h⟩ := Res.bind_eq_ok.1 h
    obtain ⟨x, h2, h⟩ := Res.bind_eq_ok.1 h
    obtain ⟨left, h3, h⟩ := Res.bind_eq_ok.1 h
    refine ⟨node, x, left, Res.idx_eq_ok.1 h1, Res.idx_eq_ok.1 h2, h3, ?_⟩
    cases left
    · simp only [Bool.false_eq_true, if_false] at h ⊢
      split at h
      · obtain ⟨v, -, h⟩ := Res.bind_eq_ok.1 h
        cases h
      · rename_i hf
        cases h
        exact ⟨by simpa using hf, rfl⟩
    · simp only [if_true] at h ⊢
      split at h
      · obtain ⟨v, -, h⟩ := Res.bind_eq_ok.1 h
        cases h
      · rename_i hf
        cases h
        exact ⟨by simpa using hf, rfl⟩
  · rintro ⟨node, x, left, h1, h2, h3, h⟩
    rw [Res.idx_eq_ok.2 h1, Res.ok_bind, Res.idx_eq_ok.2 h2, Res.ok_bind, h3, Res.ok_bind]
    cases left
    · simp only [Bool.false_eq_true, if_false] at h ⊢
      rw [if_neg (by simp [h.1]), h.2]
      rfl
    · simp only [if_true] at h ⊢
      rw [if_neg (by simp [h.1]), h.2]
      rfl

/-- **C66, when a prediction does not end.** The prediction of a tree ends, with a result or a panic, unless the row leads from split to
split forever. -/
theorem C66_endless (P : Platform) (t : LgTree) (row : List F64) : t.predict P row = .hang ↔
    ∃ f : Nat → Nat, f 0 = 0 ∧ ∀ k, GoesOn P t row (f k) (f (k + 1)) := by
  have hang_iff : t.predict P row = .hang ↔ t.nodes ≠ [] ∧ ∀ fuel, t.predictLoop P row fuel 0 = .hang := by
    unfold LgTree.predict
    split
    · rename_i h0
      refine ⟨fun h => ?_, fun h => absurd (List.length_eq_zero_iff.1 h0) h.1⟩
      exact absurd h (Res.bind_ne_hang (Res.idx_ne_hang _ _) fun v _ => by simp)
    · rename_i h0
      refine ⟨fun h => ⟨fun h' => h0 (by rw [h']; rfl), fun fuel => ?_⟩, fun h => h.2 _⟩
      by_contra hne
      exact hne ((LgTree.predict_adequate P t row fuel 0 hne) ▸ h)
  rw [hang_iff]
  constructor
  · rintro ⟨-, h⟩
    have step : ∀ i : {i // ∀ fuel, t.predictLoop P row fuel i = .hang}, ∃ j : {i // ∀ fuel, t.predictLoop P row fuel i = .hang}, GoesOn P t row i j := by
      rintro ⟨i, hi⟩
      have h1 := hi 1
      rw [LgTree.predictLoop_succ] at h1
      cases hb : t.body P row i with
      | ok x =>
        cases x with
        | inl r => rw [hb] at h1; cases h1
        | inr j =>
          refine ⟨⟨j, fun fuel => ?_⟩, body_goesOn.1 hb⟩
          have h2 := hi (fuel + 1)
          rw [LgTree.predictLoop_succ, hb] at h2
          exact h2
      | hang => exact absurd hb (LgTree.body_ne_hang P t row i)
      | err m => rw [hb] at h1; cases h1
      | panic => rw [hb] at h1; cases h1
    choose next hnext using step
    let g : Nat → {i // ∀ fuel, t.predictLoop P row fuel i = .hang} := fun k => Nat.rec ⟨0, h⟩ (fun _ i => next i) k
    exact ⟨fun k => (g k).1, rfl, fun k => hnext (g k)⟩
  · rintro ⟨f, h0, hf⟩
    refine ⟨?_, ?_⟩
    · intro hn
      obtain ⟨node, -, -, h, -⟩ := hf 0
      rw [hn] at h
      cases h
    · have : ∀ fuel k, t.predictLoop P row fuel (f k) = .hang := by
        intro fuel
        induction fuel with
        | zero => intro k; rfl
        | succ fuel ih =>
          intro k
          rw [LgTree.predictLoop_succ, body_goesOn.2 (hf k)]
          exact ih (k + 1)
      intro fuel
      have := this fuel 0
      rwa [h0] at this

namespace CyclicExample
open XgBin XgFileExample

/-- a file with one tree with these nodes -/
def shared (nodes : List Node) : XgModel where
  header := header "gbtree"
  gbtree := ⟨⟨1#32, 1#32, 2#32, 0#32, 0#64, 1#32, 0#32, List.replicate 32 0#32⟩,
    [⟨nodes, List.replicate nodes.length ⟨0#32, 0#32, 0#32, 0#32⟩, ⟨1#32, BitVec.ofNat 32 nodes.length, 0#32, 2#32, 2#32, 0#32, List.replicate 31 0#32⟩⟩], [0#32]⟩
  leafVectors := [[]]
  dart := false
  weights := []
  shapes := []

/-- a leaf with the value 1 -/
def one : Node := ⟨0#32, -1#32, -1#32, 0#32, 0x3f800000#32⟩
/-- a leaf with the value 2 -/
def two : Node := ⟨0#32, -1#32, -1#32, 0#32, 0x40000000#32⟩
/-- a split of feature 0 at 0.5 -/
def split (l r : BitVec 32) : Node := ⟨0#32, l, r, 0#32, 0x3f000000#32⟩

/-- both children of the root are node 1 -/
def twice : List Node := [split 1#32 1#32, split 2#32 3#32, one, two]
/-- the right children of the root and of its left child 2 are node 1 -/
def right : List Node := [split 2#32 1#32, ⟨0#32, 5#32, 6#32, 1#32, 0x3f000000#32⟩, ⟨0#32, 3#32, 1#32, 1#32, 0x3f000000#32⟩, split 4#32 5#32, one, one, two]

/-- the row of the witnesses -/
def row : List F64 := [F64.zero, F64.one]

theorem goes {nodes : List Node} {i : Nat} {b : Bool} (n : Node) (x : F64) (hn : nodes[i]? = some n) (hx : row[xgFeature n]? = some x)
    (hnan : x ≠ .nan) (h : F64.lt x (F64.ofBits32 n.info) = b) : XgGoes nodes row i b := by
  refine ⟨n, x, hn, hx, ?_⟩
  rw [← h, F64.lt_iff]
  unfold XgLeft Spec.Lt
  rw [F64.value_ofBits32]
  exact ⟨fun h => .inr h, fun h => h.resolve_left fun h => hnan h.1⟩

/-- the tree of `twice`, node 1 written out twice -/
def twiceTree : BTree := .node 0 (.node 1 (.leaf 2) (.leaf 3)) (.node 1 (.leaf 2) (.leaf 3))
/-- the tree of `right`, node 1 written out twice -/
def rightTree : BTree := .node 0 (.node 2 (.node 3 (.leaf 4) (.leaf 5)) (.node 1 (.leaf 5) (.leaf 6))) (.node 1 (.leaf 5) (.leaf 6))

theorem twice_shape : XgShape twice 0 twiceTree := by
  have h : XgShape twice 1 (.node 1 (.leaf 2) (.leaf 3)) := .node 1 _ 2 3 _ _ rfl rfl rfl (.leaf 2 _ rfl rfl) (.leaf 3 _ rfl rfl)
  exact .node 0 _ 1 1 _ _ rfl rfl rfl h h

theorem right_shape : XgShape right 0 rightTree := by
  have h : XgShape right 1 (.node 1 (.leaf 5) (.leaf 6)) := .node 1 _ 5 6 _ _ rfl rfl rfl (.leaf 5 _ rfl rfl) (.leaf 6 _ rfl rfl)
  have h3 : XgShape right 3 (.node 3 (.leaf 4) (.leaf 5)) := .node 3 _ 4 5 _ _ rfl rfl rfl (.leaf 4 _ rfl rfl) (.leaf 5 _ rfl rfl)
  exact .node 0 _ 2 1 _ _ rfl rfl rfl (.node 2 _ 3 1 _ _ rfl rfl rfl h3 h) h

/-- **C66 is false for XGBoost files.** The file with `twice` loads and its prediction of the row (0, 1) does not end, although
XGBoost's walk over the nodes ends in the leaf of value 1. -/
theorem C66_xgboost_shared : (∃ e, xgEnsembleFromReader Platform.demo false (shared twice).image = .ok e ∧
      e.1.nFeatures = 2 ∧ e.1.predictSingle Platform.demo row 0 = .hang) ∧
    XgShape twice 0 twiceTree ∧ Walk (XgGoes twice row) twiceTree 2 ∧ XgVal twice 2 F64.one := by
  refine ⟨SkModelExample.of_check (r := xgEnsembleFromReader Platform.demo false (shared twice).image)
    (fun e => e.1.nFeatures = 2 ∧ e.1.predictSingle Platform.demo row 0 = .hang) (by decide +kernel), twice_shape, ?_, ⟨one, rfl, by decide +kernel⟩⟩
  have g (i : Nat) (h : twice[i]? = some (split 1#32 1#32) ∨ twice[i]? = some (split 2#32 3#32)) : XgGoes twice row i true := by
    rcases h with h | h
    · exact goes _ F64.zero h (by decide +kernel) (by decide +kernel) (by decide +kernel)
    · exact goes _ F64.zero h (by decide +kernel) (by decide +kernel) (by decide +kernel)
  exact .left (g 0 (.inl rfl)) (.left (g 1 (.inr rfl)) (.leaf 2))

/-- **C06 needs trees.** The file with `right`, whose node 1 is also reached from two splits, loads too and its prediction ends, but in
another leaf than XGBoost's walk: the result is 0.5 + 1 where XGBoost's is 0.5 + 2. No two values of the row and the conditions tie. -/
theorem C06_shared_fails : (∃ e, xgEnsembleFromReader Platform.demo false (shared right).image = .ok e ∧
      e.1.predictSingle Platform.demo row 0 = .ok (F64.const 3 2)) ∧
    XgShape right 0 rightTree ∧ Walk (XgGoes right row) rightTree 6 ∧ XgVal right 6 (F64.ofNat 2) ∧
    F64.ofBits32 (shared right).header.param.baseScore = F64.const 1 2 := by
  refine ⟨SkModelExample.of_check (r := xgEnsembleFromReader Platform.demo false (shared right).image)
    (fun e => e.1.predictSingle Platform.demo row 0 = .ok (F64.const 3 2)) (by decide +kernel), right_shape, ?_, ⟨two, rfl, by decide +kernel⟩, by decide +kernel⟩
  have g0 : XgGoes right row 0 true := goes _ F64.zero rfl (by decide +kernel) (by decide +kernel) (by decide +kernel)
  have g2 : XgGoes right row 2 false := goes _ F64.one rfl (by decide +kernel) (by decide +kernel) (by decide +kernel)
  have g1 : XgGoes right row 1 false := goes _ F64.one rfl (by decide +kernel) (by decide +kernel) (by decide +kernel)
  exact .left g0 (.right g2 (.right g1 (.leaf 6)))

/-! ## scikit-learn -/

open SkModelExample in
/-- five nodes: both children of the root are node 1, whose children are the leaves 2 and 3; nothing leads to leaf 4 -/
def skTree : PyVal :=
  .build (pyName "sklearn.tree._tree" "Tree") (.ofList [.int 2, SkModelExample.array [1] "i8" (SkModelExample.bytes (field64 1)), .int 1])
    (.dict (items [("max_depth", .int 2), ("node_count", .int 5), ("nodes", SkModelExample.array [5] "V56" (SkModelExample.bytes
      (([⟨1, 1, 0, 0x3fe0000000000000, 0, 1, 0x3ff0000000000000⟩, ⟨2, 3, 0, 0x3fe0000000000000, 0, 1, 0x3ff0000000000000⟩,
        leafWords, leafWords, leafWords] : List NodeWords).flatMap NodeWords.record))),
      ("values", SkModelExample.array [5, 1, 1] "f8" (SkModelExample.bytes (valueWords.flatMap field64)))]))

open SkModelExample in
/-- a classifier with this tree -/
def skModel : PyVal :=
  classifier 2 1 1 2 [inst "sklearn.tree.tree" "DecisionTreeRegressor"
    (items [("n_classes_", scalar "i8" (field64 1)), ("max_features_", .int 2), ("n_outputs_", .int 1), ("tree_", skTree)])]

/-- **C66 is false for scikit-learn files.** -/
theorem C66_sklearn_shared : ∃ e, skEnsembleFromReader Platform.demo (skModel.dump SkModelExample.print ++ [octet '.']) false = .ok e ∧
    e.predictSingle Platform.demo row 0 = .hang :=
  SkModelExample.of_check (r := skEnsembleFromReader Platform.demo (skModel.dump SkModelExample.print ++ [octet '.']) false)
    (fun e => e.predictSingle Platform.demo row 0 = .hang) (by decide +kernel)

/-! ## LightGBM JSON -/

/-- a document whose tree has four leaves and says that it has one -/
def jsonModel : JEnsemble := ⟨"tree".toList, "v2".toList, 1, 1, 1, [some { numLeaves := 1, numCat := 0, root := JsonExample.root4 }]⟩

/-- **C66 is false for LightGBM JSON.** The tree is well-formed but for `num_leaves`. -/
theorem C66_json_leaves : ∃ e, lgEnsembleFromJSON JsonExample.platform (some jsonModel) false = .ok e ∧
    e.predictSingle JsonExample.platform [F64.zero, F64.zero] 0 = .hang :=
  SkModelExample.of_check (r := lgEnsembleFromJSON JsonExample.platform (some jsonModel) false)
    (fun e => e.predictSingle JsonExample.platform [F64.zero, F64.zero] 0 = .hang) (by decide +kernel)

/-- a row that goes left at a root that is its own left child -/
example := (C66_endless JsonExample.platform JsonExample.loaded4 [F64.zero, F64.zero]).1 JsonExample.C05_wrong_num_leaves_fails.2.1

end CyclicExample
end Leaves
