import Verif.Proofs.JsonTree

/-!
# C05, C08, C09, C23, C61 for the trees of LightGBM JSON dumps

`Spec.JTreeOK` says which tree objects are well formed; `Spec.JWalk` walks the nested objects themselves.
-/

namespace Leaves

open Spec

theorem jleaf_of_one {t : JTree} {W : Nat} (h : JTreeOK t W) (h1 : ¬ 1 < jLeaves t.root) :
    ∃ v, t.root = .leafLike (some v) := by
  have hpos : ∀ {raw : JRaw}, 0 < jLeaves raw := by
    intro raw
    induction raw with
    | invalid => simp [jLeaves]
    | leafLike => simp [jLeaves]
    | split f thr d dl m ms l r ihl ihr => simp only [jLeaves]; omega
  have ho := h.objects
  revert ho h1
  cases t.root with
  | invalid => intro _ ho; cases ho
  | leafLike v =>
    intro _ ho
    cases ho
    exact ⟨_, rfl⟩
  | split f thr d dl m ms l r =>
    intro h1
    have := hpos (raw := l)
    have := hpos (raw := r)
    exact absurd (show 1 < jLeaves l + jLeaves r by omega) h1

theorem json_load_leaf (P : Platform) {t : JTree} {W : Nat} (h : JTreeOK t W) {v : F64} (hv : t.root = .leafLike (some v)) :
    ∃ t', unmarshalTree P t = .ok t' ∧ t'.nodes = [] ∧ t'.leafValues = [v] := by
  have hl := h.leaves
  rw [hv] at hl
  have h1 : ¬ t.numLeaves < 1 := by rw [hl]; simp [jLeaves]
  refine ⟨{ leafValues := [v], catBoundaries := if t.numCat > 0 then [0] else [], nCategorical := t.numCat }, ?_, rfl, rfl⟩
  unfold unmarshalTree
  simp only [if_neg h1, hv, unmarshalNode, Res.ok_bind, Res.pure_eq]

theorem predict_leaf (P : Platform) {t : LgTree} {v : F64} (hn : t.nodes = []) (hv : t.leafValues = [v]) (fvals : List F64) :
    t.predict P fvals = .ok (v, 0) := by
  unfold LgTree.predict
  rw [hn, hv]
  rfl

/-- C05: the loaded tree returns exactly the leaf value found by walking the nested objects. -/
theorem C05_json_tree_value (P : Platform) (t : JTree) (W : Nat) (h : JTreeOK t W)
    (hal : jLeaves t.root * 24 ≤ P.maxAlloc) (haw : 4 * W ≤ P.maxAlloc) :
    ∃ t', unmarshalTree P t = .ok t' ∧ ∀ fvals v,
      (∃ j, t'.predict P fvals = .ok (v, j)) ↔ ∃ p, JWalk P.out fvals t.root p v := by
  by_cases h1 : 1 < jLeaves t.root
  · obtain ⟨t', idx, h2, -, -, -, h3⟩ := json_load P h hal haw h1
    refine ⟨t', h2, fun fvals v => ⟨?_, ?_⟩⟩
    · rintro ⟨j, hj⟩
      obtain ⟨p, hp, -⟩ := ((h3 fvals).2.1 v j).1 hj
      exact ⟨p, hp⟩
    · rintro ⟨p, hp⟩
      exact ⟨_, ((h3 fvals).2.1 v _).2 ⟨p, hp, rfl⟩⟩
  · obtain ⟨w, hw⟩ := jleaf_of_one h h1
    obtain ⟨t', h2, hn, hv⟩ := json_load_leaf P h hw
    refine ⟨t', h2, fun fvals v => ?_⟩
    rw [predict_leaf P hn hv, hw]
    constructor
    · rintro ⟨j, hj⟩; cases hj; exact ⟨[], .leaf _⟩
    · rintro ⟨p, hp⟩; cases hp; exact ⟨0, rfl⟩

/-- C08: prediction on a loaded JSON tree ends, whatever the feature vector. -/
theorem C08_json_terminates (P : Platform) (t : JTree) (W : Nat) (h : JTreeOK t W)
    (hal : jLeaves t.root * 24 ≤ P.maxAlloc) (haw : 4 * W ≤ P.maxAlloc) :
    ∃ t', unmarshalTree P t = .ok t' ∧ ∀ fvals, t'.predict P fvals ≠ .hang := by
  by_cases h1 : 1 < jLeaves t.root
  · obtain ⟨t', idx, h2, -, -, -, h3⟩ := json_load P h hal haw h1
    exact ⟨t', h2, fun fvals => (h3 fvals).1.1⟩
  · obtain ⟨w, hw⟩ := jleaf_of_one h h1
    obtain ⟨t', h2, hn, hv⟩ := json_load_leaf P h hw
    exact ⟨t', h2, fun fvals => by rw [predict_leaf P hn hv]; simp⟩

/-- C09 for one tree: if the split features are below the row's length, the prediction returns. -/
theorem C09_json_no_panic (P : Platform) (t : JTree) (W n : Nat) (h : JTreeOK t W) (hf : JFeatures n t.root)
    (hal : jLeaves t.root * 24 ≤ P.maxAlloc) (haw : 4 * W ≤ P.maxAlloc) :
    ∃ t', unmarshalTree P t = .ok t' ∧ ∀ fvals, n ≤ fvals.length → ∃ v j, t'.predict P fvals = .ok (v, j) := by
  by_cases h1 : 1 < jLeaves t.root
  · obtain ⟨t', idx, h2, -, -, -, h3⟩ := json_load P h hal haw h1
    refine ⟨t', h2, fun fvals hn => (h3 fvals).2.2 ?_⟩
    revert hf
    generalize t.root = raw
    intro hf
    induction raw with
    | invalid => trivial
    | leafLike => trivial
    | split f thr d dl m ms l r ihl ihr => exact ⟨Nat.lt_of_lt_of_le hf.1 hn, ihl hf.2.1, ihr hf.2.2⟩
  · obtain ⟨w, hw⟩ := jleaf_of_one h h1
    obtain ⟨t', h2, hn, hv⟩ := json_load_leaf P h hw
    exact ⟨t', h2, fun fvals _ => ⟨_, _, predict_leaf P hn hv fvals⟩⟩

/-- C61: the leaf objects are numbered 0..n-1, each with its own number, and a prediction reports the number of the leaf
object it ends in. (The `leaf_index` of the JSON plays no role: leaves are numbered in the order of conversion.) -/
theorem C61_json_leaf_indices (P : Platform) (t : JTree) (W : Nat) (h : JTreeOK t W)
    (hal : jLeaves t.root * 24 ≤ P.maxAlloc) (haw : 4 * W ≤ P.maxAlloc) :
    ∃ t' idx, unmarshalTree P t = .ok t' ∧ ((jPaths t.root).map idx).Perm (List.range (jLeaves t.root)) ∧
      ∀ fvals v j, t'.predict P fvals = .ok (v, j) ↔ ∃ p, JWalk P.out fvals t.root p v ∧ j = idx p := by
  by_cases h1 : 1 < jLeaves t.root
  · obtain ⟨t', idx, h2, -, -, h4, h3⟩ := json_load P h hal haw h1
    exact ⟨t', idx, h2, h4, fun fvals => (h3 fvals).2.1⟩
  · obtain ⟨w, hw⟩ := jleaf_of_one h h1
    obtain ⟨t', h2, hn, hv⟩ := json_load_leaf P h hw
    refine ⟨t', fun _ => 0, h2, by rw [hw]; simp [jPaths, jLeaves], fun fvals v j => ?_⟩
    rw [predict_leaf P hn hv, hw]
    constructor
    · rintro h; cases h; exact ⟨[], .leaf _, rfl⟩
    · rintro ⟨p, hp, rfl⟩; cases hp; rfl

/-- C23 for JSON trees: `NLeaves()` counts the leaf objects. -/
theorem C23_json_leaf_count (P : Platform) (t : JTree) (W : Nat) (h : JTreeOK t W)
    (hal : jLeaves t.root * 24 ≤ P.maxAlloc) (haw : 4 * W ≤ P.maxAlloc) :
    ∃ t', unmarshalTree P t = .ok t' ∧ t'.nLeaves = jLeaves t.root := by
  by_cases h1 : 1 < jLeaves t.root
  · obtain ⟨t', idx, h2, h3, -⟩ := json_load P h hal haw h1
    exact ⟨t', h2, h3⟩
  · obtain ⟨w, hw⟩ := jleaf_of_one h h1
    obtain ⟨t', h2, hn, hv⟩ := json_load_leaf P h hw
    refine ⟨t', h2, ?_⟩
    rw [hw]
    show t'.nodes.length + 1 = 1
    rw [hn]; rfl

namespace JsonExample

/-- feature 0 ≤ 0.5: leaf 1; otherwise feature 1 in {3, 40}: leaf 2, else leaf 3 -/
def root : JRaw :=
  .split 0 (.num (F64.const 1 2)) "<=".toList true 'N' "aN".toList (.leafLike (some F64.one))
    (.split 1 (.str "3||40".toList) "==".toList false 'N' "one".toList (.leafLike (some (F64.ofNat 2)))
      (.leafLike (some (F64.ofNat 3))))

/-- the example's tree object -/
def tree : JTree := { numLeaves := 3, numCat := 1, root := root }

theorem tree_ok : JTreeOK tree 2 where
  objects := by
    refine .num (a := 0) (b := 2) (mis := .nan) ?_ (.leaf _) ?_
    · exact .inr (.inr ⟨rfl, rfl⟩)
    · exact .cat (w := 2) (a := 0) (b := 0) (mis := .none) [3, 40] (.inl ⟨rfl, rfl⟩) (by simp) (by decide) (by decide)
        (.leaf _) (.leaf _)
  leaves := by decide
  cats := fun _ => by decide
  small := by decide
  words := by decide

/-- what the loaded tree is -/
def loaded : LgTree :=
  { nodes := [⟨F64.const 1 2, 0, 1, 0, 0x26#8⟩, ⟨F64.zero, 1, 2, 1, 0x0d#8⟩], leafValues := [F64.one, F64.ofNat 2, F64.ofNat 3],
    catBoundaries := [0, 2], catThresholds := [8#32, 256#32], nCategorical := 1 }

/-- The theorems apply: category 40 goes to the second leaf, 41 to the third, NaN in feature 0 left. -/
example : ∃ t', unmarshalTree Platform.demo tree = .ok t' ∧
    t'.predict Platform.demo [F64.one, F64.ofNat 40] = .ok (F64.ofNat 2, 1) ∧
    t'.predict Platform.demo [F64.one, F64.ofNat 41] = .ok (F64.ofNat 3, 2) ∧
    t'.predict Platform.demo [.nan, F64.ofNat 41] = .ok (F64.one, 0) ∧ t'.nLeaves = 3 := by
  obtain ⟨t', h, -⟩ := C05_json_tree_value Platform.demo tree 2 tree_ok (by decide) (by decide)
  have e : unmarshalTree Platform.demo tree = .ok loaded := by decide +kernel
  rw [e] at h
  cases h
  refine ⟨loaded, e, ?_⟩
  decide +kernel

example : JFeatures 2 tree.root := by simp [tree, root, JFeatures]

/-- `num_cat` is not optional: with `num_cat` 0 the same objects load, and predicting category 40 panics. -/
theorem C05_num_cat_zero_panics : ∃ t', unmarshalTree Platform.demo { tree with numCat := 0 } = .ok t' ∧
    t'.predict Platform.demo [F64.one, F64.ofNat 40] = .panic := by
  refine ⟨_, rfl, ?_⟩
  decide +kernel

/-- a root with two splits below it, of four leaves -/
def root4 : JRaw :=
  .split 0 (.num (F64.const 1 2)) "<=".toList true 'N' "aN".toList
    (.split 1 (.num F64.one) "<=".toList true 'N' "aN".toList (.leafLike (some F64.one)) (.leafLike (some (F64.ofNat 2))))
    (.split 1 (.num F64.one) "<=".toList true 'N' "aN".toList (.leafLike (some (F64.ofNat 3))) (.leafLike (some (F64.ofNat 4))))

/-- the example platform, on which a full slice grows by one element -/
def platform : Platform := { Platform.demo with growExtra := fun _ => 0 }

/-- what the loaded tree is: the first node's left child is itself -/
def loaded4 : LgTree :=
  { nodes := [⟨F64.const 1 2, 0, 1, 0, 0x22#8⟩, ⟨F64.one, 0, 1, 1, 0x2e#8⟩, ⟨F64.one, 2, 3, 1, 0x2e#8⟩],
    leafValues := [F64.ofNat 3, F64.ofNat 4, F64.one, F64.ofNat 2] }

/-- `num_leaves` is not optional: with `num_leaves` 1 the objects load, but the pointer to the left split goes astray when
the slice of nodes is reallocated, and a row that goes left never leaves the root. -/
theorem C05_wrong_num_leaves_fails :
    unmarshalTree platform { numLeaves := 1, numCat := 0, root := root4 } = .ok loaded4 ∧
    loaded4.predict platform [F64.zero, F64.zero] = .hang ∧
    (∃ p, JWalk platform.out [F64.zero, F64.zero] root4 p F64.one) ∧
    JTreeOK { numLeaves := 4, numCat := 0, root := root4 } 0 := by
  refine ⟨by decide +kernel, by decide +kernel, ⟨[true, true], ?_⟩, ?_⟩
  · refine .left (.num _ _ _ .nan (.inr (.inr ⟨rfl, rfl⟩))) rfl ?_ (.left (.num _ _ _ .nan (.inr (.inr ⟨rfl, rfl⟩))) rfl ?_ (.leaf _))
    · exact .inr ⟨by simp [IsMissing, F64.zero], (F64.le_iff _ _).1 (by decide +kernel)⟩
    · exact .inr ⟨by simp [IsMissing, F64.zero], (F64.le_iff _ _).1 (by decide +kernel)⟩
  · refine ⟨?_, by decide, by simp, by decide, by decide⟩
    have hm : MissingName ('N' :: "aN".toList) .nan := .inr (.inr ⟨rfl, rfl⟩)
    exact .num (a := 0) (b := 0) hm (.num (a := 0) (b := 0) hm (.leaf _) (.leaf _)) (.num (a := 0) (b := 0) hm (.leaf _) (.leaf _))

end JsonExample

end Leaves
