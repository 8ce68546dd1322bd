import Verif.Spec.Prune
import Verif.Props.Formats
import Verif.Props.Monotone

/-! # C127: trees without superfluous splits -/

namespace Leaves
open Spec XgBin

theorem pruned_walk {goes : List F64 → Nat → Bool → Prop} {S V : Nat → Nat → Prop} {R : List F64 → Prop} {T T' : BTree} {row : List F64}
    {goes' : Nat → Bool → Prop} (h : Pruned goes S V R T T') (hg : ∀ i j, S i j → ∀ b, goes row i b → goes' j b) (hR : R row) :
    ∀ i, Walk (goes row) T i → ∃ k, Walk goes' T' k ∧ V i k := by
  induction h with
  | dead R T T' h => exact absurd hR (h row)
  | leaf R i k h =>
    intro a ha
    cases ha
    exact ⟨k, .leaf k, h⟩
  | node R i j l r l' r' h _ _ il ir =>
    intro a ha
    cases ha with
    | left g w => obtain ⟨k, w', v⟩ := il ⟨hR, g⟩ a w; exact ⟨k, .left (hg i j h _ g) w', v⟩
    | right g w => obtain ⟨k, w', v⟩ := ir ⟨hR, g⟩ a w; exact ⟨k, .right (hg i j h _ g) w', v⟩
  | cut R i l r T' _ _ il ir =>
    intro a ha
    cases ha with
    | left g w => exact il ⟨hR, g⟩ a w
    | right g w => exact ir ⟨hR, g⟩ a w

/-- models that predict rows alike predict matrices alike -/
theorem PredictsAs.of_rows {P : Platform} {e e' : Ensemble} {req : Int} (hf : Fits e) (hf' : Fits e')
    (hw : e.nOutputGroups = e'.nOutputGroups) (hn : e.nFeatures = e'.nFeatures) (hd : dflt e.base = dflt e'.base)
    (h : ∀ row m m', (e.predict P row req m.length).run m = (.ok ⟨⟩, m') → (e'.predict P row req m.length).run m = (.ok ⟨⟩, m')) :
    PredictsAs P e e' req := by
  obtain ⟨w, hw1⟩ := Int.eq_ofNat_of_zero_le hf.width_nonneg
  have hw2 : e'.nOutputGroups = w := by rw [← hw, hw1]
  refine ⟨h, ?_, ?_⟩
  · intro vals m m' r ncols nt nt' hr hwr hr2 hp
    have hwr' : w * r < 2 ^ 63 := by rw [hw1] at hwr; exact_mod_cast hwr
    obtain ⟨outs, s, g⟩ := C14_dense_is_rowwise P e hf w r ncols hw1 hwr' hr2 vals m m' req nt hp
    have hc : 0 < ncols := ((dense_iff hf hw1 hwr' hr2).1 hp).1
    refine C14_rowwise_is_dense P e' hf' w r ncols hw2 hwr' hr2 hr hc vals m m' req nt' outs s fun i hi => ?_
    obtain ⟨row, g1, g2⟩ := g i hi
    refine ⟨row, List.replicate w F64.zero, g1, by simp, ?_⟩
    simpa using h row (List.replicate w F64.zero) (outs i) (by simpa using g2 (List.replicate w F64.zero) (by simp))
  · intro indptr cols vals m m' r nf nt nt' hr hwr hr2 hip hnf hmem hp
    have hwr' : w * r < 2 ^ 63 := by rw [hw1] at hwr; exact_mod_cast hwr
    obtain ⟨outs, s, g⟩ := C15_csr_is_rowwise P e hf w r nf hw1 ⟨hnf, hmem⟩ hwr' hr2 indptr cols hip vals m m' req nt hp
    refine C15_rowwise_is_csr P e' hf' w r nf hw2 ⟨hn ▸ hnf, hmem⟩ hwr' hr2 hr indptr cols hip vals m m' req nt' outs s fun i hi => ?_
    obtain ⟨row, g1, g2⟩ := g i hi
    refine ⟨row, List.replicate w F64.zero, hd ▸ g1, by simp, ?_⟩
    simpa using h row (List.replicate w F64.zero) (outs i) (by simpa using g2 (List.replicate w F64.zero) (by simp))

theorem prunedTo_value {d d' : TreeDesc} {out : F64 → Int} {row : List F64} {w : F64} (h : d.PrunedTo out d') (hv : d.Value out row w) :
    d'.Value out row w := by
  rw [value_form] at hv ⊢
  obtain ⟨i, hw, hi⟩ := hv
  obtain ⟨k, hk, hv⟩ := pruned_walk (row := row) h (goes' := Goes out (LgSplit d'.arrays) row) (fun i j hs b g => by
    obtain ⟨f, rule, h1, h2⟩ := hs
    rw [goes_of_split h1] at g
    rwa [goes_of_split h2]) trivial i hw
  exact ⟨k, hk, hv ▸ hi⟩

/-- **C127, LightGBM.** Superfluous splits may be removed from the trees of a text file: what the model predicts stays the same. -/
theorem C127_text (P : Platform) (print : F64 → Str) (text text' rest0 rest0' rest rest' : Str) (header header' : List Str)
    (e0 e0' e1 e1' : Bool) (bs bs' : List (List Str)) (ds ds' : List TreeDesc) (K N : Nat) (M : Int) (avg : Bool)
    (hK : 1 ≤ K ∧ K < 2 ^ 63) (hN : 1 ≤ N) (hlen : ds.length = N * K) (hlen' : ds'.length = N * K)
    (hok : ∀ d ∈ ds, d.OK P.parseFloat print ∧ d.inner * 24 ≤ P.maxAlloc) (hok' : ∀ d ∈ ds', d.OK P.parseFloat print ∧ d.inner * 24 ≤ P.maxAlloc)
    (hh : FileBlock text header rest0 e0) (hhl : HeaderLines header K M ds.length avg)
    (hb : FileBlocks rest0 bs rest e1) (hbl : List.Forall₂ (TreeLines print) ds bs)
    (hh' : FileBlock text' header' rest0' e0') (hhl' : HeaderLines header' K M ds'.length avg)
    (hb' : FileBlocks rest0' bs' rest' e1') (hbl' : List.Forall₂ (TreeLines print) ds' bs')
    (hp : ∀ (q : Nat) (d d' : TreeDesc), ds[q]? = some d → ds'[q]? = some d' → d.PrunedTo P.out d') :
    ∃ e e', lgEnsembleFromReader P ⟨text, false⟩ false = .ok (e, ⟨rest, false⟩) ∧
      lgEnsembleFromReader P ⟨text', false⟩ false = .ok (e', ⟨rest', false⟩) ∧ ∀ req, PredictsAs P e e' req := by
  obtain ⟨e, l1, f1, -, t1, w1, n1, -, p1⟩ := C39_text_file P print text rest0 rest header e0 e1 bs ds K N M avg hK hN hlen hh hhl hb hbl hok
  obtain ⟨e', l2, f2, -, t2, w2, n2, -, p2⟩ := C39_text_file P print text' rest0' rest' header' e0' e1' bs' ds' K N M avg hK hN hlen' hh' hhl' hb' hbl' hok'
  have hdf : dflt e.base = dflt e'.base := by
    obtain ⟨ts, g1, -⟩ := lg_file_loaded P print text rest0 rest header e0 e1 bs ds K N M avg hK hN hlen hh hhl hb hbl hok
    obtain ⟨ts', g2, -⟩ := lg_file_loaded P print text' rest0' rest' header' e0' e1' bs' ds' K N M avg hK hN hlen' hh' hhl' hb' hbl' hok'
    have g1 := l1.symm.trans g1
    have g2 := l2.symm.trans g2
    cases g1
    cases g2
    rfl
  refine ⟨e, e', l1, l2, fun req => PredictsAs.of_rows f1 f2 (w1.trans w2.symm) (n1.trans n2.symm) hdf fun row s s' => ?_⟩
  rw [p1, p2, n1, n2]
  refine And.imp_right (And.imp_right ?_)
  rintro ⟨n, w, hu, ⟨v, hv, rfl⟩, hst⟩
  refine ⟨n, _, hu, ⟨v, fun i hi k hk => ?_, rfl⟩, hst⟩
  obtain ⟨d, g1, g2⟩ := hv i hi k hk
  have hq := tree_index (n := N) (show i < N from lt_of_lt_of_le hi (Used.le hu)) hk
  have q2 := List.getElem?_eq_getElem (l := ds') (i := i * K + k) (by rw [hlen']; exact hq)
  exact ⟨_, q2, prunedTo_value (hp _ _ _ g1 q2) g2⟩

/-- **C127, XGBoost.** Superfluous splits may be removed from the trees of a 'gbtree' or 'dart' file. -/
theorem C127_xgboost (P : Platform) (m m' : XgModel) (K N : Nat) (ok : m.OK P.maxAlloc K N) (ok' : m'.OK P.maxAlloc K N)
    (hd : m'.dart = m.dart) (hws : m'.weights = m.weights) (hs : m'.header.param.baseScore = m.header.param.baseScore)
    (hM : m'.header.param.numFeatures = m.header.param.numFeatures) (hobj : m'.header.nameObj = m.header.nameObj)
    (hp : ∀ (q : Nat) (t t' : TreeModel) (T T' : BTree), m.gbtree.trees[q]? = some t → m.shapes[q]? = some T → m'.gbtree.trees[q]? = some t' → m'.shapes[q]? = some T' →
      XgPrunedTo t.nodes t'.nodes T T') (lt : Bool) (tr : Transform) (ho : XgObjective K m.header.nameObj lt tr) (hlog : tr = .logistic → K = 1) :
    ∃ e e', (∀ rest, xgEnsembleFromReader P lt (m.image ++ rest) = .ok (e, rest)) ∧
      (∀ rest, xgEnsembleFromReader P lt (m'.image ++ rest) = .ok (e', rest)) ∧ ∀ req, PredictsAs P e e' req := by
  obtain ⟨hK, hN, hl⟩ := ok.counts
  obtain ⟨-, -, hl'⟩ := ok'.counts
  obtain ⟨e, l1, f1, r1, -, -, n1, -, p1⟩ := C62_xgboost_file_le P m K N ok lt tr ho hlog
  obtain ⟨e', l2, f2, r2, -, -, n2, -, p2⟩ := C62_xgboost_file_le P m' K N ok' lt tr (hobj ▸ ho) hlog
  have hdf : dflt e.base = dflt e'.base := by
    obtain ⟨ts, g1, -⟩ := xg_file_loaded P m K N ok lt tr ((xgTransform_iff _ _ _ _).2 ho)
    obtain ⟨ts', g2, -⟩ := xg_file_loaded P m' K N ok' lt tr ((xgTransform_iff _ _ _ _).2 (hobj ▸ ho))
    have g1 := (l1 []).symm.trans (g1.1 [])
    have g2 := (l2 []).symm.trans (g2.1 [])
    cases g1
    cases g2
    rfl
  have hw : e.nOutputGroups = e'.nOutputGroups := by
    unfold Ensemble.nOutputGroups
    rw [r1, r2]
  have hn : e.nFeatures = e'.nFeatures := by rw [n1, n2, hM]
  refine ⟨e, e', l1, l2, fun req => PredictsAs.of_rows f1 f2 hw hn hdf fun row s s' => ?_⟩
  rw [p1, p2, hw, hn]
  refine And.imp_right (And.imp_right ?_)
  rintro ⟨n, w, out, hu, ⟨v, c, hv, hc, rfl⟩, ht, hst⟩
  refine ⟨n, _, out, hu, ⟨v, c, fun i hi k hk => ?_, fun i hi k hk => ?_, by rw [hs]⟩, ht, hst⟩
  · obtain ⟨t, T, leaf, g1, g2, g3, x, g4, g5⟩ := hv i hi k hk
    have hq := tree_index (n := N) (show i < N from lt_of_lt_of_le hi (Used.le hu)) hk
    have q1 := List.getElem?_eq_getElem (l := m'.gbtree.trees) (i := i * K + k) (by rw [hl']; exact hq)
    have q2 := List.getElem?_eq_getElem (l := m'.shapes) (i := i * K + k) (by rw [← ok'.trees.length_eq, hl']; exact hq)
    obtain ⟨k', hk', y, y', h1, h2, h3⟩ := pruned_walk (row := row) (hp _ _ _ _ _ g1 g2 q1 q2) (goes' := XgGoesLe _ row) (fun i j hs b g => by
      obtain ⟨n, n', a1, a2, a3, a4⟩ := hs
      obtain ⟨n0, x, b1, b2, b3⟩ := g
      rw [a1] at b1
      cases b1
      refine ⟨n', x, a2, by unfold xgFeature at b2 ⊢; rwa [a3], b3.trans ?_⟩
      unfold XgLeftLe XgDefaultLeft
      rw [a3, a4]) trivial leaf g3
    rw [g4] at h1
    cases h1
    exact ⟨_, _, k', q1, q2, hk', y', h2, by rw [h3]; exact g5⟩
  · have := hc i hi k hk
    unfold XgModel.Weight at this ⊢
    rwa [hd, hws]

namespace PruneExample
open LgExample (platform)
open LgLoadExample (print plain_of)

/-- Feature 0 ≤ 5; on the left feature 0 ≤ 9, whose right side (20) no row reaches; on the right feature 1 ≤ 0 with 30 on both sides. -/
def big : TreeDesc where
  numCat := 0
  inner := 3
  leafValues := [F64.ofNat 10, F64.ofNat 20, F64.ofNat 30, F64.ofNat 30]
  catThreshold := []
  arrays := ⟨[1, -1, -3], [2, -2, -4], [2, 2, 2], [0, 0, 1], [F64.ofNat 5, F64.ofNat 9, F64.ofNat 0], [], []⟩
  tree := .node 0 (.node 1 (.leaf 0) (.leaf 1)) (.node 2 (.leaf 2) (.leaf 3))

/-- Feature 0 ≤ 5, leaves 10 and 30. -/
def small : TreeDesc where
  numCat := 0
  inner := 1
  leafValues := [F64.ofNat 10, F64.ofNat 30]
  catThreshold := []
  arrays := ⟨[-1], [-2], [2], [0], [F64.ofNat 5], [], []⟩
  tree := .node 0 (.leaf 0) (.leaf 1)

theorem big_tree : LgTreeOK big.arrays 3 big.tree where
  shape := .node 0 1 2 _ _ rfl rfl (.node 1 (-1) (-2) _ _ rfl rfl (.leaf 0) (.leaf 1)) (.node 2 (-3) (-4) _ _ rfl rfl (.leaf 2) (.leaf 3))
  distinct := by decide
  bound := by decide
  small := by norm_num
  leaves := by decide
  splits := by
    intro i hi
    have : i = 0 ∨ i = 2 ∨ i = 1 := by simpa [big, BTree.inner] using hi
    rcases this with rfl | rfl | rfl
    · exact ⟨0, _, 2, _, .none, rfl, rfl, rfl, by unfold MissingOf; decide, .inl ⟨by norm_num, rfl⟩⟩
    · exact ⟨1, _, 2, _, .none, rfl, rfl, rfl, by unfold MissingOf; decide, .inl ⟨by norm_num, rfl⟩⟩
    · exact ⟨0, _, 2, _, .none, rfl, rfl, rfl, by unfold MissingOf; decide, .inl ⟨by norm_num, rfl⟩⟩
  cats := by
    intro i hi d thr c ws h1 h2
    have : i = 0 ∨ i = 2 ∨ i = 1 := by simpa [big, BTree.inner] using hi
    rcases this with rfl | rfl | rfl <;> simp [big] at h1 <;> subst h1 <;> simp at h2
  words := by
    refine ⟨fun _ => 0, ?_, by decide⟩
    intro i hi d thr c ws h1 h2
    have : i = 0 ∨ i = 2 ∨ i = 1 := by simpa [big, BTree.inner] using hi
    rcases this with rfl | rfl | rfl <;> simp [big] at h1 <;> subst h1 <;> simp at h2

theorem small_tree : LgTreeOK small.arrays 1 small.tree where
  shape := .node 0 (-1) (-2) _ _ rfl rfl (.leaf 0) (.leaf 1)
  distinct := by decide
  bound := by decide
  small := by norm_num
  leaves := by decide
  splits := by
    intro i hi
    obtain rfl : i = 0 := by simpa [small, BTree.inner] using hi
    exact ⟨0, _, 2, _, .none, rfl, rfl, rfl, by unfold MissingOf; decide, .inl ⟨by norm_num, rfl⟩⟩
  cats := by
    intro i hi d thr c ws h1 h2
    obtain rfl : i = 0 := by simpa [small, BTree.inner] using hi
    simp [small] at h1
    subst h1
    simp at h2
  words := by
    refine ⟨fun _ => 0, ?_, by decide⟩
    intro i hi d thr c ws h1 h2
    obtain rfl : i = 0 := by simpa [small, BTree.inner] using hi
    simp [small] at h1
    subst h1
    simp at h2

theorem big_ok : big.OK platform.parseFloat print where
  numCat := by decide
  leafValues := by decide
  leafText := by decide +kernel
  tree := fun _ => big_tree
  left := fun _ => by decide
  right := fun _ => by decide
  decision := fun _ => by decide
  feature := fun _ => by decide
  threshold := fun _ => ⟨by decide, by decide +kernel⟩
  cats := fun _ => ⟨by decide, by decide⟩

theorem small_ok : small.OK platform.parseFloat print where
  numCat := by decide
  leafValues := by decide
  leafText := by decide +kernel
  tree := fun _ => small_tree
  left := fun _ => by decide
  right := fun _ => by decide
  decision := fun _ => by decide
  feature := fun _ => by decide
  threshold := fun _ => ⟨by decide, by decide +kernel⟩
  cats := fun _ => ⟨by decide, by decide⟩

theorem bigs_ok : ∀ d ∈ [big], d.OK platform.parseFloat print ∧ PlainFloats print d ∧ d.inner * 24 ≤ platform.maxAlloc := by
  intro d hd
  obtain rfl : d = big := by simpa using hd
  refine ⟨big_ok, ⟨fun x hx => plain_of ?_, fun _ x hx => plain_of ?_⟩, by decide⟩
  · revert x; decide +kernel
  · revert x; decide +kernel

theorem smalls_ok : ∀ d ∈ [small], d.OK platform.parseFloat print ∧ PlainFloats print d ∧ d.inner * 24 ≤ platform.maxAlloc := by
  intro d hd
  obtain rfl : d = small := by simpa using hd
  refine ⟨small_ok, ⟨fun x hx => plain_of ?_, fun _ x hx => plain_of ?_⟩, by decide⟩
  · revert x; decide +kernel
  · revert x; decide +kernel

theorem left_iff {out : F64 → Int} {thr x : F64} : Rule.Left out (.num ⟨.none, true, thr⟩) x ↔ Le (if x = .nan then .zero else x) thr := by
  show NumLeft _ x ↔ _
  unfold NumLeft IsMissing
  simp

theorem split0 : LgSplit big.arrays 0 0 (.num ⟨.none, true, F64.ofNat 5⟩) :=
  ⟨2, _, .none, rfl, rfl, rfl, by unfold MissingOf; decide, .inl ⟨by norm_num, rfl⟩⟩

theorem split1 : LgSplit big.arrays 1 0 (.num ⟨.none, true, F64.ofNat 9⟩) :=
  ⟨2, _, .none, rfl, rfl, rfl, by unfold MissingOf; decide, .inl ⟨by norm_num, rfl⟩⟩

theorem split0' : LgSplit small.arrays 0 0 (.num ⟨.none, true, F64.ofNat 5⟩) :=
  ⟨2, _, .none, rfl, rfl, rfl, by unfold MissingOf; decide, .inl ⟨by norm_num, rfl⟩⟩

/-- `small` is `big` without two superfluous splits -/
theorem big_small (out : F64 → Int) : big.PrunedTo out small := by
  refine .node _ 0 0 _ _ _ _ ⟨_, _, split0, split0'⟩ (.cut _ 1 _ _ _ (.leaf _ 0 0 rfl) (.dead _ _ _ ?_))
    (.cut _ 2 _ _ _ (.leaf _ 2 1 rfl) (.leaf _ 3 1 rfl))
  rintro row ⟨⟨-, h0⟩, h1⟩
  rw [goes_of_split split0] at h0
  rw [goes_of_split split1] at h1
  obtain ⟨x, g1, g2⟩ := h0
  obtain ⟨y, g3, g4⟩ := h1
  rw [g1] at g3
  cases g3
  have := left_iff.1 (g2.1 rfl)
  exact Bool.false_ne_true (g4.2 (left_iff.2 (Le.trans' this ((F64.le_iff _ _).1 (by decide +kernel)))))

/-- The theorem applies to the files with the two trees. -/
theorem C127_text_example (avg : Bool) : ∃ e e',
    lgEnsembleFromReader platform ⟨modelText print [big] 1 1 avg ++ [], false⟩ false = .ok (e, ⟨[], false⟩) ∧
    lgEnsembleFromReader platform ⟨modelText print [small] 1 1 avg ++ [], false⟩ false = .ok (e', ⟨[], false⟩) ∧ ∀ req, PredictsAs platform e e' req := by
  obtain ⟨_, _, _, h1, h2, h3, h4⟩ := modelText_blocks (M := 1) [] 1 avg (by norm_num) bigs_ok
  obtain ⟨_, _, _, g1, g2, g3, g4⟩ := modelText_blocks (M := 1) [] 1 avg (by norm_num) smalls_ok
  refine C127_text platform print _ _ _ _ _ _ _ _ _ _ _ _ _ _ [big] [small] 1 1 1 avg (by norm_num) le_rfl rfl rfl
    (fun d hd => ⟨(bigs_ok d hd).1, (bigs_ok d hd).2.2⟩) (fun d hd => ⟨(smalls_ok d hd).1, (smalls_ok d hd).2.2⟩) h1 h2 h3 h4 g1 g2 g3 g4 ?_
  intro q d d' a1 a2
  match q with
  | 0 =>
    cases a1
    cases a2
    exact big_small _
  | q + 1 => cases a1

/-- the split on feature 1 of `FormatsExample`, with 25 on both sides -/
def xgTree : TreeModel where
  param := ⟨1#32, 3#32, 0#32, 1#32, 2#32, 0#32, List.replicate 31 0#32⟩
  nodes := [⟨-1#32, 1#32, 2#32, 1#32, 0x3f000000#32⟩, ⟨0#32, -1#32, -1#32, 0#32, 0x41c80000#32⟩, ⟨0#32, -1#32, -1#32, 0#32, 0x41c80000#32⟩]
  stats := List.replicate 3 ⟨0#32, 0#32, 0#32, 0#32⟩

/-- a single leaf with 25 -/
def xgLeaf : TreeModel where
  param := ⟨1#32, 1#32, 0#32, 0#32, 2#32, 0#32, List.replicate 31 0#32⟩
  nodes := [⟨-1#32, -1#32, -1#32, 0#32, 0x41c80000#32⟩]
  stats := [⟨0#32, 0#32, 0#32, 0#32⟩]

/-- a 'gbtree' file with one tree -/
def xgFile (t : TreeModel) (T : BTree) : XgModel where
  header := FormatsExample.header
  gbtree := ⟨⟨1#32, 1#32, 2#32, 0#32, 0#64, 1#32, 0#32, List.replicate 32 0#32⟩, [t], [0#32]⟩
  leafVectors := [[]]
  dart := false
  weights := []
  shapes := [T]

theorem xgTree_ok : (xgFile xgTree (.node 0 (.leaf 1) (.leaf 2))).OK Platform.demo.maxAlloc 1 1 where
  header := ⟨rfl, by decide, by decide⟩
  gbtree := ⟨rfl, by decide, rfl, by
    intro t ht
    obtain rfl : t = (xgTree, []) := by simpa [xgFile] using ht
    exact ⟨rfl, by decide, by decide, by decide, by decide⟩, rfl, by decide⟩
  name := rfl
  features := by decide
  roots := by decide
  groups := by decide
  counts := ⟨le_rfl, le_rfl, rfl⟩
  info := by
    intro i hi k hk
    obtain rfl : k = 0 := by omega
    obtain rfl : i = 0 := by omega
    exact ⟨0#32, rfl, by decide⟩
  weights := fun h => nomatch h
  alloc := by decide
  trees := .cons (.inl ⟨by decide, by decide, .node 0 _ 1 2 _ _ rfl (by decide) (by decide) (.leaf 1 _ rfl (by decide)) (.leaf 2 _ rfl (by decide)),
    by decide, rfl⟩) .nil
  treeFeatures := by decide

theorem xgLeaf_ok : (xgFile xgLeaf (.leaf 0)).OK Platform.demo.maxAlloc 1 1 where
  header := ⟨rfl, by decide, by decide⟩
  gbtree := ⟨rfl, by decide, rfl, by
    intro t ht
    obtain rfl : t = (xgLeaf, []) := by simpa [xgFile] using ht
    exact ⟨rfl, by decide, by decide, by decide, by decide⟩, rfl, by decide⟩
  name := rfl
  features := by decide
  roots := by decide
  groups := by decide
  counts := ⟨le_rfl, le_rfl, rfl⟩
  info := by
    intro i hi k hk
    obtain rfl : k = 0 := by omega
    obtain rfl : i = 0 := by omega
    exact ⟨0#32, rfl, by decide⟩
  weights := fun h => nomatch h
  alloc := by decide
  trees := .cons (.inr ⟨⟨_, rfl⟩, by decide, rfl⟩) .nil
  treeFeatures := by decide

/-- The theorem applies to the XGBoost files with the split and with the leaf. -/
theorem C127_xgboost_example : ∃ e e',
    (∀ rest, xgEnsembleFromReader Platform.demo false ((xgFile xgTree (.node 0 (.leaf 1) (.leaf 2))).image ++ rest) = .ok (e, rest)) ∧
    (∀ rest, xgEnsembleFromReader Platform.demo false ((xgFile xgLeaf (.leaf 0)).image ++ rest) = .ok (e', rest)) ∧
    ∀ req, PredictsAs Platform.demo e e' req := by
  refine C127_xgboost Platform.demo _ _ 1 1 xgTree_ok xgLeaf_ok rfl rfl rfl rfl rfl ?_ false (.raw 1) .raw (fun h => nomatch h)
  intro q t t' T T' h1 h2 h3 h4
  match q with
  | 0 =>
    cases h1
    cases h2
    cases h3
    cases h4
    exact .cut _ 0 _ _ _ (.leaf _ 1 0 ⟨_, _, rfl, rfl, rfl⟩) (.leaf _ 2 0 ⟨_, _, rfl, rfl, rfl⟩)
  | q + 1 => cases h1

end PruneExample

end Leaves
