import Verif.Spec.Unused
import Verif.Props.XgFile
import Verif.Props.Classes

/-! # C123: fields of XGBoost files that do not matter -/

namespace Leaves
open Spec XgBin

theorem forall₂_idx {ns ns' : List Node} (h : List.Forall₂ SameNodeUse ns ns') (i : Nat) :
    (∃ n n', Res.idx ns i = .ok n ∧ Res.idx ns' i = .ok n' ∧ SameNodeUse n n') ∨ (Res.idx ns i = .panic ∧ Res.idx ns' i = .panic) := by
  unfold Res.idx
  by_cases hi : i < ns.length
  · have hi' : i < ns'.length := by rw [← h.length_eq]; exact hi
    rw [List.getElem?_eq_getElem hi, List.getElem?_eq_getElem hi']
    exact .inl ⟨_, _, rfl, rfl, h.get hi hi'⟩
  · rw [List.getElem?_eq_none (by omega), List.getElem?_eq_none (by rw [← h.length_eq]; omega)]
    exact .inr ⟨rfl, rfl⟩

theorem forall₂_idxI {ns ns' : List Node} (h : List.Forall₂ SameNodeUse ns ns') (i : Int) :
    (∃ n n', Res.idxI ns i = .ok n ∧ Res.idxI ns' i = .ok n' ∧ SameNodeUse n n') ∨ (Res.idxI ns i = .panic ∧ Res.idxI ns' i = .panic) := by
  unfold Res.idxI
  split
  · exact .inr ⟨rfl, rfl⟩
  · exact forall₂_idx h _

theorem xgCreateNode_use {ns ns' : List Node} (h : List.Forall₂ SameNodeUse ns ns') : xgCreateNode ns' = xgCreateNode ns := by
  funext i lv
  unfold xgCreateNode
  rcases forall₂_idxI h i with ⟨n, n', h1, h2, hn⟩ | ⟨h1, h2⟩
  · rw [h1, h2, Res.ok_bind, Res.ok_bind, hn.left, hn.right, hn.info]
    dsimp only
    by_cases h0 : n.cLeft.toInt < 0
    · rw [if_pos h0, if_pos h0]
    · have hf := hn.feature (by omega)
      have e1 : xgDefaultLeft n' = xgDefaultLeft n := by unfold xgDefaultLeft; rw [hf]
      have e2 : xgSplitIndex n' = xgSplitIndex n := by unfold xgSplitIndex; rw [hf]
      rw [e1, e2, if_neg h0, if_neg h0]
      split
      · rfl
      · rcases forall₂_idxI h n.cLeft.toInt with ⟨l, l', g1, g2, hl⟩ | ⟨g1, g2⟩
        · have e3 : xgIsLeaf l' = xgIsLeaf l := by unfold xgIsLeaf; rw [hl.left]
          rw [g1, g2, Res.ok_bind, Res.ok_bind, e3, hl.info]
          rcases forall₂_idxI h n.cRight.toInt with ⟨r, r', k1, k2, hr⟩ | ⟨k1, k2⟩
          · have e4 : xgIsLeaf r' = xgIsLeaf r := by unfold xgIsLeaf; rw [hr.left]
            rw [k1, k2]
            simp only [Res.ok_bind, e4, hr.info]
          · rw [k1, k2]
        · rw [g1, g2]; rfl
  · rw [h1, h2]; rfl

theorem xgSource_use {ns ns' : List Node} (h : List.Forall₂ SameNodeUse ns ns') : xgSource ns' = xgSource ns := by
  unfold xgSource
  rw [xgCreateNode_use h]
  congr 1
  · funext i
    rcases forall₂_idx h i with ⟨n, n', h1, h2, hn⟩ | ⟨h1, h2⟩
    · rw [h1, h2, Res.ok_bind, Res.ok_bind, hn.right]
    · rw [h1, h2]
  · funext i
    rcases forall₂_idx h i with ⟨n, n', h1, h2, hn⟩ | ⟨h1, h2⟩
    · rw [h1, h2, Res.ok_bind, Res.ok_bind, hn.left]
    · rw [h1, h2]

theorem xgTree_use (P : Platform) {t t' : TreeModel} (h : SameTreeUse t t') (nf : BitVec 32) :
    xgTreeFromTreeModel P t' nf = xgTreeFromTreeModel P t nf := by
  unfold xgTreeFromTreeModel
  rw [h.numRoots, h.numNodes, h.numFeature, xgSource_use h.nodes]
  rcases forall₂_idx h.nodes 0 with ⟨n, n', h1, h2, hn⟩ | ⟨h1, h2⟩
  · rw [h1, h2, Res.ok_bind, Res.ok_bind, hn.info]
  · rw [h1, h2]

theorem xgTrees_use (P : Platform) (nf : BitVec 32) {ts ts' : List TreeModel} (h : List.Forall₂ SameTreeUse ts ts') :
    xgConvertTrees P nf ts' = xgConvertTrees P nf ts := by
  induction h with
  | nil => rfl
  | cons h _ ih => rw [xgConvertTrees, xgConvertTrees, xgTree_use P h, ih]

theorem xgAssemble_use (P : Platform) {h h' : ModelHeader} (sh : SameHeader h h') {m m' : GBTreeModel} (sm : SameModelUse m m') (wd : List F64)
    (name : String) (lt : Bool) : xgAssemble P h' m' wd name lt = xgAssemble P h m wd name lt := by
  unfold xgAssemble
  rw [sh.baseScore, sh.numFeatures, sh.objective, sm.numTrees, sm.numRoots, sm.groups, sm.info, xgTrees_use P _ sm.trees]

theorem rd_bind_decode {α β : Type} {r : Rd α} {img : Bytes} {a : α} (h : Codec r img a) (f : α → Rd β) (rest : Bytes) :
    (r >>= f) (img ++ rest) = f a rest := by
  show (match r (img ++ rest) with | .ok (a, bs) => f a bs | .err t => .err t | .panic => .panic | .hang => .hang) = _
  rw [h.decode]

/-- **C123, trees.** Two files whose records agree in the fields that the relations list: `XGEnsembleFromReader` returns the same for both, whatever
follows the trees (weights, other data or nothing): the same ensemble and rest of the input, the same error or the same crash. The files need
not hold sensible trees. -/
theorem C123_xgboost (P : Platform) (h h' : ModelHeader) (m m' : GBTreeModel) (vs vs' : List (List (BitVec 32)))
    (ok : HeaderOK P.maxAlloc h) (ok' : HeaderOK P.maxAlloc h') (okm : GBTreeOK P.maxAlloc m vs) (okm' : GBTreeOK P.maxAlloc m' vs')
    (sh : SameHeader h h') (sm : SameModelUse m m') (lt : Bool) (rest : Bytes) :
    xgEnsembleFromReader P lt (headerImage h ++ (gbtreeImage m vs ++ rest)) =
      xgEnsembleFromReader P lt (headerImage h' ++ (gbtreeImage m' vs' ++ rest)) := by
  unfold xgEnsembleFromReader
  rw [rd_bind_decode (Codec.header P ok), rd_bind_decode (Codec.header P ok')]
  rw [sh.booster, sh.numFeatures]
  split
  · rfl
  · dsimp only
    split
    · rfl
    · rw [rd_bind_decode (Codec.gbtree P okm), rd_bind_decode (Codec.gbtree P okm'), sm.numFeature, sm.numTrees]
      simp only [xgAssemble_use P sh sm]

/-- **C123, linear models.** -/
theorem C123_linear (P : Platform) (h h' : ModelHeader) (m m' : GBLinearModel)
    (ok : HeaderOK P.maxAlloc h) (ok' : HeaderOK P.maxAlloc h') (okm : LinearOK P.maxAlloc m) (okm' : LinearOK P.maxAlloc m')
    (sh : SameHeader h h') (sm : SameLinearUse m m') (lt : Bool) (rest : Bytes) :
    xgbLinearFromReader P lt (headerImage h ++ (linearImage m ++ rest)) =
      xgbLinearFromReader P lt (headerImage h' ++ (linearImage m' ++ rest)) := by
  unfold xgbLinearFromReader
  rw [rd_bind_decode (Codec.header P ok), rd_bind_decode (Codec.header P ok')]
  rw [sh.booster, sh.numFeatures]
  split
  · rfl
  · split
    · rfl
    · rw [rd_bind_decode (Codec.linear P okm), rd_bind_decode (Codec.linear P okm'), sh.objective, sm.groups, sm.numFeature, sm.weights, sh.baseScore]

namespace UnusedExample

/-- the node with other values in the fields without a use -/
def other (n : Node) : Node := { n with parent := 77#32, sIndex := if n.cLeft.toInt < 0 then 99#32 else n.sIndex }

/-- the tree with other statistics, other numbers and a leaf vector -/
def tree : TreeModel where
  param := ⟨1#32, 5#32, 3#32, 9#32, 2#32, 4#32, List.replicate 31 5#32⟩
  nodes := XgExample.nodes.map other
  stats := List.replicate 5 ⟨1#32, 2#32, 3#32, 4#32⟩

/-- the leaf, now without a vector -/
def leaf : TreeModel where
  param := ⟨1#32, 1#32, 0#32, 0#32, 2#32, 0#32, List.replicate 31 1#32⟩
  nodes := [⟨3#32, -1#32, -1#32, 8#32, 0x40000000#32⟩]
  stats := [⟨1#32, 1#32, 1#32, 1#32⟩]

/-- the header with a number of classes, flags and reserved words -/
def header : ModelHeader where
  param := ⟨0x3f000000#32, 2#32, 10#32, 1#32, 1#32, List.replicate 29 6#32⟩
  nameObj := asciiBytes "binary:logistic"
  nameGbm := asciiBytes "dart"

def gbtree : GBTreeModel := ⟨⟨2#32, 1#32, 2#32, 8#32, 123#64, 1#32, 5#32, List.replicate 32 2#32⟩, [tree, leaf], [0#32, 0#32]⟩

theorem gbtree_ok : GBTreeOK Platform.demo.maxAlloc gbtree [[1#32, 2#32], []] := ⟨rfl, by decide, rfl, by
  intro t ht
  rcases (show t = (tree, [1#32, 2#32]) ∨ t = (leaf, []) by simpa [gbtree] using ht) with rfl | rfl
  · exact ⟨rfl, by decide, by decide, by decide, by decide⟩
  · exact ⟨rfl, by decide, by decide, by decide, by decide⟩, rfl, by decide⟩

theorem other_use (ns : List Node) : List.Forall₂ SameNodeUse ns (ns.map other) := by
  rw [List.forall₂_map_right_iff]
  refine List.forall₂_same.2 fun n _ => ⟨rfl, rfl, rfl, fun h => if_neg (by omega)⟩

theorem gbtree_use : SameModelUse (XgFileExample.file 1#32).gbtree gbtree :=
  ⟨rfl, rfl, rfl, rfl, .cons ⟨rfl, rfl, rfl, other_use _⟩ (.cons ⟨rfl, rfl, rfl, .cons ⟨rfl, rfl, rfl, fun h => absurd h (by decide)⟩ .nil⟩ .nil), rfl⟩

/-- The theorem applies to the file of `XgFileExample` and to one with other bytes in all the free fields: both load, as the same ensemble. -/
theorem C123_example (rest : Bytes) :
    headerImage header ≠ headerImage (XgFileExample.header "dart") ∧
    (gbtreeImage gbtree [[1#32, 2#32], []]).length ≠ (gbtreeImage (XgFileExample.file 1#32).gbtree [[], [7#32]]).length ∧
    xgEnsembleFromReader Platform.demo false
        (headerImage (XgFileExample.header "dart") ++ (gbtreeImage (XgFileExample.file 1#32).gbtree [[], [7#32]] ++ rest)) =
      xgEnsembleFromReader Platform.demo false (headerImage header ++ (gbtreeImage gbtree [[1#32, 2#32], []] ++ rest)) ∧
    xgEnsembleFromReader Platform.demo false
        (headerImage header ++ (gbtreeImage gbtree [[1#32, 2#32], []] ++ sliceImage [0x3f800000#32, 0x3f000000#32])) =
      .ok (XgFileExample.loadedFile 1, []) :=
  ⟨by decide +kernel, by decide +kernel, C123_xgboost Platform.demo _ header _ gbtree _ _ XgFileExample.file_ok.header ⟨rfl, by decide, by decide⟩
    XgFileExample.file_ok.gbtree gbtree_ok ⟨rfl, rfl, rfl, rfl⟩ gbtree_use false rest, by decide +kernel⟩

/-- the trees of `XgFileExample` with field `f` applied to the root of the first one -/
def edited (f : Node → Node) : GBTreeModel :=
  ⟨⟨2#32, 1#32, 2#32, 0#32, 0#64, 1#32, 0#32, List.replicate 32 0#32⟩,
    [{ XgFileExample.tree1 with nodes := XgExample.nodes.modify 0 f }, XgFileExample.tree2], [0#32, 0#32]⟩

/-- what such a file predicts for a row -/
def answer (f : Node → Node) (fvals : List F64) : List F64 :=
  match xgEnsembleFromReader Platform.demo false
    (headerImage (XgFileExample.header "dart") ++ (gbtreeImage (edited f) [[], [7#32]] ++ sliceImage [0x3f800000#32, 0x3f000000#32])) with
  | .ok (e, _) => ((e.predict Platform.demo fvals 0 1).run [F64.nan]).2
  | _ => []

/-- The fields of a split that have to agree do matter: another feature, another default, another threshold or exchanged children give other predictions
for the row (0, 0.75) or a row with a missing value; another parent does not. -/
theorem C123_used :
    answer id [F64.zero, F64.const 3 4] = [F64.const 9 2] ∧
    answer (fun n => { n with parent := 5#32 }) [F64.zero, F64.const 3 4] = [F64.const 9 2] ∧
    answer (fun n => { n with sIndex := 0x80000000#32 }) [F64.zero, F64.const 3 4] = [F64.const 7 4] ∧
    answer (fun n => { n with info := 0x3f800000#32 }) [F64.zero, F64.const 3 4] = [F64.const 7 4] ∧
    answer (fun n => { n with cLeft := 2#32, cRight := 1#32 }) [F64.zero, F64.const 3 4] = [F64.const 7 4] ∧
    answer id [F64.zero, F64.nan] = [F64.const 7 4] ∧
    answer (fun n => { n with sIndex := 1#32 }) [F64.zero, F64.nan] = [F64.const 9 2] := by
  refine ⟨?_, ?_, ?_, ?_, ?_, ?_, ?_⟩ <;> decide +kernel

/-- header of a linear file with other values in the free fields -/
def linHeader : ModelHeader where
  param := ⟨0x3f000000#32, 2#32, 10#32, 1#32, 1#32, List.replicate 29 6#32⟩
  nameObj := asciiBytes "binary:logistic"
  nameGbm := asciiBytes "gblinear"

def lin : GBLinearModel := ⟨⟨2#32, 1#32, List.replicate 32 9#32⟩, [0x3f800000#32, 0x40000000#32, 0x3f000000#32]⟩

/-- The theorem applies to the linear file of `XgFileExample` and to one with other values in the free fields. -/
theorem C123_linear_example (rest : Bytes) :
    xgbLinearFromReader Platform.demo false (headerImage XgFileExample.linFile.header ++ (linearImage XgFileExample.linFile.linear ++ rest)) =
      xgbLinearFromReader Platform.demo false (headerImage linHeader ++ (linearImage lin ++ rest)) :=
  C123_linear Platform.demo XgFileExample.linFile.header linHeader XgFileExample.linFile.linear lin XgFileExample.linFile_ok.header
    ⟨rfl, by decide, by decide⟩ XgFileExample.linFile_ok.linear ⟨rfl, by decide⟩ ⟨rfl, rfl, rfl, rfl⟩ ⟨rfl, rfl, rfl⟩ false rest

end UnusedExample

end Leaves
