import Verif.Props.Memory
import Verif.Props.SkModel
import Verif.Props.XgFile
import Verif.Spec.XgKinds

/-! # C120: XGBoost files of other kinds are refused -/

namespace Leaves
open Spec XgBin

theorem checkTreeInfo_zero {K : Int} (hK : K ≤ 1) : ∀ xs : List (BitVec 32),
    (xgCheckTreeInfo K 0 xs = true ↔ ∀ (j : Nat) (b : BitVec 32), xs[j]? = some b → b.toInt = 0)
  | [] => by simp [xgCheckTreeInfo]
  | x :: xs => by
    rw [xgCheckTreeInfo]
    by_cases hx : x.toInt = 0
    · rw [if_neg (by simpa using hx)]
      simp only [show (0 : Int) + 1 ≥ K from by omega, if_true]
      rw [checkTreeInfo_zero hK xs]
      constructor
      · rintro h (_ | j) b hb
        · simp at hb; subst hb; exact hx
        · exact h j b (by simpa using hb)
      · intro h j b hb
        exact h (j + 1) b (by simpa using hb)
    · rw [if_pos hx]
      simp only [Bool.false_eq_true, false_iff]
      exact fun h => hx (h 0 x rfl)

theorem checkTreeInfo_inTurn (K : Int) (xs : List (BitVec 32)) : xgCheckTreeInfo K 0 xs = true ↔ InTurn K xs := by
  unfold InTurn
  by_cases hK : 1 ≤ K
  · obtain ⟨G, rfl⟩ := Int.eq_ofNat_of_zero_le (show 0 ≤ K by omega)
    have := checkTreeInfo_iff G (by omega) xs 0 (by omega)
    simp only [hK, if_true]
    refine this.trans (forall_congr' fun j => forall_congr' fun b => ?_)
    rw [Nat.zero_add]
    push_cast
    rfl
  · simp only [hK, if_false]
    exact checkTreeInfo_zero (by omega) xs

theorem xgConvertTrees_each (P : Platform) (nf : BitVec 32) : ∀ (ts : List TreeModel) (ts' : List LgTree), xgConvertTrees P nf ts = .ok ts' →
    ∀ t ∈ ts, t.param.numRoots.toInt = 1 ∧ t.param.numNodes.toInt ≠ 0 ∧ t.param.numFeature.toInt ≤ nf.toInt
  | [], _, _ => by simp
  | t :: ts, ts', h => by
    rw [xgConvertTrees] at h
    obtain ⟨a, ha, h⟩ := Res.bind_eq_ok.1 h
    obtain ⟨b, hb, -⟩ := Res.bind_eq_ok.1 h
    intro u hu
    rcases List.mem_cons.1 hu with rfl | hu
    · unfold xgTreeFromTreeModel at ha
      split at ha
      · cases ha
      split at ha
      · cases ha
      split at ha
      · cases ha
      rename_i h1 h2 h3
      exact ⟨by simpa using h2, h3, by omega⟩
    · exact xgConvertTrees_each P nf ts b hb u hu

theorem mem_zip_of_length {α β : Type} : ∀ (as : List α) (bs : List β), bs.length = as.length → ∀ a ∈ as, ∃ b, (a, b) ∈ as.zip bs
  | [], _, _ => by simp
  | a :: as, [], h => by simp at h
  | a :: as, b :: bs, h => by
    intro x hx
    rcases List.mem_cons.1 hx with rfl | hx
    · exact ⟨b, by simp⟩
    · obtain ⟨y, hy⟩ := mem_zip_of_length as bs (by simpa using h) x hx
      exact ⟨y, by simp [hy]⟩

/-- **C120, what is accepted.** Whatever `XGEnsembleFromReader` loads is, byte for byte, a file of the supported kind, followed by what is
left in the reader. -/
theorem C120_accepted (P : Platform) (lt : Bool) (bs rest : Bytes) (ens : Ensemble) (h : xgEnsembleFromReader P lt bs = .ok (ens, rest)) :
    ∃ m : XgModel, m.Readable P.maxAlloc ∧ m.Supported lt ∧ bs = m.image ++ rest := by
  obtain ⟨header, b1, hh, h'⟩ := rd_bind_ok h
  clear h
  rename' h' => h
  obtain ⟨hok, rfl⟩ := readModelHeader_inv hh
  split at h
  · cases h
  rename_i hname
  simp only at h
  split at h
  · cases h
  rename_i hnf
  obtain ⟨m, b2, hm, h⟩ := rd_bind_ok h
  split at h
  · cases h
  rename_i hfeat
  obtain ⟨wd, b3, hwd, h⟩ := rd_bind_ok h
  obtain ⟨h', hrest⟩ := rd_lift_ok h
  clear h
  rename' h' => h
  dsimp only at hrest
  subst hrest
  unfold xgAssemble at h
  simp only at h
  split at h
  · cases h
  rename_i hroots
  split at h
  · cases h
  split at h
  · cases h
  rename_i hinfo
  obtain ⟨tr, htr, h⟩ := Res.bind_eq_ok.1 h
  split at h
  · cases h
  rename_i hnt
  obtain ⟨_, hal, h⟩ := Res.bind_eq_ok.1 h
  obtain ⟨ts, hts, -⟩ := Res.bind_eq_ok.1 h
  obtain ⟨hpos, -⟩ := allocCheck_inv hal
  obtain ⟨vs, gok, rfl⟩ := readGBTreeModel_inv hpos hm
  have heach := xgConvertTrees_each P _ _ _ hts
  obtain ⟨_, b0, hw0, hwd'⟩ := rd_bind_ok hwd
  clear hwd
  rename' hwd' => hwd
  obtain ⟨hw1, hb0⟩ := rd_lift_ok hw0
  dsimp only at hb0
  subst hb0
  obtain ⟨-, hw8⟩ := allocCheck_inv hw1
  have h8 : m.trees.length * 8 ≤ P.maxAlloc := by
    rw [gok.trees] at hw8
    exact_mod_cast hw8
  have hne : m.trees ≠ [] := by
    intro h0
    rw [gok.trees, h0] at hnt
    exact hnt rfl
  have hch : ∀ t ∈ m.trees, t.param.numRoots.toInt = 1 ∧ t.nodes ≠ [] ∧ t.param.numFeature.toInt ≤ header.param.numFeatures.toInt := by
    intro t ht
    obtain ⟨h1, h2, h3⟩ := heach t ht
    obtain ⟨v, hv⟩ := mem_zip_of_length _ _ gok.vectors t ht
    refine ⟨h1, fun h0 => h2 ?_, h3⟩
    rw [(gok.each _ hv).nodes, h0]
    rfl
  have hobj : lt = true → header.nameObj = asciiBytes "binary:logistic" := by
    rintro rfl
    cases (xgTransform_iff _ _ _ _).1 htr with
    | logistic ho => exact ho
  have hturn : InTurn m.param.numOutputGroup.toInt m.treeInfo := (checkTreeInfo_inTurn _ _).1 (by simpa using hinfo)
  have kind (dart : Bool) (w : List (BitVec 32)) (hn : header.nameGbm = if dart then asciiBytes "dart" else asciiBytes "gbtree")
      (hw : dart = true → w.length = m.trees.length) : (XgModel.mk header m vs dart w []).Supported lt :=
    ⟨⟨hn, ⟨hnf, not_lt.1 hfeat⟩, hw, by simpa using hroots, hturn, hobj, hne⟩, hch⟩
  split at hwd
  · rename_i hd
    obtain ⟨w, b4, hw, hwd'⟩ := rd_bind_ok hwd
    clear hwd
    rename' hwd' => hwd
    obtain ⟨rfl, hw3, hw2⟩ := readWordSlice_inv hw
    split at hwd
    · cases hwd
    rename_i hlen
    cases hwd
    refine ⟨⟨header, m, vs, true, w, []⟩, ⟨hok, gok, fun _ => ⟨hw3, hw2⟩, h8⟩, kind true w hd fun _ => ?_, ?_⟩
    · have := gok.trees
      omega
    · unfold XgModel.image
      simp
  · split at hwd
    · rename_i hg
      cases hwd
      refine ⟨⟨header, m, vs, false, [], []⟩, ⟨hok, gok, fun h => absurd h Bool.false_ne_true, h8⟩, kind false [] hg fun h => absurd h Bool.false_ne_true, ?_⟩
      unfold XgModel.image
      simp
    · cases hwd

/-- **C120, what is refused.** A file whose records can be read but which is of another kind is an error, not a model and not a crash:
another booster, a model without features or trees, several roots, trees that do not take turns (as with several parallel trees and
classes), a wrong number of tree weights, or an objective whose transformation is wanted and not known. Whatever follows. -/
theorem C120_refused (P : Platform) (lt : Bool) (m : XgModel) (hr : m.Readable P.maxAlloc)
    (hd : m.dart = true ↔ m.header.nameGbm = asciiBytes "dart") (hk : ¬ m.Kind lt) (rest : Bytes) :
    ∃ e, xgEnsembleFromReader P lt (m.image ++ rest) = .err e := by
  unfold xgEnsembleFromReader XgModel.image
  rw [List.append_assoc, rd_run_ok ((Codec.header P hr.header).decode _)]
  split
  · exact ⟨_, rfl⟩
  rename_i hname
  have hbooster : m.header.nameGbm = if m.dart then asciiBytes "dart" else asciiBytes "gbtree" := by
    split
    · rename_i h; exact hd.1 h
    · rename_i h
      by_contra hne
      exact hname ⟨hne, fun h' => h (hd.2 h')⟩
  simp only
  split
  · exact ⟨_, rfl⟩
  rename_i hnf
  rw [List.append_assoc, rd_run_ok ((Codec.gbtree P hr.gbtree).decode _)]
  split
  · exact ⟨_, rfl⟩
  rename_i hfeat
  have asm (wd : List F64) (name : String) (hw : m.dart = true → m.weights.length = m.gbtree.trees.length) :
      ∃ e, xgAssemble P m.header m.gbtree wd name lt = .err e := by
    unfold xgAssemble
    simp only
    split
    · exact ⟨_, rfl⟩
    split
    · exact ⟨_, rfl⟩
    split
    · exact ⟨_, rfl⟩
    rename_i h1 h2 h3
    by_cases hobj : lt = true → m.header.nameObj = asciiBytes "binary:logistic"
    · have hne : m.gbtree.trees = [] := by
        by_contra hne
        exact hk ⟨hbooster, ⟨hnf, by omega⟩, hw, by simpa using h1, (checkTreeInfo_inTurn _ _).1 (by simpa using h3), hobj, hne⟩
      obtain ⟨tr, htr⟩ : ∃ tr, xgTransform m.header.nameObj m.gbtree.param.numOutputGroup.toInt lt = .ok tr := by
        cases lt
        · exact ⟨_, rfl⟩
        · exact ⟨_, (xgTransform_iff _ _ _ _).2 (.logistic (hobj rfl))⟩
      rw [htr, Res.ok_bind, if_pos (by rw [hr.gbtree.trees, hne]; rfl)]
      exact ⟨_, rfl⟩
    · obtain ⟨rfl, hobj'⟩ := Classical.not_imp.1 hobj
      have : xgTransform m.header.nameObj m.gbtree.param.numOutputGroup.toInt true = .err "unknown transformation function" := by
        unfold xgTransform
        rw [if_pos rfl]
        exact if_neg hobj'
      rw [this]
      exact ⟨_, rfl⟩
  have fin (wd : List F64) (b : Bytes) (hw : m.dart = true → m.weights.length = m.gbtree.trees.length)
      (h : xgWeightDrop P m.header.nameGbm m.gbtree.param.numTrees.toInt ((if m.dart then sliceImage m.weights else []) ++ rest) = .ok (wd, b)) :
      ∃ e, (xgWeightDrop P m.header.nameGbm m.gbtree.param.numTrees.toInt >>= fun weightDrop =>
        lift (xgAssemble P m.header m.gbtree weightDrop (if m.header.nameGbm = ascii "gbtree" then "xgboost.gbtree" else "xgboost.dart") lt))
        ((if m.dart then sliceImage m.weights else []) ++ rest) = .err e := by
    rw [rd_run_ok h]
    obtain ⟨e, he⟩ := asm wd (if m.header.nameGbm = ascii "gbtree" then "xgboost.gbtree" else "xgboost.dart") hw
    refine ⟨e, ?_⟩
    show lift (xgAssemble _ _ _ _ _ _) _ = _
    rw [he]
    rfl
  have hlift (bs : Bytes) : lift (allocCheck P m.gbtree.param.numTrees.toInt 8) bs = .ok (⟨⟩, bs) := by
    rw [allocCheck_of hr.gbtree.trees hr.alloc]
    rfl
  by_cases hdart : m.dart = true
  · by_cases hw : m.weights.length = m.gbtree.trees.length
    · refine fin (m.weights.map F64.ofBits32) rest (fun _ => hw) ?_
      unfold xgWeightDrop
      rw [rd_run_ok (hlift _), if_pos (show m.header.nameGbm = ascii "dart" from hd.1 hdart), if_pos hdart,
        rd_run_ok ((Codec.slice P (hr.weights hdart)).decode _), if_neg (by rw [hr.gbtree.trees, hw]; simp)]
      rfl
    · refine ⟨"unexpected len(weightDrop)", rd_run_err ?_⟩
      unfold xgWeightDrop
      rw [rd_run_ok (hlift _), if_pos (show m.header.nameGbm = ascii "dart" from hd.1 hdart), if_pos hdart,
        rd_run_ok ((Codec.slice P (hr.weights hdart)).decode _), if_pos (by rw [hr.gbtree.trees]; omega)]
      rfl
  · have hg : m.header.nameGbm = ascii "gbtree" := by
      rw [hbooster, if_neg hdart]
      rfl
    refine fin (List.replicate m.gbtree.param.numTrees.toInt.toNat F64.one) rest (fun h => absurd h hdart) ?_
    unfold xgWeightDrop
    rw [rd_run_ok (hlift _), if_neg (show ¬ m.header.nameGbm = ascii "dart" from fun h => hdart (hd.2 h)), if_pos hg, if_neg hdart]
    rfl

/-- **C120 for linear models**: whatever `XGBLinearFromReader` loads is a file of a linear model; if the transformation is wanted its
objective is `binary:logistic`. -/
theorem C120_linear_accepted (P : Platform) (lt : Bool) (bs rest : Bytes) (ens : Ensemble) (h : xgbLinearFromReader P lt bs = .ok (ens, rest)) :
    ∃ m : XgLinFile, HeaderOK P.maxAlloc m.header ∧ LinearOK P.maxAlloc m.linear ∧ m.Supported lt ∧ bs = m.image ++ rest := by
  unfold xgbLinearFromReader at h
  obtain ⟨hd, b1, h1, h'⟩ := rd_bind_ok h
  clear h
  rename' h' => h
  obtain ⟨hok, rfl⟩ := readModelHeader_inv h1
  split at h
  · cases h
  rename_i hn
  split at h
  · cases h
  rename_i hf
  obtain ⟨m, b2, h2, h'⟩ := rd_bind_ok h
  clear h
  rename' h' => h
  obtain ⟨lok, rfl⟩ := readGBLinearModel_inv h2
  dsimp only at h
  obtain ⟨tr, b3, h3, h6⟩ := rd_bind_ok h
  obtain ⟨h4, hb⟩ := rd_lift_ok h3
  dsimp only at hb
  subst hb
  cases h6
  refine ⟨⟨hd, m⟩, hok, lok, ⟨not_not.1 hn, hf, ?_⟩, ?_⟩
  · rintro rfl
    cases (xgTransform_iff _ _ _ _).1 h4 with
    | logistic ho => exact ho
  · unfold XgLinFile.image
    simp

/-- **C120 for linear models**: a readable file is loaded exactly if it is one of a linear model; otherwise there is an error. -/
theorem C120_linear_refused (P : Platform) (lt : Bool) (m : XgLinFile) (h1 : HeaderOK P.maxAlloc m.header) (h2 : LinearOK P.maxAlloc m.linear)
    (rest : Bytes) : (m.Supported lt ∧ ∃ ens, xgbLinearFromReader P lt (m.image ++ rest) = .ok (ens, rest)) ∨
      (¬ m.Supported lt ∧ ∃ e, xgbLinearFromReader P lt (m.image ++ rest) = .err e) := by
  unfold xgbLinearFromReader XgLinFile.image
  rw [List.append_assoc, rd_run_ok ((Codec.header P h1).decode _)]
  split
  · rename_i h
    exact .inr ⟨fun hs => h hs.booster, _, rfl⟩
  rename_i hn
  split
  · rename_i h
    exact .inr ⟨fun hs => hs.features h, _, rfl⟩
  rename_i hf
  rw [rd_run_ok ((Codec.linear P h2).decode _)]
  cases lt
  · exact .inl ⟨⟨not_not.1 hn, hf, by rintro ⟨⟩⟩, _, rfl⟩
  · by_cases ho : m.header.nameObj = asciiBytes "binary:logistic"
    · refine .inl ⟨⟨not_not.1 hn, hf, fun _ => ho⟩, ?_⟩
      rw [(xgTransform_iff _ _ _ _).2 (.logistic ho)]
      exact ⟨_, rfl⟩
    · refine .inr ⟨fun hs => ho (hs.objective rfl), ?_⟩
      have : xgTransform m.header.nameObj m.linear.param.numOutputGroup.toInt true = .err "unknown transformation function" := by
        unfold xgTransform
        rw [if_pos rfl]
        exact if_neg ho
      rw [this]
      exact ⟨_, rfl⟩

namespace XgKindsExample
open XgFileExample

/-- the file of `XgFileExample` meets the conditions … -/
theorem file_readable : (file 1#32).Readable Platform.demo.maxAlloc := ⟨file_ok.header, file_ok.gbtree, by decide, by decide⟩

theorem file_supported : (file 1#32).Supported true where
  kind := ⟨rfl, by decide, by decide, by decide, by
    intro i b hb
    rcases i with _ | _ | i
    · cases hb; rfl
    · cases hb; rfl
    · exact absurd (show ([] : List (BitVec 32))[i]? = some b from hb) (by simp), fun _ => rfl, by decide⟩
  each := by decide

/-- two parallel trees in each of two classes: the trees of the first class come first -/
def parallel : XgModel := { file 2#32 with
  gbtree := { (file 2#32).gbtree with param := { (file 2#32).gbtree.param with numTrees := 4#32 }, trees := [tree1, tree2, tree1, tree2], treeInfo := [0#32, 0#32, 1#32, 1#32] }
  leafVectors := [[], [7#32], [], [7#32]], weights := [0x3f800000#32, 0x3f000000#32, 0x3f800000#32, 0x3f000000#32] }

theorem parallel_readable : parallel.Readable Platform.demo.maxAlloc where
  header := file_ok.header
  gbtree := ⟨rfl, by decide, rfl, by
    intro t ht
    rcases (show t = (tree1, []) ∨ t = (tree2, [7#32]) by have := (show t = (tree1, []) ∨ t = (tree2, [7#32]) ∨ t = (tree1, []) ∨ t = (tree2, [7#32]) by simpa [parallel, file] using ht); tauto) with rfl | rfl
    · exact ⟨rfl, by decide, by decide, by decide, by decide⟩
    · exact ⟨rfl, by decide, by decide, by decide, by decide⟩, rfl, by decide⟩
  weights := by decide
  alloc := by decide

/-- it is refused, whatever follows and whether or not the transformation is wanted -/
example (lt : Bool) (rest : Bytes) : ∃ e, xgEnsembleFromReader Platform.demo lt (parallel.image ++ rest) = .err e :=
  C120_refused Platform.demo lt parallel parallel_readable (by decide) (fun h => absurd (h.turns 1 0#32 rfl) (by decide)) rest

/-- a model with several classes loads without the transformation only -/
def softmax : XgModel := { file 1#32 with header := { (file 1#32).header with nameObj := asciiBytes "multi:softprob" } }

example (rest : Bytes) : (∃ e, xgEnsembleFromReader Platform.demo true (softmax.image ++ rest) = .err e) ∧
    ∃ ens, xgEnsembleFromReader Platform.demo false softmax.image = .ok ens := by
  constructor
  · exact C120_refused Platform.demo true softmax ⟨⟨rfl, by decide, by decide⟩, file_ok.gbtree, by decide, by decide⟩ (by decide)
      (fun h => absurd (h.objective rfl) (by decide)) rest
  · obtain ⟨ens, h, -⟩ := SkModelExample.of_check (r := xgEnsembleFromReader Platform.demo false softmax.image) (fun _ => True) (by decide +kernel)
    exact ⟨ens, h⟩

/-- a file that says it holds a linear model -/
def linear : XgModel := { file 1#32 with header := header "gblinear", dart := false }

/-- a linear model is refused by the loader of trees, and trees are refused by the loader of linear models -/
example (lt : Bool) (rest : Bytes) : (∃ e, xgEnsembleFromReader Platform.demo lt (linear.image ++ rest) = .err e) ∧
    ∃ e, xgbLinearFromReader Platform.demo lt (({ linFile with header := header "dart" } : XgLinFile).image ++ rest) = .err e := by
  constructor
  · exact C120_refused Platform.demo lt linear ⟨⟨rfl, by decide, by decide⟩, file_ok.gbtree, by decide, by decide⟩ (by decide)
      (fun h => absurd h.booster (by decide)) rest
  · rcases C120_linear_refused Platform.demo lt { linFile with header := header "dart" } ⟨rfl, by decide, by decide⟩ ⟨rfl, by decide⟩ rest with h | h
    · exact absurd h.1.booster (by decide)
    · exact h.2

/-- what the loaded file shows -/
example (ens : Ensemble) (rest bs : Bytes) (h : xgEnsembleFromReader Platform.demo true ((file 1#32).image ++ bs) = .ok (ens, rest)) :
    ∃ m : XgModel, m.Readable Platform.demo.maxAlloc ∧ m.Supported true ∧ (file 1#32).image ++ bs = m.image ++ rest := C120_accepted _ _ _ _ _ h

end XgKindsExample

end Leaves
