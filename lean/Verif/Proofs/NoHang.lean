import Verif.Proofs.Adequate
import Verif.Props.Params
import Verif.Model.SkLoad
import Verif.Model.XgLoad
import Verif.Model.LgJson

/-! # Loading terminates: no loader runs out of fuel -/

namespace Leaves

open Pickle XgBin

theorem ofOption_ne_hang {α : Type} (tag : String) (o : Option α) : Res.ofOption tag o ≠ .hang := by
  cases o <;> simp [Res.ofOption]

theorem ok_ne_hang {α : Type} (a : α) : Res.ok a ≠ .hang := by simp
theorem pure_ne_hang {α : Type} (a : α) : (pure a : Res α) ≠ .hang := by simp
theorem err_ne_hang {α : Type} (t : String) : (Res.err t : Res α) ≠ .hang := by simp
theorem panic_ne_hang {α : Type} : (Res.panic : Res α) ≠ .hang := by simp

/-- close a goal `r ≠ .hang` by going through binds and branches; `t` closes the calls -/
syntax "no_hang" "[" term,* "]" : tactic
macro_rules
  | `(tactic| no_hang [$ts,*]) => do
    let alts ← ts.getElems.mapM fun t => `(tacticSeq| exact $t)
    `(tactic| repeat' first
      | exact Res.idx_ne_hang _ _
      | exact Res.idxI_ne_hang _ _
      | exact allocCheck_ne_hang _ _ _
      | exact ofOption_ne_hang _ _
      | exact ok_ne_hang _
      | exact pure_ne_hang _
      | exact err_ne_hang _
      | exact panic_ne_hang
      $[| $alts]*
      | refine Res.bind_ne_hang ?_ fun _ _ => ?_
      | split
      | dsimp only)

/-! ## LightGBM text -/

theorem readParams_ne_hang (r : Reader) : readParamsUntilBlank r ≠ .hang := by
  rcases C36_terminates r with ⟨p, r', h⟩ | ⟨m, h⟩ <;> rw [h] <;> simp

theorem withLeaves_ne_hang (a : LgArrays) (i : Int) (n : LgNode) : a.withLeaves i n ≠ .hang := by
  unfold LgArrays.withLeaves
  no_hang []

theorem convertMissingType_ne_hang (d : Nat) : convertMissingType d ≠ .hang := by
  unfold convertMissingType
  no_hang []

theorem firstNonZeroBitFrom_ne_hang : ∀ (l : List (BitVec 32)) (pos : Nat), Util.firstNonZeroBitFrom pos l ≠ .hang
  | [], pos => by simp [Util.firstNonZeroBitFrom]
  | e :: l, pos => by
    unfold Util.firstNonZeroBitFrom
    no_hang [firstNonZeroBitFrom_ne_hang l _]

theorem catSlot_ne_hang (a : LgArrays) (n b s : Nat) (l : List (BitVec 32)) (t : CatTables) : a.catSlot n b s l t ≠ .hang := by
  unfold LgArrays.catSlot Util.firstNonZeroBit
  no_hang [firstNonZeroBitFrom_ne_hang _ _]

theorem slice_ne_hang {α : Type} (l : List α) (i j : Nat) : LgArrays.slice l i j ≠ .hang := by
  unfold LgArrays.slice
  no_hang []

theorem createNode_ne_hang (P : Platform) (a : LgArrays) (i : Int) (t : CatTables) : a.createNode P i t ≠ .hang := by
  unfold LgArrays.createNode LgArrays.createCategoricalNode LgArrays.createNumericalNode
  no_hang [withLeaves_ne_hang _ _ _, convertMissingType_ne_hang _, slice_ne_hang _ _ _, catSlot_ne_hang _ _ _ _ _ _]

theorem lgSource_noHang (P : Platform) (a : LgArrays) : (a.source P).NoHang :=
  ⟨createNode_ne_hang P a, fun _ => Res.idx_ne_hang _ _, fun _ => Res.idx_ne_hang _ _⟩

theorem convertAll_ne_hang {α : Type} (f : Str → Option α) : ∀ l, Params.convertAll f l ≠ .hang
  | [] => by simp [Params.convertAll]
  | s :: l => by
    unfold Params.convertAll
    no_hang [convertAll_ne_hang f l]

theorem toInt_ne_hang (p : Params) (k : Str) : p.toInt k ≠ .hang := by
  unfold Params.toInt; no_hang []
theorem toString_ne_hang (p : Params) (k : Str) : p.toString k ≠ .hang := by
  unfold Params.toString; no_hang []
theorem compare_ne_hang (p : Params) (k v : Str) : p.compare k v ≠ .hang := by
  unfold Params.compare; no_hang []
theorem toStrSlice_ne_hang (p : Params) (k : Str) : p.toStrSlice k ≠ .hang := by
  unfold Params.toStrSlice; no_hang []
theorem toFloat64Slice_ne_hang (P : Platform) (p : Params) (k : Str) : p.toFloat64Slice P k ≠ .hang := by
  unfold Params.toFloat64Slice; no_hang [convertAll_ne_hang _ _]
theorem toUint32Slice_ne_hang (p : Params) (k : Str) : p.toUint32Slice k ≠ .hang := by
  unfold Params.toUint32Slice; no_hang [convertAll_ne_hang _ _]
theorem toInt32Slice_ne_hang (p : Params) (k : Str) : p.toInt32Slice k ≠ .hang := by
  unfold Params.toInt32Slice; no_hang [convertAll_ne_hang _ _]

theorem lgTreeFromParams_ne_hang (P : Platform) (p : Params) : lgTreeFromParams P p ≠ .hang := by
  unfold lgTreeFromParams
  no_hang [toInt_ne_hang _ _, toFloat64Slice_ne_hang _ _ _, toUint32Slice_ne_hang _ _, toInt32Slice_ne_hang _ _,
    convert_ne_hang _ (lgSource_noHang _ _) _ _ _]

theorem lgReadTrees_ne_hang (P : Platform) : ∀ (n : Nat) (r : Reader), lgReadTrees P n r ≠ .hang
  | 0, r => by simp [lgReadTrees]
  | n + 1, r => by
    unfold lgReadTrees lgTreeFromReader
    no_hang [readParams_ne_hang _, lgTreeFromParams_ne_hang _ _, lgReadTrees_ne_hang P n _]

theorem lgObjectiveParse_ne_hang (s : Str) : lgObjectiveParse s ≠ .hang := by
  unfold lgObjectiveParse
  no_hang []

theorem lgTransform_ne_hang (p : Params) (n : Int) (a b : Bool) : lgTransform p n a b ≠ .hang := by
  unfold lgTransform
  no_hang [toString_ne_hang _ _, lgObjectiveParse_ne_hang _]

theorem lgCheckVersion_ne_hang (p : Params) : lgCheckVersion p ≠ .hang := by
  unfold lgCheckVersion
  no_hang [compare_ne_hang _ _ _]

theorem lgEnsembleFromReader_ne_hang (P : Platform) (r : Reader) (b : Bool) : lgEnsembleFromReader P r b ≠ .hang := by
  unfold lgEnsembleFromReader
  no_hang [readParams_ne_hang _, lgCheckVersion_ne_hang _, toInt_ne_hang _ _, toStrSlice_ne_hang _ _, lgTransform_ne_hang _ _ _ _,
    lgReadTrees_ne_hang _ _ _]

/-! ## LightGBM JSON -/

theorem setBits_ne_hang : ∀ (vs : List Int) (b : List (BitVec 32)), Util.setBits b vs ≠ .hang
  | [], b => by simp [Util.setBits]
  | v :: vs, b => by
    unfold Util.setBits Util.setBit
    no_hang [setBits_ne_hang vs _]

theorem constructBitset_ne_hang (P : Platform) (vs : List Int) : Util.constructBitset P vs ≠ .hang := by
  unfold Util.constructBitset
  no_hang [setBits_ne_hang _ _]

theorem jCatSlot_ne_hang (P : Platform) (ts : List Str) (t : CatTables) : jCatSlot P ts t ≠ .hang := by
  unfold jCatSlot
  no_hang [convertAll_ne_hang _ _, constructBitset_ne_hang _ _]

theorem jCreateNode_ne_hang (P : Platform) (f : Nat) (t : JVal) (d : Str) (dl : Bool) (mt : Str) (l r : JNode) (a : JAux) :
    jCreateNode P f t d dl mt l r a ≠ .hang := by
  unfold jCreateNode jCreateCategoricalNode jCreateNumericalNode
  no_hang [jCatSlot_ne_hang _ _ _]

/-- the decision nodes that the loop still has to visit -/
def jPending (s : JState) : Nat := (s.stack.map fun x => x.2.size).sum

theorem writePtr_stack (s : JState) (p : Option JPtr) (v : Nat) : (s.writePtr p v).stack = s.stack := by
  unfold JState.writePtr
  cases p with
  | none => rfl
  | some p => dsimp only; split <;> rfl

theorem appendNode_stack (P : Platform) (s : JState) (n : LgNode) : (s.appendNode P n).stack = s.stack := by
  unfold JState.appendNode
  split <;> rfl

theorem jStep_pending {P : Platform} {s s' : JState} {p : Option JPtr} {n : JNode} (h : jStep P s p n = .ok s') :
    jPending s' + 1 = jPending s + n.size := by
  cases n with
  | leaf v => simp [jStep] at h
  | node f t d dl mt l r =>
    unfold jStep at h
    dsimp only at h
    rw [Res.bind_eq_ok] at h
    obtain ⟨⟨node, aux⟩, -, h⟩ := h
    dsimp only at h
    simp only [Res.pure_eq, Res.ok.injEq] at h
    subst h
    unfold jPending
    cases l <;> cases r <;>
      simp [JNode.size, writePtr_stack, appendNode_stack] <;> omega

theorem jLoop_fuel (P : Platform) : ∀ (fuel : Nat) (s : JState), jPending s < fuel → jLoop P fuel s ≠ .hang
  | 0, s, h => by omega
  | fuel + 1, s, h => by
    rw [jLoop]
    cases hst : s.stack with
    | nil => simp
    | cons q below =>
      obtain ⟨ptr, n⟩ := q
      refine Res.bind_ne_hang ?_ fun s' hs' => ?_
      · cases n with
        | leaf v => simp [jStep]
        | node f t d dl mt l r =>
          unfold jStep
          exact Res.bind_ne_hang (jCreateNode_ne_hang _ _ _ _ _ _ _ _ _) fun _ _ => by dsimp only; simp
      · have := jStep_pending hs'
        refine jLoop_fuel P fuel s' ?_
        have h2 : jPending s = n.size + jPending { s with stack := below } := by simp [jPending, hst]
        omega

theorem unmarshalNode_ne_hang : ∀ j, unmarshalNode j ≠ .hang
  | .invalid => by simp [unmarshalNode]
  | .leafLike none => by simp [unmarshalNode]
  | .leafLike (some v) => by simp [unmarshalNode]
  | .split f t d dl m ms l r => by
    unfold unmarshalNode
    no_hang [unmarshalNode_ne_hang l, unmarshalNode_ne_hang r]

theorem unmarshalTree_ne_hang (P : Platform) (t : JTree) : unmarshalTree P t ≠ .hang := by
  unfold unmarshalTree
  dsimp only
  split
  · simp
  · refine Res.bind_ne_hang (unmarshalNode_ne_hang _) fun root _ => ?_
    split
    · simp
    · refine Res.bind_ne_hang (allocCheck_ne_hang _ _ _) fun _ _ => ?_
      refine Res.bind_ne_hang (allocCheck_ne_hang _ _ _) fun _ _ => ?_
      refine Res.bind_ne_hang (jLoop_fuel _ _ _ ?_) fun _ _ => by simp
      simp [jPending]

theorem jReadTrees_ne_hang (P : Platform) : ∀ l, jReadTrees P l ≠ .hang
  | [] => by simp [jReadTrees]
  | none :: l => by simp [jReadTrees]
  | some t :: l => by
    unfold jReadTrees
    no_hang [unmarshalTree_ne_hang _ _, jReadTrees_ne_hang P l]

theorem lgEnsembleFromJSON_ne_hang (P : Platform) (d : Option JEnsemble) (b : Bool) : lgEnsembleFromJSON P d b ≠ .hang := by
  unfold lgEnsembleFromJSON
  no_hang [jReadTrees_ne_hang _ _]

/-! ## XGBoost -/

/-- a reading function that terminates on every input -/
def RdNoHang {α : Type} (x : Rd α) : Prop := ∀ bs, x bs ≠ .hang

theorem RdNoHang.pure {α : Type} (a : α) : RdNoHang (Pure.pure a : Rd α) := fun bs => by
  show Res.ok (a, bs) ≠ .hang
  simp

theorem RdNoHang.bind {α β : Type} {x : Rd α} {f : α → Rd β} (hx : RdNoHang x) (hf : ∀ a, RdNoHang (f a)) : RdNoHang (x >>= f) :=
  fun bs => by
    show (match x bs with | .ok (a, bs) => f a bs | .err t => .err t | .panic => .panic | .hang => .hang) ≠ Res.hang
    cases h : x bs with
    | ok p => exact hf _ _
    | hang => exact absurd h (hx bs)
    | _ => simp

theorem RdNoHang.lift {α : Type} {r : Res α} (h : r ≠ .hang) : RdNoHang (XgBin.lift r) := fun bs => by
  cases r with
  | hang => exact absurd rfl h
  | _ => simp [XgBin.lift]

theorem readBytes_noHang (n : Nat) : RdNoHang (readBytes n) := fun bs => by
  unfold readBytes
  split <;> simp

/-- close a goal `RdNoHang x` -/
syntax "rd_no_hang" "[" term,* "]" : tactic
macro_rules
  | `(tactic| rd_no_hang [$ts,*]) => do
    let alts ← ts.getElems.mapM fun t => `(tacticSeq| exact $t)
    `(tactic| repeat' first
      | exact RdNoHang.pure _
      | exact readBytes_noHang _
      | exact RdNoHang.lift (allocCheck_ne_hang _ _ _)
      | exact RdNoHang.lift (err_ne_hang _)
      $[| $alts]*
      | refine RdNoHang.bind ?_ fun _ => ?_
      | split
      | dsimp only)

theorem readWord_noHang : RdNoHang readWord := by unfold readWord; rd_no_hang []
theorem readWord64_noHang : RdNoHang readWord64 := by unfold readWord64; rd_no_hang []

theorem readMany_noHang {α : Type} {x : Rd α} (h : RdNoHang x) : ∀ n, RdNoHang (readMany x n)
  | 0 => RdNoHang.pure _
  | n + 1 => by
    unfold readMany
    rd_no_hang [h, readMany_noHang h n]

theorem readString_noHang (P : Platform) : RdNoHang (readString P) := by
  unfold readString; rd_no_hang [readWord64_noHang]
theorem readWordSlice_noHang (P : Platform) : RdNoHang (readWordSlice P) := by
  unfold readWordSlice; rd_no_hang [readWord64_noHang, readMany_noHang readWord_noHang _]
theorem readModelHeader_noHang (P : Platform) : RdNoHang (readModelHeader P) := by
  unfold readModelHeader readLearnerModelParam
  rd_no_hang [readWord_noHang, readMany_noHang readWord_noHang _, readString_noHang _]
theorem readTreeModel_noHang (P : Platform) : RdNoHang (readTreeModel P) := by
  unfold readTreeModel readTreeParam
  rd_no_hang [readWord_noHang, readMany_noHang readWord_noHang _, readWordSlice_noHang _,
    readMany_noHang (by unfold readNode; rd_no_hang [readWord_noHang]) _,
    readMany_noHang (by unfold readStat; rd_no_hang [readWord_noHang]) _]
theorem readGBTreeModel_noHang (P : Platform) : RdNoHang (readGBTreeModel P) := by
  unfold readGBTreeModel readGBTreeModelParam
  rd_no_hang [readWord_noHang, readWord64_noHang, readMany_noHang readWord_noHang _, readMany_noHang (readTreeModel_noHang P) _]
theorem readGBLinearModel_noHang (P : Platform) : RdNoHang (readGBLinearModel P) := by
  unfold readGBLinearModel readGBLinearModelParam
  rd_no_hang [readWord_noHang, readMany_noHang readWord_noHang _, readWordSlice_noHang _]
theorem xgWeightDrop_noHang (P : Platform) (n : XgBin.Bytes) (k : Int) : RdNoHang (xgWeightDrop P n k) := by
  unfold xgWeightDrop
  rd_no_hang [readWordSlice_noHang _]

theorem xgCreateNode_ne_hang (nodes : List Node) (i : Int) (l : List F64) : xgCreateNode nodes i l ≠ .hang := by
  unfold xgCreateNode
  no_hang []

theorem xgSource_noHang (nodes : List Node) : (xgSource nodes).NoHang := by
  refine ⟨xgCreateNode_ne_hang nodes, fun i => ?_, fun i => ?_⟩ <;> unfold xgSource <;> no_hang []

theorem xgTreeFromTreeModel_ne_hang (P : Platform) (t : TreeModel) (n : BitVec 32) : xgTreeFromTreeModel P t n ≠ .hang := by
  unfold xgTreeFromTreeModel
  no_hang [convert_ne_hang _ (xgSource_noHang _) _ _ _]

theorem xgConvertTrees_ne_hang (P : Platform) (n : BitVec 32) : ∀ l, xgConvertTrees P n l ≠ .hang
  | [] => by simp [xgConvertTrees]
  | t :: l => by
    unfold xgConvertTrees
    no_hang [xgTreeFromTreeModel_ne_hang _ _ _, xgConvertTrees_ne_hang P n l]

theorem xgTransform_ne_hang (n : XgBin.Bytes) (k : Int) (b : Bool) : xgTransform n k b ≠ .hang := by
  unfold xgTransform
  no_hang []

theorem xgAssemble_ne_hang (P : Platform) (h : ModelHeader) (m : GBTreeModel) (w : List F64) (n : String) (b : Bool) :
    xgAssemble P h m w n b ≠ .hang := by
  unfold xgAssemble
  no_hang [xgTransform_ne_hang _ _ _, xgConvertTrees_ne_hang _ _ _]

theorem xgEnsembleFromReader_noHang (P : Platform) (b : Bool) : RdNoHang (xgEnsembleFromReader P b) := by
  unfold xgEnsembleFromReader
  rd_no_hang [readModelHeader_noHang _, readGBTreeModel_noHang _, xgWeightDrop_noHang _ _ _, RdNoHang.lift (xgAssemble_ne_hang _ _ _ _ _ _)]

theorem xgbLinearFromReader_noHang (P : Platform) (b : Bool) : RdNoHang (xgbLinearFromReader P b) := by
  unfold xgbLinearFromReader
  rd_no_hang [readModelHeader_noHang _, readGBLinearModel_noHang _, RdNoHang.lift (xgTransform_ne_hang _ _ _)]

/-! ## scikit-learn -/

theorem readLine_ne_hang : ∀ bs, readLine bs ≠ .hang
  | [] => by simp [readLine]
  | b :: bs => by
    unfold readLine
    no_hang [readLine_ne_hang bs]

theorem readLine_shorter : ∀ (bs l rest : Pickle.Bytes), readLine bs = .ok (l, rest) → rest.length ≤ bs.length
  | [], l, rest, h => by simp [readLine] at h
  | b :: bs, l, rest, h => by
    unfold readLine at h
    split at h
    · cases h; simp
    · rw [Res.bind_eq_ok] at h
      obtain ⟨⟨l', r'⟩, h1, h⟩ := h
      cases h
      have := readLine_shorter bs l' rest h1
      simp; omega

theorem popMark_ne_hang (m : Machine) : m.popMark ≠ .hang := by
  unfold Machine.popMark; no_hang []
theorem pop_ne_hang (m : Machine) : m.pop ≠ .hang := by
  unfold Machine.pop; no_hang []
theorem back_ne_hang (m : Machine) : m.back ≠ .hang := by
  unfold Machine.back; no_hang []
theorem appendList_ne_hang (P : Platform) (m : Machine) (a l : Nat) (v : PVal) : m.appendList P a l v ≠ .hang := by
  unfold Machine.appendList; no_hang []

theorem dictCells_ne_hang : ∀ (n : Nat) (l : List PVal) (acc : DictCells), l.length ≤ n → dictCells l acc ≠ .hang
  | _, [], acc, _ => by simp [dictCells]
  | _, [x], acc, _ => by simp [dictCells]
  | n + 1, k :: v :: l, acc, h => by
    unfold dictCells
    split
    · exact dictCells_ne_hang n l _ (by simp at h; omega)
    · simp
  | 0, _ :: _ :: _, _, h => by simp at h

/-- an opcode terminates and does not put bytes back -/
def StepOK (n : Nat) : Res Next → Prop
  | .hang => False
  | .ok (.continue _ bs) => bs.length ≤ n
  | _ => True

theorem StepOK.bind {n : Nat} {α : Type} {x : Res α} {f : α → Res Next} (hx : x ≠ .hang) (hf : ∀ a, x = .ok a → StepOK n (f a)) :
    StepOK n (x >>= f) := by
  cases x with
  | ok a => exact hf a rfl
  | hang => exact absurd rfl hx
  | _ => trivial

theorem StepOK.line {n : Nat} {bs : Pickle.Bytes} {f : Pickle.Bytes × Pickle.Bytes → Res Next} (h : bs.length ≤ n)
    (hf : ∀ l rest, rest.length ≤ n → StepOK n (f (l, rest))) : StepOK n (readLine bs >>= f) := by
  refine StepOK.bind (readLine_ne_hang _) fun ⟨l, rest⟩ he => hf _ _ ?_
  have := readLine_shorter _ _ _ he
  omega

theorem StepOK.ite {n : Nat} {c : Prop} [Decidable c] {x y : Res Next} (hx : StepOK n x) (hy : StepOK n y) :
    StepOK n (if c then x else y) := by
  split
  · exact hx
  · exact hy

theorem stepOp_ok (P : Platform) (op : BitVec 8) (bs : Pickle.Bytes) (m : Machine) : StepOK bs.length (stepOp P op bs m) := by
  unfold stepOp Machine.putMemory Machine.setDict
  repeat' first
    | exact Nat.le_refl _
    | assumption
    | exact trivial
    | refine StepOK.line ‹_› fun _ _ _ => ?_
    | refine StepOK.line (Nat.le_refl _) fun _ _ _ => ?_
    | refine StepOK.bind (popMark_ne_hang _) fun _ _ => ?_
    | refine StepOK.bind (pop_ne_hang _) fun _ _ => ?_
    | refine StepOK.bind (back_ne_hang _) fun _ _ => ?_
    | refine StepOK.bind (appendList_ne_hang _ _ _ _ _) fun _ _ => ?_
    | refine StepOK.bind (ofOption_ne_hang _ _) fun _ _ => ?_
    | refine StepOK.bind (dictCells_ne_hang _ _ _ (Nat.le_refl _)) fun _ _ => ?_
    | refine StepOK.bind (Res.bind_ne_hang (back_ne_hang _) fun _ _ => pure_ne_hang _) fun _ _ => ?_
    | refine StepOK.bind (Res.bind_ne_hang (Res.idx_ne_hang _ _) fun _ _ => pure_ne_hang _) fun _ _ => ?_
    | refine StepOK.ite ?_ ?_
    | split

theorem decodeLoop_ne_hang (P : Platform) : ∀ (fuel : Nat) (bs : Pickle.Bytes) (m : Machine), bs.length < fuel →
    decodeLoop P fuel bs m ≠ .hang
  | 0, bs, m, h => by omega
  | fuel + 1, [], m, h => by simp [decodeLoop]
  | fuel + 1, op :: bs, m, h => by
    rw [decodeLoop]
    have hs := stepOp_ok P op bs m
    refine Res.bind_ne_hang (fun he => by rw [he] at hs; exact hs) fun x hx => ?_
    rw [hx] at hs
    cases x with
    | «continue» m' bs' =>
      refine decodeLoop_ne_hang P fuel bs' m' ?_
      have : bs'.length ≤ bs.length := hs
      simp only [List.length_cons] at h
      omega
    | stop m' => simp

theorem decode_ne_hang (P : Platform) (bs : Pickle.Bytes) : decode P bs ≠ .hang := by
  unfold decode
  no_hang [decodeLoop_ne_hang P _ _ _ (Nat.lt_succ_self _), back_ne_hang _]

theorem parseClass_ne_hang {α : Type} {f : PVal → List PVal → Res α} {g : α → PVal → Res α} (hf : ∀ c a, f c a ≠ .hang)
    (hg : ∀ x a, g x a ≠ .hang) (v : PVal) : parseClass f g v ≠ .hang := by
  unfold parseClass
  no_hang [hf _ _, hg _ _]

theorem toGlobal_ne_hang (v : PVal) (m n : String) : toGlobal v m n ≠ .hang := by
  unfold toGlobal; no_hang []
theorem toTuple_ne_hang (v : PVal) (n : Nat) : toTuple v n ≠ .hang := by
  unfold toTuple; no_hang []
theorem toUnicode_ne_hang (v : PVal) : toUnicode v ≠ .hang := by
  unfold toUnicode; no_hang []
theorem toDict_ne_hang (m : Machine) (v : PVal) : toDict m v ≠ .hang := by
  unfold toDict; no_hang []
theorem asInt_ne_hang (v : PVal) : asInt v ≠ .hang := by
  unfold asInt; no_hang []
theorem value_ne_hang (d : DictCells) (k : String) : DictCells.value d k ≠ .hang := by
  unfold DictCells.value; no_hang []
theorem dictInt_ne_hang (d : DictCells) (k : String) : DictCells.toInt d k ≠ .hang := by
  unfold DictCells.toInt; no_hang [value_ne_hang _ _, asInt_ne_hang _]
theorem dictFloat_ne_hang (d : DictCells) (k : String) : DictCells.toFloat d k ≠ .hang := by
  unfold DictCells.toFloat; no_hang [value_ne_hang _ _]
theorem int64LE_ne_hang (b : Pickle.Bytes) : int64LE b ≠ .hang := by
  unfold int64LE; no_hang []
theorem float64FromBytes_ne_hang (b : Pickle.Bytes) (le : Bool) : Util.float64FromBytes b le ≠ .hang := by
  unfold Util.float64FromBytes; no_hang []
theorem iterate_ne_hang (k : Nat) (b : Pickle.Bytes) : iterate k b ≠ .hang := by
  unfold iterate; no_hang []
theorem reconstructor_ne_hang (c : PVal) (a : List PVal) (m n : String) : reconstructor c a m n ≠ .hang := by
  unfold reconstructor; no_hang [toGlobal_ne_hang _ _ _]

theorem mapRes_ne_hang {α β : Type} {f : α → Res β} (hf : ∀ a, f a ≠ .hang) : ∀ l, mapRes f l ≠ .hang
  | [] => by simp [mapRes]
  | a :: l => by
    unfold mapRes
    no_hang [hf _, mapRes_ne_hang hf l]

theorem parseDType_ne_hang (v : PVal) : parseDType v ≠ .hang := by
  unfold parseDType
  refine parseClass_ne_hang (fun c a => ?_) (fun x a => ?_) v
  · no_hang [toGlobal_ne_hang _ _ _, toUnicode_ne_hang _]
  · no_hang [toTuple_ne_hang _ _, toUnicode_ne_hang _]

theorem parseRawBytes_ne_hang (v : PVal) : parseRawBytes v ≠ .hang := by
  unfold parseRawBytes
  refine parseClass_ne_hang (fun c a => ?_) (fun x a => ?_) v
  · no_hang [toGlobal_ne_hang _ _ _, toUnicode_ne_hang _]
  · no_hang []

theorem parseShape_ne_hang : ∀ l, parseShape l ≠ .hang
  | [] => by simp [parseShape]
  | a :: l => by
    unfold parseShape
    no_hang [asInt_ne_hang _, parseShape_ne_hang l]

theorem parseArray_ne_hang (m : Machine) (v : PVal) : parseArray m v ≠ .hang := by
  unfold parseArray listElems
  refine parseClass_ne_hang (fun c a => ?_) (fun x a => ?_) v
  · no_hang [toGlobal_ne_hang _ _ _]
  · no_hang [toTuple_ne_hang _ _, asInt_ne_hang _, parseShape_ne_hang _, parseDType_ne_hang _, parseRawBytes_ne_hang _]

theorem parseScalar_ne_hang (v : PVal) : parseScalar v ≠ .hang := by
  unfold parseScalar
  refine parseClass_ne_hang (fun c a => ?_) (fun x a => ?_) v
  · no_hang [toGlobal_ne_hang _ _ _, parseDType_ne_hang _, parseRawBytes_ne_hang _]
  · no_hang []

theorem skNodeFromBytes_ne_hang (b : Pickle.Bytes) : skNodeFromBytes b ≠ .hang := by
  unfold skNodeFromBytes
  no_hang [int64LE_ne_hang _, float64FromBytes_ne_hang _ _]

theorem badShape_ne_hang (s : List Int) (n : Int) : badShape s n ≠ .hang := by
  unfold badShape
  no_hang []

theorem parseIntArray_ne_hang (P : Platform) (m : Machine) (v : PVal) (n : Int) : parseIntArray P m v n ≠ .hang := by
  unfold parseIntArray
  no_hang [parseArray_ne_hang _ _, badShape_ne_hang _ _, iterate_ne_hang _ _, mapRes_ne_hang int64LE_ne_hang _]

theorem parseSkTree_ne_hang (P : Platform) (m : Machine) (v : PVal) : parseSkTree P m v ≠ .hang := by
  unfold parseSkTree
  refine parseClass_ne_hang (fun c a => ?_) (fun x a => ?_) v
  · no_hang [toGlobal_ne_hang _ _ _, asInt_ne_hang _, parseIntArray_ne_hang _ _ _ _]
  · no_hang [toDict_ne_hang _ _, dictInt_ne_hang _ _, value_ne_hang _ _, parseArray_ne_hang _ _, iterate_ne_hang _ _,
      mapRes_ne_hang skNodeFromBytes_ne_hang _, mapRes_ne_hang (fun b => float64FromBytes_ne_hang b _) _]

theorem parseSkRegressor_ne_hang (P : Platform) (m : Machine) (v : PVal) : parseSkRegressor P m v ≠ .hang := by
  unfold parseSkRegressor
  refine parseClass_ne_hang (fun c a => ?_) (fun x a => ?_) v
  · no_hang [reconstructor_ne_hang _ _ _ _]
  · no_hang [toDict_ne_hang _ _, dictInt_ne_hang _ _, value_ne_hang _ _, parseScalar_ne_hang _, int64LE_ne_hang _,
      parseSkTree_ne_hang _ _ _]

theorem parseSkInit_ne_hang (m : Machine) (v : PVal) : parseSkInit m v ≠ .hang := by
  unfold parseSkInit
  refine parseClass_ne_hang (fun c a => ?_) (fun x a => ?_) v
  · no_hang [reconstructor_ne_hang _ _ _ _]
  · no_hang [toDict_ne_hang _ _, value_ne_hang _ _, parseScalar_ne_hang _, parseArray_ne_hang _ _, float64FromBytes_ne_hang _ _,
      mapRes_ne_hang (fun b => float64FromBytes_ne_hang b _) _]

theorem parseSkBoosting_ne_hang (P : Platform) (m : Machine) (v : PVal) : parseSkBoosting P m v ≠ .hang := by
  unfold parseSkBoosting
  refine parseClass_ne_hang (fun c a => ?_) (fun x a => ?_) v
  · no_hang [reconstructor_ne_hang _ _ _ _]
  · no_hang [toDict_ne_hang _ _, dictInt_ne_hang _ _, dictFloat_ne_hang _ _, value_ne_hang _ _, toUnicode_ne_hang _,
      parseSkInit_ne_hang _ _, parseIntArray_ne_hang _ _ _ _, parseArray_ne_hang _ _, mapRes_ne_hang (parseSkRegressor_ne_hang P m) _]

theorem skLeaf_ne_hang (P : Platform) (v : List F64) (s b : F64) (i : Int) : skLeaf P v s b i ≠ .hang := by
  unfold skLeaf
  no_hang []

theorem skSource_noHang (P : Platform) (t : SkTree) (s b : F64) : (skSource P t s b).NoHang := by
  refine ⟨fun i a => ?_, fun i => ?_, fun i => ?_⟩ <;> unfold skSource
  · dsimp only
    unfold skCreateNode
    no_hang [skLeaf_ne_hang _ _ _ _ _]
  · no_hang []
  · no_hang []

theorem lgTreeFromSklearn_ne_hang (P : Platform) (t : SkTree) (s b : F64) : lgTreeFromSklearn P t s b ≠ .hang := by
  unfold lgTreeFromSklearn
  no_hang [skLeaf_ne_hang _ _ _ _ _, convert_ne_hang _ (skSource_noHang _ _ _ _) _ _ _]

theorem skIteration_ne_hang (P : Platform) (l : List SkRegressor) (s : F64) : ∀ (bases : List F64) (i : Int),
    skIteration P l s i bases ≠ .hang
  | [], i => by simp [skIteration]
  | b :: bases, i => by
    unfold skIteration
    no_hang [lgTreeFromSklearn_ne_hang _ _ _ _, skIteration_ne_hang P l s bases _]

theorem skIterations_ne_hang (P : Platform) (l : List SkRegressor) (s : F64) : ∀ (n i : Nat) (bases : List F64),
    skIterations P l s n i bases ≠ .hang
  | 0, i, bases => by simp [skIterations]
  | n + 1, i, bases => by
    unfold skIterations
    no_hang [skIteration_ne_hang _ _ _ _ _, skIterations_ne_hang P l s n _ _]

theorem skEnsembleFromReader_ne_hang (P : Platform) (bs : Pickle.Bytes) (b : Bool) : skEnsembleFromReader P bs b ≠ .hang := by
  unfold skEnsembleFromReader skAssemble skBases
  no_hang [decode_ne_hang _ _, parseSkBoosting_ne_hang _ _ _, skIterations_ne_hang _ _ _ _ _ _]

end Leaves
