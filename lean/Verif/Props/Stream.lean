import Verif.Proofs.Stream

/-!
# C98: models that follow each other in one stream are loaded one after another
-/

namespace Leaves
open Spec

theorem arrives_file (file : List (BitVec 8)) : Arrives 0 (Bufio.new { rest := file, lim := fun _ => 4096 }) file .eof :=
  ⟨rfl, rfl, by simp [Bufio.new], rfl, rfl, fun i => ⟨0, Nat.le_refl _, by simp [Bufio.new]⟩⟩

theorem loadFile_eq (P : Platform) (lt : Bool) (f : Format) (file : List (BitVec 8)) : f.loadFile P lt file = match f with
    | .xgTrees => wholeValue (xgEnsembleFromReader P lt file)
    | .xgLinear => wholeValue (xgbLinearFromReader P lt file)
    | .sklearn => skEnsembleFromReader P file lt := by
  cases f
  · exact (C90_xgboost_whole P (Nat.zero_le _) (arrives_file file) lt).1
  · exact (C90_xgboost_whole P (Nat.zero_le _) (arrives_file file) lt).2
  · exact C90_sklearn_whole P (arrives_file file) lt

/-- C98: every file that is accepted begins with a whole model. -/
theorem C98_whole (P : Platform) (lt : Bool) (f : Format) (file : List (BitVec 8)) (e : Ensemble) (h : f.loadFile P lt file = .ok e) :
    ∃ used rest, file = used ++ rest ∧ WholeModel (f.loadFile P lt) used e := by
  have key : SelfDelimiting (f.loadFile P lt) := by
    cases f
    · exact (funext fun x => loadFile_eq P lt .xgTrees x) ▸ C92_xgboost P lt
    · exact (funext fun x => loadFile_eq P lt .xgLinear x) ▸ C92_linear P lt
    · exact (funext fun x => loadFile_eq P lt .sklearn x) ▸ C92_sklearn P lt
  obtain ⟨used, rest, rfl, h1, h2⟩ := key file e h
  refine ⟨used, rest, rfl, ?_, fun p q hp hq a' ha => ?_⟩
  · have := h1 []
    rwa [List.append_nil] at this
  · obtain ⟨x, hx⟩ := h2 p q hp hq
    rw [hx] at ha
    cases ha

/-- C98: whole models in binary formats, of any kinds, in one stream: successive calls with the same reader load them in turn, in
whatever pieces the bytes arrive (for scikit-learn without empty reads), and leave what follows. -/
theorem C98_binary (P : Platform) (lt : Bool) (models : List (Format × List (BitVec 8) × Ensemble)) (rest : List (BitVec 8))
    (hm : ∀ m ∈ models, WholeModel (m.1.loadFile P lt) m.2.1 m.2.2) {k : Nat} {b : Bufio (BitVec 8)} {fin : Fault} (hk : k ≤ 99)
    (hs : (∃ m ∈ models, m.1 = .sklearn) → k = 0) (h : Arrives k b (models.flatMap (·.2.1) ++ rest) fin) :
    ∃ b', inTurn (models.map fun m => m.1.load P lt) b = .ok (models.map (·.2.2), b') ∧ b'.buf ++ b'.feed.rest = rest := by
  have hb : ByteHolds k b (models.flatMap (·.2.1) ++ rest) := ⟨fin, h.represents hk⟩
  clear h
  induction models generalizing b with
  | nil =>
    obtain ⟨_, hb⟩ := hb
    exact ⟨b, rfl, hb.content⟩
  | cons m models ih =>
    rw [List.flatMap_cons, List.append_assoc] at hb
    obtain ⟨b1, h1, h2⟩ := format_leaves (hm m (by simp)) (fun h => hs ⟨m, by simp, h⟩) hb
    obtain ⟨b2, h3, h4⟩ := ih (fun m' hm' => hm m' (by simp [hm'])) (fun ⟨m', h', h''⟩ => hs ⟨m', by simp [h'], h''⟩) h2
    refine ⟨b2, ?_, h4⟩
    rw [List.map_cons, inTurn, h1, Res.ok_bind]
    show (inTurn _ b1 >>= _) = _
    rw [h3]
    rfl

/-- C98: LightGBM text models that end with a blank line and have nothing after it are loaded in turn. -/
theorem C98_text (P : Platform) (hP : Oct.AsciiFloats P) (lt : Bool) (models : List (Str × Ensemble)) (rest : Str)
    (hm : ∀ m ∈ models, lgEnsembleFromReader P ⟨m.1 ++ "\n\n".toList, false⟩ lt = .ok (m.2, ⟨[], false⟩))
    {k : Nat} {b : Bufio UInt8} {bs : List UInt8} {fin : Fault} (hk : k ≤ 99)
    (h : Arrives k b bs fin) (hc : Chars bs (models.flatMap (fun m => m.1 ++ "\n\n".toList) ++ rest)) :
    ∃ b', inTurn (models.map fun _ => fun b => Oct.lgEnsembleFromReader P b lt) b = .ok (models.map (·.2), b') ∧
      Chars (b'.buf ++ b'.feed.rest) rest := by
  have hb := readsBytes_of_arrives hk h hc
  clear h hc
  generalize (fin == Fault.fail) = io at hb
  induction models generalizing b with
  | nil =>
    obtain ⟨bs', h1, h2⟩ := hb
    exact ⟨b, rfl, h1.content ▸ h2⟩
  | cons m models ih =>
    rw [List.flatMap_cons, List.append_assoc] at hb
    obtain ⟨r0, hr, g⟩ := lgEnsemble_more (hm m (by simp))
    cases hr
    have ht := Oct.lgEnsemble_tracks hP hb lt
    rw [g] at ht
    rw [List.map_cons, inTurn]
    dsimp only
    generalize Oct.lgEnsembleFromReader P b lt = x at ht
    cases ht with
    | @ok a _ b1 _ hv h1 =>
      obtain ⟨b2, h3, h4⟩ := ih (fun m' hm' => hm m' (by simp [hm'])) h1
      refine ⟨b2, ?_, h4⟩
      rw [Res.ok_bind]
      show (inTurn _ b1 >>= _) = _
      rw [h3]
      cases hv
      rfl

/-! ## Examples -/

open XgFileExample in
/-- Non-vacuity: the file of `XgFileExample` is a whole model; so twice the file is two models. -/
theorem C98_example : ∃ e, WholeModel (Format.xgTrees.loadFile Platform.demo false) (file 1#32).image e ∧
    ∃ b', inTurn [Format.xgTrees.load Platform.demo false, Format.xgTrees.load Platform.demo false]
      (Bufio.new { rest := (file 1#32).image ++ (file 1#32).image, lim := fun i => i + 1 }) = .ok ([e, e], b') := by
  obtain ⟨e, h1, -⟩ := C62_xgboost_file_le Platform.demo (file 1#32) 1 2 file_ok false (.raw 1) .raw (by intro h; cases h)
  have h2 := h1 []
  rw [List.append_nil] at h2
  obtain ⟨img, h3, hc⟩ := Exact.xgEnsemble Platform.demo false _ _ _ h2
  rw [List.append_nil] at h3
  subst h3
  have hw : WholeModel (Format.xgTrees.loadFile Platform.demo false) (file 1#32).image e := by
    refine ⟨?_, fun p q hp hq a' ha => ?_⟩
    · rw [loadFile_eq]
      show wholeValue (xgEnsembleFromReader Platform.demo false _) = _
      rw [h2]
      rfl
    · obtain ⟨x, hx⟩ := hc.trunc p q hp hq
      rw [loadFile_eq] at ha
      replace ha : wholeValue (xgEnsembleFromReader Platform.demo false p) = _ := ha
      rw [hx] at ha
      cases ha
  refine ⟨e, hw, ?_⟩
  obtain ⟨b', h4, -⟩ := C98_binary Platform.demo false [(.xgTrees, (file 1#32).image, e), (.xgTrees, (file 1#32).image, e)] []
    (by intro m hm; simp only [List.mem_cons, List.not_mem_nil, or_false, or_self] at hm; rw [hm]; exact hw) (k := 0)
    (b := Bufio.new { rest := (file 1#32).image ++ (file 1#32).image, lim := fun i => i + 1 }) (fin := .eof) (by decide) (fun _ => rfl)
    ⟨rfl, rfl, by simp [Bufio.new], by simp [Bufio.new], rfl, fun i => ⟨0, Nat.le_refl _, by simp [Bufio.new]⟩⟩
  exact ⟨b', h4⟩

/-- what is left after loading the text -/
def StreamExample.left (text : Str) : Res Str := do
  let (_, r) ← lgEnsembleFromReader LgExample.platform ⟨text, false⟩ false
  return r.rest

open TruncationExample BytesExample in
/-- Non-vacuity for text: the file of `TruncationExample` ends with a blank line and is read to the end; of two of them in one stream both
load. -/
theorem C98_text_example : StreamExample.left (head ++ leaf) = .ok [] ∧ (head ++ leaf).drop ((head ++ leaf).length - 2) = "\n\n".toList ∧
    (match inTurn [fun b => Oct.lgEnsembleFromReader LgExample.platform b false, fun b => Oct.lgEnsembleFromReader LgExample.platform b false]
        (feed (Mat.utf8 (head ++ leaf ++ head ++ split2))) with
      | .ok (es, _) => es.map fun e => (e.predictSingle LgExample.platform low 0, e.predictSingle LgExample.platform high 0)
      | _ => []) = [(.ok (F64.ofNat 12), .ok (F64.ofNat 12)), (.ok (F64.ofNat 10), .ok (F64.ofNat 20))] := by
  refine ⟨?_, ?_, ?_⟩ <;> decide +kernel

/-- A LightGBM file with anything after the trees (LightGBM itself writes more) is not followed by another model for the next call: what it
leaves is read as the header of the next model. -/
theorem C98_text_trailer : StreamExample.left (TruncationExample.head ++ TruncationExample.leaf ++ "end of trees\n".toList)
    = .ok "end of trees\n".toList ∧
    TruncationExample.loaded ("end of trees\n".toList ++ TruncationExample.head ++ TruncationExample.leaf) = .ok ⟨⟩ ∧
    ∃ e, TruncationExample.loaded ("end of trees\n\n".toList ++ TruncationExample.head ++ TruncationExample.leaf) = .err e := by
  refine ⟨by decide +kernel, by decide +kernel, _, (by decide +kernel : _ = Res.err "no field")⟩

end Leaves
