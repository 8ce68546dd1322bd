import Verif.Proofs.Truncation
import Verif.Proofs.TruncationText
import Verif.Props.JsonText
import Verif.Props.LgLoad
import Verif.Props.SkModel
import Verif.Props.Streaming

/-!
# C92: a model file that has been cut off is rejected

For XGBoost, scikit-learn and LightGBM JSON files this holds of every file that is accepted at all. For LightGBM text files it does
not hold: a file that ends inside its last tree can be accepted, and then the last tree may be another one.
-/

namespace Leaves
open Spec

theorem selfDelimiting_of_exact {α : Type} {r : XgBin.Rd α} (h : Exact r) : SelfDelimiting fun bs => wholeValue (r bs) := by
  intro file a ha
  obtain ⟨⟨a', rest⟩, h1, h2⟩ := Res.bind_eq_ok.1 ha
  cases h2
  obtain ⟨img, e, hc⟩ := h file _ _ h1
  refine ⟨img, rest, e, fun more => ?_, fun p q e hq => ?_⟩
  · show wholeValue (r (img ++ more)) = _
    rw [hc.decode]; rfl
  · obtain ⟨t, ht⟩ := hc.trunc p q e hq
    exact ⟨t, by show wholeValue (r p) = _; rw [ht]; rfl⟩

/-- C92: XGBoost tree models (`XGEnsembleFromReader`). -/
theorem C92_xgboost (P : Platform) (lt : Bool) : SelfDelimiting fun bs => wholeValue (xgEnsembleFromReader P lt bs) :=
  selfDelimiting_of_exact (Exact.xgEnsemble P lt)

/-- C92: XGBoost linear models (`XGBLinearFromReader`). -/
theorem C92_linear (P : Platform) (lt : Bool) : SelfDelimiting fun bs => wholeValue (xgbLinearFromReader P lt bs) :=
  selfDelimiting_of_exact (Exact.xgLinear P lt)

/-- C92: scikit-learn pickles (`SKEnsembleFromReader`). -/
theorem C92_sklearn (P : Platform) (lt : Bool) : SelfDelimiting fun bs => skEnsembleFromReader P bs lt := by
  intro file a ha
  dsimp only at ha
  unfold skEnsembleFromReader Pickle.decode at ha
  obtain ⟨⟨v, m⟩, h1, h2⟩ := Res.bind_eq_ok.1 ha
  obtain ⟨m', h3, h4⟩ := Res.bind_eq_ok.1 h1
  obtain ⟨used, rest, e, hm, ht⟩ := Pickle.decodeLoop_exact P _ _ _ _ h3
  refine ⟨used, rest, e, fun more => ?_, fun p q e hq => ?_⟩
  · show skEnsembleFromReader P (used ++ more) lt = _
    unfold skEnsembleFromReader Pickle.decode
    rw [hm more _ (Nat.lt_succ_self _), Res.ok_bind, h4, Res.ok_bind]
    exact h2
  · obtain ⟨t, ht⟩ := ht p q e hq _ (Nat.lt_succ_self _)
    refine ⟨t, ?_⟩
    show skEnsembleFromReader P p lt = _
    unfold skEnsembleFromReader Pickle.decode
    rw [ht]
    rfl

/-- C92: LightGBM JSON dumps (`LGEnsembleFromJSON`), whether the input ends with io.EOF or with another error. -/
theorem C92_json (P : Platform) (lt ioErr : Bool) : SelfDelimiting fun text => lgEnsembleFromJSONText P ⟨text, ioErr⟩ lt := by
  intro file a ha
  obtain ⟨o, rest, h⟩ := C84_accepted P _ lt a ha
  dsimp only at h ha
  obtain ⟨s, t, e, hs, ht⟩ := h
  refine ⟨s ++ t, rest, e, fun more => ?_, fun p q e hq => ?_⟩
  · have hb : BeginsWith (s ++ t ++ more) (.obj o) more := ⟨s, t, rfl, hs, ht⟩
    have hb' : BeginsWith file (.obj o) rest := ⟨s, t, e, hs, ht⟩
    unfold lgEnsembleFromJSONText at ha
    rw [JsonText.decode_object (r := ⟨file, ioErr⟩) hb'] at ha
    show lgEnsembleFromJSONText P ⟨s ++ t ++ more, ioErr⟩ lt = _
    unfold lgEnsembleFromJSONText
    rw [JsonText.decode_object (r := ⟨s ++ t ++ more, ioErr⟩) hb]
    exact ha
  · exact C84_truncated P o (s ++ t) p q ⟨s, t, by simp, hs, ht⟩ e hq ioErr lt

/-! ## LightGBM text -/

/-- the trees, and everything else that a LightGBM model holds -/
theorem lgEnsemble_cut {P : Platform} {c d : Str} {lt : Bool} {ens ens' : Ensemble} {r r' : Reader}
    (h : lgEnsembleFromReader P ⟨c ++ d, false⟩ lt = .ok (ens, r)) (h' : lgEnsembleFromReader P ⟨c, false⟩ lt = .ok (ens', r')) :
    ∃ (e e' : LgEnsemble), ens.base = .lg e ∧ ens'.base = .lg e' ∧ ens.transform = ens'.transform ∧
      e' = { e with trees := e'.trees } ∧ e.trees.length = e'.trees.length ∧ e.trees.dropLast = e'.trees.dropLast := by
  obtain ⟨p, r1, K, M, toks, ts, tr, h1, h2, h3, h4, h5, h6, h7, h8, h9, rfl⟩ := lgEnsemble_inv h
  obtain ⟨p', r1', K', M', toks', ts', tr', h1', h2', h3', h4', h5', h6', h7', h8', h9', rfl⟩ := lgEnsemble_inv h'
  obtain ⟨rest, io⟩ := r1
  have hio := readParams_flag h1
  dsimp only at hio
  subst hio
  have hpos : ∃ n, toks'.length = n + 1 := ⟨toks'.length - 1, by omega⟩
  obtain ⟨n, hn⟩ := hpos
  rcases readParams_cut c d p rest h1 with ⟨rest', hc, rfl⟩ | ⟨p1, hc⟩ | ⟨e, hc⟩
  · rw [hc] at h1'
    cases h1'
    rw [h2] at h2'; cases h2'
    rw [h3] at h3'; cases h3'
    rw [h5] at h5'; cases h5'
    rw [h8] at h8'; cases h8'
    obtain ⟨e1, e2⟩ := lgReadTrees_cut P _ rest' d ts ts' _ _ h9 h9'
    exact ⟨_, _, rfl, rfl, rfl, rfl, e1, e2⟩
  · rw [hc] at h1'
    cases h1'
    rw [hn, lgReadTrees, lgTreeFromReader, readParams_empty] at h9'
    cases h9'
  · rw [hc] at h1'
    cases h1'

theorem nodes_getElem_dropLast {α : Type} {a b : List α} (hl : a.length = b.length) (h : a.dropLast = b.dropLast) {i : Nat}
    (hi : i + 1 < a.length) : a[i]? = b[i]? := by
  have := congrArg (fun l => l[i]?) h
  simp only [List.getElem?_dropLast] at this
  rw [if_pos (by omega), if_pos (by omega)] at this
  exact this

theorem block_atEnd {t : Str} {ss : List Str} {rest : Str} {e : Bool} (h : Block t ss rest e) (he : e = true) : rest = [] := by
  induction h with
  | blank => cases he
  | stop => rfl
  | line _ _ _ _ ih => exact ih he
  | last => rfl

/-- what is read is a block -/
theorem readParams_fileBlock {t : Str} {p : Params} {r : Reader} (h : readParamsUntilBlank ⟨t, false⟩ = .ok (p, r)) :
    '\n' ∈ t ∧ ∃ lines rest e, FileBlock t lines rest e ∧ r = ⟨rest, false⟩ ∧ (e = true → rest = []) := by
  rcases line_cases t with hn | ⟨l, u, rfl, hl⟩
  · obtain ⟨e, he⟩ := readParams_no_newline hn false
    rw [he] at h; cases h
  · obtain ⟨s, hs⟩ := isTrim_exists l
    obtain ⟨ss, rest, e, hb⟩ := block_exists (u.length + 1) u (by omega)
    refine ⟨by simp, s :: ss, rest, e, ?_⟩
    rcases readParams_block false hl hs hb with ⟨h1, -, q, hq, -⟩ | ⟨-, e', he⟩
    · rw [hq] at h
      cases h
      exact ⟨⟨l, s, u, ss, rfl, hl, hs, hb, rfl, h1⟩, rfl, block_atEnd hb⟩
    · rw [he] at h; cases h

/-- the trees that are read: all but the last one are complete blocks -/
theorem lgReadTrees_complete (P : Platform) : ∀ (n : Nat) (c : Str) (ts : List LgTree) (r : Reader),
    lgReadTrees P (n + 1) ⟨c, false⟩ = .ok (ts, r) → ∃ bs rest, FileBlocks c bs rest false ∧ bs.length = n ∧ '\n' ∈ rest
  | n, c, ts, r, h => by
    rw [lgReadTrees] at h
    obtain ⟨⟨t, r1⟩, h1, h⟩ := Res.bind_eq_ok.1 h
    obtain ⟨⟨us, r2⟩, h2, h⟩ := Res.bind_eq_ok.1 h
    unfold lgTreeFromReader at h1
    obtain ⟨⟨p, q⟩, h3, h1⟩ := Res.bind_eq_ok.1 h1
    obtain ⟨a, h4, h1⟩ := Res.bind_eq_ok.1 h1
    cases h1
    obtain ⟨hm, lines, rest, e, hb, rfl, he⟩ := readParams_fileBlock h3
    cases n with
    | zero => exact ⟨[], c, .nil c, rfl, hm⟩
    | succ n =>
      cases e with
      | true =>
        rw [he rfl, lgReadTrees, lgTreeFromReader, readParams_empty] at h2
        cases h2
      | false =>
        obtain ⟨bs, rest', g1, g2, g3⟩ := lgReadTrees_complete P n rest us r2 h2
        exact ⟨lines :: bs, rest', .cons hb g1, by simp [g2], g3⟩

/-- C92, LightGBM text, what holds of it. When a file is accepted and the file cut off after `c` is accepted too, then `c` still has
the complete header, the complete blocks of all trees but the last one and at least one line of the last tree. The models agree in
everything but the last tree: number of groups, estimators and features, transformation, name, and all predictions and leaf
indices that do not use the last estimator. The full property, that the cut off file is rejected, is false: `C92_text_fails`. -/
theorem C92_text_partial (P : Platform) (c d : Str) (lt : Bool) (ens ens' : Ensemble) (r r' : Reader)
    (h : lgEnsembleFromReader P ⟨c ++ d, false⟩ lt = .ok (ens, r)) (h' : lgEnsembleFromReader P ⟨c, false⟩ lt = .ok (ens', r')) :
    (∃ (G N : Nat) (header : List Str) (rest0 : Str) (bs : List (List Str)) (rest : Str), ens.nRawOutputGroups = G ∧
      ens.nEstimators = .ok N ∧ FileBlock c header rest0 false ∧ FileBlocks rest0 bs rest false ∧ bs.length + 1 = G * N ∧ '\n' ∈ rest ∧
      ∀ n < N, ∀ fvals w, (IsRaw P ens'.base fvals n w ↔ IsRaw P ens.base fvals n w) ∧
        (IsLeafVec P ens'.base fvals n w ↔ IsLeafVec P ens.base fvals n w)) ∧
    ens'.nRawOutputGroups = ens.nRawOutputGroups ∧ ens'.nEstimators = ens.nEstimators ∧ ens'.nFeatures = ens.nFeatures ∧
    ens'.nOutputGroups = ens.nOutputGroups ∧ ens'.transform = ens.transform ∧ ens'.base.name = ens.base.name := by
  obtain ⟨G, N, ts, hG, hN, hg, hn, hts, hlen⟩ := C38_lg_text_consistent P _ _ lt ens h
  obtain ⟨G', N', ts', hG', hN', hg', hn', hts', hlen'⟩ := C38_lg_text_consistent P _ _ lt ens' h'
  obtain ⟨e, e', hb, hb', htr, he, hl, hd⟩ := lgEnsemble_cut h h'
  obtain ⟨base, transform⟩ := ens
  obtain ⟨base', transform'⟩ := ens'
  dsimp only at hb hb' htr hts hts'
  subst hb hb' htr
  obtain ⟨trees, mf, g, name, avg⟩ := e
  obtain ⟨trees', mf', g', name', avg'⟩ := e'
  dsimp only at hl hd
  injection he with _ e1 e2 e3 e4
  subst e1 e2 e3 e4
  have ht : trees = ts := hts
  have ht' : trees' = ts' := hts'
  subst ht ht'
  have hgG : g' = G := hg
  have hgG' : g' = G' := hg'
  have hGG : G' = G := by rw [hgG] at hgG'; exact_mod_cast hgG'.symm
  subst hGG
  have hNN : N' = N := by
    have : G' * N = G' * N' := by rw [← hlen, ← hlen', hl]
    exact (Nat.eq_of_mul_eq_mul_left (by omega) this).symm
  subst hNN
  refine ⟨?_, rfl, by rw [hn, hn'], rfl, rfl, rfl, rfl⟩
  obtain ⟨p, r1, K, M, toks, us, tr, h1, h2, h3, h4, h5, h6, h7, h8, h9, heq⟩ := lgEnsemble_inv h'
  obtain ⟨-, header, rest0, eb, hbl, rfl, hend⟩ := readParams_fileBlock h1
  obtain ⟨n, hn1⟩ : ∃ n, toks.length = n + 1 := ⟨toks.length - 1, by omega⟩
  have hcount := lgReadTrees_length P _ _ _ _ h9
  injection heq with heq _
  injection heq with heq
  injection heq with heq
  subst heq
  rw [hn1] at h9
  have heb : eb = false := by
    cases eb with
    | false => rfl
    | true =>
      rw [hend rfl, lgReadTrees, lgTreeFromReader, readParams_empty] at h9
      cases h9
  subst heb
  obtain ⟨bs, rest, hbs, hbl', hmem⟩ := lgReadTrees_complete P n rest0 _ _ h9
  refine ⟨G', N', header, rest0, bs, rest, hg, hn, hbl, hbs, by omega, hmem, fun m hm fvals w => ?_⟩
  have hget : ∀ i < m, ∀ k < G', trees'[i * G' + k]? = trees[i * G' + k]? := by
    intro i hi k hk
    refine (nodes_getElem_dropLast hl hd ?_).symm
    rw [hlen]
    have : (i + 1) * G' + G' ≤ N' * G' := by
      rw [← Nat.succ_mul]
      exact Nat.mul_le_mul_right _ (by omega)
    rw [Nat.mul_comm G' N']
    rw [Nat.succ_mul] at this
    omega
  constructor
  · show (∃ (G : Nat) (v : Nat → Nat → F64), _) ↔ ∃ (G : Nat) (v : Nat → Nat → F64), _
    refine exists_congr fun K => exists_congr fun v => and_congr_right fun hK => and_congr_left fun _ => ?_
    have hK' : K = G' := by
      have : (K : Int) = G' := by rw [← hgG]; exact hK.symm
      exact_mod_cast this
    subst hK'
    exact forall_congr' fun i => forall_congr' fun hi => forall_congr' fun k => forall_congr' fun hk => by rw [hget i hi k hk]
  · show (∃ (G : Nat) (v : Nat → Nat → Nat), _) ↔ ∃ (G : Nat) (v : Nat → Nat → Nat), _
    refine exists_congr fun K => exists_congr fun v => and_congr_right fun hK => and_congr_left fun _ => ?_
    have hK' : K = G' := by
      have : (K : Int) = G' := by rw [← hgG]; exact hK.symm
      exact_mod_cast this
    subst hK'
    exact forall_congr' fun i => forall_congr' fun hi => forall_congr' fun k => forall_congr' fun hk => by rw [hget i hi k hk]

/-! ### examples -/

namespace TruncationExample

open LgExample (platform)

/-- the header of a text with so many trees -/
def head : Str := "tree\nversion=v2\nnum_class=1\nnum_tree_per_iteration=1\nmax_feature_idx=1\ntree_sizes=9\n\n".toList

/-- a tree of one leaf, with value 12 -/
def leaf : Str := "Tree=0\nnum_leaves=1\nnum_cat=0\nleaf_value=12\n\n".toList

/-- what the text loads and predicts for a row -/
def predicted (text : Str) (row : List F64) : Res F64 := do
  let (e, _) ← lgEnsembleFromReader platform ⟨text, false⟩ false
  e.predictSingle platform row 0

/-- whether the text loads -/
def loaded (text : Str) : Res Unit := do
  let _ ← lgEnsembleFromReader platform ⟨text, false⟩ false
  return ⟨⟩

/-- a split on feature 0 at 5, leaf values 10 and 20 (at the end of the block) -/
def split2 : Str := "Tree=0\nnum_leaves=2\nnum_cat=0\nsplit_feature=0\nthreshold=5\ndecision_type=2\nleft_child=-1\nright_child=-2\nleaf_value=10 20\n\n".toList

/-- a categorical split with two words of categories -/
def cat2 : Str := "Tree=0\nnum_leaves=2\nnum_cat=1\nsplit_feature=0\nthreshold=0\ndecision_type=1\nleft_child=-1\nright_child=-2\nleaf_value=10 20\ncat_boundaries=0 2\ncat_threshold=5 3\n\n".toList

/-- the rows used below -/
def low : List F64 := [F64.ofNat 1, F64.ofNat 0]
def high : List F64 := [F64.ofNat 9, F64.ofNat 0]

end TruncationExample

open TruncationExample LgExample in
/-- The negation for LightGBM text. Three files, each accepted as a whole, and what happens when their end is missing:
* the last digit of a leaf value is lost: the file is accepted and predicts 1 instead of 12;
* the last leaf value is lost: the file is accepted, and predicting a row that goes to this leaf panics;
* the last word of the categories is lost: loading panics. -/
theorem C92_text_fails :
    (predicted (head ++ leaf) low = .ok (F64.ofNat 12) ∧ (∃ p q, head ++ leaf = p ++ q ∧ q ≠ [] ∧ predicted p low = .ok (F64.ofNat 1))) ∧
    (predicted (head ++ split2) low = .ok (F64.ofNat 10) ∧ predicted (head ++ split2) high = .ok (F64.ofNat 20) ∧
      ∃ p q, head ++ split2 = p ++ q ∧ predicted p low = .ok (F64.ofNat 10) ∧ predicted p high = .panic) ∧
    (predicted (head ++ cat2) low = .ok (F64.ofNat 20) ∧ predicted (head ++ cat2) [F64.ofNat 2, F64.ofNat 0] = .ok (F64.ofNat 10) ∧
      ∃ p q, head ++ cat2 = p ++ q ∧ loaded p = .panic) := by
  refine ⟨⟨by decide +kernel, (head ++ leaf).dropLast.dropLast.dropLast, "2\n\n".toList, by decide +kernel, by decide +kernel, by decide +kernel⟩,
    ⟨by decide +kernel, by decide +kernel, (head ++ split2).take ((head ++ split2).length - 5), " 20\n\n".toList, by decide +kernel, by decide +kernel, by decide +kernel⟩,
    ⟨by decide +kernel, by decide +kernel, (head ++ cat2).take ((head ++ cat2).length - 4), " 3\n\n".toList, by decide +kernel, by decide +kernel⟩⟩

/-- C92 applies to an XGBoost file, a pickle and a JSON dump that are accepted. -/
example : (∃ ens, wholeValue (xgEnsembleFromReader Platform.demo false (XgFileExample.file 1#32).image) = .ok ens) ∧
    (∃ ens, skEnsembleFromReader Platform.demo ((SkModelExample.value 2).dump SkModelExample.print ++ [octet '.']) false = .ok ens) ∧
    ∃ ens, lgEnsembleFromJSONText LgExample.platform ⟨JsonTextExample.strange, true⟩ false = .ok ens := by
  refine ⟨?_, ?_, ?_⟩
  · obtain ⟨ens, h1, -⟩ := C62_xgboost_file_le Platform.demo (XgFileExample.file 1#32) 1 2 XgFileExample.file_ok false (.raw 1) .raw (by intro h; cases h)
    refine ⟨ens, ?_⟩
    have := h1 []
    rw [List.append_nil] at this
    rw [this]; rfl
  · obtain ⟨ens, h, -⟩ := SkModelExample.of_check (r := skEnsembleFromReader Platform.demo
      ((SkModelExample.value 2).dump SkModelExample.print ++ [octet '.']) false) (fun _ => True) (by decide +kernel)
    exact ⟨ens, h⟩
  · obtain ⟨ens, h, -⟩ := SkModelExample.of_check (r := lgEnsembleFromJSONText LgExample.platform ⟨JsonTextExample.strange, true⟩ false)
      (fun _ => True) (by decide +kernel)
    exact ⟨ens, h⟩

open TruncationExample LgExample in
/-- The hypotheses of `C92_text_partial` are met by the file above and the same file without its last digit. -/
example : ∃ ens ens' r r', lgEnsembleFromReader platform ⟨(head ++ leaf).take ((head ++ leaf).length - 3) ++ "2\n\n".toList, false⟩ false = .ok (ens, r) ∧
    lgEnsembleFromReader platform ⟨(head ++ leaf).take ((head ++ leaf).length - 3), false⟩ false = .ok (ens', r') ∧ ens'.nOutputGroups = 1 := by
  obtain ⟨⟨ens, r⟩, h, -⟩ := SkModelExample.of_check (r := lgEnsembleFromReader platform
    ⟨(head ++ leaf).take ((head ++ leaf).length - 3) ++ "2\n\n".toList, false⟩ false) (fun _ => True) (by decide +kernel)
  obtain ⟨⟨ens', r'⟩, h', h1⟩ := SkModelExample.of_check (r := lgEnsembleFromReader platform
    ⟨(head ++ leaf).take ((head ++ leaf).length - 3), false⟩ false) (fun x => x.1.nOutputGroups = 1) (by decide +kernel)
  exact ⟨ens, ens', r, r', h, h', h1⟩

end Leaves
