import Verif.Props.LgLoad
import Verif.Props.XgFile

/-!
# C88: LightGBM files with their transformation

`LGEnsembleFromReader(reader, true)` on a well-formed file: the objective in the header decides what is done with the sums of the trees.
-/

namespace Leaves

open Spec GoM

/-- **C88.** A well-formed file of a boosted model whose header names an objective loads with its transformation; the stored numbers are
this transformation of the sums of the values that the file's own trees give. -/
theorem C88_text_objective (P : Platform) (print : F64 → Str) (text rest0 rest : Str) (header : List Str) (e0 e1 : Bool)
    (bs : List (List Str)) (ds : List TreeDesc) (K N : Nat) (M : Int) (objective : Str) (tr : Transform)
    (hK : 1 ≤ K ∧ K < 2 ^ 63) (hN : 1 ≤ N) (hlen : ds.length = N * K)
    (hh : FileBlock text header rest0 e0) (hhl : HeaderLines header K M ds.length false)
    (hobj : Bound header "objective".toList objective) (htr : Objective K objective tr) (h1 : tr = .logistic ∨ tr = .exponential → K = 1)
    (hb : FileBlocks rest0 bs rest e1) (hbl : List.Forall₂ (TreeLines print) ds bs)
    (hok : ∀ d ∈ ds, d.OK P.parseFloat print ∧ d.inner * 24 ≤ P.maxAlloc) :
    ∃ ens, lgEnsembleFromReader P ⟨text, false⟩ true = .ok (ens, ⟨rest, false⟩) ∧ Fits ens ∧ ens.transform = tr ∧
      ens.nRawOutputGroups = K ∧ ens.nEstimators = .ok N ∧ ens.nFeatures = (if 0 < M then M + 1 else 0) ∧
      ∀ fvals req m m', ((ens.predict P fvals req m.length).run m = (.ok ⟨⟩, m') ↔
        ens.nOutputGroups ≤ m.length ∧ ens.nFeatures ≤ fvals.length ∧ ∃ n w out, Used req N n ∧ RefRaw P P.out ds K false fvals n w ∧
          IsTransformed P tr w out ∧ Stored m 0 out m') := by
  obtain ⟨ens, g1, -, g3, g4, -, g6, g7, -⟩ := C39_text_file P print text rest0 rest header e0 e1 bs ds K N M false hK hN hlen hh hhl hb hbl hok
  obtain ⟨ts, t1, t2⟩ := lg_file_loaded P print text rest0 rest header e0 e1 bs ds K N M false hK hN hlen hh hhl hb hbl hok
  rw [g1] at t1
  cases t1
  obtain ⟨p, hp1, hp2⟩ := readParams_file hh
  have havg : p.contains "average_output".toList = false := by
    unfold Params.contains
    rw [Bool.eq_false_iff]
    intro h
    obtain ⟨v, hv⟩ := Option.isSome_iff_exists.1 h
    have := hhl.average.2 ⟨v, (hp2 _ _).1 hv⟩
    cases this
  have hload := (C40_loads_with_transformation P _ _ _ g1 p _ hp1 havg).1 objective tr ((hp2 _ _).2 hobj) (by rw [show (Ensemble.mk (lgBase ts M K false) (.raw K)).nRawOutputGroups = K from rfl]; exact htr)
  have hfit := C40_fits P _ _ _ _ hload (fun h => by
    have := h1 h
    subst this
    rfl)
  have htl : ts.length = ds.length := t2.length_eq
  have htot : ∀ total, IsTotal (lgBase ts M K false) total ↔ total = N := by
    intro total
    have hN' : ts.length / K = N := by rw [htl, hlen, Nat.mul_div_cancel _ (by omega)]
    constructor
    · rintro ⟨G, hG, -, rfl⟩
      have hG : (K : Int) = G := hG
      have : K = G := by exact_mod_cast hG
      subst this
      exact hN'
    · rintro rfl
      exact ⟨K, rfl, by omega, hN'.symm⟩
  have hw : (Ensemble.mk (lgBase ts M K false) tr).nOutputGroups < 2 ^ 63 := by
    have hK' : (K : Int) < 2 ^ 63 := by omega
    have h1' : (1 : Int) < 2 ^ 63 := by norm_num
    cases htr with
    | poisson => exact h1'
    | gamma => exact h1'
    | tweedie => exact h1'
    | regression => exact hK'
    | binary => exact h1'
    | multiclass => exact hK'
  refine ⟨_, hload, hfit, rfl, rfl, g4, g6, fun fvals req m m' => ?_⟩
  exact predict_of_raw P _ hfit hw N htot (by intro k; cases htr <;> simp) fvals (fun n w hn => g7 fvals n w hn) req m m'

/-- C88: random forests are the same with and without their transformation. -/
theorem C88_forest (P : Platform) (text rest0 : Str) (header : List Str) (e0 : Bool) (hh : FileBlock text header rest0 e0) (v : Str)
    (havg : Bound header "average_output".toList v) : lgEnsembleFromReader P ⟨text, false⟩ true = lgEnsembleFromReader P ⟨text, false⟩ false := by
  obtain ⟨p, hp1, hp2⟩ := readParams_file hh
  have havg : p.contains "average_output".toList = true := by
    unfold Params.contains
    rw [(hp2 _ _).2 havg]
    rfl
  have : ∀ K, lgTransform p K true true = lgTransform p K true false := by
    intro K
    unfold lgTransform
    rfl
  unfold lgEnsembleFromReader
  simp only [hp1, Res.ok_bind, havg, this]

/-! ### Written files -/

/-- the file of a boosted model, with an objective in its header -/
def Spec.objectiveText (print : F64 → Str) (ds : List TreeDesc) (K : Nat) (M : Int) (objective : Str) : Str :=
  blockText ((headerFields K M ds.length false ++ [("objective", some objective)]).map Field.text) ++
    ds.flatMap fun d => blockText ((treeFields print d).map Field.text)

theorem objective_header (K : Nat) (M : Int) (n : Nat) (objective : Str) (hM : -2 ^ 63 ≤ M ∧ M < 2 ^ 63 - 1) (hv : CleanValue objective) :
    (∀ f ∈ headerFields K M n false ++ [("objective", some objective)], CleanField f) ∧
    HeaderLines ((headerFields K M n false ++ [("objective", some objective)]).map Field.text) K M n false ∧
      Bound ((headerFields K M n false ++ [("objective", some objective)]).map Field.text) "objective".toList objective := by
  have hc : ∀ f ∈ headerFields K M n false ++ [("objective", some objective)], CleanField f := by
    intro f hf
    rcases List.mem_append.1 hf with hf | hf
    · exact header_clean K M n false f hf
    · rw [List.mem_singleton.1 hf]
      exact cleanField_some (by decide) hv
  have hd : ((headerFields K M n false ++ [("objective", some objective)]).map Prod.fst).Nodup := by
    unfold headerFields
    simp only [List.map_append, List.map_cons, List.map_nil, Bool.false_eq_true, if_false]; decide
  have hb : ∀ k v, (k, some v) ∈ headerFields K M n false ++ [("objective", some objective)] →
      Bound ((headerFields K M n false ++ [("objective", some objective)]).map Field.text) k.toList v :=
    fun k v h => (bound_fields hc hd _ _).2 ⟨_, h, rfl, rfl⟩
  refine ⟨hc, ⟨.inr (hb _ _ ?_), hb _ _ ?_, hb _ _ ?_, hb _ _ ?_, hM, ⟨List.replicate n ['0'], by simp, ?_, hb _ _ ?_⟩, ?_⟩, hb _ _ (by simp)⟩
  · simp [headerFields]
  · simp [headerFields]
  · simp [headerFields]
  · simp [headerFields]
  · intro s hs
    rw [List.eq_of_mem_replicate hs]
    decide
  · simp [headerFields]
  · constructor
    · intro h; cases h
    · rintro ⟨v, hv⟩
      obtain ⟨f, hf, hk, -⟩ := (bound_fields hc hd _ _).1 hv
      have hk : f.1 = "average_output" := String.toList_inj.1 hk
      have : f.1 ∈ (headerFields K M n false ++ [("objective", some objective)]).map Prod.fst := List.mem_map.2 ⟨f, hf, rfl⟩
      unfold headerFields at this
      simp only [List.map_append, List.map_cons, List.map_nil, Bool.false_eq_true, if_false] at this
      rw [hk] at this
      exact absurd this (by decide)

/-- the parts of a written file -/
theorem objectiveText_blocks {P : Platform} {print : F64 → Str} (tail : Str) {ds : List TreeDesc} (K : Nat) {M : Int} (objective : Str)
    (hM : -2 ^ 63 ≤ M ∧ M < 2 ^ 63 - 1) (hv : CleanValue objective)
    (hok : ∀ d ∈ ds, d.OK P.parseFloat print ∧ PlainFloats print d ∧ d.inner * 24 ≤ P.maxAlloc) :
    ∃ header rest0 blocks, FileBlock (objectiveText print ds K M objective ++ tail) header rest0 false ∧ HeaderLines header K M ds.length false ∧
      Bound header "objective".toList objective ∧ FileBlocks rest0 blocks tail false ∧ List.Forall₂ (TreeLines print) ds blocks := by
  have htext : objectiveText print ds K M objective ++ tail =
      blockText ((headerFields K M ds.length false ++ [("objective", some objective)]).map Field.text) ++
      ((ds.map fun d => (treeFields print d).map Field.text).flatMap blockText ++ tail) := by
    unfold objectiveText
    rw [List.flatMap_map, List.append_assoc]
  rw [htext]
  obtain ⟨hc, h1, h2⟩ := objective_header K M ds.length objective hM hv
  refine ⟨_, _, _, fileBlock_lines _ (by simp [headerFields]) ?_, h1, h2, fileBlocks_lines tail _ ?_, ?_⟩
  · intro s hs
    obtain ⟨f, hf, rfl⟩ := List.mem_map.1 hs
    exact (hc f hf).line
  · intro ss hss
    obtain ⟨d, hd, rfl⟩ := List.mem_map.1 hss
    refine ⟨by simp [treeFields], fun s hs => ?_⟩
    obtain ⟨f, hf, rfl⟩ := List.mem_map.1 hs
    exact (tree_clean (hok d hd).2.1 f hf).line
  · rw [List.forall₂_map_right_iff, List.forall₂_same]
    exact fun d hd => tree_rendered (hok d hd).2.1

/-- **C88.** Every boosted model can be written with an objective, and loading the text gives the model with its transformation. -/
theorem C88_written_model (P : Platform) (print : F64 → Str) (tail : Str) (ds : List TreeDesc) (K N : Nat) (M : Int) (objective : Str)
    (tr : Transform) (hK : 1 ≤ K ∧ K < 2 ^ 63) (hN : 1 ≤ N) (hlen : ds.length = N * K) (hM : -2 ^ 63 ≤ M ∧ M < 2 ^ 63 - 1)
    (hv : '\n' ∉ objective ∧ '=' ∉ objective ∧ ∀ c, objective.getLast? = some c → ¬ whiteSpace c)
    (htr : Objective K objective tr) (h1 : tr = .logistic ∨ tr = .exponential → K = 1)
    (hok : ∀ d ∈ ds, d.OK P.parseFloat print ∧ PlainFloats print d ∧ d.inner * 24 ≤ P.maxAlloc) :
    ∃ ens, lgEnsembleFromReader P ⟨objectiveText print ds K M objective ++ tail, false⟩ true = .ok (ens, ⟨tail, false⟩) ∧
      ens.transform = tr ∧ ens.nRawOutputGroups = K ∧ ens.nEstimators = .ok N ∧ ens.nFeatures = (if 0 < M then M + 1 else 0) ∧
      ∀ fvals req m m', ((ens.predict P fvals req m.length).run m = (.ok ⟨⟩, m') ↔
        ens.nOutputGroups ≤ m.length ∧ ens.nFeatures ≤ fvals.length ∧ ∃ n w out, Used req N n ∧ RefRaw P P.out ds K false fvals n w ∧
          IsTransformed P tr w out ∧ Stored m 0 out m') := by
  obtain ⟨header, rest0, blocks, b1, b2, b3, b4, b5⟩ := objectiveText_blocks tail K objective hM ⟨hv.1, hv.2.1, hv.2.2⟩ hok
  obtain ⟨ens, g1, -, g⟩ := C88_text_objective P print _ _ _ _ _ _ _ ds K N M objective tr hK hN hlen b1 b2 b3 htr h1 b4 b5
    (fun d hd => ⟨(hok d hd).1, (hok d hd).2.2⟩)
  exact ⟨ens, g1, g⟩

namespace ClassifyExample

open LgExample (platform)
open LgLoadExample (d1 d2 print)

/-- this is the file -/
example : String.ofList (objectiveText print [d1, d2] 2 1 "multiclass num_class:2".toList) =
"tree
version=v3
num_class=2
num_tree_per_iteration=2
max_feature_idx=1
tree_sizes=0 0
objective=multiclass num_class:2

num_leaves=4
num_cat=1
split_feature=0 1 0
threshold=5 0 9
decision_type=10 1 2
left_child=1 -1 -3
right_child=2 -2 -4
cat_boundaries=0 2
cat_threshold=2 2
leaf_value=10 20 30 40

num_leaves=1
num_cat=0
leaf_value=7

" := by decide +kernel

theorem numeral_2 : Numeral "2".toList 2 := ⟨"2".toList, by decide, by decide, by norm_num, by norm_num, .inl ⟨rfl, by decide⟩⟩
theorem numeral_1 : Numeral "1".toList 1 := ⟨"1".toList, by decide, by decide, by norm_num, by norm_num, .inl ⟨rfl, by decide⟩⟩

/-- Two classes with two trees. -/
example (tail : Str) := C88_written_model platform print tail [d1, d2] 2 1 1 "multiclass num_class:2".toList (.softmax 2) (by norm_num) le_rfl rfl
  (by norm_num) ⟨by decide, by decide, by unfold whiteSpace; decide⟩ (.multiclass "2".toList numeral_2) (by rintro (h | h) <;> cases h)
  LgLoadExample.ds_ok

/-- A binary model with the same trees, one after the other. -/
example (tail : Str) := C88_written_model platform print tail [d1, d2] 1 2 1 "binary sigmoid:1".toList .logistic (by norm_num) (by norm_num) rfl
  (by norm_num) ⟨by decide, by decide, by unfold whiteSpace; decide⟩ (.binary "1".toList numeral_1) (fun _ => rfl)
  LgLoadExample.ds_ok

end ClassifyExample

end Leaves
