import Verif.Props.Machines
import Verif.Props.SkAccept
import Verif.Props.Truncation

/-!
# C102: how many features a model announces, and the row `PredictCSR` writes out

`NFeatures` is computed from an integer of the model file by adding one. It is not negative for XGBoost models. For the other formats it
is negative for exactly one value, the largest integer, whose successor is the smallest one; then no row is too short for the model.
`PredictCSR` allocates a row of `NFeatures` values for every worker, so it does not succeed when there is no room for one.
-/

namespace Leaves
open Spec GoM

theorem wrap64_succ {i : Int} (h1 : 0 < i) (h2 : i < 2 ^ 63) : wrap64 (i + 1) = i + 1 ∨ i = 2 ^ 63 - 1 ∧ wrap64 (i + 1) = -2 ^ 63 := by
  by_cases h : i = 2 ^ 63 - 1
  · subst h
    exact .inr ⟨rfl, by decide⟩
  · exact .inl (wrap64_id (by omega) (by omega))

theorem toInt_range {params : Params} {key : Str} {i : Int} (h : params.toInt key = .ok i) : i < 2 ^ 63 := by
  unfold Params.toInt at h
  split at h
  · cases h
  · rename_i s _
    cases hs : atoi s with
    | none => rw [hs] at h; cases h
    | some n =>
      rw [hs] at h
      cases h
      obtain ⟨_, _, _, _, h2, _⟩ := (atoi_iff _ _).1 hs
      exact h2

/-- the successor of an integer is not negative or the smallest integer -/
theorem features_range {b : LgEnsemble} (h : b.maxFeatureIdx < 2 ^ 63) :
    0 ≤ b.nFeatures ∨ b.maxFeatureIdx = 2 ^ 63 - 1 ∧ b.nFeatures = -2 ^ 63 := by
  unfold LgEnsemble.nFeatures
  split
  · rename_i h0
    rcases wrap64_succ h0 h with h1 | h1
    · left
      rw [h1]
      omega
    · exact .inr h1
  · exact .inl (le_refl _)

theorem lg_loaded_features {P : Platform} {r r' : Reader} {lt : Bool} {e : Ensemble} (h : lgEnsembleFromReader P r lt = .ok (e, r')) :
    ∃ b, e.base = .lg b ∧ b.maxFeatureIdx < 2 ^ 63 := by
  unfold lgEnsembleFromReader at h
  obtain ⟨⟨params, r1⟩, -, h⟩ := Res.bind_eq_ok.1 h
  obtain ⟨-, -, h⟩ := Res.bind_eq_ok.1 h
  obtain ⟨n, -, h⟩ := Res.bind_eq_ok.1 h
  obtain ⟨k, -, h⟩ := Res.bind_eq_ok.1 h
  split at h
  · cases h
  split at h
  · cases h
  split at h
  · cases h
  obtain ⟨f, hf, h⟩ := Res.bind_eq_ok.1 h
  obtain ⟨s, -, h⟩ := Res.bind_eq_ok.1 h
  extract_lets nTrees at h
  generalize (if params.contains "average_output".toList then "lightgbm.rf" else "lightgbm.gbdt") = name at h
  split at h
  · cases h
  split at h
  · cases h
  obtain ⟨t, -, h⟩ := Res.bind_eq_ok.1 h
  obtain ⟨⟨ts, r2⟩, -, h⟩ := Res.bind_eq_ok.1 h
  cases h
  exact ⟨_, rfl, toInt_range hf⟩

/-- **C102, LightGBM text files**: the number of features is not negative, or it is the smallest integer. -/
theorem C102_text_partial (P : Platform) (r r' : Reader) (lt : Bool) (e : Ensemble) (h : lgEnsembleFromReader P r lt = .ok (e, r')) :
    0 ≤ e.nFeatures ∨ e.nFeatures = -2 ^ 63 := by
  obtain ⟨b, hb, hm⟩ := lg_loaded_features h
  have : e.nFeatures = b.nFeatures := by unfold Ensemble.nFeatures; rw [hb]; rfl
  rw [this]
  exact (features_range hm).imp_right And.right

theorem storeInt_range {vs : List Json} {a i : Int} (ha : a < 2 ^ 63) (h : vs.foldlM storeInt a = some i) : i < 2 ^ 63 := by
  induction vs generalizing a with
  | nil => cases h; exact ha
  | cons v vs ih =>
    rw [List.foldlM_cons] at h
    obtain ⟨b, hb, h⟩ := Option.bind_eq_some_iff.1 h
    refine ih ?_ h
    cases v with
    | num t =>
      obtain ⟨_, _, _, _, h2, _⟩ := (atoi_iff _ _).1 (show atoi t = some b from hb)
      exact h2
    | null => cases hb; exact ha
    | _ => cases hb

/-- **C102, LightGBM JSON dumps.** -/
theorem C102_json_partial (P : Platform) (v : Option Json) (lt : Bool) (e : Ensemble) (h : lgEnsembleFromDocument P v lt = .ok e) :
    0 ≤ e.nFeatures ∨ e.nFeatures = -2 ^ 63 := by
  unfold lgEnsembleFromDocument lgEnsembleFromJSON at h
  split at h
  · cases h
  split at h
  · cases h
  rename_i d hd
  repeat' (split at h; · cases h)
  obtain ⟨ts, -, h⟩ := Res.bind_eq_ok.1 h
  cases h
  refine (features_range (b := { trees := ts, maxFeatureIdx := d.maxFeatureIdx, nRawOutputGroups := d.numClasses, name := "lightgbm.gbdt" }) ?_).imp_right
    And.right
  obtain ⟨v, -, hd⟩ := Option.bind_eq_some_iff.1 hd
  unfold decodeEnsemble at hd
  split at hd
  · cases hd
  split at hd
  · cases hd
    exact (by decide : (0 : Int) < 2 ^ 63)
  · obtain ⟨_, -, hd⟩ := Option.bind_eq_some_iff.1 hd
    obtain ⟨_, -, hd⟩ := Option.bind_eq_some_iff.1 hd
    obtain ⟨_, -, hd⟩ := Option.bind_eq_some_iff.1 hd
    obtain ⟨_, -, hd⟩ := Option.bind_eq_some_iff.1 hd
    obtain ⟨i, hi, hd⟩ := Option.bind_eq_some_iff.1 hd
    obtain ⟨_, -, hd⟩ := Option.bind_eq_some_iff.1 hd
    cases hd
    exact storeInt_range (by decide) hi
  · cases hd

/-- **C102, scikit-learn pickles.** -/
theorem C102_sklearn_partial (P : Platform) (bytes : Pickle.Bytes) (lt : Bool) (e : Ensemble) (h : skEnsembleFromReader P bytes lt = .ok e) :
    0 ≤ e.nFeatures ∨ e.nFeatures = -2 ^ 63 := by
  unfold skEnsembleFromReader at h
  obtain ⟨⟨res, m⟩, -, h⟩ := Res.bind_eq_ok.1 h
  obtain ⟨g, -, h⟩ := Res.bind_eq_ok.1 h
  obtain ⟨K, bases, ts, -, -, -, -, -, rfl⟩ := skAssemble_inv h
  refine (features_range (b := { trees := ts, maxFeatureIdx := wrap64 (g.maxFeatures - 1), nRawOutputGroups := K, name := "sklearn.ensemble.GradientBoostingClassifier", averageOutput := false }) ?_).imp_right
    And.right
  exact Int.bmod_lt (by decide)

/-- **C102, XGBoost models**: the number of features is never negative. -/
theorem C102_xgboost (P : Platform) (bytes rest : XgBin.Bytes) (lt : Bool) (e : Ensemble)
    (h : xgEnsembleFromReader P lt bytes = .ok (e, rest) ∨ xgbLinearFromReader P lt bytes = .ok (e, rest)) :
    0 ≤ e.nFeatures ∧ e.nFeatures < 2 ^ 32 := by
  rcases h with h | h
  · obtain ⟨header, bs, -, h⟩ := rd_bind_ok h
    split at h
    · cases h
    dsimp only at h
    split at h
    · cases h
    rename_i h0
    obtain ⟨m, bs, -, h⟩ := rd_bind_ok h
    split at h
    · cases h
    obtain ⟨wd, bs, -, h⟩ := rd_bind_ok h
    obtain ⟨h, -⟩ := rd_lift_ok h
    unfold xgAssemble at h
    dsimp only at h
    split at h
    · cases h
    split at h
    · cases h
    split at h
    · cases h
    obtain ⟨t, -, h⟩ := Res.bind_eq_ok.1 h
    split at h
    · cases h
    obtain ⟨_, -, h⟩ := Res.bind_eq_ok.1 h
    obtain ⟨ts, -, h⟩ := Res.bind_eq_ok.1 h
    cases h
    have hlt := header.param.numFeatures.isLt
    show 0 ≤ XgEnsemble.nFeatures _ ∧ XgEnsemble.nFeatures _ < 2 ^ 32
    unfold XgEnsemble.nFeatures
    dsimp only
    split
    · rw [wrap64_id (by omega) (by omega)]
      omega
    · omega
  · obtain ⟨header, bs, -, h⟩ := rd_bind_ok h
    split at h
    · cases h
    split at h
    · cases h
    obtain ⟨m, bs, -, h⟩ := rd_bind_ok h
    dsimp only at h
    obtain ⟨t, bs, -, h⟩ := rd_bind_ok h
    cases h
    have hlt := m.param.numFeature.isLt
    show (0 : Int) ≤ m.param.numFeature.toNat ∧ (m.param.numFeature.toNat : Int) < 2 ^ 32
    omega

/-! ## The row that `PredictCSR` allocates -/

/-- while the workers cannot begin, the caller waits to hand over the first batch -/
theorem noInit_steps {σ : Type} {J : Job σ} (hi : J.init = .panic) (hb : 0 < J.nBatches) {n : Nat} {s t : PState σ} (h : PState.Steps J n s t)
    (h0 : (∀ w ∈ s.workers, w = .created) ∧ ((∃ i, s.main = .spawning i) ∨ s.main = .sending 0 ∨ s.main = .crashed)) :
    (∀ w ∈ t.workers, w = .created) ∧ ((∃ i, t.main = .spawning i) ∨ t.main = .sending 0 ∨ t.main = .crashed) := by
  induction h with
  | refl => exact h0
  | tail _ hstep ih =>
    obtain ⟨hc, hm⟩ := ih h0
    have no : ∀ {ws : List (Worker σ)} {w : Nat} {x : Worker σ}, (∀ y ∈ ws, y = .created) → ws[w]? = some x → x = .created :=
      fun h1 h2 => h1 _ (List.mem_of_getElem? h2)
    cases hstep with
    | spawn h =>
      refine ⟨fun w hw => ?_, .inl ⟨_, rfl⟩⟩
      rcases List.mem_append.1 hw with hw | hw
      · exact hc w hw
      · exact List.mem_singleton.1 hw
    | spawned h => exact ⟨hc, .inr (.inl rfl)⟩
    | begin hw hs _ => rw [hi] at hs; cases hs
    | beginPanic => exact ⟨hc, .inr (.inr rfl)⟩
    | handOver _ hw => cases no hc hw
    | close h =>
      rcases hm with ⟨i, hm⟩ | hm | hm
      · cases hm
      · cases hm; exact absurd hb h
      · cases hm
    | exit hw => cases no hc hw
    | ret h =>
      rcases hm with ⟨i, hm⟩ | hm | hm <;> cases hm
    | done hw _ => cases no hc hw
    | load hw _ _ => cases no hc hw
    | store hw _ _ => cases no hc hw
    | loadPanic hw _ _ => cases no hc hw
    | storePanic hw _ _ => cases no hc hw
    | panic hw _ => cases no hc hw

/-- **C102, memory**: when there is no room for a row of the model's features, or their number is negative, `PredictCSR` succeeds for no
matrix, however few entries it has, and with no number of threads. When its arguments are accepted, every outcome is a panic. -/
theorem C102_csr_memory (P : Platform) (e : Ensemble) (hroom : e.nFeatures < 0 ∨ P.maxAlloc < e.nFeatures * 8) (r : Nat) (hr : r ≤ 2 ^ 53)
    (indptr cols : List Int) (hp : indptr.length = r + 1) (vals m : List F64) (req nt : Int) (out : Res Unit × List F64)
    (h : e.PredictCSR P indptr cols vals m req nt out) :
    out.1 = .panic ∨ (∃ tag, out = (.err tag, m)) ∨ out.1 = .hang := by
  have hinit : e.newFVals P = .panic := by
    unfold Ensemble.newFVals allocCheck
    rw [if_pos (by omega)]
    rfl
  unfold Ensemble.PredictCSR at h
  dsimp only at h
  rw [hp, show (((r + 1 : Nat) : Int) - 1) = (r : Int) by push_cast; ring] at h
  split at h
  · rename_i k _
    split at h
    · left
      rw [h]
      unfold Ensemble.csrSequential
      rw [hinit]
      rfl
    · rename_i t b hpl
      obtain ⟨-, hb, -⟩ := plan_parallel hr hpl
      have hr16 : 0 < r := by
        unfold plan batchSize at hpl
        split at hpl
        · cases hpl
        · omega
      left
      have hs : ∀ {j : Nat} {s : PState (List F64)}, PState.Steps (e.csrJob P indptr cols vals k (r : Int).toNat t b) j (.start m) s → s.main ≠ .returned := by
        intro j s hs hret
        obtain ⟨-, hm⟩ := noInit_steps (J := e.csrJob P indptr cols vals k (r : Int).toNat t b) hinit (show 0 < b.toNat by omega) hs
          ⟨fun w hw => (List.not_mem_nil hw).elim, .inl ⟨0, rfl⟩⟩
        rw [hret] at hm
        rcases hm with ⟨i, hm⟩ | hm | hm <;> cases hm
      cases h with
      | ok h1 h2 => exact absurd h2 (hs h1)
      | panic _ _ => rfl
  · exact .inr (.inl ⟨_, h⟩)
  · exact .inl (by rw [h])
  · exact .inr (.inr (by rw [h]))

namespace FeatureCountExample

open LgExample (platform)
open TruncationExample (split2)

/-- a model file with one tree, a split on feature 0 at 5 -/
def text (maxFeature : String) : Str :=
  ("tree\nversion=v2\nnum_class=1\nnum_tree_per_iteration=1\nmax_feature_idx=" ++ maxFeature ++ "\ntree_sizes=9\n\n").toList ++ split2

/-- more features than there is room for, and the arguments of a call with one row are accepted -/
def manyFeatures (e : Ensemble × Reader) : Prop :=
  (platform.maxAlloc : Int) < e.1.nFeatures * 8 ∧ e.1.csrChecks ((([0, 0] : List Int).length : Int) - 1) 0 [F64.zero].length = .ok 1

instance : DecidablePred manyFeatures := fun _ => inferInstanceAs (Decidable (_ ∧ _))

end FeatureCountExample

open FeatureCountExample LgExample in
/-- C102 is false of the largest integer: the file loads, the model announces a negative number of features, and predicting the empty
row panics instead of returning an error. With a number of features one smaller the error is returned. -/
theorem C102_negative_count :
    (∃ e, lgEnsembleFromReader platform ⟨text "9223372036854775807", false⟩ false = .ok e ∧ e.1.nFeatures = -2 ^ 63 ∧
      ((e.1.predict platform [] 0 1).run [F64.zero]).1 = .panic) ∧
    ∃ e, lgEnsembleFromReader platform ⟨text "9223372036854775806", false⟩ false = .ok e ∧ e.1.nFeatures = 2 ^ 63 - 1 ∧
      ∃ tag, ((e.1.predict platform [] 0 1).run [F64.zero]).1 = .err tag := by
  constructor
  · exact SkModelExample.of_check (r := lgEnsembleFromReader platform ⟨text "9223372036854775807", false⟩ false)
      (fun e => e.1.nFeatures = -2 ^ 63 ∧ ((e.1.predict platform [] 0 1).run [F64.zero]).1 = .panic) (by decide +kernel)
  · obtain ⟨e, h1, h2, h3⟩ := SkModelExample.of_check (r := lgEnsembleFromReader platform ⟨text "9223372036854775806", false⟩ false)
      (fun e => e.1.nFeatures = 2 ^ 63 - 1 ∧
        (match ((e.1.predict platform [] 0 1).run [F64.zero]).1 with | .err _ => true | _ => false) = true) (by decide +kernel)
    refine ⟨e, h1, h2, ?_⟩
    split at h3
    · exact ⟨_, by assumption⟩
    · cases h3

open FeatureCountExample LgExample in
/-- Non-vacuity of `C102_csr_memory`: a model that announces a billion features, on a machine with room for half of them. `PredictCSR`
panics for a matrix of one row without entries. -/
theorem C102_csr_memory_example :
    ∃ e, lgEnsembleFromReader platform ⟨text "999999999", false⟩ false = .ok e ∧ (platform.maxAlloc : Int) < e.1.nFeatures * 8 ∧
      ∀ out, e.1.PredictCSR platform [0, 0] [] [] [F64.zero] 0 1 out → out.1 = .panic := by
  obtain ⟨e, h1, h2, h3⟩ := SkModelExample.of_check (r := lgEnsembleFromReader platform ⟨text "999999999", false⟩ false) manyFeatures
    (by decide +kernel)
  refine ⟨e, h1, h2, fun out h => ?_⟩
  have hs := (csr_seq (n := 1) h3 (by decide +kernel)).1 h
  unfold Ensemble.csrSequential Ensemble.newFVals allocCheck at hs
  rw [if_pos (.inr h2)] at hs
  rw [hs]
  rfl

end Leaves
