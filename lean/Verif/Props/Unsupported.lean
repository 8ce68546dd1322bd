import Verif.Spec.Unsupported
import Verif.Props.TextLayout
import Verif.Props.Classify

/-!
# C117: LightGBM models that need more than the library computes are refused

True of formats, of classes with several trees per iteration and of objectives without a known transformation; false of linear trees and
of the square root option of regression, which are loaded as if they were plain.
-/

namespace Leaves
open Spec

/-- C117 (partial): a text with such a header is an error, whatever follows. Missing: linear trees (`C117_linear_ignored`) and
`regression sqrt` (`C117_sqrt_ignored`). -/
theorem C117_refused_partial (P : Platform) (lt : Bool) (text rest : Str) (lines : List Str) (h : StartsWithBlock text lines rest)
    (hu : Unsupported lines lt) : ∃ m, lgEnsembleFromReader P ⟨text, false⟩ lt = .err m := by
  obtain ⟨first, s, t, ss, e, rfl, hn, hl, hb, rfl⟩ := h
  unfold lgEnsembleFromReader
  rcases readParams_block false hn hl hb with ⟨-, -, p, hp, hh⟩ | ⟨-, m, hm⟩
  swap
  · exact ⟨m, by rw [hm]; rfl⟩
  rw [hp]
  simp only [Res.ok_bind]
  have toInt_total : ∀ k, (∃ K, p.toInt k = .ok K) ∨ ∃ m, p.toInt k = .err m := fun k => by
    unfold Params.toInt
    cases p k with
    | none => exact .inr ⟨_, rfl⟩
    | some s => cases h : atoi s with
      | none => exact .inr ⟨_, by simp [Res.ofOption, h]; rfl⟩
      | some n => exact .inl ⟨n, by simp [Res.ofOption, h]⟩
  have toInt_ok : ∀ {k s K}, Bound _ k s → Numeral s K → p.toInt k = .ok K := fun {k s K} h h' => by
    unfold Params.toInt
    rw [(hh k s).2 h]
    simp [Res.ofOption, (atoi_iff s K).2 h']
  have ver : (∃ u, lgCheckVersion p = .ok u) ∨ ∃ m, lgCheckVersion p = .err m := by
    cases h : lgCheckVersion p with
    | ok u => exact .inl ⟨u, rfl⟩
    | err m => exact .inr ⟨m, rfl⟩
    | panic => exact absurd h (lgCheckVersion_ne_panic p)
    | hang => exact absurd h (lgCheckVersion_ne_hang p)
  rcases ver with ⟨u, hv⟩ | ⟨m, hv⟩
  swap
  · exact ⟨m, by rw [hv]; rfl⟩
  rw [hv]
  simp only [Res.ok_bind]
  rcases toInt_total "num_class".toList with ⟨K, hK⟩ | ⟨m, hm⟩
  swap
  · exact ⟨m, by rw [hm]; rfl⟩
  rw [hK]
  simp only [Res.ok_bind]
  rcases toInt_total "num_tree_per_iteration".toList with ⟨K', hK'⟩ | ⟨m, hm⟩
  swap
  · exact ⟨m, by rw [hm]; rfl⟩
  rw [hK']
  simp only [Res.ok_bind]
  split
  · exact ⟨_, rfl⟩
  rename_i hKK
  split
  · exact ⟨_, rfl⟩
  split
  · exact ⟨_, rfl⟩
  rcases toInt_total "max_feature_idx".toList with ⟨M, hM⟩ | ⟨m, hm⟩
  swap
  · exact ⟨m, by rw [hm]; rfl⟩
  rw [hM]
  simp only [Res.ok_bind]
  have ts : (∃ l, p.toStrSlice "tree_sizes".toList = .ok l) ∨ ∃ m, p.toStrSlice "tree_sizes".toList = .err m := by
    unfold Params.toStrSlice
    cases p "tree_sizes".toList with
    | none => exact .inr ⟨_, rfl⟩
    | some s => exact .inl ⟨_, rfl⟩
  rcases ts with ⟨l, hl⟩ | ⟨m, hm⟩
  swap
  · exact ⟨m, by rw [hm]; rfl⟩
  rw [hl]
  simp only [Res.ok_bind]
  split
  · exact ⟨_, rfl⟩
  split
  · exact ⟨_, rfl⟩
  have noObj : ∀ {o}, lt = true → (∀ x, ¬ Bound (s :: ss) "average_output".toList x) → Bound (s :: ss) "objective".toList o →
      (∀ tr, ¬ Objective K o tr) → ∃ m, lgTransform p K (p.contains "average_output".toList) lt = .err m := by
    intro o hlt ha ho hno
    have : p.contains "average_output".toList = false := by
      unfold Params.contains
      cases hc : p "average_output".toList with
      | none => rfl
      | some x => exact absurd ((hh _ _).1 hc) (ha x)
    rw [this, hlt]
    rcases lgTransform_total p K false true with ⟨tr, h⟩ | h
    · obtain ⟨s', hs', h'⟩ := (lgTransform_iff p K tr).1 h
      rw [(hh _ _).2 ho] at hs'
      cases hs'
      exact absurd h' (hno tr)
    · exact h
  have fin : (∃ m, lgTransform p K (p.contains "average_output".toList) lt = .err m) := by
    cases hu with
    | version _ h h' =>
      exfalso
      unfold lgCheckVersion Params.compare at hv
      cases hc : p "version".toList with
      | none => rw [hc] at hv; cases hv
      | some v =>
        rw [hc] at hv
        by_cases h2 : v = "v2".toList
        · exact h ((hh _ _).1 (h2 ▸ hc))
        by_cases h3 : v = "v3".toList
        · exact h' ((hh _ _).1 (h3 ▸ hc))
        simp only [ne_eq, h2, h3, not_false_eq_true, if_true] at hv
        cases hv
    | perIteration _ h hs h' hs' hne =>
      rw [toInt_ok h hs] at hK
      rw [toInt_ok h' hs'] at hK'
      cases hK; cases hK'
      exact absurd hKK (by simpa using hne)
    | sigmoid ha h hv =>
      refine noObj rfl ha h fun tr ho => ?_
      generalize hg : "binary sigmoid:".toList ++ _ = s at ho
      cases ho with
      | poisson => cases hg
      | gamma => cases hg
      | tweedie => cases hg
      | regression => cases hg
      | binary v' hv' => exact hv (List.append_cancel_left hg ▸ hv')
      | multiclass => cases hg
    | objective ha h hn hr hs hm =>
      refine noObj rfl ha h fun tr ho => ?_
      cases ho with
      | poisson => exact hn "poisson" (by decide) rfl
      | gamma => exact hn "gamma" (by decide) rfl
      | tweedie => exact hn "tweedie" (by decide) rfl
      | regression => exact hr (List.prefix_append _ _)
      | binary => exact hs (List.prefix_append _ _)
      | multiclass => exact hm (List.prefix_append _ _)
  obtain ⟨m, hm⟩ := fin
  exact ⟨m, by rw [hm]; rfl⟩

theorem linearLine_once {s : Str} (h : LinearLine s) : s.count '=' ≤ 1 := by
  obtain ⟨k, hk, v, hv, rfl⟩ := h
  rw [List.count_append, List.count_cons_self, List.count_eq_zero.2 hv]
  revert k; decide

theorem linearLine_other {s : Str} (h : LinearLine s) : ∀ k ∈ modelFields, ∀ v, ¬ LineBinds s k.toList v := by
  obtain ⟨k, hk, v, hv, rfl⟩ := h
  have hk0 : ∀ k ∈ linearFields, '=' ∉ k.toList := by decide
  replace hk0 := hk0 k hk
  intro k' hk' v' hb
  have := (lineBinds_unique hb (k' := k.toList) (v' := v) (.inl ⟨rfl, hk0, hv⟩)).1
  clear hb hv hk0
  revert this k'; revert k; decide

theorem sameFields_refl (a : List Str) : SameFields a a := ⟨Iff.rfl, fun _ _ _ => Iff.rfl⟩

theorem sameFields_trans {a b c : List Str} (h : SameFields a b) (h' : SameFields b c) : SameFields a c :=
  ⟨h.1.trans h'.1, fun k hk v => (h.2 k hk v).trans (h'.2 k hk v)⟩

theorem withLinear_fields {a b : List Str} (h : WithLinear a b) : ∀ c, SameFields (c ++ a) (c ++ b) := by
  induction h with
  | nil => exact fun c => sameFields_refl _
  | keep s h ih => exact fun c => by simpa using ih (c ++ [s])
  | add hs h ih =>
    exact fun c => sameFields_trans (ih c) (C94_unknown_partial c _ _ (linearLine_once hs) (linearLine_other hs))

theorem linearText_alike {t t' : Str} (h : LinearText t t') : Alike t t' := by
  induction h with
  | same t => exact .same t
  | block h h' hf _ ih => exact .block h h' (withLinear_fields hf []) ih

/-- The linear models of the leaves are not looked at: a file loads as the file without them (or fails as that does), whatever they are. -/
theorem C117_linear_ignored (P : Platform) (lt : Bool) (t t' : Str) (h : LinearText t t') :
    SameLoad (lgEnsembleFromReader P ⟨t, false⟩ lt) (lgEnsembleFromReader P ⟨t', false⟩ lt) :=
  C94_fields P lt t t' (linearText_alike h)

/-- The square root option is not looked at: whatever loads with objective `regression sqrt` and `loadTransformation` gives raw scores. -/
theorem C117_sqrt_ignored (P : Platform) (text rest : Str) (lines : List Str) (h : StartsWithBlock text lines rest)
    (ha : ∀ x, ¬ Bound lines "average_output".toList x) (ho : Bound lines "objective".toList "regression sqrt".toList)
    (ens : Ensemble) (r : Reader) (hl : lgEnsembleFromReader P ⟨text, false⟩ true = .ok (ens, r)) :
    ens.transform = .raw ens.nRawOutputGroups := by
  obtain ⟨first, s, t, ss, e, rfl, hn, hlt, hb, rfl⟩ := h
  rcases readParams_block false hn hlt hb with ⟨-, -, p, hp, hh⟩ | ⟨-, m, hm⟩
  · have : p.contains "average_output".toList = false := by
      unfold Params.contains
      cases hc : p "average_output".toList with
      | none => rfl
      | some x => exact absurd ((hh _ _).1 hc) (ha x)
    obtain ⟨s', hs', h'⟩ := C40_objective_decides P _ r ens hl p _ hp this
    rw [(hh _ _).2 ho] at hs'
    cases hs'
    exact C40_objective_unique _ _ _ _ h' (.regression " sqrt".toList)
  · unfold lgEnsembleFromReader at hl
    rw [hm] at hl; cases hl

namespace UnsupportedExample
open TruncationExample LgExample

/-- a tree of one leaf with the linear model 2 + 3 x₀; its plain value is 12 -/
def linear : Str :=
  "Tree=0\nnum_leaves=1\nnum_cat=0\nleaf_value=12\nis_linear=1\nleaf_const=2\nnum_features=1\nleaf_features=0\nleaf_coeff=3\n\n".toList

/-- a header with an objective -/
def headFor (version objective perIteration : String) : Str :=
  ("tree\nversion=" ++ version ++ "\nnum_class=1\nnum_tree_per_iteration=" ++ perIteration ++ "\nmax_feature_idx=1\nobjective=" ++ objective ++
    "\ntree_sizes=9\n\n").toList

/-- what the text, loaded with its transformation, predicts -/
def transformed (text : Str) (row : List F64) : Res F64 := do
  let (e, _) ← lgEnsembleFromReader platform ⟨text, false⟩ true
  e.predictSingle platform row 0

theorem starts_of (ls : List String) (hne : ls ≠ [])
    (h : ∀ s ∈ ls, s.toList ≠ [] ∧ '\n' ∉ s.toList ∧ (∀ c ∈ s.toList, 32 < c.toNat ∧ c.toNat < 128) ∧ s.toList.count '=' ≤ 1)
    (rest : Str) : StartsWithBlock (blockText (ls.map String.toList) ++ rest) (ls.map String.toList) rest := by
  obtain ⟨first, s, t, ss, h1, h2, h3, h4, h5, -⟩ := fileBlock_lines rest (ss := ls.map String.toList) (by simpa using hne) fun s hs => by
    obtain ⟨s, hs', rfl⟩ := List.mem_map.1 hs
    obtain ⟨a1, a2, a3, a4⟩ := h s hs'
    have ws : ∀ c ∈ s.toList, ¬ whiteSpace c := fun c hc hw => by
      have hall : ∀ c, whiteSpace c → ¬ (32 < c.toNat ∧ c.toNat < 128) := by unfold whiteSpace; decide
      exact hall c hw (a3 c hc)
    exact ⟨a1, a2, fun c hc => ws c (List.mem_of_head? hc), fun c hc => ws c (List.mem_of_getLast? hc), a4⟩
  exact ⟨first, s, t, ss, _, h1, h2, h3, h4, h5⟩

/-- C117 is false of linear trees: the file with the linear leaf loads and predicts 12 for the row (1, 0), for which LightGBM computes
2 + 3 · 1 = 5. -/
theorem C117_linear_fails : predicted (head ++ linear) low = .ok (F64.ofNat 12) ∧
    linearOutput (F64.ofNat 12) (F64.ofNat 2) [(0, F64.ofNat 3)] low = F64.ofNat 5 ∧ F64.ofNat 5 ≠ F64.ofNat 12 ∧
    LinearText (head ++ leaf) (head ++ linear) := by
  refine ⟨by decide +kernel, by decide +kernel, by decide +kernel, ?_⟩
  have hd := starts_of ["tree", "version=v2", "num_class=1", "num_tree_per_iteration=1", "max_feature_idx=1", "tree_sizes=9"]
    (by decide) (by decide)
  have h0 := starts_of ["Tree=0", "num_leaves=1", "num_cat=0", "leaf_value=12"] (by decide) (by decide) []
  have h1 := starts_of ["Tree=0", "num_leaves=1", "num_cat=0", "leaf_value=12", "is_linear=1", "leaf_const=2", "num_features=1",
    "leaf_features=0", "leaf_coeff=3"] (by decide) (by decide) []
  refine .block (hd leaf) (hd linear) (.keep _ (.keep _ (.keep _ (.keep _ (.keep _ (.keep _ .nil)))))) ?_
  refine .block h0 h1 (.keep _ (.keep _ (.keep _ (.keep _ (.add ?_ (.add ?_ (.add ?_ (.add ?_ (.add ?_ .nil))))))))) (.same _)
  · exact ⟨"is_linear", by decide, "1".toList, by decide, by decide⟩
  · exact ⟨"leaf_const", by decide, "2".toList, by decide, by decide⟩
  · exact ⟨"num_features", by decide, "1".toList, by decide, by decide⟩
  · exact ⟨"leaf_features", by decide, "0".toList, by decide, by decide⟩
  · exact ⟨"leaf_coeff", by decide, "3".toList, by decide, by decide⟩

/-- C117 is false of the square root option: the model with `regression sqrt` gives 12, where LightGBM answers 144. -/
theorem C117_sqrt_fails : transformed (headFor "v3" "regression sqrt" "1" ++ leaf) low = .ok (F64.ofNat 12) ∧
    transformed (headFor "v3" "regression" "1" ++ leaf) low = .ok (F64.ofNat 12) ∧
    squared (F64.ofNat 12) = F64.ofNat 144 ∧ F64.ofNat 144 ≠ F64.ofNat 12 := by
  refine ⟨?_, ?_, ?_, ?_⟩ <;> decide +kernel

/-- whether loading the text with its transformation is an error -/
def refused (text : Str) : Bool :=
  match lgEnsembleFromReader platform ⟨text, false⟩ true with
  | .err _ => true
  | _ => false

/-- headers of the refused kinds, beside one that loads -/
example : refused (headFor "v4" "regression" "1" ++ leaf) = true ∧ refused (headFor "v3" "regression" "2" ++ leaf) = true ∧
    refused (headFor "v3" "binary sigmoid:2" "1" ++ leaf) = true ∧ refused (headFor "v3" "lambdarank" "1" ++ leaf) = true ∧
    refused (headFor "v3" "binary sigmoid:1" "1" ++ leaf) = false := by
  refine ⟨?_, ?_, ?_, ?_, ?_⟩ <;> decide +kernel

/-- the first of them meets the hypotheses of `C117_refused_partial` -/
example : ∃ lines rest, StartsWithBlock (headFor "v4" "regression" "1" ++ leaf) lines rest ∧ Unsupported lines false := by
  refine ⟨_, _, starts_of ["tree", "version=v4", "num_class=1", "num_tree_per_iteration=1", "max_feature_idx=1", "objective=regression",
    "tree_sizes=9"] (by decide) (by decide) leaf, .version false ?_ ?_⟩ <;>
  · rintro ⟨i, s, h1, h2, -⟩
    have := List.mem_of_getElem? h1
    clear h1
    revert h2
    revert s
    unfold LineBinds
    decide

end UnsupportedExample
end Leaves
