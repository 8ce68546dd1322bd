import Verif.Spec.LgModel
import Verif.Props.LgTree
import Verif.Props.LeafLayout
import Verif.Props.Params

/-! # Whole LightGBM text files: internals of C38, C39, C40 -/

namespace Leaves

open Spec

theorem Holds.unique {p p' : Params} {lines : List Str} (h : Holds p lines) (h' : Holds p' lines) : p = p' := by
  funext k
  cases hk : p k with
  | some v => exact ((h' k v).2 ((h k v).1 hk)).symm
  | none =>
    cases hk' : p' k with
    | none => rfl
    | some v => rw [(h k v).2 ((h' k v).1 hk')] at hk; cases hk

theorem readParams_file {text rest : Str} {lines : List Str} {e : Bool} (h : FileBlock text lines rest e) :
    ∃ p, readParamsUntilBlank ⟨text, false⟩ = .ok (p, ⟨rest, false⟩) ∧ Holds p lines := by
  obtain ⟨first, s, t, ss, rfl, hn, hl, hb, rfl, hr⟩ := h
  exact C35_block_at_end first s t rest ss e hn hl hb hr

theorem lgBlock_of {P : Platform} {print : F64 → Str} {d : TreeDesc} {lines : List Str} {p : Params} (hp : Holds p lines)
    (hl : TreeLines print d lines) (h : d.OK P.parseFloat print) (h0 : d.inner ≠ 0) (hn : d.inner < 2 ^ 32) :
    LgBlock P p d.numCat d.inner d.leafValues d.arrays where
  numCat := (C37_int p _ d.numCat ((hp _ _).2 hl.numCat)).1 h.numCat
  numLeaves := by
    have : decimal (d.inner + 1) = decimalI ((d.inner : Int) + 1) := by
      unfold decimalI; rw [if_neg (by omega)]; rfl
    have h1 := hl.numLeaves
    rw [this] at h1
    exact (C37_int p _ _ ((hp _ _).2 h1)).1 (by constructor <;> omega)
  leafValue := C37_float64_slice P p _ print _ h.leafValues (fun x hx => (h.leafText x hx).1) (fun x hx => (h.leafText x hx).2)
    ((hp _ _).2 hl.leafValue)
  leftChild := (C37_int32_slice p _ _ (h.left h0).1 ((hp _ _).2 (hl.leftChild h0))).1 (h.left h0).2
  rightChild := (C37_int32_slice p _ _ (h.right h0).1 ((hp _ _).2 (hl.rightChild h0))).1 (h.right h0).2
  decisionType := (C37_uint32_slice p _ _ (h.decision h0).1 ((hp _ _).2 (hl.decisionType h0))).1 (h.decision h0).2
  splitFeature := (C37_uint32_slice p _ _ (h.feature h0).1 ((hp _ _).2 (hl.splitFeature h0))).1 (h.feature h0).2
  threshold := C37_float64_slice P p _ print _ (h.threshold h0).1 (fun x hx => ((h.threshold h0).2 x hx).1)
    (fun x hx => ((h.threshold h0).2 x hx).2) ((hp _ _).2 (hl.threshold h0))
  catThreshold := by
    refine ⟨d.catThreshold, (h.cats h0).1, ?_⟩
    have h2 := (h.cats h0).2
    split
    · rename_i hc
      rw [if_pos hc] at h2
      exact (C37_uint32_slice p _ _ h2.1 ((hp _ _).2 (hl.catThreshold h0 hc))).1 h2.2.2.1
    · rename_i hc
      rw [if_neg hc] at h2
      exact h2.1
  catBoundaries := by
    have h2 := (h.cats h0).2
    split
    · rename_i hc
      rw [if_pos hc] at h2
      exact (C37_uint32_slice p _ _ h2.2.1 ((hp _ _).2 (hl.catBoundaries h0 hc))).1 h2.2.2.2
    · rename_i hc
      rw [if_neg hc] at h2
      exact h2.2

/-- a loaded tree means what its description says: values, leaf numbers and number of leaves -/
def Means (P : Platform) (t : LgTree) (d : TreeDesc) : Prop :=
  (∀ fvals v, (∃ j, t.predict P fvals = .ok (v, j)) ↔ d.Value P.out fvals v) ∧
  (∀ fvals j, (∃ v, t.predict P fvals = .ok (v, j)) ↔ d.Leaf P.out fvals j) ∧ t.nLeaves = d.leafCount

theorem tree_loaded (P : Platform) {print : F64 → Str} {d : TreeDesc} {lines : List Str} {p : Params} (hp : Holds p lines)
    (hl : TreeLines print d lines) (h : d.OK P.parseFloat print) (ha : d.inner * 24 ≤ P.maxAlloc) :
    ∃ t, lgTreeFromParams P p = .ok t ∧ Means P t d := by
  by_cases h0 : d.inner = 0
  · have hnl : p.toInt "num_leaves".toList = .ok 1 := by
      have h1 := hl.numLeaves
      rw [h0] at h1
      exact (C37_int p _ 1 ((hp _ _).2 h1)).1 (by norm_num)
    obtain ⟨t, h1, h2⟩ := C03_lg_text_single_leaf P p d.numCat d.leafValues
      ((C37_int p _ d.numCat ((hp _ _).2 hl.numCat)).1 h.numCat) hnl
      (C37_float64_slice P p _ print _ h.leafValues (fun x hx => (h.leafText x hx).1) (fun x hx => (h.leafText x hx).2)
        ((hp _ _).2 hl.leafValue))
    have hpos : 0 < d.leafValues.length := List.length_pos_iff.2 h.leafValues
    refine ⟨t, h1, fun fvals v => ?_, fun fvals j => ?_, ?_⟩
    · unfold TreeDesc.Value
      rw [if_pos h0]
      constructor
      · rintro ⟨j, hj⟩; exact ((h2 fvals v j).1 hj).2
      · intro hv; exact ⟨0, (h2 fvals v 0).2 ⟨rfl, hv⟩⟩
    · unfold TreeDesc.Leaf
      rw [if_pos h0]
      constructor
      · rintro ⟨v, hv⟩; exact ((h2 fvals v j).1 hv).1
      · rintro rfl; exact ⟨_, (h2 fvals _ 0).2 ⟨rfl, List.getElem?_eq_getElem hpos⟩⟩
    · unfold TreeDesc.leafCount
      rw [if_pos h0]
      obtain ⟨v0, hv0⟩ : ∃ v, d.leafValues[0]? = some v := ⟨_, List.getElem?_eq_getElem hpos⟩
      exact single_leaf_nLeaves ((h2 [] v0 0).2 ⟨rfl, hv0⟩)
  · have hb := lgBlock_of hp hl h h0 (h.tree h0).small
    obtain ⟨t, h1, h2⟩ := C03_lg_text_tree_value P p d.numCat d.inner d.leafValues d.arrays d.tree hb (h.tree h0) ha
    obtain ⟨t', h1', h3⟩ := C04_lg_text_leaf_index P p d.numCat d.inner d.leafValues d.arrays d.tree hb (h.tree h0) ha
    rw [h1] at h1'
    cases h1'
    obtain ⟨t', h1', h4⟩ := C23_lg_text_leaf_count P p d.numCat d.inner d.leafValues d.arrays d.tree hb (h.tree h0) ha
    rw [h1] at h1'
    cases h1'
    refine ⟨t, h1, fun fvals v => ?_, fun fvals j => ?_, by unfold TreeDesc.leafCount; rw [if_neg h0]; exact h4⟩
    · unfold TreeDesc.Value
      rw [if_neg h0]
      exact h2 fvals v
    · unfold TreeDesc.Leaf
      rw [if_neg h0]
      constructor
      · rintro ⟨v, hv⟩
        obtain ⟨hw, hl⟩ := (h3 fvals v j).1 hv
        exact ⟨hw, (List.getElem?_eq_some_iff.1 hl).1⟩
      · rintro ⟨hw, hl⟩
        exact ⟨_, (h3 fvals _ j).2 ⟨hw, List.getElem?_eq_getElem hl⟩⟩

theorem lgReadTrees_blocks (P : Platform) {print : F64 → Str} {text rest : Str} {bs : List (List Str)} {e : Bool}
    (hb : FileBlocks text bs rest e) : ∀ ds : List TreeDesc, List.Forall₂ (TreeLines print) ds bs →
      (∀ d ∈ ds, d.OK P.parseFloat print ∧ d.inner * 24 ≤ P.maxAlloc) →
      ∃ ts, lgReadTrees P ds.length ⟨text, false⟩ = .ok (ts, ⟨rest, false⟩) ∧ List.Forall₂ (Means P) ts ds := by
  induction hb with
  | nil t =>
    intro ds hf _
    cases hf
    exact ⟨[], rfl, .nil⟩
  | @cons text rest rest' lines bs e e' h hb ih =>
    intro ds hf hok
    cases hf with
    | @cons d _ ds _ hd hds =>
      obtain ⟨p, hp1, hp2⟩ := readParams_file h
      obtain ⟨t, ht1, ht2⟩ := tree_loaded P hp2 hd (hok d (by simp)).1 (hok d (by simp)).2
      obtain ⟨ts, hts1, hts2⟩ := ih ds hds fun d' hd' => hok d' (by simp [hd'])
      refine ⟨t :: ts, ?_, .cons ht2 hts2⟩
      rw [List.length_cons, lgReadTrees]
      unfold lgTreeFromReader
      simp only [hp1, Res.ok_bind, ht1, Res.pure_eq, hts1]

theorem lgReadTrees_length (P : Platform) : ∀ (n : Nat) (r r' : Reader) (ts : List LgTree),
    lgReadTrees P n r = .ok (ts, r') → ts.length = n
  | 0, r, r', ts, h => by cases h; rfl
  | n + 1, r, r', ts, h => by
    rw [lgReadTrees] at h
    obtain ⟨⟨t, r1⟩, h1, h⟩ := Res.bind_eq_ok.1 h
    obtain ⟨⟨ts', r2⟩, h2, h⟩ := Res.bind_eq_ok.1 h
    simp only [Res.pure_eq, Res.ok.injEq, Prod.mk.injEq] at h
    obtain ⟨rfl, rfl⟩ := h
    rw [List.length_cons, lgReadTrees_length P n r1 _ ts' h2]

theorem splitGo_ne_nil (sep : Str) : ∀ (s : Str) (k : Nat) (cur : Str), splitGo sep k cur s ≠ []
  | [], k, cur => by rw [splitGo]; simp
  | c :: cs, 0, cur => by
    rw [splitGo]
    split
    · simp
    · exact splitGo_ne_nil sep cs 0 _
  | c :: cs, k + 1, cur => by rw [splitGo]; exact splitGo_ne_nil sep cs k cur

/-- what a successful `LGEnsembleFromReader` went through -/
theorem lgEnsemble_inv {P : Platform} {r r' : Reader} {lt : Bool} {ens : Ensemble}
    (h : lgEnsembleFromReader P r lt = .ok (ens, r')) :
    ∃ (p : Params) (r1 : Reader) (K M : Int) (toks : List Str) (ts : List LgTree) (tr : Transform),
      readParamsUntilBlank r = .ok (p, r1) ∧ p.toInt "num_class".toList = .ok K ∧ p.toInt "max_feature_idx".toList = .ok M ∧
      1 ≤ K ∧ p.toStrSlice "tree_sizes".toList = .ok toks ∧ 1 ≤ toks.length ∧ (toks.length : Int).tmod K = 0 ∧
      lgTransform p K (p.contains "average_output".toList) lt = .ok tr ∧ lgReadTrees P toks.length r1 = .ok (ts, r') ∧
      ens = { base := .lg { trees := ts, maxFeatureIdx := M, nRawOutputGroups := K,
                            name := if p.contains "average_output".toList then "lightgbm.rf" else "lightgbm.gbdt",
                            averageOutput := p.contains "average_output".toList }, transform := tr } := by
  unfold lgEnsembleFromReader at h
  obtain ⟨⟨p, r1⟩, hp, h⟩ := Res.bind_eq_ok.1 h
  simp only at h
  obtain ⟨-, hv, h⟩ := Res.bind_eq_ok.1 h
  obtain ⟨K, hK, h⟩ := Res.bind_eq_ok.1 h
  obtain ⟨K', hK', h⟩ := Res.bind_eq_ok.1 h
  split at h
  · cases h
  split at h
  · cases h
  split at h
  · cases h
  rename_i h1 h2 h3
  obtain ⟨M, hM, h⟩ := Res.bind_eq_ok.1 h
  obtain ⟨toks, ht, h⟩ := Res.bind_eq_ok.1 h
  split at h
  · cases h
  split at h
  · cases h
  rename_i h4 h5
  obtain ⟨tr, htr, h⟩ := Res.bind_eq_ok.1 h
  obtain ⟨⟨ts, r2⟩, hts, h⟩ := Res.bind_eq_ok.1 h
  simp only [Res.pure_eq, Res.ok.injEq, Prod.mk.injEq] at h
  obtain ⟨rfl, rfl⟩ := h
  exact ⟨p, r1, K, M, toks, ts, tr, hp, hK, hM, by omega, ht, by omega, by simpa using h5, htr, hts, rfl⟩

theorem lgEnsemble_counts {P : Platform} {r r' : Reader} {lt : Bool} {ens : Ensemble}
    (h : lgEnsembleFromReader P r lt = .ok (ens, r')) :
    ∃ (p : Params) (r1 : Reader) (K : Int), readParamsUntilBlank r = .ok (p, r1) ∧ p.toInt "num_class".toList = .ok K ∧
      p.toInt "num_tree_per_iteration".toList = .ok K ∧ ens.nRawOutputGroups = K := by
  have h0 := lgEnsemble_inv h
  unfold lgEnsembleFromReader at h
  obtain ⟨⟨p, r1⟩, hp, h⟩ := Res.bind_eq_ok.1 h
  simp only at h
  obtain ⟨-, hv, h⟩ := Res.bind_eq_ok.1 h
  obtain ⟨K, hK, h⟩ := Res.bind_eq_ok.1 h
  obtain ⟨K', hK', h⟩ := Res.bind_eq_ok.1 h
  split at h
  · cases h
  rename_i hne
  have he : K = K' := by simpa using hne
  subst he
  obtain ⟨p', r1', K2, M, toks, ts, tr, e1, e2, -, -, -, -, -, -, -, rfl⟩ := h0
  rw [hp] at e1
  cases e1
  rw [hK] at e2
  cases e2
  exact ⟨p, r1, K, hp, hK, hK', rfl⟩

theorem parseDigits_iff (s : Str) (n : Nat) : parseDigits s = some n ↔
    s ≠ [] ∧ (∀ c ∈ s, c.isDigit = true) ∧ n = Nat.ofDigitChars 10 s 0 := by
  unfold parseDigits
  by_cases h : s = [] ∨ (!s.all Char.isDigit) = true
  · rw [if_pos h]
    constructor
    · intro h; cases h
    · rintro ⟨h1, h2, -⟩
      rcases h with h | h
      · exact absurd h h1
      · rw [List.all_eq_true.2 h2] at h; cases h
  · rw [if_neg h]
    push Not at h
    have h2 : s.all Char.isDigit = true := by simpa using h.2
    rw [Option.some.injEq]
    constructor
    · rintro rfl
      exact ⟨h.1, List.all_eq_true.1 h2, rfl⟩
    · rintro ⟨-, -, rfl⟩; rfl

theorem atoi_iff (s : Str) (n : Int) : atoi s = some n ↔ Numeral s n := by
  have hp : (2 : Nat) ^ (64 - 1) = 2 ^ 63 := by norm_num
  unfold atoi parseInt Numeral
  rw [hp]
  have hnd : ∀ {ds : Str} {c : Char}, (∀ d ∈ ds, d.isDigit = true) → ds = c :: ds.tail → c.isDigit = true := by
    intro ds c h e; exact h c (by rw [e]; simp)
  split
  · rename_i ds
    constructor
    · intro h
      split at h
      · rename_i m hm
        obtain ⟨h1, h2, h3⟩ := (parseDigits_iff ds m).1 hm
        split at h
        · cases h
          exact ⟨ds, h1, h2, by omega, by omega, .inr (.inr ⟨rfl, by rw [h3]⟩)⟩
        · cases h
      · cases h
    · rintro ⟨ds', h1, h2, h3, h4, ⟨e, -⟩ | ⟨e, -⟩ | ⟨e, h5⟩⟩
      · exact absurd (h2 '-' (by rw [← e]; simp)) (by decide)
      · cases e
      · cases e
        rw [(parseDigits_iff ds _).2 ⟨h1, h2, rfl⟩]
        simp only
        rw [if_pos (by omega), h5]
  · rename_i ds
    constructor
    · intro h
      split at h
      · rename_i m hm
        obtain ⟨h1, h2, h3⟩ := (parseDigits_iff ds m).1 hm
        split at h
        · cases h
          exact ⟨ds, h1, h2, by omega, by omega, .inr (.inl ⟨rfl, by rw [h3]⟩)⟩
        · cases h
      · cases h
    · rintro ⟨ds', h1, h2, h3, h4, ⟨e, -⟩ | ⟨e, h5⟩ | ⟨e, -⟩⟩
      · exact absurd (h2 '+' (by rw [← e]; simp)) (by decide)
      · cases e
        rw [(parseDigits_iff ds _).2 ⟨h1, h2, rfl⟩]
        simp only
        rw [if_pos (by omega), h5]
      · cases e
  · rename_i h6 h7
    constructor
    · intro h
      split at h
      · rename_i m hm
        obtain ⟨h1, h2, h3⟩ := (parseDigits_iff s m).1 hm
        split at h
        · cases h
          exact ⟨s, h1, h2, by omega, by omega, .inl ⟨rfl, by rw [h3]⟩⟩
        · cases h
      · cases h
    · rintro ⟨ds', h1, h2, h3, h4, ⟨rfl, h5⟩ | ⟨e, h5⟩ | ⟨e, -⟩⟩
      · rw [(parseDigits_iff s _).2 ⟨h1, h2, rfl⟩]
        simp only
        rw [if_pos (by omega), h5]
      · exact absurd e (h7 ds')
      · exact absurd e (h6 ds')

theorem numeral_clean {v : Str} {n : Int} (h : Numeral v n) : ' ' ∉ v ∧ ':' ∉ v := by
  obtain ⟨ds, -, h, -, -, h'⟩ := h
  have h1 : ' ' ∉ ds := fun hh => absurd (h _ hh) (by decide)
  have h2 : ':' ∉ ds := fun hh => absurd (h _ hh) (by decide)
  rcases h' with ⟨rfl, -⟩ | ⟨rfl, -⟩ | ⟨rfl, -⟩ <;> simp [h1, h2]

theorem objectiveParse_iff (s : Str) (o : LgObjective) : lgObjectiveParse s = .ok o ↔
    ∃ v, s = o.name ++ ' ' :: (o.param ++ ':' :: v) ∧ ' ' ∉ o.name ∧ ' ' ∉ o.param ∧ ':' ∉ o.param ∧ Numeral v o.value := by
  unfold lgObjectiveParse
  constructor
  · intro h
    split at h
    · rename_i name p hs
      obtain ⟨rfl, h1, h2⟩ := (split_two ' ' s name p).1 hs
      split at h
      · rename_i param v hp
        obtain ⟨rfl, h3, h4⟩ := (split_two ':' p param v).1 hp
        split at h
        · rename_i value hv
          cases h
          exact ⟨v, rfl, h1, fun hh => h2 (by simp [hh]), h3, (atoi_iff _ _).1 hv⟩
        · cases h
      · cases h
    · cases h
  · rintro ⟨v, rfl, h1, h2, h3, h4⟩
    obtain ⟨h5, h6⟩ := numeral_clean h4
    rw [show " ".toList = [' '] from rfl, (split_two ' ' _ o.name (o.param ++ ':' :: v)).2 ⟨rfl, h1, by simp [h2, h5]⟩]
    simp only
    rw [show ":".toList = [':'] from rfl, (split_two ':' _ o.param v).2 ⟨rfl, h3, h6⟩]
    simp only
    rw [(atoi_iff v o.value).2 h4]

theorem objectiveParse_total (s : Str) : (∃ o, lgObjectiveParse s = .ok o) ∨ ∃ m, lgObjectiveParse s = .err m := by
  unfold lgObjectiveParse
  split
  · split
    · split
      · exact .inl ⟨_, rfl⟩
      · exact .inr ⟨_, rfl⟩
    · exact .inr ⟨_, rfl⟩
  · exact .inr ⟨_, rfl⟩

theorem hasPrefix_iff (s p : Str) : hasPrefix s p = true ↔ ∃ t, s = p ++ t := by
  unfold hasPrefix
  rw [List.isPrefixOf_iff_prefix]
  constructor
  · rintro ⟨t, rfl⟩; exact ⟨t, rfl⟩
  · rintro ⟨t, rfl⟩; exact ⟨t, rfl⟩

theorem lgTransform_total (p : Params) (K : Int) (avg lt : Bool) : (∃ tr, lgTransform p K avg lt = .ok tr) ∨
    ∃ m, lgTransform p K avg lt = .err m := by
  unfold lgTransform
  split
  · unfold Params.toString
    split
    · exact .inr ⟨_, rfl⟩
    · rename_i s _
      simp only [Res.ok_bind, Res.pure_eq]
      split
      · exact .inl ⟨_, rfl⟩
      · split
        · rcases objectiveParse_total s with ⟨o, h⟩ | ⟨m, h⟩
          · rw [h]
            simp only [Res.ok_bind]
            split
            · split
              · exact .inr ⟨_, rfl⟩
              · exact .inl ⟨_, rfl⟩
            · split
              · split
                · exact .inr ⟨_, rfl⟩
                · exact .inl ⟨_, rfl⟩
              · exact .inr ⟨_, rfl⟩
          · rw [h]; exact .inr ⟨_, rfl⟩
        · exact .inl ⟨_, rfl⟩
  · exact .inl ⟨_, rfl⟩

theorem lgTransform_iff (p : Params) (K : Int) (tr : Transform) : lgTransform p K false true = .ok tr ↔
    ∃ s, p "objective".toList = some s ∧ Objective K s tr := by
  unfold lgTransform Params.toString
  rw [if_pos (by rfl)]
  cases hp : p "objective".toList with
  | none =>
    constructor
    · intro h; cases h
    · rintro ⟨s, h, -⟩; cases h
  | some s =>
    simp only [Res.ok_bind, Res.pure_eq, Option.some.injEq, exists_eq_left']
    by_cases h1 : s = "poisson".toList ∨ s = "gamma".toList ∨ s = "tweedie".toList
    · rw [if_pos h1]
      constructor
      · intro h
        cases h
        rcases h1 with rfl | rfl | rfl
        · exact .poisson
        · exact .gamma
        · exact .tweedie
      · intro h
        rcases h1 with rfl | rfl | rfl
        · generalize hs : "poisson".toList = s at h
          cases h with
          | poisson => rfl
          | gamma => rfl
          | tweedie => rfl
          | regression t => exact absurd hs (by simp)
          | binary t => exact absurd hs (by simp)
          | multiclass t => exact absurd hs (by simp)
        · generalize hs : "gamma".toList = s at h
          cases h with
          | poisson => rfl
          | gamma => rfl
          | tweedie => rfl
          | regression t => exact absurd hs (by simp)
          | binary t => exact absurd hs (by simp)
          | multiclass t => exact absurd hs (by simp)
        · generalize hs : "tweedie".toList = s at h
          cases h with
          | poisson => rfl
          | gamma => rfl
          | tweedie => rfl
          | regression t => exact absurd hs (by simp)
          | binary t => exact absurd hs (by simp)
          | multiclass t => exact absurd hs (by simp)
    · rw [if_neg h1]
      by_cases h2 : hasPrefix s "regression".toList = true
      · rw [if_neg (by rw [h2]; decide)]
        constructor
        · intro h
          cases h
          obtain ⟨t, rfl⟩ := (hasPrefix_iff _ _).1 h2
          exact .regression t
        · intro h
          cases h with
          | poisson => exact absurd h2 (by decide)
          | gamma => exact absurd h2 (by decide)
          | tweedie => exact absurd h2 (by decide)
          | regression t => rfl
          | binary t => exact absurd h2 (by simp [hasPrefix])
          | multiclass t => exact absurd h2 (by simp [hasPrefix])
      · rw [if_pos (by rw [Bool.not_eq_true] at h2; rw [h2]; rfl)]
        constructor
        · intro h
          obtain ⟨o, ho, h'⟩ := Res.bind_eq_ok.1 h
          clear h
          have h := h'
          clear h'
          obtain ⟨v, rfl, -, -, -, hv⟩ := (objectiveParse_iff _ _).1 ho
          split at h
          · rename_i hn
            split at h
            · cases h
            · rename_i h3
              cases h
              rw [hn.1, hn.2]
              have : o.value = 1 := by simpa using h3
              rw [this] at hv
              exact .binary v hv
          · split at h
            · rename_i hn
              split at h
              · cases h
              · rename_i h3
                cases h
                rw [hn.1, hn.2]
                have : o.value = K := by simpa using h3
                rw [this] at hv ⊢
                exact .multiclass v hv
            · cases h
        · intro h
          cases h with
          | poisson => exact absurd (Or.inl rfl) h1
          | gamma => exact absurd (Or.inr (Or.inl rfl)) h1
          | tweedie => exact absurd (Or.inr (Or.inr rfl)) h1
          | regression t => exact absurd ((hasPrefix_iff _ _).2 ⟨t, rfl⟩) h2
          | binary v hv =>
            rw [(objectiveParse_iff ("binary sigmoid:".toList ++ v) ⟨"binary".toList, "sigmoid".toList, 1⟩).2
              ⟨v, rfl, by decide, by decide, by decide, hv⟩]
            rfl
          | multiclass v hv =>
            have hm : lgObjectiveParse ("multiclass num_class:".toList ++ v) = .ok ⟨"multiclass".toList, "num_class".toList, K⟩ :=
              (objectiveParse_iff _ _).2 ⟨v, rfl, show ' ' ∉ "multiclass".toList by decide,
                show ' ' ∉ "num_class".toList by decide, show ':' ∉ "num_class".toList by decide, hv⟩
            rw [hm, Res.ok_bind, if_neg (fun h => absurd (show "multiclass".toList = "binary".toList from h.1) (by decide)),
              if_pos ⟨rfl, rfl⟩, if_neg (fun h => h rfl)]

end Leaves
