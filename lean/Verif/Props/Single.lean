import Verif.Spec.Single
import Verif.Props.XgFile
import Verif.Props.XgTree
import Verif.Props.SkModel
import Verif.Props.SkTree
import Mathlib.Data.Set.Finite.Range
import Mathlib.Data.Set.Finite.Lemmas

/-! # C106: rows in float64 are predicted as the training library predicts their float32 roundings -/

namespace Leaves

open Spec XgBin Pickle

/-! ### rounding -/

/-- Every value can be rounded. -/
theorem rounds32_exists (x : F64) : ∃ b, Rounds32 x b := by
  cases hx : value x with
  | none => exact ⟨0x7fc00000#32, Or.inl ⟨hx, by decide +kernel⟩⟩
  | some a =>
    have hbot : value32 0xff800000#32 = some ⊥ := by decide +kernel
    have hfin : Set.Finite {t : Line | t ≤ a ∧ ∃ c, value32 c = some t} := by
      have : Finite (BitVec 32) := Finite.of_equiv (Fin (2 ^ 32)) ⟨BitVec.ofFin, BitVec.toFin, fun _ => rfl, fun _ => rfl⟩
      refine (Set.finite_range fun c : BitVec 32 => (value32 c).getD ⊥).subset ?_
      rintro t ⟨-, c, hc⟩
      exact ⟨c, by simp [hc]⟩
    obtain ⟨t, ⟨h1, b, h2⟩, h3⟩ := Set.exists_max_image _ id hfin ⟨⊥, bot_le, _, hbot⟩
    exact ⟨b, Or.inr ⟨a, t, hx, h2, fun c u hu => ⟨fun h => h1.trans h, fun h => h3 u ⟨h, c, hu⟩⟩⟩⟩

/-- Every row can be rounded. -/
theorem row32_exists : ∀ row : List F64, ∃ row32, Row32 row row32
  | [] => ⟨[], .nil⟩
  | x :: row => by
    obtain ⟨b, hb⟩ := rounds32_exists x
    obtain ⟨bs, hbs⟩ := row32_exists row
    exact ⟨b :: bs, .cons hb hbs⟩

/-- A float32 that no other float32 is closer to than it is a rounding. -/
theorem rounds32_nearest {x : F64} {b : BitVec 32} {q r : ℚ} (hx : value x = some (pt q)) (hb : value32 b = some (pt r))
    (h : ∀ c s, value32 c = some (pt s) → |q - r| ≤ |q - s|) : Rounds32 x b := by
  refine Or.inr ⟨_, _, hx, hb, fun c t hc => ?_⟩
  induction t using WithBot.recBotCoe with
  | bot => exact ⟨fun h => absurd (le_bot_iff.1 h) (by simp [pt]), fun _ => bot_le⟩
  | coe t =>
    induction t using WithTop.recTopCoe with
    | top => exact ⟨fun _ => le_top, fun h => absurd (top_le_iff.1 h) (by simp only [pt]; intro h; cases h)⟩
    | coe s =>
      have hs := h c s hc
      have e : ∀ u v : ℚ, pt u ≤ pt v ↔ u ≤ v := fun u v => by simp [pt]
      show (pt q ≤ pt s → pt r ≤ pt s) ∧ (pt s ≤ pt q → pt s ≤ pt r)
      rw [e, e, e, e]
      constructor
      · intro h1
        by_contra h2
        rw [abs_of_nonpos (by linarith), abs_of_nonpos (by linarith)] at hs
        linarith
      · intro h1
        by_contra h2
        rw [abs_of_nonneg (by linarith), abs_of_nonneg (by linarith)] at hs
        linarith

/-- A float32 is its only rounding. -/
theorem rounds32_self {b b' : BitVec 32} (h : Rounds32 (F64.ofBits32 b) b') : value32 b' = value32 b := by
  rcases h with ⟨h1, h2⟩ | ⟨a, a', h1, h2, h3⟩
  · rw [F64.value_ofBits32] at h1
    rw [h1, h2]
  · rw [F64.value_ofBits32] at h1
    obtain ⟨u, v⟩ := h3 b a h1
    rw [h1, h2, le_antisymm (u le_rfl) (v le_rfl)]

theorem row32_get {row : List F64} {row32 : List (BitVec 32)} (h : Row32 row row32) (f : Nat) :
    (row[f]? = none ∧ row32[f]? = none) ∨ ∃ x b, row[f]? = some x ∧ row32[f]? = some b ∧ Rounds32 x b := by
  induction h generalizing f with
  | nil => exact Or.inl ⟨rfl, rfl⟩
  | cons h _ ih =>
    cases f with
    | zero => exact Or.inr ⟨_, _, rfl, rfl, h⟩
    | succ f => simpa using ih f

theorem widen_get (row32 : List (BitVec 32)) (f : Nat) : (widen row32)[f]? = (row32[f]?).map F64.ofBits32 := by simp [widen]

/-! ### XGBoost -/

theorem xg_rounded {nodes : List Node} {T : BTree} {row : List F64} {row32 : List (BitVec 32)} (hr : Row32 row row32)
    (h : ¬ XgRoundedTie nodes T row row32) {i : Nat} (hi : i ∈ T.inner) (d : Bool) :
    XgGoesLe nodes row i d ↔ XgGoes nodes (widen row32) i d := by
  have key : ∀ n x b, nodes[i]? = some n → row[xgFeature n]? = some x → row32[xgFeature n]? = some b → Rounds32 x b →
      (XgLeftLe n x ↔ XgLeft n (F64.ofBits32 b)) := by
    intro n x b hn hx hb hxb
    unfold XgLeftLe XgLeft
    rw [F64.value_ofBits32, ← F64.value_eq_none, ← F64.value_eq_none, F64.value_ofBits32]
    rcases hxb with ⟨h1, h2⟩ | ⟨a, a', h1, h2, h3⟩
    · simp [h1, h2]
    · simp only [h1, h2, reduceCtorEq, false_and, false_or, Option.some.injEq]
      constructor
      · rintro ⟨u, c, rfl, hc, hle⟩
        refine ⟨a', c, rfl, hc, lt_of_le_of_ne ((h3 _ c hc).1 hle) ?_⟩
        rintro rfl
        exact h ⟨i, hi, n, x, b, a, _, hn, hx, hb, h1, h2, hc, hle⟩
      · rintro ⟨u, c, rfl, hc, hlt⟩
        refine ⟨a, c, rfl, hc, ?_⟩
        by_contra hle
        exact absurd ((h3 _ c hc).2 (le_of_lt (not_le.1 hle))) (not_le.2 hlt)
  constructor
  · rintro ⟨n, x, hn, hx, hb⟩
    rcases row32_get hr (xgFeature n) with ⟨h1, -⟩ | ⟨x', b, h1, h2, h3⟩
    · rw [h1] at hx; cases hx
    · rw [h1] at hx
      cases hx
      exact ⟨n, _, hn, by rw [widen_get, h2]; rfl, hb.trans (key n _ b hn h1 h2 h3)⟩
  · rintro ⟨n, x, hn, hx, hb⟩
    rw [widen_get] at hx
    rcases row32_get hr (xgFeature n) with ⟨-, h1⟩ | ⟨x', b, h1, h2, h3⟩
    · rw [h1] at hx; cases hx
    · rw [h2] at hx
      cases hx
      exact ⟨n, x', hn, h1, hb.trans (key n _ b hn h1 h2 h3).symm⟩

theorem xg_raw_rounded (P : Platform) (m : XgModel) (K : Nat) {row : List F64} {row32 : List (BitVec 32)} (hr : Row32 row row32)
    (h : ¬ m.RoundedTie row row32) (n : Nat) (w : List F64) :
    XgRefRaw P XgGoesLe m K row n w ↔ XgRefRaw P XgGoes m K (widen row32) n w := by
  unfold XgRefRaw
  refine exists_congr fun v => exists_congr fun c => and_congr_left fun _ => ?_
  refine forall_congr' fun i => forall_congr' fun _ => forall_congr' fun k => forall_congr' fun _ => ?_
  refine exists_congr fun t => exists_congr fun T => exists_congr fun leaf => and_congr_right fun h1 => and_congr_right fun h2 => and_congr_left fun _ => ?_
  exact Walk.iff fun j hj b => xg_rounded hr (fun ht => h ⟨_, t, T, h1, h2, ht⟩) hj b

/-- C106: a row in float64 is predicted from an XGBoost file exactly as XGBoost predicts it from the row's float32 rounding, whichever
way that was rounded, unless the rounding of a value equals a split condition that the value does not exceed. Missing for the full
statement: those values (`C106_xgboost_differs`). -/
theorem C106_xgboost_partial (P : Platform) (m : XgModel) (K N : Nat) (ok : m.OK P.maxAlloc K N) (lt : Bool) (tr : Transform)
    (ho : XgObjective K m.header.nameObj lt tr) (hlog : tr = .logistic → K = 1) :
    ∃ ens, (∀ rest, xgEnsembleFromReader P lt (m.image ++ rest) = .ok (ens, rest)) ∧
      ∀ row row32, Row32 row row32 → ¬ m.RoundedTie row row32 →
      ∀ req s s', ((ens.predict P row req s.length).run s = (.ok ⟨⟩, s') ↔
        ens.nOutputGroups ≤ s.length ∧ ens.nFeatures ≤ row.length ∧ ∃ n w out, Used req N n ∧
          XgRefRaw P XgGoes m K (widen row32) n w ∧ IsTransformed P tr w out ∧ Stored s 0 out s') := by
  obtain ⟨ens, h1, -, -, -, -, -, -, h2⟩ := C62_xgboost_file_le P m K N ok lt tr ho hlog
  refine ⟨ens, h1, fun row row32 hr ht req s s' => ?_⟩
  rw [h2]
  simp only [xg_raw_rounded P m K hr ht]

/-! ### scikit-learn -/

theorem nanToZero_get (row : List F64) (f : Nat) : (nanToZero row)[f]? = (row[f]?).map fun x => if x = .nan then .zero else x := by
  simp [nanToZero]

theorem sk_rounded {nodes : List SkNode} {T : BTree} {row : List F64} {row32 : List (BitVec 32)} (hr : Row32 row row32)
    (h : ¬ SkCrossing nodes T row row32) {i : Nat} (hi : i ∈ T.inner) (d : Bool) :
    SkGoes nodes (nanToZero row) i d ↔ SkGoes nodes (nanToZero (widen row32)) i d := by
  have key : ∀ n (f : Nat) x b, nodes[i]? = some n → n.feature = (f : Nat) → row[f]? = some x → row32[f]? = some b → Rounds32 x b →
      (Le (if x = .nan then .zero else x) n.threshold ↔ Le (if F64.ofBits32 b = .nan then .zero else F64.ofBits32 b) n.threshold) := by
    intro n f x b hn hf hx hb hxb
    rcases hxb with ⟨h1, h2⟩ | ⟨a, a', h1, h2, h3⟩
    · rw [← F64.value_ofBits32] at h2
      rw [if_pos (F64.value_eq_none.1 h1), if_pos (F64.value_eq_none.1 h2)]
    · rw [if_neg (by rw [← F64.value_eq_none, h1]; simp), if_neg (by rw [← F64.value_eq_none, F64.value_ofBits32, h2]; simp)]
      unfold Le
      rw [F64.value_ofBits32, h1, h2]
      constructor
      · rintro ⟨u, t, hu, ht, hle⟩
        cases hu
        refine ⟨a', t, rfl, ht, not_lt.1 fun hlt => h ⟨i, hi, n, f, x, b, a, a', t, hn, hf, hx, hb, h1, h2, ht, Or.inl ⟨hle, hlt⟩⟩⟩
      · rintro ⟨u, t, hu, ht, hle⟩
        cases hu
        refine ⟨a, t, rfl, ht, not_lt.1 fun hlt => h ⟨i, hi, n, f, x, b, a, a', t, hn, hf, hx, hb, h1, h2, ht, Or.inr ⟨hle, hlt⟩⟩⟩
  constructor
  · rintro ⟨n, f, x, hn, hf, hx, hb⟩
    rw [nanToZero_get] at hx
    rcases row32_get hr f with ⟨h1, -⟩ | ⟨x', b, h1, h2, h3⟩
    · rw [h1] at hx; cases hx
    · rw [h1] at hx
      cases hx
      exact ⟨n, f, _, hn, hf, by rw [nanToZero_get, widen_get, h2]; rfl, hb.trans (key n f _ b hn hf h1 h2 h3)⟩
  · rintro ⟨n, f, x, hn, hf, hx, hb⟩
    rw [nanToZero_get, widen_get] at hx
    rcases row32_get hr f with ⟨-, h1⟩ | ⟨x', b, h1, h2, h3⟩
    · rw [h1] at hx; cases hx
    · rw [h2] at hx
      cases hx
      exact ⟨n, f, _, hn, hf, by rw [nanToZero_get, h1]; rfl, hb.trans (key n f _ b hn hf h1 h2 h3).symm⟩

theorem row32_nil {row : List F64} {row32 : List (BitVec 32)} (hr : Row32 row row32) : row ≠ [] ↔ widen row32 ≠ [] := by
  cases hr <;> simp [widen]

theorem sk_raw_rounded (P : Platform) (m : SkModel) {row : List F64} {row32 : List (BitVec 32)} (hr : Row32 row row32)
    (h : ¬ m.Crossing row row32) (n : Nat) (w : List F64) : SkRefRaw P m row n w ↔ SkRefRaw P m (widen row32) n w := by
  unfold SkRefRaw
  refine exists_congr fun v => and_congr_left fun _ => ?_
  refine forall_congr' fun i => forall_congr' fun _ => forall_congr' fun k => forall_congr' fun _ => ?_
  refine exists_congr fun t => exists_congr fun T => exists_congr fun leaf => exists_congr fun x => exists_congr fun p =>
    and_congr_right fun h1 => and_congr_right fun h2 => and_congr (row32_nil hr) (and_congr_left fun _ => ?_)
  exact Walk.iff fun j hj b => sk_rounded hr (fun ht => h ⟨_, t, T, h1, h2, ht⟩) hj b

/-- C106: a row in float64 is predicted from a scikit-learn pickle exactly as scikit-learn predicts it from the row's float32 rounding,
unless a threshold lies between a value and its rounding. Missing for the full statement: those values (`C106_sklearn_differs`). -/
theorem C106_sklearn_partial (P : Platform) (v : PyVal) (bs : Pickle.Bytes) (μ : Memo) (hd : Dumps P noMemo v bs μ) (M : SkModel)
    (hc : IsClassifier M v) (ok : M.OK P.maxAlloc) :
    ∃ ens, (∀ rest lt, skEnsembleFromReader P (bs ++ octet '.' :: rest) lt = .ok ens) ∧
      ∀ row row32, Row32 row row32 → ¬ M.Crossing row row32 →
      ∀ req s s', ((ens.predict P row req s.length).run s = (.ok ⟨⟩, s') ↔
        (M.groups ≤ s.length ∧ ens.nFeatures ≤ row.length ∧ ∃ n w, Used req M.estimators n ∧ SkRefRaw P M (widen row32) n w ∧ Stored s 0 w s')) := by
  obtain ⟨ens, h1, -, -, -, -, -, -, -, h2⟩ := C63_sklearn_file P v bs μ hd M hc ok
  refine ⟨ens, h1, fun row row32 hr ht req s s' => ?_⟩
  rw [h2]
  simp only [sk_raw_rounded P M hr ht]

namespace SingleExample

/-- 0.1 in float64 -/
def tenth : F64 := F64.ofBits 0x3fb999999999999a#64
/-- 0.1 in float32; a bit more than in float64 -/
def tenth32 : BitVec 32 := 0x3dcccccd#32

theorem tenth_value : value tenth = some (pt (7205759403792794 / 2 ^ 56)) := by
  have : tenth = .fin false (7205759403792794 * 2 ^ 1018) (by decide +kernel) := by decide +kernel
  rw [this, value_fin_pow 7205759403792794 1018 56 rfl]
  norm_num

theorem tenth32_value : value32 tenth32 = some (pt (13421773 / 2 ^ 27)) := by
  unfold value32 tenth32
  norm_num [pt]

theorem tenth_rounds : Rounds32 tenth tenth32 := by
  refine Or.inr ⟨_, _, tenth_value, tenth32_value, fun c t hc => ⟨fun h => ?_, fun h => h.trans ?_⟩⟩
  · have e : ∀ u v : ℚ, pt u ≤ pt v ↔ u ≤ v := fun u v => by simp [pt]
    unfold value32 at hc
    dsimp only at hc
    have hf : c.toNat % 2 ^ 23 < 2 ^ 23 := Nat.mod_lt _ (by norm_num)
    generalize c.toNat % 2 ^ 23 = f at *
    generalize c.toNat / 2 ^ 23 % 2 ^ 8 = k at *
    generalize hs : (if c.toNat / 2 ^ 31 = 1 then (-1 : ℚ) else 1) = s at *
    have hs' : s = -1 ∨ s = 1 := by rw [← hs]; split <;> simp
    have hfq : (f : ℚ) < 2 ^ 23 := by exact_mod_cast hf
    have hf0 : (0 : ℚ) ≤ f := by positivity
    split at hc
    · split at hc
      · cases hc
      · split at hc
        · cases hc
          exact absurd (le_bot_iff.1 h) (by simp [pt])
        · cases hc
          exact le_top
    · split at hc
      · cases hc
        rw [e] at h
        exfalso
        rcases hs' with rfl | rfl
        · norm_num at h; linarith
        · norm_num at h; linarith
      · cases hc
        rw [e] at h ⊢
        rcases hs' with rfl | rfl
        · exfalso
          have : (0 : ℚ) ≤ (2 ^ 23 + f) * 2 ^ k / 2 ^ 150 := by positivity
          linarith
        · rw [one_mul] at h ⊢
          rcases Nat.lt_or_ge k 123 with hk | hk
          · exfalso
            have h2 : (2 : ℚ) ^ k ≤ 2 ^ 122 := pow_le_pow_right₀ (by norm_num) (by omega)
            have : (2 ^ 23 + (f : ℚ)) * 2 ^ k ≤ 2 ^ 24 * 2 ^ 122 := mul_le_mul (by linarith) h2 (by positivity) (by positivity)
            have : (2 ^ 23 + (f : ℚ)) * 2 ^ k / 2 ^ 150 ≤ 2 ^ 24 * 2 ^ 122 / 2 ^ 150 := by gcongr
            norm_num at h this
            linarith
          · obtain ⟨j, rfl⟩ := Nat.exists_eq_add_of_le hk
            have : (2 ^ 23 + (f : ℚ)) * 2 ^ (123 + j) / 2 ^ 150 = (((2 ^ 23 + f) * 2 ^ j : Nat) : ℚ) / 2 ^ 27 := by
              rw [pow_add]; push_cast; ring
            rw [this] at h ⊢
            generalize (2 ^ 23 + f) * 2 ^ j = z at *
            have h3 : (13421772 : ℚ) < z := by
              rw [le_div_iff₀ (by norm_num)] at h
              norm_num at h
              linarith
            have h4 : 13421772 < z := by exact_mod_cast h3
            have h5 : (13421773 : ℚ) ≤ z := by exact_mod_cast h4
            gcongr
  · simp only [pt, WithBot.coe_le_coe, WithTop.coe_le_coe]
    norm_num

/-! ### an XGBoost file -/

/-- split on feature 0 at 0.1; the leaves are 1 and 2 -/
def xgTree : TreeModel where
  param := ⟨1#32, 3#32, 0#32, 1#32, 2#32, 0#32, List.replicate 31 0#32⟩
  nodes := [⟨0#32, 1#32, 2#32, 0#32, tenth32⟩, ⟨0#32, -1#32, -1#32, 0#32, 0x3f800000#32⟩, ⟨0#32, -1#32, -1#32, 0#32, 0x40000000#32⟩]
  stats := List.replicate 3 ⟨0#32, 0#32, 0#32, 0#32⟩

/-- its shape -/
def xgShape : BTree := .node 0 (.leaf 1) (.leaf 2)

/-- the file, with base score 0 -/
def xgFile : XgModel where
  header := ⟨⟨0#32, 2#32, 0#32, 0#32, 0#32, List.replicate 29 0#32⟩, asciiBytes "binary:logistic", asciiBytes "gbtree"⟩
  gbtree := ⟨⟨1#32, 1#32, 2#32, 0#32, 0#64, 1#32, 0#32, List.replicate 32 0#32⟩, [xgTree], [0#32]⟩
  leafVectors := [[]]
  dart := false
  weights := []
  shapes := [xgShape]

theorem xgFile_ok : xgFile.OK Platform.demo.maxAlloc 1 1 where
  header := ⟨rfl, by decide, by decide⟩
  gbtree := ⟨rfl, by decide, rfl, by
    intro t ht
    rcases (show t = (xgTree, []) by simpa [xgFile] using ht) with rfl
    exact ⟨rfl, by decide, by decide, by decide, by decide⟩, rfl, by decide⟩
  name := rfl
  features := by decide
  roots := by decide
  groups := by decide
  counts := ⟨le_rfl, le_rfl, rfl⟩
  info := by
    intro i hi k hk
    obtain rfl : k = 0 := by omega
    obtain rfl : i = 0 := by omega
    exact ⟨0#32, rfl, by decide⟩
  weights := fun h => by cases h
  alloc := by decide
  trees := .cons (.inl ⟨by decide, by decide, .node 0 _ 1 2 _ _ rfl (by decide) (by decide) (.leaf 1 _ rfl (by decide)) (.leaf 2 _ rfl (by decide)),
    by decide, rfl⟩) .nil
  treeFeatures := by decide

/-- what the walk returns -/
theorem xg_ref {goes : List Node → List F64 → Nat → Bool → Prop} {row : List F64} (leaf : Nat) (v : F64)
    (hw : Walk (goes xgTree.nodes row) xgShape leaf) (hv : XgVal xgTree.nodes leaf v) :
    XgRefRaw Platform.demo goes xgFile 1 row 1 [Platform.demo.mulAdd v F64.one F64.zero] := by
  refine ⟨fun _ _ => v, fun _ _ => F64.one, fun i hi k hk => ?_, fun i hi k hk => rfl, ?_⟩
  · obtain rfl : k = 0 := by omega
    obtain rfl : i = 0 := by omega
    exact ⟨xgTree, xgShape, leaf, rfl, rfl, hw, hv⟩
  · have : F64.ofBits32 xgFile.header.param.baseScore = F64.zero := by decide +kernel
    rw [this]
    rfl

theorem stored_one (x y : F64) : Stored [x] 0 [y] [y] := by
  refine ⟨by simp, rfl, fun j => ?_⟩
  cases j <;> simp

/-- C106 is false where a value's rounding equals a split condition: a model that splits at 0.1 (in float32) and the value 0.1 (in
float64). XGBoost rounds the value, finds it not less than the split condition and returns 2; leaves returns 1. -/
theorem C106_xgboost_differs : Row32 [tenth, F64.zero] [tenth32, 0#32] ∧
    XgRefRaw Platform.demo XgGoes xgFile 1 (widen [tenth32, 0#32]) 1 [F64.ofNat 2] ∧
    ∃ ens, xgEnsembleFromReader Platform.demo false xgFile.image = .ok (ens, []) ∧
      ∀ x, (ens.predict Platform.demo [tenth, F64.zero] 0 1).run [x] = (.ok ⟨⟩, [F64.one]) := by
  have hz : Rounds32 F64.zero 0#32 := by
    have h1 : F64.zero = F64.ofBits32 0#32 := by decide +kernel
    have h2 : value32 0#32 = some (pt 0) := by unfold value32; norm_num
    refine Or.inr ⟨pt 0, pt 0, by rw [h1, F64.value_ofBits32, h2], h2, fun c t _ => ⟨id, id⟩⟩
  refine ⟨.cons tenth_rounds (.cons hz .nil), ?_, ?_⟩
  · have := xg_ref (goes := XgGoes) (row := widen [tenth32, 0#32]) 2 (F64.ofNat 2)
      (.right ⟨_, F64.ofBits32 tenth32, rfl, rfl, ⟨fun h => (by cases h), ?_⟩⟩ (.leaf 2)) ⟨_, rfl, by decide +kernel⟩
    · have e : Platform.demo.mulAdd (F64.ofNat 2) F64.one F64.zero = F64.ofNat 2 := by decide +kernel
      rwa [e] at this
    · rintro (⟨h, -⟩ | ⟨a, c, h1, h2, h3⟩)
      · revert h; decide +kernel
      · have h2 : value32 tenth32 = some c := h2
        rw [F64.value_ofBits32, h2] at h1
        cases h1
        exact absurd h3 (lt_irrefl _)
  · obtain ⟨ens, h1, -, ht, hr, -, hn, -, h2⟩ := C62_xgboost_file_le Platform.demo xgFile 1 1 xgFile_ok false (.raw 1) .raw (by intro h; cases h)
    refine ⟨ens, by simpa using h1 [], fun x => ?_⟩
    refine (h2 _ 0 [x] _).2 ⟨by unfold Ensemble.nOutputGroups; rw [ht]; exact le_rfl, by rw [hn, if_pos (by decide)]; decide, 1, [F64.one], [F64.one],
      rfl, ?_, rfl, stored_one _ _⟩
    have := xg_ref (goes := XgGoesLe) (row := [tenth, F64.zero]) 1 F64.one
      (.left ⟨_, tenth, rfl, rfl, ⟨fun _ => Or.inr ⟨_, _, tenth_value, tenth32_value, ?_⟩, fun _ => rfl⟩⟩ (.leaf 1)) ⟨_, rfl, by decide +kernel⟩
    · have e : Platform.demo.mulAdd F64.one F64.one F64.zero = F64.one := by decide +kernel
      rwa [e] at this
    · simp only [pt, WithBot.coe_le_coe, WithTop.coe_le_coe]
      norm_num

/-- a row whose rounding does not meet the split condition -/
example : ∃ row32, Row32 [F64.one, F64.nan] row32 ∧ ¬ xgFile.RoundedTie [F64.one, F64.nan] row32 := by
  obtain ⟨row32, h⟩ := row32_exists [F64.one, F64.nan]
  refine ⟨row32, h, ?_⟩
  rintro ⟨i, t, T, h1, h2, j, hj, n, x, b, a, c, hn, hx, hb, ha, hc, hi, hle⟩
  cases i with
  | succ i => simp [xgFile] at h1
  | zero =>
    obtain rfl : xgTree = t := by simpa [xgFile] using h1
    obtain rfl : xgShape = T := by simpa [xgFile] using h2
    obtain rfl : j = 0 := by simpa [xgShape, BTree.inner] using hj
    cases hn
    have hx : some F64.one = some x := hx
    cases hx
    have hi : value32 tenth32 = some c := hi
    rw [tenth32_value] at hi
    cases hi
    have : F64.le F64.one (F64.ofBits32 tenth32) = true := (F64.le_iff _ _).2 ⟨a, _, ha, by rw [F64.value_ofBits32, tenth32_value], hle⟩
    revert this
    decide +kernel

/-! ### a scikit-learn pickle -/

/-- the fields of `skTree` -/
def skWords : List NodeWords :=
  [⟨1, 2, 0, 0x3fb999999999999a, 0, 1, 0x3ff0000000000000⟩, SkModelExample.leafWords, SkModelExample.leafWords]

/-- split on feature 0 at 0.1; the leaves are 1 and 2 -/
def skTree : SkTree where
  nOutputs := 1
  classes := [1]
  nNodes := 3
  nodes := [SkExample.split 1 2 0 tenth, SkExample.leaf, SkExample.leaf]
  values := [F64.zero, F64.one, F64.ofNat 2]

/-- the words of the values -/
def skValues : List (BitVec 64) := [0, 0x3ff0000000000000, 0x4000000000000000]

/-- `skTree` -/
def skTreeValue : PyVal :=
  .build (pyName "sklearn.tree._tree" "Tree") (.ofList [.int 2, SkModelExample.array [1] "i8" (SkModelExample.bytes (field64 1)), .int 1])
    (.dict (SkModelExample.items [("max_depth", .int 1), ("node_count", .int 3),
      ("nodes", SkModelExample.array [3] "V56" (SkModelExample.bytes (skWords.flatMap NodeWords.record))),
      ("values", SkModelExample.array [3, 1, 1] "f8" (SkModelExample.bytes (skValues.flatMap field64)))]))

/-- a regressor with this tree -/
def skRegressor : PyVal :=
  SkModelExample.inst "sklearn.tree.tree" "DecisionTreeRegressor"
    (SkModelExample.items [("n_classes_", SkModelExample.scalar "i8" (field64 1)), ("max_features_", .int 2), ("n_outputs_", .int 1), ("tree_", skTreeValue)])

/-- a classifier with this tree, learning rate 2 and prior 5 -/
def skValue : PyVal := SkModelExample.classifier 2 1 1 2 [skRegressor]

/-- what it means -/
def skModel : SkModel where
  classes := 2
  estimators := 1
  maxFeatures := 2
  learningRate := F64.ofNat 2
  prior := [F64.ofNat 5]
  trees := [skTree]
  shapes := [xgShape]

theorem skTree_ok : SkTreeOK skTree xgShape where
  shape := .node 0 _ 1 2 _ _ rfl rfl rfl (.leaf 1 _ rfl rfl) (.leaf 2 _ rfl rfl)
  distinct := by decide
  all := by decide
  nodeCount := rfl
  values := rfl
  features := by
    intro i hi n hn
    obtain rfl : i = 0 := by simpa [xgShape, BTree.inner] using hi
    simp [skTree] at hn
    subst hn
    simp [SkExample.split]
  small := by decide

theorem sk_is_tree : IsTree skTree skTreeValue := by
  refine ⟨_, _, _, _, _, rfl, ⟨[1], _, SkModelExample.is_array _ _ _, ?_, by decide⟩, rfl, rfl,
    ⟨_, _, skWords, _, SkModelExample.is_array _ _ _, rfl, by decide +kernel⟩, rfl,
    ⟨_, _, _, _, SkModelExample.is_array _ _ _, rfl, skValues, by decide +kernel, Or.inl ⟨rfl, rfl⟩⟩⟩
  show IsBytes (field64 1 ++ []) _
  rw [List.append_nil]
  rfl

theorem sk_is_classifier : IsClassifier skModel skValue := by
  refine ⟨_, octets "deviance".toList, _, _, [0, 1], _, "O", octet '<', .ofList [skRegressor], ⟨_, _, rfl⟩, rfl, rfl, rfl, rfl, ?_, rfl,
    ⟨[0, 1], _, SkModelExample.is_array _ _ _, ?_, by decide⟩, rfl, rfl, rfl, SkModelExample.is_array _ _ _,
    .cons ⟨_, _, _, _, _, _, ⟨_, _, rfl⟩, rfl, ⟨_, _, .plain _ _ rfl, rfl, rfl⟩, rfl, rfl, rfl, sk_is_tree⟩ .nil⟩
  · exact .logOdds _ _ _ (octet '<') _ (F64.ofNat 5) ⟨_, _, rfl⟩ rfl ⟨_, _, .plain _ _ rfl, rfl, rfl⟩
      ⟨[0x4014000000000000], by decide +kernel, Or.inl ⟨rfl, by simp⟩⟩
  · show IsBytes ([0, 1].flatMap field64) _
    simp [IsBytes, SkModelExample.bytes]

theorem skModel_ok : skModel.OK Platform.demo.maxAlloc where
  counts := ⟨by show 1 ≤ 2; omega, by show 1 ≤ 1; omega, rfl⟩
  trees := .cons skTree_ok .nil
  alloc := ⟨by show 2 * 8 ≤ 2 ^ 32; norm_num, by show 1 * 2 * 112 ≤ 2 ^ 32; norm_num⟩
  int := by show 1 * 2 < 2 ^ 63; norm_num
  features := by decide
  treeAlloc := by
    intro t ht
    have : t = skTree := by simpa [skModel] using ht
    subst this
    decide

theorem sk_writable : skValue.Writable Platform.demo SkModelExample.print := by
  repeat' first
    | exact trivial
    | exact ⟨by decide, by decide⟩
    | exact ⟨by decide, by decide +kernel⟩
    | apply And.intro

/-- what the walk returns -/
theorem sk_ref {row : List F64} (leaf : Nat) (x : F64) (hr : row ≠ []) (hw : Walk (SkGoes skTree.nodes (nanToZero row)) xgShape leaf)
    (hv : skTree.values[leaf]? = some x) : SkRefRaw Platform.demo skModel row 1
      [Platform.demo.mulAdd (Platform.demo.mulAdd x (F64.ofNat 2) (F64.ofNat 5)) F64.one F64.zero] := by
  refine ⟨fun _ _ => Platform.demo.mulAdd x (F64.ofNat 2) (F64.ofNat 5), fun i hi k hk => ?_, rfl⟩
  obtain rfl : k = 0 := by have : k < 1 := hk; omega
  obtain rfl : i = 0 := by omega
  exact ⟨skTree, xgShape, leaf, x, F64.ofNat 5, rfl, rfl, hr, hw, hv, rfl, rfl⟩

/-- C106 is false where a threshold lies between a value and its rounding: a model that splits at 0.1 and the value 0.1. scikit-learn
rounds the value (up), finds it greater than the threshold and returns 5 + 2 * 2; leaves returns 5 + 2 * 1. -/
theorem C106_sklearn_differs : Row32 [tenth, F64.zero] [tenth32, 0#32] ∧
    SkRefRaw Platform.demo skModel (widen [tenth32, 0#32]) 1 [F64.ofNat 9] ∧
    ∃ bs μ ens, Dumps Platform.demo noMemo skValue bs μ ∧ skEnsembleFromReader Platform.demo (bs ++ [octet '.']) false = .ok ens ∧
      ∀ x, (ens.predict Platform.demo [tenth, F64.zero] 0 1).run [x] = (.ok ⟨⟩, [F64.ofNat 7]) := by
  refine ⟨C106_xgboost_differs.1, ?_, ?_⟩
  · have := sk_ref (row := widen [tenth32, 0#32]) 2 (F64.ofNat 2) (by simp [widen])
      (.right ⟨SkExample.split 1 2 0 tenth, 0, F64.ofBits32 tenth32, rfl, rfl, by decide +kernel, ⟨fun h => (by cases h), ?_⟩⟩ (.leaf 2)) rfl
    · have e : Platform.demo.mulAdd (Platform.demo.mulAdd (F64.ofNat 2) (F64.ofNat 2) (F64.ofNat 5)) F64.one F64.zero = F64.ofNat 9 := by decide +kernel
      rwa [e] at this
    · intro h
      rw [← F64.le_iff] at h
      revert h
      decide +kernel
  · obtain ⟨ens, h1, -, -, -, -, -, h4, -, h2⟩ := C63_sklearn_file Platform.demo _ _ _ (dump_dumps _ sk_writable) _ sk_is_classifier skModel_ok
    refine ⟨_, _, ens, dump_dumps _ sk_writable, h1 [] false, fun x => ?_⟩
    refine (h2 _ 0 [x] _).2 ⟨by show 1 ≤ 1; omega, by rw [h4, if_pos (by decide)]; decide, 1, _, rfl, ?_, stored_one _ _⟩
    have := sk_ref (row := [tenth, F64.zero]) 1 F64.one (by simp)
      (.left ⟨_, 0, tenth, rfl, rfl, by decide +kernel, ⟨fun _ => (F64.le_iff _ _).1 (by decide +kernel), fun _ => rfl⟩⟩ (.leaf 1)) rfl
    have e : Platform.demo.mulAdd (Platform.demo.mulAdd F64.one (F64.ofNat 2) (F64.ofNat 5)) F64.one F64.zero = F64.ofNat 7 := by decide +kernel
    rwa [e] at this

/-- rows of float32 values are always on the right side -/
example (row32 : List (BitVec 32)) (row32' : List (BitVec 32)) (h : Row32 (widen row32) row32') : ¬ skModel.Crossing (widen row32) row32' := by
  rintro ⟨i, t, T, -, -, j, -, n, f, x, b, a, a', u, -, -, hx, hb, ha, ha', -, hc⟩
  rcases row32_get h f with ⟨h1, -⟩ | ⟨x', b', h1, h2, h3⟩
  · rw [h1] at hx; cases hx
  · rw [h1] at hx; rw [h2] at hb
    cases hx; cases hb
    rw [widen_get] at h1
    obtain ⟨c, -, rfl⟩ := Option.map_eq_some_iff.1 h1
    have := rounds32_self h3
    rw [F64.value_ofBits32] at ha
    rw [ha', ha] at this
    cases this
    rcases hc with ⟨h1, h2⟩ | ⟨h1, h2⟩ <;> exact absurd h1 (not_le.2 h2)

end SingleExample
end Leaves
