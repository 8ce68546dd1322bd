import Verif.Spec.JsonDoc
import Mathlib.Tactic.NormNum
import Verif.Proofs.Params
import Verif.Proofs.PickleOps

/-! Decoding JSON documents. -/

namespace Leaves

open Spec
theorem isLower_iff (c : Char) : c.isLower = true ↔ 97 ≤ c.toNat ∧ c.toNat ≤ 122 := by
  simp [Char.isLower, UInt32.le_iff_toNat_le]

theorem isUpper_iff (c : Char) : c.isUpper = true ↔ 65 ≤ c.toNat ∧ c.toNat ≤ 90 := by
  simp [Char.isUpper, UInt32.le_iff_toNat_le]

theorem toNat_toUpper (c : Char) : c.toUpper.toNat = if 97 ≤ c.toNat ∧ c.toNat ≤ 122 then c.toNat - 32 else c.toNat := by
  have h := isLower_iff c
  by_cases hc : c.isLower = true
  · rw [if_pos (h.1 hc)]
    obtain ⟨h1, h2⟩ := h.1 hc
    simp only [Char.isLower, Bool.and_eq_true, decide_eq_true_eq] at hc
    simp only [Char.toUpper, dif_pos hc]
    show (c.val + _).toNat = _
    rw [UInt32.toNat_add]
    simp
    omega
  · rw [if_neg (mt h.2 hc)]
    simp only [Char.isLower, Bool.and_eq_true, decide_eq_true_eq] at hc
    simp only [Char.toUpper, dif_neg hc]

theorem toNat_toLower (c : Char) : c.toLower.toNat = if 65 ≤ c.toNat ∧ c.toNat ≤ 90 then c.toNat + 32 else c.toNat := by
  have h := isUpper_iff c
  by_cases hc : c.isUpper = true
  · rw [if_pos (h.1 hc)]
    obtain ⟨h1, h2⟩ := h.1 hc
    simp only [Char.isUpper, decide_eq_true_eq] at hc
    simp only [Char.toLower, dif_pos hc]
    show (c.val + _).toNat = _
    rw [UInt32.toNat_add]
    simp
    omega
  · rw [if_neg (mt h.2 hc)]
    simp only [Char.isUpper, decide_eq_true_eq] at hc
    simp only [Char.toLower, dif_neg hc]

theorem char_eq_iff (c d : Char) : c = d ↔ c.toNat = d.toNat :=
  ⟨fun h => h ▸ rfl, fun h => by rw [← Char.ofNat_toNat c, h, Char.ofNat_toNat]⟩

theorem isAlpha_iff (c : Char) : c.isAlpha = true ↔ (65 ≤ c.toNat ∧ c.toNat ≤ 90) ∨ (97 ≤ c.toNat ∧ c.toNat ≤ 122) := by
  rw [Char.isAlpha, Bool.or_eq_true, isUpper_iff, isLower_iff]

theorem toNat_foldChar (c : Char) : (c.toNat = 0x17f ∧ (foldChar c).toNat = 83) ∨ (c.toNat = 0x212a ∧ (foldChar c).toNat = 75) ∨
    (97 ≤ c.toNat ∧ c.toNat ≤ 122 ∧ (foldChar c).toNat + 32 = c.toNat) ∨
    (c.toNat ≠ 0x17f ∧ c.toNat ≠ 0x212a ∧ (c.toNat < 97 ∨ 122 < c.toNat) ∧ (foldChar c).toNat = c.toNat) := by
  unfold foldChar
  by_cases h1 : c.toNat = 0x17f
  · rw [if_pos h1]; exact .inl ⟨h1, rfl⟩
  · rw [if_neg h1]
    by_cases h2 : c.toNat = 0x212a
    · rw [if_pos h2]; exact .inr (.inl ⟨h2, rfl⟩)
    · rw [if_neg h2, toNat_toUpper]
      split_ifs <;> omega

theorem toLower_cases (c : Char) : (65 ≤ c.toNat ∧ c.toNat ≤ 90 ∧ c.toLower.toNat = c.toNat + 32) ∨
    ((c.toNat < 65 ∨ 90 < c.toNat) ∧ c.toLower.toNat = c.toNat) := by
  rw [toNat_toLower]
  split_ifs <;> omega

theorem fold_long {c : Char} (h : c.toNat = 0x17f) : foldChar c = 'S' := by rw [foldChar, if_pos h]

theorem fold_kelvin {c : Char} (h : c.toNat = 0x212a) : foldChar c = 'K' := by
  rw [foldChar, if_neg (by rw [h]; decide), if_pos h]

theorem fold_lower {c : Char} (n : Nat) (h : c.toNat = n) (h1 : 97 ≤ n ∧ n ≤ 122) : (foldChar c).toNat + 32 = n := by
  have := toNat_foldChar c
  omega

theorem fold_upper {c : Char} (n : Nat) (h : c.toNat = n) (h1 : n < 97) : (foldChar c).toNat = n := by
  have := toNat_foldChar c
  omega

theorem sameLetter_iff (c d : Char) : SameLetter c d ↔ foldChar c = foldChar d := by
  have hs : (foldChar 's').toNat = 83 := by have := fold_lower (c := 's') 115 rfl ⟨by decide, by decide⟩; omega
  have hS := fold_upper (c := 'S') 83 rfl (by decide)
  have hk : (foldChar 'k').toNat = 75 := by have := fold_lower (c := 'k') 107 rfl ⟨by decide, by decide⟩; omega
  have hK := fold_upper (c := 'K') 75 rfl (by decide)
  constructor
  · rintro (rfl | ⟨ha, hb, he⟩ | ⟨l, rfl | rfl, ⟨rfl, hd⟩ | ⟨rfl, hd⟩⟩ | ⟨l, rfl | rfl, ⟨rfl, hd⟩ | ⟨rfl, hd⟩⟩)
    · rfl
    · rw [isAlpha_iff] at ha hb
      rw [char_eq_iff] at he ⊢
      have := toNat_foldChar c
      have := toNat_foldChar d
      have := toLower_cases c
      have := toLower_cases d
      omega
    · rw [fold_long hd, char_eq_iff, hs]; rfl
    · rw [fold_long hd, char_eq_iff, hs]; rfl
    · rw [fold_long hd, char_eq_iff, hS]; rfl
    · rw [fold_long hd, char_eq_iff, hS]; rfl
    · rw [fold_kelvin hd, char_eq_iff, hk]; rfl
    · rw [fold_kelvin hd, char_eq_iff, hk]; rfl
    · rw [fold_kelvin hd, char_eq_iff, hK]; rfl
    · rw [fold_kelvin hd, char_eq_iff, hK]; rfl
  · intro h
    rw [char_eq_iff] at h
    have hc := toNat_foldChar c
    have hd := toNat_foldChar d
    have lc := toLower_cases c
    have ld := toLower_cases d
    by_cases hcd : c.toNat = d.toNat
    · exact .inl ((char_eq_iff c d).2 hcd)
    by_cases hal : c.isAlpha = true ∧ d.isAlpha = true
    · refine .inr (.inl ⟨hal.1, hal.2, ?_⟩)
      rw [isAlpha_iff, isAlpha_iff] at hal
      rw [char_eq_iff]
      omega
    · rw [isAlpha_iff, isAlpha_iff] at hal
      refine .inr (.inr ?_)
      rcases hc with ⟨c1, c2⟩ | ⟨c1, c2⟩ | hc | hc <;> rcases hd with ⟨d1, d2⟩ | ⟨d1, d2⟩ | hd | hd <;> try omega
      · exact .inl ⟨d, .inl ((char_eq_iff _ _).2 (show d.toNat = 115 by omega)), .inr ⟨rfl, c1⟩⟩
      · exact .inl ⟨d, .inr ((char_eq_iff _ _).2 (show d.toNat = 83 by omega)), .inr ⟨rfl, c1⟩⟩
      · exact .inr ⟨d, .inl ((char_eq_iff _ _).2 (show d.toNat = 107 by omega)), .inr ⟨rfl, c1⟩⟩
      · exact .inr ⟨d, .inr ((char_eq_iff _ _).2 (show d.toNat = 75 by omega)), .inr ⟨rfl, c1⟩⟩
      · exact .inl ⟨c, .inl ((char_eq_iff _ _).2 (show c.toNat = 115 by omega)), .inl ⟨rfl, d1⟩⟩
      · exact .inr ⟨c, .inl ((char_eq_iff _ _).2 (show c.toNat = 107 by omega)), .inl ⟨rfl, d1⟩⟩
      · exact .inl ⟨c, .inr ((char_eq_iff _ _).2 (show c.toNat = 83 by omega)), .inl ⟨rfl, d1⟩⟩
      · exact .inr ⟨c, .inr ((char_eq_iff _ _).2 (show c.toNat = 75 by omega)), .inl ⟨rfl, d1⟩⟩

theorem isField_iff (key name : Str) : isField key name = true ↔ SameKey key name := by
  unfold isField SameKey
  rw [beq_iff_eq]
  induction key generalizing name with
  | nil => cases name <;> simp
  | cons c cs ih =>
    cases name with
    | nil => simp
    | cons d ds => simp [sameLetter_iff, ih]

/-! ### members by name -/

theorem SameKey.refl (a : Str) : SameKey a a := (isField_iff a a).1 (by unfold isField; exact beq_self_eq_true _)

theorem SameKey.symm {a b : Str} (h : SameKey a b) : SameKey b a := by
  rw [← isField_iff] at h ⊢
  unfold isField at h ⊢
  rw [beq_iff_eq] at h ⊢
  exact h.symm

theorem SameKey.trans {a b c : Str} (h : SameKey a b) (h' : SameKey b c) : SameKey a c := by
  rw [← isField_iff] at h h' ⊢
  unfold isField at h h' ⊢
  rw [beq_iff_eq] at h h' ⊢
  exact h.trans h'

theorem values_eq (name : Str) : ∀ o : JsonObj, o.values name = (o.toList.filter fun m => isField m.1 name).map (·.2)
  | .nil => rfl
  | .cons k v rest => by
    rw [JsonObj.values, values_eq name rest, JsonObj.toList, List.filter_cons]
    split <;> rfl

theorem values_absent {o : JsonObj} {name : String} (h : Absent o name) : o.values name.toList = [] := by
  rw [values_eq, List.map_eq_nil_iff, List.filter_eq_nil_iff]
  intro m hm hf
  exact h m hm ((isField_iff _ _).1 hf)

theorem values_sole {o : JsonObj} {name : String} {v : Json} (h : Sole o name v) : o.values name.toList = [v] := by
  obtain ⟨a, b, ho, hn⟩ := h
  have hne : ∀ l : List (Str × Json), (∀ m ∈ l, ¬ SameKey m.1 name.toList) → l.filter (fun m => isField m.1 name.toList) = [] := by
    intro l hl
    rw [List.filter_eq_nil_iff]
    intro m hm hf
    exact hl m hm ((isField_iff _ _).1 hf)
  rw [values_eq, ho, List.filter_append, List.filter_cons, hne a fun m hm => hn m (List.mem_append_left _ hm),
    hne b fun m hm => hn m (List.mem_append_right _ hm), if_pos ((isField_iff _ _).2 (SameKey.refl _))]
  rfl

theorem decodeChild_eq (P : Platform) (name : Str) : ∀ (o : JsonObj) (r : JRaw),
    decodeChild P name o r = ((o.values name).map (decodeNode P)).getLast?.getD r
  | .nil, r => by simp [decodeChild, JsonObj.values]
  | .cons k v rest, r => by
    rw [decodeChild, decodeChild_eq P name rest, JsonObj.values]
    split
    · rw [List.map_cons, List.getLast?_cons, Option.getD_some]
    · rfl

theorem leafValue_skip (P : Platform) : ∀ (o : JsonObj) (x : Option F64), (∀ m ∈ o.toList, m.1 ≠ "leaf_value".toList) → leafValue P o x = x
  | .nil, _, _ => by rw [leafValue]
  | .cons k v rest, x, h => by
    rw [leafValue, if_neg (h (k, v) (by simp [JsonObj.toList]))]
    exact leafValue_skip P rest x fun m hm => h m (by simp [JsonObj.toList, hm])

theorem leafValue_sole (P : Platform) {t : Str} : ∀ (a : List (Str × Json)) (b : List (Str × Json)) (o : JsonObj) (x : Option F64),
    o.toList = a ++ ("leaf_value".toList, .num t) :: b → (∀ m ∈ a ++ b, ¬ SameKey m.1 "leaf_value".toList) →
    leafValue P o x = P.parseFloat t := by
  have key : ∀ m : Str × Json, ¬ SameKey m.1 "leaf_value".toList → m.1 ≠ "leaf_value".toList := fun m h he => h (he ▸ SameKey.refl _)
  intro a
  induction a with
  | nil =>
    intro b o x h hn
    cases o with
    | nil => simp [JsonObj.toList] at h
    | cons k v rest =>
      rw [JsonObj.toList, List.nil_append] at h
      injection h with h1 h2
      injection h1 with h3 h4
      rw [leafValue, if_pos h3, h4]
      exact leafValue_skip P rest _ fun m hm => key m (hn m (by rw [h2] at hm; simpa using hm))
  | cons m a ih =>
    intro b o x h hn
    cases o with
    | nil => simp [JsonObj.toList] at h
    | cons k v rest =>
      rw [JsonObj.toList, List.cons_append] at h
      injection h with h1 h2
      rw [leafValue]
      exact ih b rest _ h2 fun m' hm => hn m' (by rw [List.cons_append]; exact List.mem_cons_of_mem _ hm)

mutual
theorem readable_iff (P : Platform) : ∀ v : Json, v.readable P = true ↔ Floats P v
  | .null => by simp only [Json.readable, true_iff]; exact .null
  | .bool b => by simp only [Json.readable, true_iff]; exact .bool b
  | .str s => by simp only [Json.readable, true_iff]; exact .str s
  | .num t => by
    rw [Json.readable, Option.isSome_iff_exists]
    exact ⟨fun ⟨x, h⟩ => .num t x h, fun h => by cases h with | num _ x h => exact ⟨x, h⟩⟩
  | .arr items => by
    rw [Json.readable, readableArr_iff P items]
    exact ⟨fun h => .arr _ h, fun h => by cases h with | arr _ h => exact h⟩
  | .obj members => by
    rw [Json.readable, readableObj_iff P members]
    exact ⟨fun h => .obj _ h, fun h => by cases h with | obj _ h => exact h⟩
theorem readableArr_iff (P : Platform) : ∀ a : JsonArr, a.readable P = true ↔ FloatsArr P a
  | .nil => by simp only [JsonArr.readable, true_iff]; exact .nil
  | .cons x rest => by
    rw [JsonArr.readable, Bool.and_eq_true, readable_iff P x, readableArr_iff P rest]
    exact ⟨fun h => .cons _ _ h.1 h.2, fun h => by cases h with | cons _ _ h h' => exact ⟨h, h'⟩⟩
theorem readableObj_iff (P : Platform) : ∀ o : JsonObj, o.readable P = true ↔ FloatsObj P o
  | .nil => by simp only [JsonObj.readable, true_iff]; exact .nil
  | .cons k v rest => by
    rw [JsonObj.readable, Bool.and_eq_true, readable_iff P v, readableObj_iff P rest]
    exact ⟨fun h => .cons _ _ _ h.1 h.2, fun h => by cases h with | cons _ _ _ h h' => exact ⟨h, h'⟩⟩
end

theorem one_store {α : Type} {f : α → Json → Option α} {z : α} {v : Json} {o : JsonObj} {name : String} (h : Sole o name v) :
    (o.values name.toList).foldlM f z = f z v := by
  rw [values_sole h, List.foldlM_cons]
  simp

theorem no_store {α : Type} {f : α → Json → Option α} {z : α} {o : JsonObj} {name : String} (h : Absent o name) :
    (o.values name.toList).foldlM f z = some z := by
  rw [values_absent h]
  rfl

/-! ### documents of models -/

theorem threshold_store {P : Platform} {t : Json} {thr : JVal} (h : ThresholdValue P t thr) : storeInterface P t = some thr := by
  cases h with
  | num t x h => simp [storeInterface, Json.readable, h]
  | str s => simp [storeInterface, Json.readable]

theorem decodeNode_doc {P : Platform} {v : Json} {raw : JRaw} (h : NodeDoc P v raw) : decodeNode P v = raw := by
  induction h with
  | leaf o t v hv ht hn hr =>
    have hs : decodeSplit P o = some (0, .other, [], false, []) := by
      unfold decodeSplit
      rw [no_store (hn "split_index" (by simp [nodeNames])), no_store (hn "split_feature" (by simp [nodeNames])),
        no_store (hn "threshold" (by simp [nodeNames])), no_store (hn "decision_type" (by simp [nodeNames])),
        no_store (hn "default_left" (by simp [nodeNames])), no_store (hn "missing_type" (by simp [nodeNames])),
        no_store (hn "LeftChild" (by simp [nodeNames])), no_store (hn "RightChild" (by simp [nodeNames]))]
      rfl
    rw [decodeNode, hs]
    dsimp only
    obtain ⟨a, b, h1, h2⟩ := hv
    rw [if_pos ((readableObj_iff P o).2 hr), leafValue_sole P a b o none h1 h2, ht]
  | split o i f t thr d dl m ms l r jl jr hi hf ht hd hdl hm hno hl hr _ _ ihl ihr =>
    have h0 : ∃ n, (o.values "split_index".toList).foldlM storeUint32 0 = some n := by
      rcases hi with hi | ⟨hlt, hi⟩
      · exact ⟨_, no_store hi⟩
      · rw [one_store hi]
        exact ⟨i, (parseUint_decimal 32 i).trans (if_pos hlt)⟩
    obtain ⟨n, h0⟩ := h0
    have h1 : storeUint32 0 (.num (decimal f)) = some f := (parseUint_decimal 32 f).trans (if_pos hf.1)
    have hs : decodeSplit P o = some (f, thr, d, dl, m :: ms) := by
      unfold decodeSplit
      rw [h0, one_store hf.2, one_store ht.1, one_store hd, one_store hdl, one_store hm, no_store hno.1, no_store hno.2, h1, threshold_store ht.2]
      rfl
    rw [decodeNode, hs]
    dsimp only
    rw [decodeChild_eq, decodeChild_eq, values_sole hl, values_sole hr, List.map_singleton, List.map_singleton, ihl, ihr]
    rfl

theorem decodeTree_doc {P : Platform} {v : Json} {t : JTree} (h : TreeDoc P v t) : decodeTree P v = some t := by
  obtain ⟨o, n, root, rfl, hn, hl, hl', hc, hc', hr, hd, ha⟩ := h
  have h1 : storeInt 0 (.num (decimal n)) = some (n : Int) := atoi_decimal hn
  have h2 : storeUint32 0 (.num (decimal t.numCat)) = some t.numCat := (parseUint_decimal 32 _).trans (if_pos hc)
  rw [decodeTree, one_store hl', one_store hc', no_store ha, h1, h2, decodeChild_eq, values_sole hr, List.map_singleton, decodeNode_doc hd, ← hl]
  rfl

theorem decodeTrees_doc {P : Platform} : ∀ {items : JsonArr} {ts : List JTree}, List.Forall₂ (TreeDoc P) items.toList ts →
    decodeTrees P items = ts.map some
  | .nil, _, h => by
    rw [JsonArr.toList] at h
    cases h
    rfl
  | .cons x rest, _, h => by
    rw [JsonArr.toList] at h
    cases h with
    | cons hx h =>
      rw [decodeTrees, decodeTree_doc hx, decodeTrees_doc h]
      rfl

theorem depthArr_le {n : Nat} : ∀ {a : JsonArr}, (∀ x ∈ a.toList, x.depth ≤ n) → a.depth ≤ n
  | .nil, _ => by rw [JsonArr.depth]; exact Nat.zero_le _
  | .cons x rest, h => by
    rw [JsonArr.depth]
    exact Nat.max_le.2 ⟨h x (by simp [JsonArr.toList]), depthArr_le fun y hy => h y (by simp [JsonArr.toList, hy])⟩

theorem depthObj_le {n : Nat} : ∀ {o : JsonObj}, (∀ m ∈ o.toList, m.2.depth ≤ n) → o.depth ≤ n
  | .nil, _ => by rw [JsonObj.depth]; exact Nat.zero_le _
  | .cons k v rest, h => by
    rw [JsonObj.depth]
    exact Nat.max_le.2 ⟨h (k, v) (by simp [JsonObj.toList]), depthObj_le fun y hy => h y (by simp [JsonObj.toList, hy])⟩

theorem depth_le {n : Nat} {v : Json} (h : NestedAtMost n v) : v.depth ≤ n := by
  induction h with
  | null | bool | num | str => simp [Json.depth]
  | arr n items _ ih => rw [Json.depth]; exact Nat.succ_le_succ (depthArr_le ih)
  | obj n members _ ih => rw [Json.depth]; exact Nat.succ_le_succ (depthObj_le ih)

mutual
theorem nested_of_depth : ∀ {v : Json} {n : Nat}, v.depth ≤ n → NestedAtMost n v
  | .null, n, _ => .null n
  | .bool b, n, _ => .bool n b
  | .num t, n, _ => .num n t
  | .str s, n, _ => .str n s
  | .arr a, 0, h => by rw [Json.depth] at h; exact absurd h (Nat.not_succ_le_zero _)
  | .arr a, n + 1, h => .arr n a (nestedArr_of_depth (by rw [Json.depth] at h; exact Nat.le_of_succ_le_succ h))
  | .obj a, 0, h => by rw [Json.depth] at h; exact absurd h (Nat.not_succ_le_zero _)
  | .obj a, n + 1, h => .obj n a (nestedObj_of_depth (by rw [Json.depth] at h; exact Nat.le_of_succ_le_succ h))
theorem nestedArr_of_depth : ∀ {a : JsonArr} {n : Nat}, a.depth ≤ n → ∀ x ∈ a.toList, NestedAtMost n x
  | .nil, _, _, x, hx => by rw [JsonArr.toList] at hx; cases hx
  | .cons y rest, n, h, x, hx => by
    rw [JsonArr.depth] at h
    have h := Nat.max_le.1 h
    rw [JsonArr.toList, List.mem_cons] at hx
    rcases hx with hx | hx
    · rw [hx]; exact nested_of_depth h.1
    · exact nestedArr_of_depth h.2 x hx
theorem nestedObj_of_depth : ∀ {o : JsonObj} {n : Nat}, o.depth ≤ n → ∀ m ∈ o.toList, NestedAtMost n m.2
  | .nil, _, _, x, hx => by rw [JsonObj.toList] at hx; cases hx
  | .cons k v rest, n, h, x, hx => by
    rw [JsonObj.depth] at h
    have h := Nat.max_le.1 h
    rw [JsonObj.toList, List.mem_cons] at hx
    rcases hx with hx | hx
    · rw [hx]; exact nested_of_depth h.1
    · exact nestedObj_of_depth h.2 x hx
end

theorem decodeEnsemble_doc {P : Platform} {v : Json} {K : Nat} {M : Int} {ts : List JTree} (h : ModelDoc P v K M ts)
    (hd : NestedAtMost P.jsonDepth v) : decodeEnsemble P v = some ⟨"tree".toList, "v2".toList, K, K, M, ts.map some⟩ := by
  obtain ⟨o, items, rfl, h1, h2, hK, h3, h4, hM, hM', h5, h6, h7⟩ := h
  have e1 : storeInt 0 (.num (decimal K)) = some (K : Int) := atoi_decimal hK
  have e2 : storeInt 0 (.num (decimalI M)) = some M := atoi_decimalI ⟨hM, by omega⟩
  unfold decodeEnsemble
  rw [if_neg (Nat.not_lt.2 (depth_le hd))]
  dsimp only
  rw [one_store h1, one_store h2, one_store h3, one_store h4, one_store h5, one_store h6, e1, e2]
  dsimp only [storeTrees]
  rw [decodeTrees_doc h7]
  rfl

end Leaves
