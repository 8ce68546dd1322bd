import Verif.Proofs.JsonDoc
import Verif.Props.JsonModel
import Verif.Props.Crash

/-!
# C67, C69 for JSON documents
-/

namespace Leaves

open Spec

/-- C67 for documents: every JSON document with the members of a well-formed dump, in any order and with any other members, loads, and
the loaded model predicts as the dump says. -/
theorem C67_document (P : Platform) (v : Json) (K N : Nat) (M : Int) (ts : List JTree) (doc : ModelDoc P v K M ts)
    (nest : NestedAtMost P.jsonDepth v) (counts : 1 ≤ K ∧ 1 ≤ N ∧ ts.length = N * K)
    (trees : ∀ t ∈ ts, ∃ W, JTreeOK t W ∧ jLeaves t.root * 24 ≤ P.maxAlloc ∧ 4 * W ≤ P.maxAlloc) :
    ∃ ens, lgEnsembleFromDocument P (some v) false = .ok ens ∧ Fits ens ∧ ens.transform = .raw K ∧
      ens.nRawOutputGroups = K ∧ ens.nEstimators = .ok N ∧ ens.nOutputGroups = K ∧
      ens.nFeatures = (if 0 < M then M + 1 else 0) ∧
      (∀ fvals n w, n ≤ N → (IsRaw P ens.base fvals n w ↔ JRefRaw P P.out ts K fvals n w)) ∧
      ∀ fvals req m m', ((ens.predict P fvals req m.length).run m = (.ok ⟨⟩, m') ↔
        (K ≤ m.length ∧ ens.nFeatures ≤ fvals.length ∧ ∃ n w, Used req N n ∧ JRefRaw P P.out ts K fvals n w ∧ Stored m 0 w m')) := by
  have hK : K < 2 ^ 63 := by obtain ⟨_, _, _, _, _, h, _⟩ := doc; exact h
  have hM : M < 2 ^ 63 - 1 := by obtain ⟨_, _, _, _, _, _, _, _, _, h, _⟩ := doc; exact h
  unfold lgEnsembleFromDocument
  rw [Option.bind_some, decodeEnsemble_doc doc nest]
  exact C67_json_file P _ K N M ts ⟨rfl, rfl, rfl, rfl, ⟨rfl, hM⟩, rfl, counts, trees⟩ hK

/-! ## C69: what does not matter -/

/-- two values that fill every kind of field in the same way -/
structure SameValue (P : Platform) (v w : Json) : Prop where
  node : decodeNode P v = decodeNode P w
  tree : decodeTree P v = decodeTree P w
  floats : v.readable P = w.readable P
  string : ∀ old, storeString old v = storeString old w
  bool : ∀ old, storeBool old v = storeBool old w
  int : ∀ old, storeInt old v = storeInt old w
  uint : ∀ old, storeUint32 old v = storeUint32 old w
  interface : storeInterface P v = storeInterface P w
  trees : storeTrees P v = storeTrees P w
  float : asFloat P v = asFloat P w
  depth : w.depth ≤ v.depth

theorem SameValue.refl (P : Platform) (v : Json) : SameValue P v v :=
  ⟨rfl, rfl, rfl, fun _ => rfl, fun _ => rfl, fun _ => rfl, fun _ => rfl, rfl, rfl, rfl, Nat.le_refl _⟩

theorem SameValue.trans {P : Platform} {a b c : Json} (h : SameValue P a b) (g : SameValue P b c) : SameValue P a c :=
  ⟨h.node.trans g.node, h.tree.trans g.tree, h.floats.trans g.floats, fun x => (h.string x).trans (g.string x), fun x => (h.bool x).trans (g.bool x),
    fun x => (h.int x).trans (g.int x), fun x => (h.uint x).trans (g.uint x), h.interface.trans g.interface, h.trees.trans g.trees,
    h.float.trans g.float, g.depth.trans h.depth⟩

/-- names of fields that take any value -/
def anyNames : List String := ["threshold", "LeftChild", "RightChild", "Root"]

/-- storing the members one after the other gives the same result for each of the names -/
def SameStores {α : Type} (names : List String) (f : α → Json → Option α) (a b : JsonObj) : Prop :=
  ∀ name ∈ names, ∀ z, (a.values name.toList).foldlM f z = (b.values name.toList).foldlM f z

section
variable {α : Type} {names : List String} {f : α → Json → Option α}

theorem SameStores.cons {k : Str} {v w : Json} {a b : JsonObj} (hv : ∀ z, f z v = f z w) (h : SameStores names f a b) :
    SameStores names f (.cons k v a) (.cons k w b) := by
  intro name hn z
  rw [JsonObj.values, JsonObj.values]
  split
  · rw [List.foldlM_cons, List.foldlM_cons, hv]
    exact congrArg _ (funext fun z => h name hn z)
  · exact h name hn z

theorem SameStores.drop {k : Str} {v : Json} {a b : JsonObj} (hk : ∀ name ∈ names, ¬ SameKey k name.toList) (h : SameStores names f a b) : SameStores names f (.cons k v a) b := by
  intro name hn z
  rw [JsonObj.values, if_neg fun hc => hk name hn ((isField_iff _ _).1 hc)]
  exact h name hn z

theorem SameStores.null {k : Str} {v : Json} {a b : JsonObj} (hv : ∀ z, f z v = some z) (h : SameStores names f a b) :
    SameStores names f (.cons k v a) b := by
  intro name hn z
  rw [JsonObj.values]
  split
  · rw [List.foldlM_cons, hv]
    exact h name hn z
  · exact h name hn z

theorem SameStores.other {k : Str} {v w : Json} {a b : JsonObj} (hk : ∀ name ∈ names, ¬ SameKey k name.toList) (h : SameStores names f a b) :
    SameStores names f (.cons k v a) (.cons k w b) := by
  intro name hn z
  have := fun hc => hk name hn ((isField_iff _ _).1 hc)
  rw [JsonObj.values, JsonObj.values, if_neg this, if_neg this]
  exact h name hn z

theorem swap_values {k l : Str} {v w : Json} {a : JsonObj} (hk : ¬ SameKey k l) (name : String) :
    (JsonObj.cons k v (.cons l w a)).values name.toList = (JsonObj.cons l w (.cons k v a)).values name.toList := by
  simp only [JsonObj.values]
  by_cases h1 : isField k name.toList = true
  · by_cases h2 : isField l name.toList = true
    · exact absurd (SameKey.trans ((isField_iff _ _).1 h1) (SameKey.symm ((isField_iff _ _).1 h2))) hk
    · rw [if_pos h1, if_neg h2, if_neg h2, if_pos h1]
  · rw [if_neg h1, if_neg h1]

theorem SameStores.swap {k l : Str} {v w : Json} {a : JsonObj} (hk : ¬ SameKey k l) :
    SameStores names f (.cons k v (.cons l w a)) (.cons l w (.cons k v a)) := by
  intro name _ z
  rw [swap_values hk]

theorem SameStores.replace {k : Str} {v w : Json} {a : JsonObj} (hv : ∀ z, f z w = (f z v).bind fun z => f z w) :
    SameStores names f (.cons k v (.cons k w a)) (.cons k w a) := by
  intro name _ z
  simp only [JsonObj.values]
  split
  · rw [List.foldlM_cons, List.foldlM_cons, hv z]
    cases f z v <;> rfl
  · rfl

theorem SameStores.trans {a b c : JsonObj} (h : SameStores names f a b) (h' : SameStores names f b c) : SameStores names f a c :=
  fun name hn z => (h name hn z).trans (h' name hn z)

end

/-- two objects whose members fill the known fields in the same way -/
structure SameMembers (P : Platform) (a b : JsonObj) : Prop where
  string : SameStores plainNames storeString a b
  bool : SameStores plainNames storeBool a b
  int : SameStores plainNames storeInt a b
  uint : SameStores plainNames storeUint32 a b
  interface : SameStores anyNames (fun _ => storeInterface P) a b
  trees : SameStores ["tree_info"] (fun _ => storeTrees P) a b
  child : ∀ name ∈ childNames, ∀ r, decodeChild P name.toList a r = decodeChild P name.toList b r
  floats : a.readable P = b.readable P
  leaf : ∀ x, leafValue P a x = leafValue P b x
  depth : b.depth ≤ a.depth

theorem SameMembers.split {P : Platform} {a b : JsonObj} (h : SameMembers P a b) : decodeSplit P a = decodeSplit P b := by
  unfold decodeSplit
  rw [h.uint "split_index" (by decide), h.uint "split_feature" (by decide), h.interface "threshold" (by decide),
    h.string "decision_type" (by decide), h.bool "default_left" (by decide), h.string "missing_type" (by decide),
    h.interface "LeftChild" (by decide), h.interface "RightChild" (by decide)]

theorem SameMembers.value {P : Platform} {a b : JsonObj} (h : SameMembers P a b) : SameValue P (.obj a) (.obj b) where
  node := by
    rw [decodeNode, decodeNode, h.split, h.floats, h.leaf, h.child "left_child" (by decide), h.child "right_child" (by decide)]
  tree := by
    rw [decodeTree, decodeTree, h.int "num_leaves" (by decide), h.uint "num_cat" (by decide), h.interface "Root" (by decide),
      h.child "tree_structure" (by decide)]
  floats := by rw [Json.readable, Json.readable]; exact h.floats
  string := fun _ => rfl
  bool := fun _ => rfl
  int := fun _ => rfl
  uint := fun _ => rfl
  interface := by unfold storeInterface; rw [Json.readable, Json.readable, h.floats]
  trees := rfl
  float := rfl
  depth := by rw [Json.depth, Json.depth]; exact Nat.succ_le_succ h.depth

/-- two arrays whose elements fill fields in the same way -/
structure SameItems (P : Platform) (a b : JsonArr) : Prop where
  floats : a.readable P = b.readable P
  trees : decodeTrees P a = decodeTrees P b
  depth : b.depth ≤ a.depth

theorem SameItems.value {P : Platform} {a b : JsonArr} (h : SameItems P a b) : SameValue P (.arr a) (.arr b) where
  node := rfl
  tree := rfl
  floats := by rw [Json.readable, Json.readable]; exact h.floats
  string := fun _ => rfl
  bool := fun _ => rfl
  int := fun _ => rfl
  uint := fun _ => rfl
  interface := by unfold storeInterface; rw [Json.readable, Json.readable, h.floats]
  trees := by rw [storeTrees, storeTrees, h.trees]
  float := rfl
  depth := by rw [Json.depth, Json.depth]; exact Nat.succ_le_succ h.depth

theorem SameMembers.swap {P : Platform} {k l : Str} {v w : Json} {a : JsonObj} (hk : ¬ SameKey k l) :
    SameMembers P (.cons k v (.cons l w a)) (.cons l w (.cons k v a)) where
  string := .swap hk
  bool := .swap hk
  int := .swap hk
  uint := .swap hk
  interface := .swap hk
  trees := .swap hk
  child := by
    intro name _ r
    rw [decodeChild_eq, decodeChild_eq, swap_values hk]
  floats := by simp only [JsonObj.readable]; rw [Bool.and_left_comm]
  leaf := by
    intro x
    simp only [leafValue]
    by_cases h1 : k = "leaf_value".toList
    · by_cases h2 : l = "leaf_value".toList
      · exact absurd (by rw [h1, h2]; exact SameKey.refl _) hk
      · rw [if_pos h1, if_neg h2, if_pos h1]
    · rw [if_neg h1, if_neg h1]
  depth := by simp only [JsonObj.depth]; omega

theorem SameMembers.replace {P : Platform} {k : Str} {v w : Json} {a : JsonObj} (hv : Replaced P v w) :
    SameMembers P (.cons k v (.cons k w a)) (.cons k w a) := by
  have hf : v.readable P = true := by
    rw [readable_iff]
    cases hv with
    | str => exact .str _
    | bool => exact .bool _
    | num _ _ _ h => exact h
    | arr _ _ h => exact .arr _ h
    | obj _ _ h => exact .obj _ h
  have hi : ∃ x, storeInterface P v = some x := by
    unfold storeInterface
    rw [if_pos hf]
    cases hv with
    | num n t _ h =>
      cases h with
      | num _ x h => exact ⟨.num x, by dsimp only; rw [h]; rfl⟩
    | _ => exact ⟨_, rfl⟩
  obtain ⟨x, hi⟩ := hi
  have hn : ∀ n : Nat, n < 2 ^ 31 → ∀ t : Str, (∀ z : Int, storeInt z (.num t) = (storeInt z (.num (decimal n))).bind fun z => storeInt z (.num t)) ∧
      ∀ z : Nat, storeUint32 z (.num t) = (storeUint32 z (.num (decimal n))).bind fun z => storeUint32 z (.num t) := by
    intro n hn t
    have h1 : ∀ z, storeInt z (.num (decimal n)) = some (n : Int) := fun _ => atoi_decimal (by omega)
    have h2 : ∀ z, storeUint32 z (.num (decimal n)) = some n := fun _ => (parseUint_decimal 32 n).trans (if_pos (by omega))
    exact ⟨fun z => by rw [h1]; rfl, fun z => by rw [h2]; rfl⟩
  refine ⟨.replace ?_, .replace ?_, .replace ?_, .replace ?_, .replace ?_, .replace ?_, ?_, ?_, ?_, ?_⟩
  · intro z; cases hv <;> rfl
  · intro z; cases hv <;> rfl
  · intro z
    cases hv with
    | num n t h _ => exact (hn n h t).1 z
    | _ => rfl
  · intro z
    cases hv with
    | num n t h _ => exact (hn n h t).2 z
    | _ => rfl
  · intro z
    rw [hi]
    rfl
  · intro z; cases hv <;> rfl
  · intro name _ r
    simp only [decodeChild]
    split <;> rfl
  · simp only [JsonObj.readable]
    rw [hf, Bool.true_and]
  · intro x
    simp only [leafValue]
    split <;> rfl
  · simp only [JsonObj.depth]; omega

theorem plain_ne {name other : String} (hn : name ∈ plainNames) (ho : other ∈ knownNames) (hp : other ∉ plainNames) :
    ¬ SameKey name.toList other.toList := by
  rw [← isField_iff]
  exact (by decide +kernel : ∀ name ∈ plainNames, ∀ other ∈ knownNames, other ∉ plainNames → ¬ isField name.toList other.toList = true) name hn other ho hp

theorem child_ne {name other : String} (hn : name ∈ childNames) (ho : other ∈ knownNames) (hp : other ∉ childNames) :
    ¬ SameKey name.toList other.toList := by
  rw [← isField_iff]
  exact (by decide +kernel : ∀ name ∈ childNames, ∀ other ∈ knownNames, other ∉ childNames → ¬ isField name.toList other.toList = true) name hn other ho hp

mutual
theorem Spec.Rearranged.same {P : Platform} : ∀ {v w : Json}, Rearranged P v w → SameValue P v w
  | _, _, .refl v => .refl P v
  | _, _, .arr a b h => h.same.value
  | _, _, .obj a b h => h.same.value
theorem Spec.RearrangedArr.same {P : Platform} : ∀ {a b : JsonArr}, RearrangedArr P a b → SameItems P a b
  | _, _, .nil => ⟨rfl, rfl, Nat.le_refl _⟩
  | _, _, .cons x y a b hx h => by
    have hx := hx.same
    have h := h.same
    refine ⟨?_, ?_, ?_⟩
    · rw [JsonArr.readable, JsonArr.readable, hx.floats, h.floats]
    · rw [decodeTrees, decodeTrees, hx.tree, h.trees]
    · rw [JsonArr.depth, JsonArr.depth]
      have := hx.depth
      have := h.depth
      omega
  | _, _, .empty a b h => by
    have h := h.same
    refine ⟨?_, ?_, ?_⟩
    · rw [JsonArr.readable, JsonArr.readable, h.floats]; rfl
    · rw [decodeTrees, decodeTrees, h.trees]; rfl
    · rw [JsonArr.depth, JsonArr.depth]
      have := h.depth
      have : Json.null.depth = 0 := rfl
      omega
theorem Spec.RearrangedObj.same {P : Platform} : ∀ {a b : JsonObj}, RearrangedObj P a b → SameMembers P a b
  | _, _, .nil => ⟨fun _ _ _ => rfl, fun _ _ _ => rfl, fun _ _ _ => rfl, fun _ _ _ => rfl, fun _ _ _ => rfl, fun _ _ _ => rfl, fun _ _ _ => rfl,
      rfl, fun _ => rfl, Nat.le_refl _⟩
  | _, _, .cons k v w a b hv h => by
    have hv := hv.same
    have h := h.same
    refine ⟨.cons hv.string h.string, .cons hv.bool h.bool, .cons hv.int h.int, .cons hv.uint h.uint, .cons (fun _ => hv.interface) h.interface,
      .cons (fun _ => hv.trees) h.trees, fun name hn r => ?_, ?_, fun x => ?_, ?_⟩
    · rw [decodeChild, decodeChild, hv.node, h.child name hn]
    · rw [JsonObj.readable, JsonObj.readable, hv.floats, h.floats]
    · rw [leafValue, leafValue, hv.float, h.leaf]
    · rw [JsonObj.depth, JsonObj.depth]
      have := hv.depth
      have := h.depth
      omega
  | _, _, .drop k v a b hk hv h => by
    have h := h.same
    have plain : ∀ name ∈ plainNames, ¬ SameKey k name.toList := fun name hn => hk name (by revert name; decide)
    refine ⟨.drop plain h.string, .drop plain h.bool, .drop plain h.int, .drop plain h.uint,
      .drop (fun name hn => hk name (by revert name; decide)) h.interface, .drop (fun name hn => hk name (by revert name; decide)) h.trees,
      fun name hn r => ?_, ?_, fun x => ?_, ?_⟩
    · rw [decodeChild, if_neg fun hc => hk name (by clear hc; revert name; decide) ((isField_iff _ _).1 hc), h.child name hn]
    · rw [JsonObj.readable, (readable_iff P v).2 hv, Bool.true_and, h.floats]
    · rw [leafValue, if_neg fun hc => hk "leaf_value" (by decide) (by rw [hc]; exact SameKey.refl _), h.leaf]
    · rw [JsonObj.depth]
      have := h.depth
      omega
  | _, _, .null k name a b hn hk h => by
    have h := h.same
    have hd : ∀ other ∈ knownNames, other ∉ plainNames → ¬ SameKey k other.toList := fun other ho hp hc =>
      plain_ne hn ho hp (SameKey.trans (SameKey.symm hk) hc)
    refine ⟨.null (fun _ => rfl) h.string, .null (fun _ => rfl) h.bool, .null (fun _ => rfl) h.int, .null (fun _ => rfl) h.uint,
      .drop (fun o ho => hd o (by revert o; decide) (by revert o; decide)) h.interface,
      .drop (fun o ho => hd o (by revert o; decide) (by revert o; decide)) h.trees, fun o ho r => ?_, ?_, fun x => ?_, ?_⟩
    · rw [decodeChild, if_neg fun hc => hd o (by clear hc; revert o; decide) (by clear hc; revert o; decide) ((isField_iff _ _).1 hc), h.child o ho]
    · rw [JsonObj.readable, h.floats]
      rfl
    · rw [leafValue, if_neg fun hc => hd "leaf_value" (by decide) (by decide) (by rw [hc]; exact SameKey.refl _), h.leaf]
    · rw [JsonObj.depth]
      have := h.depth
      omega
  | _, _, .empty k name a b hn hk h => by
    have h := h.same
    have hd : ∀ other ∈ knownNames, other ∉ childNames → ¬ SameKey k other.toList := fun other ho hp hc =>
      child_ne hn ho hp (SameKey.trans (SameKey.symm hk) hc)
    have plain : ∀ name ∈ plainNames, ¬ SameKey k name.toList := fun o ho => hd o (by revert o; decide) (by revert o; decide)
    refine ⟨.other plain h.string, .other plain h.bool, .other plain h.int, .other plain h.uint,
      .other (fun o ho => hd o (by revert o; decide) (by revert o; decide)) h.interface,
      .other (fun o ho => hd o (by revert o; decide) (by revert o; decide)) h.trees, fun o ho r => ?_, ?_, fun x => ?_, ?_⟩
    · rw [decodeChild, decodeChild, h.child o ho]
      rfl
    · rw [JsonObj.readable, JsonObj.readable, h.floats]
      rfl
    · rw [leafValue, leafValue, h.leaf]
      rfl
    · rw [JsonObj.depth, JsonObj.depth]
      have := h.depth
      have : Json.null.depth = 0 := rfl
      omega
  | _, _, .swap k l v w a hk => .swap hk
  | _, _, .replace k v w a hv => .replace hv
  | _, _, .trans a b c h h' => by
    have h := h.same
    have h' := h'.same
    exact ⟨h.string.trans h'.string, h.bool.trans h'.bool, h.int.trans h'.int, h.uint.trans h'.uint, h.interface.trans h'.interface,
      h.trees.trans h'.trees, fun name hn r => (h.child name hn r).trans (h'.child name hn r), h.floats.trans h'.floats,
      fun x => (h.leaf x).trans (h'.leaf x), h'.depth.trans h.depth⟩
end

/-- C69: the result of loading a document, model or error, depends neither on the order of members with different keys, nor on members
with unknown keys, nor on members that a later member with the same key replaces, nor on `null` in place of plain values, at any
depth. Missing, because false: unknown members
with numbers that are no float64 (`C69_unreadable_member`). -/
theorem C69_rearranged_partial (P : Platform) (v w : Json) (h : Rearranged P v w) (nest : NestedAtMost P.jsonDepth v) (lt : Bool) :
    lgEnsembleFromDocument P (some v) lt = lgEnsembleFromDocument P (some w) lt := by
  have hs := h.same
  have hd := depth_le nest
  have : decodeEnsemble P v = decodeEnsemble P w := by
    unfold decodeEnsemble
    rw [if_neg (Nat.not_lt.2 hd), if_neg (Nat.not_lt.2 (hs.depth.trans hd))]
    cases h with
    | refl => rfl
    | arr => rfl
    | obj a b h =>
      have h := h.same
      dsimp only
      rw [h.string "name" (by decide), h.string "version" (by decide), h.int "num_class" (by decide), h.int "num_tree_per_iteration" (by decide),
        h.int "max_feature_idx" (by decide), h.trees "tree_info" (by decide)]
  unfold lgEnsembleFromDocument
  rw [Option.bind_some, Option.bind_some, this]

namespace JsonDocExample

open JsonModelExample (t1 t2 t1_ok t2_ok)
open LgExample (platform)

/-- an object -/
def object : List (String × Json) → Json := fun l => .obj (l.foldr (fun m o => .cons m.1.toList m.2 o) .nil)
/-- an array -/
def array : List Json → Json := fun l => .arr (l.foldr .cons .nil)
/-- a number -/
def number (s : String) : Json := .num s.toList
/-- a string -/
def text (s : String) : Json := .str s.toList

/-- a leaf as LightGBM writes it -/
def leafObj (index value : String) : Json := object [("leaf_index", number index), ("leaf_value", number value), ("leaf_count", number "38")]

/-- the tree `t1` as a document; the left split has its members in another order -/
def rootDoc : Json := object [("split_index", number "0"), ("split_feature", number "0"), ("split_gain", number "312"), ("threshold", number "5"),
  ("decision_type", text "<="), ("default_left", .bool true), ("missing_type", text "NaN"), ("internal_value", number "0"),
  ("left_child", object [("right_child", leafObj "1" "20"), ("missing_type", text "None"), ("decision_type", text "=="),
    ("threshold", text "1||33"), ("left_child", leafObj "0" "10"), ("default_left", .bool false), ("split_feature", number "1")]),
  ("right_child", object [("split_index", number "2"), ("split_feature", number "0"), ("threshold", number "9"), ("decision_type", text "<="),
    ("default_left", .bool true), ("missing_type", text "None"), ("left_child", leafObj "2" "30"), ("right_child", leafObj "3" "40")])]

/-- a document of the model with the trees `t1` and `t2` -/
def modelDoc : Json := object [("name", text "tree"), ("version", text "v2"), ("num_class", number "2"), ("num_tree_per_iteration", number "2"),
  ("label_index", number "0"), ("max_feature_idx", number "1"), ("feature_names", array [text "Column_0", text "Column_1"]),
  ("tree_info", array [
    object [("tree_index", number "0"), ("num_leaves", number "4"), ("num_cat", number "1"), ("shrinkage", number "1"), ("tree_structure", rootDoc)],
    object [("num_leaves", number "1"), ("num_cat", number "0"), ("tree_structure", object [("leaf_value", number "7")])]])]

theorem sole_of {o : JsonObj} {name : String} {v : Json} (h : o.toList.filter (fun m => isField m.1 name.toList) = [(name.toList, v)]) :
    Sole o name v := by
  obtain ⟨a, b, e, ha, -, hb⟩ := List.filter_eq_cons_iff.1 h
  refine ⟨a, b, e, fun m hm hs => ?_⟩
  rcases List.mem_append.1 hm with hm | hm
  · exact ha m hm ((isField_iff _ _).2 hs)
  · exact List.filter_eq_nil_iff.1 hb m hm ((isField_iff _ _).2 hs)

theorem absent_of {o : JsonObj} {name : String} (h : (o.toList.filter fun m => isField m.1 name.toList).length = 0) : Absent o name := by
  intro m hm hs
  rw [List.length_eq_zero_iff, List.filter_eq_nil_iff] at h
  exact h m hm ((isField_iff _ _).2 hs)

theorem leaf_of {o : JsonObj} {t : Str} {x : F64} (h : o.toList.filter (fun m => isField m.1 "leaf_value".toList) = [("leaf_value".toList, .num t)])
    (hx : platform.parseFloat t = some x) (hn : nodeNames.all (fun name => o.toList.all fun m => !isField m.1 name.toList) = true)
    (hr : o.readable platform = true) : NodeDoc platform (.obj o) (.leafLike (some x)) := by
  refine .leaf o t x (sole_of h) hx (fun name hname m hm hs => ?_) ((readableObj_iff _ _).1 hr)
  have := List.all_eq_true.1 (List.all_eq_true.1 hn name hname) m hm
  rw [(isField_iff _ _).2 hs] at this
  cases this

theorem root_doc : NodeDoc platform rootDoc t1.root := by
  refine .split _ 0 0 (number "5") _ _ true _ _ _ _ _ _ (.inr ⟨by decide, sole_of rfl⟩) ⟨by decide, sole_of rfl⟩
    ⟨sole_of rfl, .num _ _ (by decide +kernel)⟩ (sole_of rfl) (sole_of rfl) (sole_of rfl) ⟨absent_of rfl, absent_of rfl⟩ (sole_of rfl) (sole_of rfl) ?_ ?_
  · exact .split _ 0 1 (text "1||33") _ _ false _ _ _ _ _ _ (.inl (absent_of rfl)) ⟨by decide, sole_of rfl⟩
      ⟨sole_of rfl, .str _⟩ (sole_of rfl) (sole_of rfl) (sole_of rfl) ⟨absent_of rfl, absent_of rfl⟩ (sole_of rfl) (sole_of rfl)
      (leaf_of rfl (by decide +kernel) (by decide +kernel) (by decide +kernel)) (leaf_of rfl (by decide +kernel) (by decide +kernel) (by decide +kernel))
  · exact .split _ 2 0 (number "9") _ _ true _ _ _ _ _ _ (.inr ⟨by decide, sole_of rfl⟩) ⟨by decide, sole_of rfl⟩
      ⟨sole_of rfl, .num _ _ (by decide +kernel)⟩ (sole_of rfl) (sole_of rfl) (sole_of rfl) ⟨absent_of rfl, absent_of rfl⟩ (sole_of rfl) (sole_of rfl)
      (leaf_of rfl (by decide +kernel) (by decide +kernel) (by decide +kernel)) (leaf_of rfl (by decide +kernel) (by decide +kernel) (by decide +kernel))

theorem model_doc : ModelDoc platform modelDoc 2 1 [t1, t2] := by
  refine ⟨_, _, rfl, sole_of rfl, sole_of rfl, by decide, sole_of rfl, sole_of rfl, by decide, by decide, sole_of rfl, sole_of rfl,
    .cons ?_ (.cons ?_ .nil)⟩
  · exact ⟨_, 4, _, rfl, by decide, rfl, sole_of rfl, by decide, sole_of rfl, sole_of rfl, root_doc, absent_of rfl⟩
  · refine ⟨_, 1, _, rfl, by decide, rfl, sole_of rfl, by decide, sole_of rfl, sole_of rfl, ?_, absent_of rfl⟩
    exact leaf_of rfl (by decide +kernel) (by decide +kernel) (by decide +kernel)

theorem model_nested : NestedAtMost platform.jsonDepth modelDoc := nested_of_depth (by decide +kernel)

/-- C67 applies to the document. -/
example : ∃ ens, lgEnsembleFromDocument platform (some modelDoc) false = .ok ens ∧ ens.nOutputGroups = 2 ∧ ens.nFeatures = 2 := by
  obtain ⟨ens, h, -, -, -, -, h1, h2, -⟩ := C67_document platform modelDoc 2 1 1 [t1, t2] model_doc model_nested (by decide) (by
    intro t ht
    simp only [List.mem_cons, List.not_mem_nil, or_false] at ht
    rcases ht with rfl | rfl
    · exact ⟨2, t1_ok, by decide, by decide⟩
    · exact ⟨0, t2_ok, by decide, by decide⟩)
  exact ⟨ens, h, h1, h2⟩

/-- a model of one leaf -/
def tiny (tree : Json) : Json := object [("name", text "tree"), ("version", text "v2"), ("num_class", number "1"),
  ("num_tree_per_iteration", number "1"), ("max_feature_idx", number "0"), ("tree_info", array [tree])]

/-- a tree -/
def tinyTree (leaves : String) (root : Json) : Json := object [("num_leaves", number leaves), ("num_cat", number "0"), ("tree_structure", root)]

/-- C69 applies: the name at the end, a comment in front and another one in the tree. -/
example : lgEnsembleFromDocument platform (some (object [("comment", array []), ("version", text "v2"), ("name", text "tree"), ("num_class", number "1"),
      ("num_tree_per_iteration", number "1"), ("max_feature_idx", number "0"),
      ("tree_info", array [tinyTree "1" (object [("note", object []), ("leaf_value", number "7")])])])) false =
    lgEnsembleFromDocument platform (some (tiny (tinyTree "1" (object [("leaf_value", number "7")])))) false := by
  have hu : UnknownKey "comment".toList ∧ UnknownKey "note".toList := by
    constructor
    · intro name hn
      rw [← isField_iff]
      revert name
      decide
    · intro name hn
      rw [← isField_iff]
      revert name
      decide
  refine C69_rearranged_partial platform _ _ ?_ (nested_of_depth (by decide +kernel)) false
  refine .obj _ _ (.drop _ _ _ _ hu.1 (.arr _ .nil) (.trans _ _ _ (.swap _ _ _ _ _ (by rw [← isField_iff]; decide)) ?_))
  refine .cons _ _ _ _ _ (.refl _) (.cons _ _ _ _ _ (.refl _) (.cons _ _ _ _ _ (.refl _) (.cons _ _ _ _ _ (.refl _)
    (.cons _ _ _ _ _ (.refl _) (.cons _ _ _ _ _ (.arr _ _ (.cons _ _ _ _ ?_ .nil)) .nil)))))
  refine .obj _ _ (.cons _ _ _ _ _ (.refl _) (.cons _ _ _ _ _ (.refl _) (.cons _ _ _ _ _ ?_ .nil)))
  exact .obj _ _ (.drop _ _ _ _ hu.2 (.obj _ .nil) (.cons _ _ _ _ _ (.refl _) .nil))

/-- C69 applies: of two numbers of classes the last one counts. -/
example : lgEnsembleFromDocument platform (some (object [("num_class", number "3"), ("num_class", number "1"), ("name", text "tree")])) false =
    lgEnsembleFromDocument platform (some (object [("num_class", number "1"), ("name", text "tree")])) false :=
  C69_rearranged_partial platform _ _ (.obj _ _ (.replace _ _ _ _ (.num 3 _ (by decide) ((readable_iff _ _).1 (by decide +kernel)))))
    (nested_of_depth (by decide +kernel)) false

/-- C69 applies: a `null` name counts for nothing, and an empty tree is the same as `null`. -/
example : lgEnsembleFromDocument platform (some (object [("name", text "tree"), ("Name", .null), ("tree_info", array [object []])])) false =
    lgEnsembleFromDocument platform (some (object [("name", text "tree"), ("tree_info", array [.null])])) false :=
  C69_rearranged_partial platform _ _ (.obj _ _ (.cons _ _ _ _ _ (.refl _) (.null _ "name" _ _ (by decide) (by rw [← isField_iff]; decide)
    (.cons _ _ _ _ _ (.arr _ _ (.empty _ _ .nil)) .nil)))) (nested_of_depth (by decide +kernel)) false

/-- C69 needs unknown members to have readable numbers: a number that is too large for a float64, in a member that means nothing, makes
the loader reject the leaf (and so the file). -/
theorem C69_unreadable_member : platform.parseFloat "1e999".toList = none ∧
    (∃ ens, lgEnsembleFromDocument platform (some (tiny (tinyTree "1" (object [("leaf_value", number "7")])))) false = .ok ens) ∧
    lgEnsembleFromDocument platform (some (tiny (tinyTree "1" (object [("leaf_value", number "7"), ("comment", number "1e999")])))) false =
      .err "json" := by
  obtain ⟨ens, h, -⟩ := SkModelExample.of_check (r := lgEnsembleFromDocument platform (some (tiny (tinyTree "1" (object [("leaf_value", number "7")])))) false)
    (fun _ => True) (by decide +kernel)
  exact ⟨by decide +kernel, ⟨ens, h⟩, by decide +kernel⟩

/-- Letter case does not matter in the names of members, except in `leaf_value`. -/
theorem C69_letter_case : (∃ ens, lgEnsembleFromDocument platform (some (tiny (object [("Num_Leaves", number "1"), ("NUM_CAT", number "0"),
      ("Tree_Structure", object [("leaf_value", number "7")])]))) false = .ok ens) ∧
    lgEnsembleFromDocument platform (some (tiny (tinyTree "1" (object [("LEAF_VALUE", number "7")])))) false = .err "unknown tree" := by
  obtain ⟨ens, h, -⟩ := SkModelExample.of_check (r := lgEnsembleFromDocument platform (some (tiny (object [("Num_Leaves", number "1"), ("NUM_CAT", number "0"),
      ("Tree_Structure", object [("leaf_value", number "7")])]))) false) (fun _ => True) (by decide +kernel)
  exact ⟨⟨ens, h⟩, by decide +kernel⟩

/-- An integer written with a decimal point is rejected. -/
theorem C69_integer_text : lgEnsembleFromDocument platform (some (tiny (tinyTree "1.0" (object [("leaf_value", number "7")])))) false = .err "json" := by
  decide +kernel

end JsonDocExample

end Leaves
