import Verif.Props.Crash
import Verif.Props.Robust
import Verif.Props.LgLoad

/-!
# C118: the memory that loading needs is bounded by the size of the file

False: LightGBM text and XGBoost files announce counts for which memory is requested before anything else is looked at. True of
LightGBM text files whose arrays have an entry for each of the nodes that they announce.
-/

namespace Leaves
open Spec

theorem rd_run_err {α β : Type} {x : XgBin.Rd α} {f : α → XgBin.Rd β} {bs : List (BitVec 8)} {m : String} (h : x bs = .err m) :
    (x >>= f) bs = .err m := by
  show (match x bs with | .ok (a, bs) => f a bs | .err t => .err t | .panic => .panic | .hang => .hang) = _
  rw [h]

theorem allocCheck_cases (P : Platform) (n z : Nat) :
    (n * z ≤ P.maxAlloc ∧ allocCheck P (n : Int) z = .ok ⟨⟩) ∨ (P.maxAlloc < n * z ∧ allocCheck P (n : Int) z = .panic) := by
  unfold allocCheck
  by_cases h : n * z ≤ P.maxAlloc
  · refine .inl ⟨h, if_neg ?_⟩
    push Not
    exact ⟨by omega, by exact_mod_cast h⟩
  · refine .inr ⟨by omega, if_pos (.inr ?_)⟩
    have : P.maxAlloc < n * z := by omega
    exact_mod_cast this

theorem convert_too_large {σ : Type} (P : Platform) (S : Source σ) (n : Nat) (h : P.maxAlloc < n * 24) (aux : σ) :
    convert P S n n aux = .panic := by
  unfold convert
  rcases allocCheck_cases P n 4 with ⟨-, h1⟩ | ⟨-, h1⟩
  swap
  · rw [h1]; rfl
  rcases allocCheck_cases P n 1 with ⟨-, h2⟩ | ⟨-, h2⟩
  swap
  · rw [h1, h2]; rfl
  rcases allocCheck_cases P n 24 with ⟨h3, -⟩ | ⟨-, h3⟩
  · omega
  rw [h1, h2, h3]; rfl

theorem lg_too_large (P : Platform) {params : Params} {nc : Int} {n : Nat} {lv : List F64} {a : LgArrays}
    (hb : LgBlock P params nc n lv a) (_hn : n ≠ 0) (ha : P.maxAlloc < n * 24) : lgTreeFromParams P params = .panic := by
  obtain ⟨ct, hct, hct'⟩ := hb.catThreshold
  have hcb := hb.catBoundaries
  unfold lgTreeFromParams
  rw [hb.numCat, hb.numLeaves]
  simp only [Res.ok_bind]
  rw [if_neg (by omega), hb.leafValue]
  simp only [Res.ok_bind]
  rw [if_neg (by omega), hb.leftChild, hb.rightChild, hb.decisionType, hb.splitFeature, hb.threshold]
  simp only [Res.ok_bind, Int.add_sub_cancel]
  by_cases hc : 0 < nc
  · rw [if_pos hc] at hct' hcb ⊢
    rw [hct', hcb]
    simp only [Res.ok_bind, Res.pure_eq]
    rw [convert_too_large P _ n ha]
    rfl
  · rw [if_neg hc] at hct' hcb ⊢
    simp only [Res.ok_bind, Res.pure_eq]
    rw [convert_too_large P _ n ha]
    rfl

theorem lgReadTrees_too_large (P : Platform) {print : F64 → Str} {text rest : Str} {bs : List (List Str)} {e : Bool}
    (hb : FileBlocks text bs rest e) : ∀ ds : List TreeDesc, List.Forall₂ (TreeLines print) ds bs →
      (∀ d ∈ ds, d.OK P.parseFloat print) → (∃ d ∈ ds, P.maxAlloc < d.inner * 24) →
      lgReadTrees P ds.length ⟨text, false⟩ = .panic := by
  induction hb with
  | nil t =>
    intro ds hf _ ⟨d, hd, _⟩
    cases hf
    cases hd
  | @cons text rest rest' lines bs e e' h hb ih =>
    intro ds hf hok hbig
    cases hf with
    | @cons d _ ds _ hd hds =>
      obtain ⟨p, hp1, hp2⟩ := readParams_file h
      rw [List.length_cons, lgReadTrees]
      unfold lgTreeFromReader
      by_cases hs : d.inner * 24 ≤ P.maxAlloc
      · obtain ⟨t, ht1, -⟩ := tree_loaded P hp2 hd (hok d (by simp)) hs
        have := ih ds hds (fun d' hd' => hok d' (by simp [hd'])) (by
          obtain ⟨d', hd', h'⟩ := hbig
          rcases List.mem_cons.1 hd' with rfl | hd'
          · omega
          · exact ⟨d', hd', h'⟩)
        simp only [hp1, Res.ok_bind, ht1, Res.pure_eq, this]
        rfl
      · have h0 : d.inner ≠ 0 := fun h0 => by rw [h0] at hs; omega
        have hb := lgBlock_of hp2 hd (hok d (by simp)) h0 ((hok d (by simp)).tree h0).small
        simp only [hp1, Res.ok_bind, lg_too_large P hb h0 (by omega)]
        rfl

/-- the header of a well-formed file: loading comes down to reading the trees -/
theorem lg_after_header (P : Platform) (text rest0 : Str) (header : List Str) (e0 : Bool) (n K N : Nat) (M : Int) (avg : Bool)
    (hK : 1 ≤ K ∧ K < 2 ^ 63) (hN : 1 ≤ N) (hlen : n = N * K)
    (hh : FileBlock text header rest0 e0) (hhl : HeaderLines header K M n avg) (h : lgReadTrees P n ⟨rest0, false⟩ = .panic) :
    lgEnsembleFromReader P ⟨text, false⟩ false = .panic := by
  obtain ⟨p, hp1, hp2⟩ := readParams_file hh
  have hKd : decimal K = decimalI (K : Int) := by unfold decimalI; rw [if_neg (by omega)]; rfl
  have hK1 : p.toInt "num_class".toList = .ok (K : Int) :=
    (C37_int p _ K ((hp2 _ _).2 (by rw [← hKd]; exact hhl.numClass))).1 (by constructor <;> omega)
  have hK2 : p.toInt "num_tree_per_iteration".toList = .ok (K : Int) :=
    (C37_int p _ K ((hp2 _ _).2 (by rw [← hKd]; exact hhl.perIteration))).1 (by constructor <;> omega)
  have hM : p.toInt "max_feature_idx".toList = .ok M := (C37_int p _ M ((hp2 _ _).2 hhl.maxFeature)).1 ⟨hhl.maxFeatureRange.1, by have := hhl.maxFeatureRange.2; omega⟩
  have hver : lgCheckVersion p = .ok ⟨⟩ := by
    unfold lgCheckVersion Params.compare
    rcases hhl.version with h | h
    · rw [(hp2 _ _).2 h]; rfl
    · rw [(hp2 _ _).2 h]; rfl
  have hpos : 1 ≤ n := by rw [hlen]; exact Nat.mul_pos hN hK.1
  have hsz : ∃ toks, p.toStrSlice "tree_sizes".toList = .ok toks ∧ toks.length = n := by
    obtain ⟨sizes, h1, h2, h3⟩ := hhl.treeSizes
    refine ⟨sizes, ?_, h1⟩
    unfold Params.toStrSlice
    rw [(hp2 _ _).2 h3]
    simp only
    rw [show " ".toList = [' '] from rfl, split_char (by intro h0; rw [h0] at h1; simp at h1; omega) h2]
  obtain ⟨toks, ht1, ht2⟩ := hsz
  unfold lgEnsembleFromReader
  simp only [hp1, Res.ok_bind, hver, hK1, hK2]
  rw [if_neg (by simp), if_neg (by omega), if_neg (by omega)]
  simp only [hM, Res.ok_bind, ht1]
  have hmod : ¬ ((toks.length : Int).tmod (K : Int) ≠ 0) := by
    rw [ht2, hlen]
    push_cast
    rw [Int.mul_tmod_left]
    simp
  rw [if_neg (by omega), if_neg hmod]
  have htr : lgTransform p K (p.contains "average_output".toList) false = .ok (.raw K) := by
    unfold lgTransform; rfl
  rw [htr, ht2, h]
  rfl

/-- C118: the memory that a well-formed LightGBM text file needs is set by what its trees announce: it loads if 24 bytes for each of the
nodes of each of its trees can be had, and otherwise the program crashes. -/
theorem C118_text (P : Platform) (print : F64 → Str) (text rest0 rest : Str) (header : List Str) (e0 e1 : Bool)
    (bs : List (List Str)) (ds : List TreeDesc) (K N : Nat) (M : Int) (avg : Bool)
    (hK : 1 ≤ K ∧ K < 2 ^ 63) (hN : 1 ≤ N) (hlen : ds.length = N * K)
    (hh : FileBlock text header rest0 e0) (hhl : HeaderLines header K M ds.length avg)
    (hb : FileBlocks rest0 bs rest e1) (hbl : List.Forall₂ (TreeLines print) ds bs) (hok : ∀ d ∈ ds, d.OK P.parseFloat print) :
    ((∃ ens, lgEnsembleFromReader P ⟨text, false⟩ false = .ok (ens, ⟨rest, false⟩)) ↔ ∀ d ∈ ds, d.inner * 24 ≤ P.maxAlloc) ∧
    (lgEnsembleFromReader P ⟨text, false⟩ false = .panic ↔ ∃ d ∈ ds, P.maxAlloc < d.inner * 24) := by
  have big : (∃ d ∈ ds, P.maxAlloc < d.inner * 24) → lgEnsembleFromReader P ⟨text, false⟩ false = .panic := fun h =>
    lg_after_header P text rest0 header e0 ds.length K N M avg hK hN hlen hh hhl (lgReadTrees_too_large P hb ds hbl hok h)
  have small : (∀ d ∈ ds, d.inner * 24 ≤ P.maxAlloc) → ∃ ens, lgEnsembleFromReader P ⟨text, false⟩ false = .ok (ens, ⟨rest, false⟩) := fun h => by
    obtain ⟨ts, h1, -⟩ := lg_file_loaded P print text rest0 rest header e0 e1 bs ds K N M avg hK hN hlen hh hhl hb hbl fun d hd => ⟨hok d hd, h d hd⟩
    exact ⟨_, h1⟩
  refine ⟨⟨fun ⟨ens, he⟩ d hd => ?_, small⟩, fun hp => ?_, big⟩
  · by_contra hn
    rw [big ⟨d, hd, by omega⟩] at he
    cases he
  · by_contra hn
    push Not at hn
    obtain ⟨ens, he⟩ := small hn
    rw [he] at hp
    cases hp

theorem trim_length {l s : Str} (h : IsTrim l s) : s.length ≤ l.length := by
  obtain ⟨a, b, e, -⟩ := h
  rw [e]
  simp only [List.length_append]
  omega

theorem block_line_length {t rest : Str} {ss : List Str} {e : Bool} (h : Block t ss rest e) : ∀ s ∈ ss, s.length ≤ t.length := by
  induction h with
  | blank => simp
  | stop => simp
  | line hn hl hs hb ih =>
    intro s' hs'
    rcases List.mem_cons.1 hs' with rfl | h'
    · have := trim_length hl
      simp only [List.length_append, List.length_cons]
      omega
    · have := ih s' h'
      simp only [List.length_append, List.length_cons]
      omega
  | last hn hl hs =>
    intro s' hs'
    rcases List.mem_cons.1 hs' with rfl | h'
    · exact trim_length hl
    · cases h'

theorem fileBlock_line_length {t rest : Str} {ss : List Str} {e : Bool} (h : FileBlock t ss rest e) : ∀ s ∈ ss, s.length ≤ t.length := by
  obtain ⟨first, s, u, ss, rfl, -, hl, hb, rfl, -⟩ := h
  intro s' hs'
  rcases List.mem_cons.1 hs' with rfl | h'
  · have := trim_length hl
    simp only [List.length_append, List.length_cons]
    omega
  · have := block_line_length hb s' h'
    simp only [List.length_append, List.length_cons]
    omega

theorem join_length : ∀ toks : List Str, toks.length ≤ (join " ".toList toks).length + 1
  | [] => by simp
  | [t] => by simp
  | t :: u :: toks => by
    have ih := join_length (u :: toks)
    have : join " ".toList (t :: u :: toks) = t ++ ' ' :: join " ".toList (u :: toks) := by
      simp [join, List.intercalate, List.intersperse]
    rw [this]
    simp only [List.length_append, List.length_cons] at ih ⊢
    omega

theorem bound_length {lines : List Str} {k v : Str} (h : Bound lines k v) : ∃ s ∈ lines, v.length ≤ s.length ∧ (k ≠ [] → v.length < s.length) := by
  obtain ⟨i, s, hs, hb, -⟩ := h
  refine ⟨s, List.mem_of_getElem? hs, ?_⟩
  rcases hb with ⟨rfl, -, -⟩ | ⟨-, rfl, rfl⟩
  · simp only [List.length_append, List.length_cons]
    exact ⟨by omega, fun _ => by omega⟩
  · exact ⟨by simp, fun h => List.length_pos_iff.2 h⟩

/-- C118 (partial): a LightGBM text file whose arrays have an entry for each of the nodes that its trees announce (and fit together, see
C57) does not crash the program if 24 bytes for each of its characters can be had. Missing: files that announce more than they contain
(`MemoryExample.C118_text_fails`), and the other formats (`MemoryExample.C118_xgboost_fails`). -/
theorem C118_text_partial (P : Platform) (text : Str) (io lt : Bool) (hm : text.length * 24 ≤ P.maxAlloc) (hs : text.length < 2 ^ 32)
    (h : ∀ before block rest lines e n a, text = before ++ block → FileBlock block lines rest e → InnerLines P lines n a → LgArraysFit a n) :
    lgEnsembleFromReader P ⟨text, io⟩ lt ≠ .panic := by
  intro hp
  obtain ⟨before, block, rest, lines, e, n, a, rfl, hf, hi, hn⟩ := C57_lg_text_partial P text io lt hp
  have fit := h before block rest lines e n a rfl hf hi
  obtain ⟨toks, hb, -, hv⟩ := hi.left
  obtain ⟨s, hs', -, hlt⟩ := bound_length hb
  have h1 := hlt (by decide)
  have h2 := fileBlock_line_length hf s hs'
  have h3 := join_length toks
  have h4 := hv.length_eq
  have h5 := fit.left
  simp only [List.length_append] at hm hs
  have h6 : n ≤ block.length := by omega
  exact hn ⟨fit, by omega, by omega⟩

theorem block_rest_length {t rest : Str} {ss : List Str} {e : Bool} (h : Block t ss rest e) : rest.length ≤ t.length := by
  induction h with
  | blank => simp only [List.length_append, List.length_cons]; omega
  | stop => simp
  | line hn hl hs hb ih => simp only [List.length_append, List.length_cons]; omega
  | last => simp

theorem fileBlock_rest_length {t rest : Str} {ss : List Str} {e : Bool} (h : FileBlock t ss rest e) : rest.length ≤ t.length := by
  obtain ⟨first, s, u, ss, rfl, -, hl, hb, rfl, -⟩ := h
  have := block_rest_length hb
  simp only [List.length_append, List.length_cons]
  omega

theorem fileBlocks_line_length {t rest : Str} {bs : List (List Str)} {e : Bool} (h : FileBlocks t bs rest e) :
    ∀ ss ∈ bs, ∀ s ∈ ss, s.length ≤ t.length := by
  induction h with
  | nil => simp
  | cons h hb ih =>
    intro ss hss s hs
    rcases List.mem_cons.1 hss with rfl | h'
    · exact fileBlock_line_length h s hs
    · exact (ih ss h' s hs).trans (fileBlock_rest_length h)

theorem forall₂_mem {α β : Type} {R : α → β → Prop} {l : List α} {l' : List β} (h : List.Forall₂ R l l') : ∀ a ∈ l, ∃ b ∈ l', R a b := by
  induction h with
  | nil => simp
  | cons h _ ih =>
    intro a ha
    rcases List.mem_cons.1 ha with rfl | h'
    · exact ⟨_, List.mem_cons_self, h⟩
    · obtain ⟨b, hb, hr⟩ := ih a h'
      exact ⟨b, List.mem_cons_of_mem _ hb, hr⟩

/-- C118 (partial): a well-formed LightGBM text file whose arrays have an entry for each of the nodes that its trees announce loads if 24
bytes for each of its characters can be had. Missing: as for `C118_text_partial`. -/
theorem C118_loads_partial (P : Platform) (print : F64 → Str) (text rest0 rest : Str) (header : List Str) (e0 e1 : Bool)
    (bs : List (List Str)) (ds : List TreeDesc) (K N : Nat) (M : Int) (avg : Bool)
    (hK : 1 ≤ K ∧ K < 2 ^ 63) (hN : 1 ≤ N) (hlen : ds.length = N * K)
    (hh : FileBlock text header rest0 e0) (hhl : HeaderLines header K M ds.length avg)
    (hb : FileBlocks rest0 bs rest e1) (hbl : List.Forall₂ (TreeLines print) ds bs) (hok : ∀ d ∈ ds, d.OK P.parseFloat print)
    (hd : ∀ d ∈ ds, d.inner ≤ d.arrays.leftChilds.length) (hm : text.length * 24 ≤ P.maxAlloc) :
    ∃ ens, lgEnsembleFromReader P ⟨text, false⟩ false = .ok (ens, ⟨rest, false⟩) := by
  refine (C118_text P print text rest0 rest header e0 e1 bs ds K N M avg hK hN hlen hh hhl hb hbl hok).1.2 fun d hd' => ?_
  by_cases h0 : d.inner = 0
  · omega
  obtain ⟨lines, hl, ht⟩ := forall₂_mem hbl d hd'
  obtain ⟨s, hs, -, hlt⟩ := bound_length (ht.leftChild h0)
  have h1 := hlt (by decide)
  have h2 := fileBlocks_line_length hb lines hl s hs
  have h3 := fileBlock_rest_length hh
  have h4 := join_length (d.arrays.leftChilds.map decimalI)
  have h5 := hd d hd'
  rw [List.length_map] at h4
  unfold Numbers at h1
  omega

namespace MemoryExample

/-- a tree with one split, which announces `n` -/
def wide (n : Nat) : TreeDesc where
  numCat := 0
  inner := n
  leafValues := [F64.one, F64.one]
  catThreshold := []
  arrays := { leftChilds := [-1], rightChilds := [-2], decisionTypes := [0], splitFeatures := [0], thresholds := [F64.one], catThresholds := [], catBoundaries := [] }
  tree := .node 0 (.leaf 0) (.leaf 1)

theorem wide_tree (n : Nat) (h : 1 ≤ n) (hn : n < 2 ^ 32) : LgTreeOK (wide n).arrays n (wide n).tree where
  shape := .node 0 (-1) (-2) _ _ rfl rfl (.leaf 0) (.leaf 1)
  distinct := by simp [wide, BTree.inner]
  bound := by simp [wide, BTree.inner]; omega
  small := hn
  leaves := by simp [wide, BTree.leaves]
  splits := by
    intro i hi
    obtain rfl : i = 0 := by simpa [wide, BTree.inner] using hi
    exact ⟨0, _, 0, _, .none, rfl, rfl, rfl, by unfold MissingOf; decide, .inl ⟨by norm_num, rfl⟩⟩
  cats := by
    intro i hi d thr c ws h1 h2 h3 h4 h5
    obtain rfl : i = 0 := by simpa [wide, BTree.inner] using hi
    simp [wide] at h1; subst h1; simp at h2
  words := by
    refine ⟨fun _ => 0, ?_, by simp⟩
    intro i hi d thr c ws h1 h2 h3 h4 h5
    obtain rfl : i = 0 := by simpa [wide, BTree.inner] using hi
    simp [wide] at h1; subst h1; simp at h2

theorem wide_ok {parse : Str → Option F64} (hp : parse "1".toList = some F64.one) (n : Nat) (h : 1 ≤ n) (hn : n < 2 ^ 32) :
    (wide n).OK parse fun _ => "1".toList where
  numCat := by simp [wide]
  leafValues := by simp [wide]
  leafText := by intro x hx; simp [wide] at hx; subst hx; exact ⟨hp, by decide⟩
  tree := fun _ => wide_tree n h hn
  left := fun _ => by simp [wide]
  right := fun _ => by simp [wide]
  decision := fun _ => by simp [wide]
  feature := fun _ => by simp [wide]
  threshold := fun _ => ⟨by simp [wide], by intro x hx; simp [wide] at hx; subst hx; exact ⟨hp, by decide⟩⟩
  cats := fun _ => ⟨by simp [wide], by simp [wide]⟩

/-- the file -/
def wideText (n : Nat) : Str := modelText (fun _ => "1".toList) [wide n] 1 1 false

theorem wideText_length (n : Nat) (h : 1 ≤ n) (hn : n < 2 ^ 32) : (wideText n).length ≤ 210 := by
  have : (decimal (n + 1)).length ≤ 10 := (Nat.length_toDigits_le_iff (by norm_num) (by norm_num)).2 (by omega)
  have h0 : n ≠ 0 := by omega
  unfold wideText modelText treeFields
  simp only [wide, h0, if_false, List.flatMap_cons, List.flatMap_nil, List.append_nil]
  rw [List.length_append]
  have e1 : (blockText ((headerFields 1 1 1 false).map Field.text)).length = 85 := by decide +kernel
  have e2 : (decimalI 0).length = 1 := by decide +kernel
  have e3 : (join " ".toList [decimal 0]).length = 1 := by decide +kernel
  have e4 : (join " ".toList ["1".toList]).length = 1 := by decide +kernel
  have e5 : (Numbers [-1]).length = 2 := by decide +kernel
  have e6 : (Numbers [-2]).length = 2 := by decide +kernel
  have e7 : (join " ".toList ["1".toList, "1".toList]).length = 3 := by decide +kernel
  refine (Nat.add_le_add_right e1.le _).trans ?_
  unfold blockText
  simp only [List.map_append, List.map_cons, List.map_nil, List.flatMap_append, List.flatMap_cons, List.flatMap_nil, Field.text, le_refl,
    or_true, if_true, List.length_append, List.length_cons, List.length_nil, e2, e3, e4, e5, e6, e7]
  have k : "num_leaves".toList.length = 10 ∧ "num_cat".toList.length = 7 ∧ "split_feature".toList.length = 13 ∧
    "threshold".toList.length = 9 ∧ "decision_type".toList.length = 13 ∧ "left_child".toList.length = 10 ∧
    "right_child".toList.length = 11 ∧ "leaf_value".toList.length = 10 := by decide
  omega

/-- C118 is false for LightGBM text: for every number of nodes below 2³² there is a file of at most 210 characters, of a model with one
split, which loads if 24 bytes for each of them can be had and crashes the program otherwise. -/
theorem C118_text_fails (n : Nat) (h : 1 ≤ n) (hn : n < 2 ^ 32) : (wideText n).length ≤ 210 ∧
    ∀ P : Platform, P.parseFloat "1".toList = some F64.one →
      ((∃ ens, lgEnsembleFromReader P ⟨wideText n, false⟩ false = .ok (ens, ⟨[], false⟩)) ↔ n * 24 ≤ P.maxAlloc) ∧
      (lgEnsembleFromReader P ⟨wideText n, false⟩ false = .panic ↔ P.maxAlloc < n * 24) := by
  refine ⟨wideText_length n h hn, fun P hp => ?_⟩
  have plain : Plain "1".toList := ⟨by decide, fun c hc => by
    obtain rfl : c = '1' := by simpa using hc
    exact ⟨by unfold whiteSpace; decide, by decide⟩⟩
  obtain ⟨header, rest0, blocks, h1, h2, h3, h4⟩ := modelText_blocks (P := { P with maxAlloc := n * 24 }) (print := fun _ => "1".toList)
    [] (ds := [wide n]) 1 (M := 1) false (by norm_num) (fun d hd => by
      obtain rfl := List.mem_singleton.1 hd
      exact ⟨wide_ok hp n h hn, ⟨fun _ _ => plain, fun _ _ _ => plain⟩, le_rfl⟩)
  rw [List.append_nil] at h1
  have := C118_text P (fun _ => "1".toList) (wideText n) rest0 [] header false false blocks [wide n] 1 1 1 false (by norm_num) le_rfl rfl
    h1 h2 h3 h4 fun d hd => by
      obtain rfl := List.mem_singleton.1 hd
      exact wide_ok hp n h hn
  simpa [wide] using this

/-- So no number of bytes for each character is enough: for every one up to 400 million there are a file and two machines, alike but for
their memory, the smaller of which has that number of bytes for each character; the file loads on one, and crashes the other. -/
theorem C118_no_bound (c : Nat) (hc : c ≤ 400000000) (P : Platform) (hp : P.parseFloat "1".toList = some F64.one) :
    ∃ (text : Str) (small large : Nat), c * text.length ≤ small ∧ small ≤ large ∧
      lgEnsembleFromReader { P with maxAlloc := small } ⟨text, false⟩ false = .panic ∧
      ∃ ens, lgEnsembleFromReader { P with maxAlloc := large } ⟨text, false⟩ false = .ok (ens, ⟨[], false⟩) := by
  obtain ⟨h1, h2⟩ := C118_text_fails (2 ^ 32 - 1) (by norm_num) (by norm_num)
  refine ⟨wideText (2 ^ 32 - 1), c * 210, (2 ^ 32 - 1) * 24, Nat.mul_le_mul_left _ h1, by omega, ?_, ?_⟩
  · exact (h2 { P with maxAlloc := c * 210 } hp).2.2 (show c * 210 < (2 ^ 32 - 1) * 24 by omega)
  · exact (h2 { P with maxAlloc := (2 ^ 32 - 1) * 24 } hp).1.2 le_rfl

/-- the beginning of an XGBoost file: parameters (all zero), and the length of a string that does not follow -/
def shortFile (n : Nat) : List (BitVec 8) := learnerImage ⟨0, 0, 0, 0, 0, List.replicate 29 0⟩ ++ bytesLE 8 n

/-- C118 is false for XGBoost files: for every positive number below 2⁶⁴ there is a file of 144 bytes for which the loaders return an error
if that number of bytes can be had, and crash the program otherwise. -/
theorem C118_xgboost_fails (n : Nat) (h : 1 ≤ n) (hn : n < 2 ^ 64) : (shortFile n).length = 144 ∧ ∀ (P : Platform) (b : Bool),
    (n ≤ P.maxAlloc → (∃ m, xgEnsembleFromReader P b (shortFile n) = .err m) ∧ ∃ m, xgbLinearFromReader P b (shortFile n) = .err m) ∧
    (P.maxAlloc < n → xgEnsembleFromReader P b (shortFile n) = .panic ∧ xgbLinearFromReader P b (shortFile n) = .panic) := by
  refine ⟨by simp [shortFile, learnerImage, words, word, bytesLE], fun P b => ?_⟩
  have hl : XgBin.readLearnerModelParam (shortFile n) = .ok (⟨0, 0, 0, 0, 0, List.replicate 29 0⟩, bytesLE 8 n) :=
    (Codec.learner (p := ⟨0, 0, 0, 0, 0, List.replicate 29 0⟩) (by simp)).1 _
  have hw : XgBin.readWord64 (bytesLE 8 n) = .ok (BitVec.ofNat 64 n, []) := by
    have := (Codec.word64 hn).1 []
    rwa [List.append_nil] at this
  have ht : (BitVec.ofNat 64 n).toNat = n := by rw [BitVec.toNat_ofNat]; exact Nat.mod_eq_of_lt hn
  constructor
  · intro ha
    have hs : XgBin.readString P (bytesLE 8 n) = .err "EOF" := by
      unfold XgBin.readString
      rw [rd_run_ok hw, ht, if_neg (by omega)]
      rcases allocCheck_cases P n 1 with ⟨-, h1⟩ | ⟨h1, -⟩
      · rw [h1]
        show XgBin.readBytes n [] = _
        unfold XgBin.readBytes
        exact if_pos (show 0 < n by omega)
      · omega
    have hh : XgBin.readModelHeader P (shortFile n) = .err "EOF" := by
      unfold XgBin.readModelHeader
      rw [rd_run_ok hl]
      exact rd_run_err hs
    exact ⟨⟨_, by unfold xgEnsembleFromReader; exact rd_run_err hh⟩, ⟨_, by unfold xgbLinearFromReader; exact rd_run_err hh⟩⟩
  · intro ha
    have hs : XgBin.readString P (bytesLE 8 n) = .panic := by
      unfold XgBin.readString
      rw [rd_run_ok hw, ht, if_neg (by omega)]
      rcases allocCheck_cases P n 1 with ⟨h1, -⟩ | ⟨-, h1⟩
      · omega
      · rw [h1]; rfl
    have hh : XgBin.readModelHeader P (shortFile n) = .panic := by
      unfold XgBin.readModelHeader
      rw [rd_run_ok hl]
      exact rd_run_panic hs
    exact ⟨by unfold xgEnsembleFromReader; exact rd_run_panic hh, by unfold xgbLinearFromReader; exact rd_run_panic hh⟩

open LgLoadExample in
/-- the file of `LgLoadExample` is honest: 24 bytes for each of its characters are enough -/
example : (∃ ens, lgEnsembleFromReader LgExample.platform ⟨modelText print [d1, d2] 2 1 false, false⟩ false = .ok (ens, ⟨[], false⟩)) ∧
    (modelText print [d1, d2] 2 1 false).length * 24 ≤ LgExample.platform.maxAlloc ∧ d1.inner = 3 := by
  obtain ⟨header, rest0, blocks, h1, h2, h3, h4⟩ := modelText_blocks (P := LgExample.platform) [] 2 (M := 1) false (by norm_num) ds_ok
  rw [List.append_nil] at h1
  have hl : (modelText print [d1, d2] 2 1 false).length * 24 ≤ LgExample.platform.maxAlloc := by decide +kernel
  exact ⟨C118_loads_partial _ print _ rest0 [] header false false blocks [d1, d2] 2 1 1 false (by norm_num) le_rfl rfl h1 h2 h3 h4
    (fun d hd => (ds_ok d hd).1) (by decide) hl, hl, rfl⟩

/-- a text that is too short for a tree with splits meets the hypothesis on arrays -/
example (P : Platform) (hm : 240 ≤ P.maxAlloc) : lgEnsembleFromReader P ⟨"version=v3".toList, false⟩ false ≠ .panic := by
  refine C118_text_partial P _ false false hm (by decide) fun before block rest lines e n a ht hf hi => ?_
  obtain ⟨toks, hb, -, -⟩ := hi.features
  obtain ⟨i, s, hs, hb, -⟩ := hb
  have h1 : 13 ≤ s.length := by
    rcases hb with ⟨rfl, -, -⟩ | ⟨-, rfl, -⟩
    · rw [List.length_append, show "split_feature".toList.length = 13 from rfl]; omega
    · decide
  have h2 := fileBlock_line_length hf s (List.mem_of_getElem? hs)
  have h3 := congrArg List.length ht
  rw [List.length_append, show "version=v3".toList.length = 10 from rfl] at h3
  omega

/-- `C118_text_fails` and `C118_no_bound` apply to the example's machine -/
example : Platform.demo.parseFloat "1".toList = some F64.one := by decide +kernel

end MemoryExample

end Leaves
