import Verif.Spec.LgRender
import Verif.Proofs.LgLoad

/-! # Written LightGBM models are well-formed files -/

namespace Leaves

open Spec

/-- a line that reads as it is written -/
structure CleanLine (s : Str) : Prop where
  ne : s ≠ []
  newline : '\n' ∉ s
  head : ∀ c, s.head? = some c → ¬ whiteSpace c
  last : ∀ c, s.getLast? = some c → ¬ whiteSpace c
  eqs : s.count '=' ≤ 1

theorem CleanLine.trim {s : Str} (h : CleanLine s) : IsTrim s s := ⟨[], [], by simp, by simp, by simp, h.head, h.last⟩

theorem block_lines (rest : Str) : ∀ ss : List Str, (∀ s ∈ ss, CleanLine s) → Block (blockText ss ++ rest) ss rest false
  | [], _ => by
    have := Block.blank [] rest (by simp) ⟨[], [], by simp, by simp, by simp, by simp, by simp⟩
    simpa [blockText] using this
  | s :: ss, h => by
    have hs := h s (by simp)
    have ih := block_lines rest ss fun s' hs' => h s' (by simp [hs'])
    have := Block.line hs.newline hs.trim hs.ne ih
    simpa [blockText] using this

theorem fileBlock_lines (rest : Str) {ss : List Str} (hne : ss ≠ []) (h : ∀ s ∈ ss, CleanLine s) :
    FileBlock (blockText ss ++ rest) ss rest false := by
  obtain ⟨s, ss, rfl⟩ := List.exists_cons_of_ne_nil hne
  refine ⟨s, s, blockText ss ++ rest, ss, by simp [blockText], (h s (by simp)).newline, (h s (by simp)).trim,
    block_lines rest ss fun s' hs' => h s' (by simp [hs']), rfl, fun s' hs' => (h s' hs').eqs⟩

theorem fileBlocks_lines (rest : Str) : ∀ bs : List (List Str), (∀ ss ∈ bs, ss ≠ [] ∧ ∀ s ∈ ss, CleanLine s) →
    FileBlocks (bs.flatMap blockText ++ rest) bs rest false
  | [], _ => .nil rest
  | ss :: bs, h => by
    have ih := fileBlocks_lines rest bs fun ss' hs' => h ss' (by simp [hs'])
    have := FileBlocks.cons (fileBlock_lines (bs.flatMap blockText ++ rest) (h ss (by simp)).1 (h ss (by simp)).2) ih
    simpa using this

/-- a value without newlines and equals signs that does not end in white space -/
structure CleanValue (v : Str) : Prop where
  newline : '\n' ∉ v
  eqs : '=' ∉ v
  last : ∀ c, v.getLast? = some c → ¬ whiteSpace c

theorem cleanValue_plain {v : Str} (h : Plain v) : CleanValue v where
  newline := fun hn => (h.2 _ hn).1 (by unfold whiteSpace; decide)
  eqs := fun hn => (h.2 _ hn).2 rfl
  last := fun c hc => (h.2 c (List.mem_of_getLast? hc)).1

theorem cleanValue_join : ∀ toks : List Str, (∀ t ∈ toks, Plain t) → CleanValue (join " ".toList toks)
  | [], _ => ⟨by simp [join], by simp [join], by simp [join]⟩
  | [t], h => by simpa [join] using cleanValue_plain (h t (by simp))
  | t :: u :: toks, h => by
    have ih := cleanValue_join (u :: toks) fun t' ht' => h t' (by simp [ht'])
    have h0 := cleanValue_plain (h t (by simp))
    have he : join " ".toList (t :: u :: toks) = t ++ ' ' :: join " ".toList (u :: toks) := by
      simp [join, List.intercalate]
    have hne : join " ".toList (u :: toks) ≠ [] := by
      have := (h u (by simp)).1
      cases toks with
      | nil => simpa [join] using this
      | cons a b => simp [join, List.intercalate, this]
    rw [he]
    refine ⟨?_, ?_, ?_⟩
    · simp only [List.mem_append, List.mem_cons]
      rintro (hc | hc | hc)
      · exact h0.newline hc
      · exact absurd hc (by decide)
      · exact ih.newline hc
    · simp only [List.mem_append, List.mem_cons]
      rintro (hc | hc | hc)
      · exact h0.eqs hc
      · exact absurd hc (by decide)
      · exact ih.eqs hc
    · intro c hc
      obtain ⟨a, l, hl⟩ := List.exists_cons_of_ne_nil hne
      rw [List.getLast?_append, hl, List.getLast?_cons_cons, ← hl, List.getLast?_eq_some_getLast hne] at hc
      rw [Option.some_or] at hc
      exact ih.last c (by rw [List.getLast?_eq_some_getLast hne]; exact hc)

theorem not_white_digit {c : Char} (h : c.isDigit = true) : ¬ whiteSpace c := by
  intro hw
  unfold whiteSpace at hw
  have : ∀ c ∈ ['\t', '\n', '\x0b', '\x0c', '\r', ' ', '\u0085', '\u00a0', '\u1680', '\u2000', '\u2001', '\u2002', '\u2003',
    '\u2004', '\u2005', '\u2006', '\u2007', '\u2008', '\u2009', '\u200a', '\u2028', '\u2029', '\u202f', '\u205f', '\u3000'],
    c.isDigit = false := by decide
  rw [this c hw] at h
  cases h

theorem plain_decimal (n : Nat) : Plain (decimal n) :=
  ⟨decimal_ne_nil n, fun c hc => ⟨not_white_digit (decimal_isDigit hc), fun h => by
    have := decimal_isDigit hc
    rw [h] at this
    exact absurd this (by decide)⟩⟩

theorem plain_decimalI (i : Int) : Plain (decimalI i) := by
  unfold decimalI
  split
  · refine ⟨by simp, fun c hc => ?_⟩
    rcases List.mem_cons.1 hc with rfl | hc
    · exact ⟨by unfold whiteSpace; decide, by decide⟩
    · exact (plain_decimal _).2 c hc
  · exact plain_decimal _

/-- a field that reads as it is written -/
structure CleanField (f : Field) : Prop where
  key : Plain f.1.toList
  value : ∀ v, f.2 = some v → CleanValue v

theorem CleanField.line {f : Field} (h : CleanField f) : CleanLine f.text := by
  obtain ⟨k, o⟩ := f
  have hk : Plain k.toList := h.key
  have hkn : '\n' ∉ k.toList := (cleanValue_plain hk).newline
  have hke : '=' ∉ k.toList := (cleanValue_plain hk).eqs
  have hhead : ∀ c, k.toList.head? = some c → ¬ whiteSpace c := fun c hc => (hk.2 c (List.mem_of_head? hc)).1
  cases o with
  | none => exact ⟨hk.1, hkn, hhead, (cleanValue_plain hk).last, by
      show k.toList.count '=' ≤ 1
      rw [List.count_eq_zero.2 hke]; omega⟩
  | some v =>
    have hv := h.value v rfl
    refine ⟨?_, ?_, ?_, ?_, ?_⟩
    · show k.toList ++ '=' :: v ≠ []
      simp
    · show '\n' ∉ k.toList ++ '=' :: v
      simp only [List.mem_append, List.mem_cons]
      rintro (hc | hc | hc)
      · exact hkn hc
      · exact absurd hc (by decide)
      · exact hv.newline hc
    · intro c hc
      refine hhead c ?_
      have hc : (k.toList ++ '=' :: v).head? = some c := hc
      obtain ⟨a, l, hl⟩ := List.exists_cons_of_ne_nil hk.1
      rw [hl] at hc ⊢
      simpa using hc
    · intro c hc
      have hc : (k.toList ++ '=' :: v).getLast? = some c := hc
      rw [List.getLast?_append] at hc
      cases v with
      | nil =>
        simp at hc
        subst hc
        unfold whiteSpace; decide
      | cons a v =>
        rw [List.getLast?_cons_cons, List.getLast?_eq_some_getLast (by simp), Option.some_or] at hc
        exact hv.last c (by rw [List.getLast?_eq_some_getLast (by simp)]; exact hc)
    · show (k.toList ++ '=' :: v).count '=' ≤ 1
      rw [List.count_append, List.count_cons, List.count_eq_zero.2 hke, List.count_eq_zero.2 hv.eqs]
      simp

theorem CleanField.binds {f : Field} (h : CleanField f) : LineBinds f.text f.1.toList (f.2.getD []) := by
  obtain ⟨k, o⟩ := f
  have hke : '=' ∉ k.toList := (cleanValue_plain h.key).eqs
  cases o with
  | none => exact .inr ⟨hke, rfl, rfl⟩
  | some v => exact .inl ⟨rfl, hke, (h.value v rfl).eqs⟩

/-- with distinct keys, the fields bind what they say -/
theorem bound_fields {fs : List Field} (h : ∀ f ∈ fs, CleanField f) (hd : (fs.map Prod.fst).Nodup) (k v : Str) :
    Bound (fs.map Field.text) k v ↔ ∃ f ∈ fs, f.1.toList = k ∧ f.2.getD [] = v := by
  constructor
  · rintro ⟨i, s, h1, h2, -⟩
    rw [List.getElem?_map, Option.map_eq_some_iff] at h1
    obtain ⟨f, hf, rfl⟩ := h1
    have hm := List.mem_of_getElem? hf
    have := lineBinds_unique (h f hm).binds h2
    exact ⟨f, hm, this.1, this.2⟩
  · rintro ⟨f, hf, rfl, rfl⟩
    obtain ⟨i, hi, hfi⟩ := List.mem_iff_getElem.1 hf
    refine ⟨i, f.text, ?_, (h f hf).binds, ?_⟩
    · rw [List.getElem?_map, List.getElem?_eq_getElem hi, hfi]; rfl
    · intro j s' v' hij h1 h2
      rw [List.getElem?_map, Option.map_eq_some_iff] at h1
      obtain ⟨g, hg, rfl⟩ := h1
      have := lineBinds_unique (h g (List.mem_of_getElem? hg)).binds h2
      obtain ⟨hj, hgj⟩ := List.getElem?_eq_some_iff.1 hg
      have hne := (List.nodup_iff_pairwise_ne.1 hd |> List.pairwise_iff_getElem.1) i j (by simpa using hi) (by simpa using hj) hij
      simp only [List.getElem_map] at hne
      rw [hfi, hgj] at hne
      exact hne (String.toList_inj.1 this.1.symm)

theorem plainKey {k : String} (h : k.toList ≠ [] ∧ ∀ c ∈ k.toList, isSpace c = false ∧ c ≠ '=') : Plain k.toList :=
  ⟨h.1, fun c hc => ⟨fun hw => (by rw [← isSpace_iff, (h.2 c hc).1] at hw; cases hw), (h.2 c hc).2⟩⟩

theorem cleanField_none {k : String} (h : k.toList ≠ [] ∧ ∀ c ∈ k.toList, isSpace c = false ∧ c ≠ '=') : CleanField (k, none) :=
  ⟨plainKey h, fun v hv => by cases hv⟩

theorem cleanField_some {k : String} {v : Str} (h : k.toList ≠ [] ∧ ∀ c ∈ k.toList, isSpace c = false ∧ c ≠ '=') (hv : CleanValue v) :
    CleanField (k, some v) := ⟨plainKey h, fun v' h' => by cases h'; exact hv⟩

theorem header_clean (K : Nat) (M : Int) (n : Nat) (avg : Bool) : ∀ f ∈ headerFields K M n avg, CleanField f := by
  have h1 : CleanField ("tree", none) := cleanField_none (by decide)
  have h2 : CleanField ("version", some "v3".toList) := cleanField_some (by decide) (cleanValue_plain (plainKey (by decide)))
  have h3 : CleanField ("num_class", some (decimal K)) := cleanField_some (by decide) (cleanValue_plain (plain_decimal _))
  have h4 : CleanField ("num_tree_per_iteration", some (decimal K)) := cleanField_some (by decide) (cleanValue_plain (plain_decimal _))
  have h5 : CleanField ("max_feature_idx", some (decimalI M)) := cleanField_some (by decide) (cleanValue_plain (plain_decimalI _))
  have h6 : CleanField ("average_output", none) := cleanField_none (by decide)
  have h7 : CleanField ("tree_sizes", some (join " ".toList (List.replicate n ['0']))) := by
    refine cleanField_some (by decide) (cleanValue_join _ fun t ht => ?_)
    rw [List.eq_of_mem_replicate ht]
    exact plain_decimal 0
  intro f hf
  unfold headerFields at hf
  simp only [List.mem_append, List.mem_cons, List.not_mem_nil, or_false] at hf
  rcases hf with ((rfl | rfl | rfl | rfl | rfl) | hf) | rfl
  · exact h1
  · exact h2
  · exact h3
  · exact h4
  · exact h5
  · split at hf
    · simp only [List.mem_cons, List.not_mem_nil, or_false] at hf; subst hf; exact h6
    · simp at hf
  · exact h7

theorem header_rendered (K : Nat) (M : Int) (n : Nat) (avg : Bool) (hM : -2 ^ 63 ≤ M ∧ M < 2 ^ 63 - 1) :
    HeaderLines ((headerFields K M n avg).map Field.text) K M n avg := by
  have hd : ((headerFields K M n avg).map Prod.fst).Nodup := by
    unfold headerFields
    cases avg
    · simp only [List.map_append, List.map_cons, List.map_nil, Bool.false_eq_true, if_false]; decide
    · simp only [List.map_append, List.map_cons, List.map_nil, if_true]; decide
  have hb : ∀ k v, (k, some v) ∈ headerFields K M n avg → Bound ((headerFields K M n avg).map Field.text) k.toList v :=
    fun k v h => (bound_fields (header_clean K M n avg) hd _ _).2 ⟨_, h, rfl, rfl⟩
  refine ⟨.inr (hb _ _ ?_), hb _ _ ?_, hb _ _ ?_, hb _ _ ?_, hM, ⟨List.replicate n ['0'], by simp, ?_, hb _ _ ?_⟩, ?_⟩
  · simp [headerFields]
  · simp [headerFields]
  · simp [headerFields]
  · simp [headerFields]
  · intro s hs
    rw [List.eq_of_mem_replicate hs]
    decide
  · simp [headerFields]
  · constructor
    · rintro rfl
      exact ⟨[], (bound_fields (header_clean K M n true) hd _ _).2 ⟨("average_output", none), by simp [headerFields], rfl, rfl⟩⟩
    · rintro ⟨v, hv⟩
      obtain ⟨f, hf, hk, -⟩ := (bound_fields (header_clean K M n avg) hd _ _).1 hv
      have hk : f.1 = "average_output" := String.toList_inj.1 hk
      cases avg with
      | true => rfl
      | false =>
        have : f.1 ∈ (headerFields K M n false).map Prod.fst := List.mem_map.2 ⟨f, hf, rfl⟩
        unfold headerFields at this
        simp only [List.map_append, List.map_cons, List.map_nil, Bool.false_eq_true, if_false] at this
        rw [hk] at this
        exact absurd this (by decide)

theorem tree_clean {print : F64 → Str} {d : TreeDesc} (hp : PlainFloats print d) : ∀ f ∈ treeFields print d, CleanField f := by
  have hdec : ∀ l : List Nat, CleanValue (join " ".toList (l.map decimal)) := fun l => cleanValue_join _ fun t ht => by
    obtain ⟨x, -, rfl⟩ := List.mem_map.1 ht; exact plain_decimal x
  have hdecI : ∀ l : List Int, CleanValue (Numbers l) := fun l => cleanValue_join _ fun t ht => by
    obtain ⟨x, -, rfl⟩ := List.mem_map.1 ht; exact plain_decimalI x
  have hfl : ∀ l : List F64, (∀ x ∈ l, Plain (print x)) → CleanValue (join " ".toList (l.map print)) := fun l hl => cleanValue_join _ fun t ht => by
    obtain ⟨x, hx, rfl⟩ := List.mem_map.1 ht; exact hl x hx
  intro f hf
  unfold treeFields at hf
  simp only [List.mem_append, List.mem_cons, List.not_mem_nil, or_false] at hf
  rcases hf with (((rfl | rfl) | hf) | hf) | rfl
  · exact cleanField_some (by decide) (cleanValue_plain (plain_decimal _))
  · exact cleanField_some (by decide) (cleanValue_plain (plain_decimalI _))
  · split at hf
    · simp at hf
    · rename_i h0
      simp only [List.mem_cons, List.not_mem_nil, or_false] at hf
      rcases hf with rfl | rfl | rfl | rfl | rfl
      · exact cleanField_some (by decide) (hdec _)
      · exact cleanField_some (by decide) (hfl _ (hp.2 h0))
      · exact cleanField_some (by decide) (hdec _)
      · exact cleanField_some (by decide) (hdecI _)
      · exact cleanField_some (by decide) (hdecI _)
  · split at hf
    · simp at hf
    · simp only [List.mem_cons, List.not_mem_nil, or_false] at hf
      rcases hf with rfl | rfl
      · exact cleanField_some (by decide) (hdec _)
      · exact cleanField_some (by decide) (hdec _)
  · exact cleanField_some (by decide) (hfl _ hp.1)

theorem tree_rendered {print : F64 → Str} {d : TreeDesc} (hp : PlainFloats print d) :
    TreeLines print d ((treeFields print d).map Field.text) := by
  have hd : ((treeFields print d).map Prod.fst).Nodup := by
    unfold treeFields
    by_cases h0 : d.inner = 0
    · simp only [h0, if_true, true_or, List.map_append, List.map_cons, List.map_nil]; decide
    · by_cases h1 : d.numCat ≤ 0
      · simp only [h0, h1, if_false, or_true, if_true, List.map_append, List.map_cons, List.map_nil]; decide
      · simp only [h0, h1, or_self, if_false, List.map_append, List.map_cons, List.map_nil]; decide
  have hb : ∀ k v, (k, some v) ∈ treeFields print d → Bound ((treeFields print d).map Field.text) k.toList v :=
    fun k v h => (bound_fields (tree_clean hp) hd _ _).2 ⟨_, h, rfl, rfl⟩
  refine ⟨hb _ _ ?_, hb _ _ ?_, hb _ _ ?_, fun h0 => hb _ _ ?_, fun h0 => hb _ _ ?_, fun h0 => hb _ _ ?_, fun h0 => hb _ _ ?_,
    fun h0 => hb _ _ ?_, fun h0 h1 => hb _ _ ?_, fun h0 h1 => hb _ _ ?_⟩
  · simp [treeFields]
  · simp [treeFields]
  · simp [treeFields]
  · simp [treeFields, h0]
  · simp [treeFields, h0]
  · simp [treeFields, h0]
  · simp [treeFields, h0]
  · simp [treeFields, h0]
  · have : ¬ (d.inner = 0 ∨ d.numCat ≤ 0) := by omega
    simp [treeFields, this]
  · have : ¬ (d.inner = 0 ∨ d.numCat ≤ 0) := by omega
    simp [treeFields, this]

end Leaves
