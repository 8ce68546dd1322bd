import Verif.Proofs.TextLayout
import Verif.Props.Truncation

/-!
# C94: LightGBM text files mean the same however they are laid out

White space around lines, line ends, the order of the fields and fields that the model does not use do not matter, for every text
whether it is accepted or not.
-/

namespace Leaves
open Spec

theorem sameLoad_of {α ρ : Type} {r r' : Res (α × ρ)} (h : Related (fun x x' => x.1 = x'.1) r r') : SameLoad r r' := by
  cases h with
  | ok h => exact h
  | err => trivial
  | panic => trivial
  | hang => trivial

/-- C94: texts whose blocks have the same fields load alike. -/
theorem C94_fields (P : Platform) (lt : Bool) (t t' : Str) (h : Alike t t') :
    SameLoad (lgEnsembleFromReader P ⟨t, false⟩ lt) (lgEnsembleFromReader P ⟨t', false⟩ lt) :=
  sameLoad_of (lgEnsemble_alike P lt h)

/-- C94: white space at the beginning and at the end of lines does not matter. -/
theorem C94_lines (P : Platform) (lt : Bool) (t t' : Str) (h : SameLines t t') :
    SameLoad (lgEnsembleFromReader P ⟨t, false⟩ lt) (lgEnsembleFromReader P ⟨t', false⟩ lt) :=
  C94_fields P lt t t' (alike_of_sameLines _ (Nat.lt_succ_self _) h)

/-- C94: a text file converted to Windows line ends loads alike. -/
theorem C94_windows (P : Platform) (lt : Bool) (t : Str) :
    SameLoad (lgEnsembleFromReader P ⟨t, false⟩ lt) (lgEnsembleFromReader P ⟨windows t, false⟩ lt) :=
  C94_lines P lt t _ (sameLines_windows _ t (Nat.lt_succ_self _))

/-- lines that bind different keys -/
def DistinctKeys (lines : List Str) : Prop := lines.Pairwise fun s s' => ∀ k v v', LineBinds s k v → ¬ LineBinds s' k v'

theorem bound_distinct {lines : List Str} (h : DistinctKeys lines) (k v : Str) : Bound lines k v ↔ ∃ s ∈ lines, LineBinds s k v := by
  constructor
  · rintro ⟨i, s, h1, h2, -⟩
    exact ⟨s, List.mem_of_getElem? h1, h2⟩
  · rintro ⟨s, hs, hb⟩
    obtain ⟨i, hi⟩ := List.getElem?_of_mem hs
    refine ⟨i, s, hi, hb, fun j s' v' hj hs' => ?_⟩
    obtain ⟨hi', rfl⟩ := List.getElem?_eq_some_iff.1 hi
    obtain ⟨hj', rfl⟩ := List.getElem?_eq_some_iff.1 hs'
    exact List.pairwise_iff_getElem.1 h i j hi' hj' hj k v v' hb

/-- C94: the order of a block's lines does not matter when they bind different keys. -/
theorem C94_order (lines lines' : List Str) (hp : lines.Perm lines') (hd : DistinctKeys lines) : SameFields lines lines' := by
  have hd' : DistinctKeys lines' := by
    refine (hp.pairwise_iff ?_).1 hd
    intro a b h k v v' h1 h2
    exact h k v' v h2 h1
  refine ⟨forall_congr' fun s => by rw [hp.mem_iff], fun k _ v => ?_⟩
  rw [bound_distinct hd, bound_distinct hd']
  exact exists_congr fun s => by rw [hp.mem_iff]

/-- C94 (partial): a line with another key may be added anywhere. Missing: lines with more than one equals sign, for which the claim is
false (`C94_equals_fails`). -/
theorem C94_unknown_partial (a b : List Str) (x : Str) (hx : x.count '=' ≤ 1) (hk : ∀ k ∈ modelFields, ∀ v, ¬ LineBinds x k.toList v) :
    SameFields (a ++ b) (a ++ x :: b) := by
  refine ⟨⟨fun h s hs => ?_, fun h s hs => h s (by simp only [List.mem_append, List.mem_cons] at hs ⊢; tauto)⟩, fun k hk' v => ?_⟩
  · simp only [List.mem_append, List.mem_cons] at hs
    rcases hs with hs | rfl | hs
    · exact h s (by simp [hs])
    · exact hx
    · exact h s (by simp [hs])
  · induction b using List.reverseRecOn generalizing v with
    | nil =>
      rw [bound_snoc, List.append_nil]
      constructor
      · intro h; exact .inr ⟨hk k hk', h⟩
      · rintro (h | ⟨-, h⟩)
        · exact absurd h (hk k hk' v)
        · exact h
    | append_singleton b s ih =>
      rw [← List.append_assoc, bound_snoc, ← List.cons_append, ← List.append_assoc, bound_snoc, ih]

namespace TextLayoutExample
open TruncationExample LgExample

/-- the tree of `TruncationExample.leaf` in another order, indented, with Windows line ends and a field that the model does not use -/
def shuffled : Str := "Tree=0\r\n  leaf_value=12 \r\nshrinkage=1\r\nnum_leaves=1\r\nnum_cat=0\r\n\r\n".toList

/-- both texts load, with the same prediction -/
example : predicted (head ++ leaf) low = .ok (F64.ofNat 12) ∧ predicted (head ++ shuffled) low = .ok (F64.ofNat 12) := by
  constructor <;> decide +kernel

/-- an instance of `C94_windows` that loads -/
example : predicted (windows (head ++ leaf)) low = .ok (F64.ofNat 12) ∧ windows (head ++ leaf) ≠ head ++ leaf := by
  constructor <;> decide +kernel

/-- an instance of `C94_order` and `C94_unknown_partial`, on which `SameFields` is not an equality -/
example : SameFields ["a=1".toList, "num_cat=0".toList] ["num_cat=0".toList, "a=1".toList] ∧
    SameFields ["num_cat=0".toList] ["a=1".toList, "num_cat=0".toList] ∧ ¬ SameFields ["num_cat=0".toList] ["num_cat=1".toList] := by
  refine ⟨C94_order _ _ (List.Perm.swap _ _ _) ?_, C94_unknown_partial [] _ _ (by decide) ?_, fun h => ?_⟩
  · refine List.Pairwise.cons ?_ (List.Pairwise.cons (by simp) List.Pairwise.nil)
    intro s hs k v v' h1 h2
    rw [List.mem_singleton] at hs
    subst hs
    have e1 := (lineBinds_unique h1 (k' := "a".toList) (v' := "1".toList) (.inl (by decide))).1
    have e2 := (lineBinds_unique h2 (k' := "num_cat".toList) (v' := "0".toList) (.inl (by decide))).1
    rw [e1] at e2
    exact absurd e2 (by decide)
  · intro k hk v h
    have e := (lineBinds_unique h (k' := "a".toList) (v' := "1".toList) (.inl (by decide))).1
    clear h
    revert k
    decide
  · have h1 : Bound ["num_cat=0".toList] "num_cat".toList "0".toList :=
      ⟨0, _, rfl, .inl (by decide), fun j s' v' hj hs => by
        rw [List.getElem?_eq_none (by simp only [List.length_singleton]; omega)] at hs; cases hs⟩
    obtain ⟨i, s, hs, hb, -⟩ := (h.2 "num_cat" (by decide) _).1 h1
    have hs := List.mem_of_getElem? hs
    rw [List.mem_singleton] at hs
    subst hs
    have e := (lineBinds_unique hb (k' := "num_cat".toList) (v' := "1".toList) (.inl (by decide))).2
    exact absurd e (by decide)

end TextLayoutExample

open TruncationExample LgExample in
/-- C94 is false for fields whose value contains an equals sign, though the model does not use them: a model with a feature named
`colour=red` (as one-hot encodings are often named) is rejected; without the list of feature names, or with a name without an equals
sign, it is accepted. -/
theorem C94_equals_fails :
    (∃ e, loaded ("feature_names=colour=red\n".toList ++ head ++ leaf) = .err e) ∧
    loaded ("feature_names=red\n".toList ++ head ++ leaf) = .ok ⟨⟩ ∧ loaded (head ++ leaf) = .ok ⟨⟩ ∧
    ∀ k ∈ modelFields, ∀ v, ¬ LineBinds "feature_names=colour=red".toList k.toList v := by
  refine ⟨⟨_, (by decide +kernel : _ = Res.err "meet wrong format while reading params")⟩, by decide +kernel, by decide +kernel, ?_⟩
  rintro k - v (⟨h, h1, h2⟩ | ⟨h, -, -⟩)
  · have := congrArg (List.count '=') h
    rw [List.count_append, List.count_cons_self, List.count_eq_zero.2 h1, List.count_eq_zero.2 h2] at this
    revert this; decide
  · exact absurd (by decide) h

end Leaves
