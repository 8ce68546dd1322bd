import Verif.Spec.TextLayout
import Verif.Proofs.LgLoad

/-! # Helper lemmas for C94 -/

namespace Leaves
open Spec

/-- outcomes of the same kind, with related values -/
inductive Related {α β : Type} (Q : α → β → Prop) : Res α → Res β → Prop
  | ok {a b} (h : Q a b) : Related Q (.ok a) (.ok b)
  | err (e e') : Related Q (.err e) (.err e')
  | panic : Related Q .panic .panic
  | hang : Related Q .hang .hang

theorem Related.refl {α : Type} {Q : α → α → Prop} (h : ∀ a, Q a a) (r : Res α) : Related Q r r := by
  cases r with
  | ok a => exact .ok (h a)
  | err e => exact .err e e
  | panic => exact .panic
  | hang => exact .hang

theorem Related.bind {α β γ δ : Type} {Q : α → β → Prop} {R : γ → δ → Prop} {r : Res α} {r' : Res β} {f : α → Res γ} {f' : β → Res δ}
    (h : Related Q r r') (hf : ∀ a b, Q a b → Related R (f a) (f' b)) : Related R (r >>= f) (r' >>= f') := by
  cases h with
  | ok h => exact hf _ _ h
  | err e e' => exact .err e e'
  | panic => exact .panic
  | hang => exact .hang

/-- the parameters agree on the fields of a model -/
def AgreeOn (p p' : Params) : Prop := ∀ k ∈ modelFields, p k.toList = p' k.toList

theorem agreeOn_of {p p' : Params} {lines lines' : List Str} (h : Holds p lines) (h' : Holds p' lines') (hf : SameFields lines lines') :
    AgreeOn p p' := by
  intro k hk
  refine Option.ext fun v => ?_
  rw [h, h', hf.2 k hk]

theorem lgTreeFromParams_agree (P : Platform) {p p' : Params} (h : AgreeOn p p') : lgTreeFromParams P p = lgTreeFromParams P p' := by
  have h1 := h "num_cat" (by decide)
  have h2 := h "num_leaves" (by decide)
  have h3 := h "leaf_value" (by decide)
  have h4 := h "left_child" (by decide)
  have h5 := h "right_child" (by decide)
  have h6 := h "decision_type" (by decide)
  have h7 := h "split_feature" (by decide)
  have h8 := h "threshold" (by decide)
  have h9 := h "cat_threshold" (by decide)
  have h10 := h "cat_boundaries" (by decide)
  unfold lgTreeFromParams Params.toInt Params.toFloat64Slice Params.toInt32Slice Params.toUint32Slice
  rw [h1, h2, h3, h4, h5, h6, h7, h8, h9, h10]

theorem lgTransform_agree {p p' : Params} (h : AgreeOn p p') (g : Int) (a l : Bool) : lgTransform p g a l = lgTransform p' g a l := by
  have h1 := h "objective" (by decide)
  unfold lgTransform Params.toString
  rw [h1]

theorem readParams_alike {t t' : Str} (h : Alike t t') :
    Related (fun x x' => AgreeOn x.1 x'.1 ∧ x.2.ioErr = false ∧ x'.2.ioErr = false ∧ Alike x.2.rest x'.2.rest)
      (readParamsUntilBlank ⟨t, false⟩) (readParamsUntilBlank ⟨t', false⟩) := by
  cases h with
  | same =>
    cases hr : readParamsUntilBlank ⟨t, false⟩ with
    | err e => exact .err _ _
    | panic => exact .panic
    | hang => exact .hang
    | ok x =>
      have := (C36_consumes _ _ _ hr).2.2
      exact .ok ⟨fun _ _ => rfl, this, this, .same _⟩
  | noLine h h' =>
    obtain ⟨e, he⟩ := readParams_no_newline h false
    obtain ⟨e', he'⟩ := readParams_no_newline h' false
    rw [he, he']
    exact .err _ _
  | block h h' hf hr =>
    obtain ⟨first, s, u, ss, e, rfl, hn, hl, hb, rfl⟩ := h
    obtain ⟨first', s', u', ss', e', rfl, hn', hl', hb', rfl⟩ := h'
    rcases readParams_block false hn hl hb with ⟨hr1, -, p, hp, hh⟩ | ⟨hr1, er, hp⟩
    · rcases readParams_block false hn' hl' hb' with ⟨-, -, p', hp', hh'⟩ | ⟨hr2, er', hp'⟩
      · rw [hp, hp']
        exact .ok ⟨agreeOn_of hh hh' hf, rfl, rfl, hr⟩
      · exact absurd ⟨hf.1.1 hr1, by simp⟩ hr2
    · rcases readParams_block false hn' hl' hb' with ⟨hr2, -, p', hp', hh'⟩ | ⟨hr2, er', hp'⟩
      · exact absurd ⟨hf.1.2 hr2, by simp⟩ hr1
      · rw [hp, hp']
        exact .err _ _

/-- readers of texts that are alike -/
def AlikeR (r r' : Reader) : Prop := r.ioErr = false ∧ r'.ioErr = false ∧ Alike r.rest r'.rest

theorem lgReadTrees_alike (P : Platform) : ∀ (n : Nat) {r r' : Reader}, AlikeR r r' →
    Related (fun x x' => x.1 = x'.1) (lgReadTrees P n r) (lgReadTrees P n r')
  | 0, _, _, _ => .ok rfl
  | n + 1, ⟨t, io⟩, ⟨t', io'⟩, ⟨h1, h2, h3⟩ => by
    dsimp only at h1 h2 h3
    subst h1 h2
    rw [lgReadTrees, lgReadTrees]
    refine Related.bind (Q := fun x x' => x.1 = x'.1 ∧ AlikeR x.2 x'.2) ?_ ?_
    · unfold lgTreeFromReader
      refine Related.bind (readParams_alike h3) ?_
      rintro ⟨p, r⟩ ⟨p', r'⟩ ⟨ha, hr⟩
      dsimp only at ha hr ⊢
      rw [lgTreeFromParams_agree P ha]
      refine Related.bind (Related.refl (Q := _root_.Eq) (fun _ => rfl) _) ?_
      rintro a _ rfl
      exact .ok ⟨rfl, hr⟩
    · rintro ⟨a, r⟩ ⟨a', r'⟩ ⟨rfl, hr⟩
      refine Related.bind (lgReadTrees_alike P n hr) ?_
      rintro ⟨as, r⟩ ⟨as', r'⟩ h
      dsimp only at h
      subst h
      exact .ok rfl

theorem lgEnsemble_alike (P : Platform) (lt : Bool) {t t' : Str} (h : Alike t t') :
    Related (fun x x' => x.1 = x'.1) (lgEnsembleFromReader P ⟨t, false⟩ lt) (lgEnsembleFromReader P ⟨t', false⟩ lt) := by
  unfold lgEnsembleFromReader
  refine Related.bind (readParams_alike h) ?_
  rintro ⟨p, r⟩ ⟨p', r'⟩ ⟨ha, hr⟩
  dsimp only at ha hr ⊢
  have h1 := ha "version" (by decide)
  have h2 := ha "num_class" (by decide)
  have h3 := ha "num_tree_per_iteration" (by decide)
  have h4 := ha "max_feature_idx" (by decide)
  have h5 := ha "average_output" (by decide)
  have h6 := ha "tree_sizes" (by decide)
  have e1 : lgCheckVersion p = lgCheckVersion p' := by unfold lgCheckVersion Params.compare; rw [h1]
  have e2 : p.toInt "num_class".toList = p'.toInt "num_class".toList := by unfold Params.toInt; rw [h2]
  have e3 : p.toInt "num_tree_per_iteration".toList = p'.toInt "num_tree_per_iteration".toList := by unfold Params.toInt; rw [h3]
  have e4 : p.toInt "max_feature_idx".toList = p'.toInt "max_feature_idx".toList := by unfold Params.toInt; rw [h4]
  have e5 : p.contains "average_output".toList = p'.contains "average_output".toList := by unfold Params.contains; rw [h5]
  have e6 : p.toStrSlice "tree_sizes".toList = p'.toStrSlice "tree_sizes".toList := by unfold Params.toStrSlice; rw [h6]
  rw [e1, e2, e3, e4, e5, e6]
  refine Related.bind (Related.refl (Q := _root_.Eq) (fun _ => rfl) _) ?_
  rintro _ _ -
  refine Related.bind (Related.refl (Q := _root_.Eq) (fun _ => rfl) _) ?_
  rintro nc _ rfl
  refine Related.bind (Related.refl (Q := _root_.Eq) (fun _ => rfl) _) ?_
  rintro nt _ rfl
  split
  · exact .err _ _
  split
  · exact .err _ _
  split
  · exact .err _ _
  refine Related.bind (Related.refl (Q := _root_.Eq) (fun _ => rfl) _) ?_
  rintro mf _ rfl
  refine Related.bind (Related.refl (Q := _root_.Eq) (fun _ => rfl) _) ?_
  rintro ts _ rfl
  split
  · exact .err _ _
  split
  · exact .err _ _
  rw [lgTransform_agree ha]
  refine Related.bind (Related.refl (Q := _root_.Eq) (fun _ => rfl) _) ?_
  rintro tr _ rfl
  refine Related.bind (lgReadTrees_alike P _ hr) ?_
  rintro ⟨as, r⟩ ⟨as', r'⟩ h
  dsimp only at h
  subst h
  exact .ok rfl

/-! ### texts with the same lines -/

theorem SameFields.refl (lines : List Str) : SameFields lines lines := ⟨Iff.rfl, fun _ _ _ => Iff.rfl⟩

theorem isTrim_unique {l s s' : Str} (h : IsTrim l s) (h' : IsTrim l s') : s = s' := by
  rw [← trimSpace_of h, trimSpace_of h']

/-- a block, and the same lines in another layout: a block again, and the same lines after it -/
theorem block_sameLines {t t' : Str} (h : SameLines t t') :
    ∃ ss rest rest' e, Block t ss rest e ∧ Block t' ss rest' e ∧ (rest = [] ∧ rest' = [] ∨
      (SameLines rest rest' ∧ rest.length < t.length)) := by
  induction h with
  | @last l l' s hn hn' h h' =>
    by_cases hs : s = []
    · subst hs
      exact ⟨[], [], [], true, .stop l hn h, .stop l' hn' h', .inl ⟨rfl, rfl⟩⟩
    · exact ⟨[s], [], [], true, .last hn h hs, .last hn' h' hs, .inl ⟨rfl, rfl⟩⟩
  | @line l l' s t t' hn hn' h h' ht ih =>
    by_cases hs : s = []
    · subst hs
      exact ⟨[], t, t', false, .blank l t hn h, .blank l' t' hn' h', .inr ⟨ht, by simp; omega⟩⟩
    · obtain ⟨ss, rest, rest', e, h1, h2, h3⟩ := ih
      refine ⟨s :: ss, rest, rest', e, .line hn h hs h1, .line hn' h' hs h2, ?_⟩
      rcases h3 with h3 | ⟨h3, h4⟩
      · exact .inl h3
      · exact .inr ⟨h3, by simp; omega⟩

theorem alike_of_sameLines : ∀ (n : Nat) {t t' : Str}, t.length < n → SameLines t t' → Alike t t'
  | 0, _, _, h, _ => absurd h (by omega)
  | n + 1, t, t', hlt, h => by
    cases h with
    | last hn hn' _ _ => exact .noLine hn hn'
    | @line l l' s u u' hn hn' h h' hu =>
      obtain ⟨ss, rest, rest', e, h1, h2, h3⟩ := block_sameLines hu
      refine .block (lines := s :: ss) (lines' := s :: ss) ⟨l, s, u, ss, e, rfl, hn, h, h1, rfl⟩ ⟨l', s, u', ss, e, rfl, hn', h', h2, rfl⟩
        (SameFields.refl _) ?_
      rcases h3 with ⟨rfl, rfl⟩ | ⟨h3, h4⟩
      · exact .same _
      · refine alike_of_sameLines n ?_ h3
        simp only [List.length_append, List.length_cons] at hlt
        omega

theorem windows_append (a b : Str) : windows (a ++ b) = windows a ++ windows b := by
  unfold windows
  rw [List.flatMap_append]

theorem windows_plain {l : Str} (h : '\n' ∉ l) : windows l = l := by
  induction l with
  | nil => rfl
  | cons c l ih =>
    have hc : c ≠ '\n' := fun e => h (by simp [e])
    have hl : '\n' ∉ l := fun e => h (by simp [e])
    show (if c = '\n' then ['\r', '\n'] else [c]) ++ windows l = _
    rw [if_neg hc, ih hl]
    rfl

theorem sameLines_windows : ∀ (n : Nat) (t : Str), t.length < n → SameLines t (windows t)
  | 0, _, h => absurd h (by omega)
  | n + 1, t, h => by
    rcases line_cases t with hn | ⟨l, u, rfl, hn⟩
    · obtain ⟨s, hs⟩ := isTrim_exists t
      rw [windows_plain hn]
      exact .last hn hn hs hs
    · obtain ⟨s, hs⟩ := isTrim_exists l
      have e : windows (l ++ '\n' :: u) = (l ++ ['\r']) ++ '\n' :: windows u := by
        rw [windows_append, windows_plain hn]
        show l ++ (['\r', '\n'] ++ windows u) = _
        simp
      rw [e]
      have hs' : IsTrim (l ++ ['\r']) s := by
        obtain ⟨a, b, rfl, ha, hb, h1, h2⟩ := hs
        refine ⟨a, b ++ ['\r'], by simp, ha, ?_, h1, h2⟩
        intro c hc
        rcases List.mem_append.1 hc with h | h
        · exact hb c h
        · rw [List.mem_singleton] at h
          subst h
          simp [whiteSpace]
      refine .line hn ?_ hs hs' (sameLines_windows n u ?_)
      · intro hm
        rcases List.mem_append.1 hm with h | h
        · exact hn h
        · revert h; decide
      · simp only [List.length_append, List.length_cons] at h
        omega

end Leaves
