import Verif.Props.Transform

/-! # C71: transformations as objects -/

namespace Leaves

open Spec GoM

/-- C71: a transformation reports success exactly when it has a result for the raw values, which is then stored from the given position on
and nowhere else; it reports an error exactly when it has none (a logistic or exponential transformation of other than one value, softmax
of another number of values than classes), and then stores nothing. -/
theorem C71_transform (P : Platform) (t : Transform) (w : List F64) (s : Nat) (m : List F64) (hm : s + w.length ≤ m.length) :
    (∀ m', (t.apply P w s).run m = (.ok true, m') ↔ ∃ out, IsTransformed P t w out ∧ Stored m s out m') ∧
    ((t.apply P w s).run m = (.ok false, m) ↔ ¬ ∃ out, IsTransformed P t w out) ∧
    ∃ b m', (t.apply P w s).run m = (.ok b, m') := by
  have hyes : ∀ out, IsTransformed P t w out → ∃ m', (t.apply P w s).run m = (.ok true, m') ∧ Stored m s out m' := by
    intro out ho
    obtain ⟨pre, w0, post, rfl, rfl, hw0⟩ := cut hm
    have hl := IsTransformed.length ho
    refine ⟨pre ++ out ++ post, ?_, (stored_iff (by rw [hl, hw0])).2 rfl⟩
    rw [apply_shift, run_shift _ w0 (by rw [hw0]; exact apply_within P t w) pre post, apply_run ho hw0]
  have hno : (¬ ∃ out, IsTransformed P t w out) → (t.apply P w s).run m = (.ok false, m) := by
    intro hc
    cases t with
    | raw n => exact absurd ⟨w, rfl⟩ hc
    | leafIndex n => exact absurd ⟨w, rfl⟩ hc
    | logistic =>
      match w, hc with
      | [], _ => rfl
      | [x], hc => exact absurd ⟨_, x, rfl, rfl⟩ hc
      | _ :: _ :: _, _ => rfl
    | exponential =>
      match w, hc with
      | [], _ => rfl
      | [x], hc => exact absurd ⟨_, x, rfl, rfl⟩ hc
      | _ :: _ :: _, _ => rfl
    | softmax n =>
      simp only [Transform.apply]
      rw [if_pos fun he => hc ⟨_, he, rfl⟩]
      rfl
  refine ⟨fun m' => ⟨fun h => ?_, fun ⟨out, ho, hs⟩ => ?_⟩, ⟨fun h hc => ?_, hno⟩, ?_⟩
  · by_cases hc : ∃ out, IsTransformed P t w out
    · obtain ⟨out, ho⟩ := hc
      obtain ⟨m1, h1, h2⟩ := hyes out ho
      rw [h1] at h
      cases h
      exact ⟨out, ho, h2⟩
    · rw [hno hc] at h
      cases h
  · obtain ⟨m1, h1, h2⟩ := hyes out ho
    rw [h1]
    have : m1 = m' := by
      apply List.ext_getElem?
      intro j
      rw [h2.2.2, hs.2.2]
    rw [this]
  · obtain ⟨out, ho⟩ := hc
    obtain ⟨m1, h1, h2⟩ := hyes out ho
    rw [h1] at h
    cases h
  · by_cases hc : ∃ out, IsTransformed P t w out
    · obtain ⟨out, ho⟩ := hc
      obtain ⟨m1, h1, -⟩ := hyes out ho
      exact ⟨_, _, h1⟩
    · exact ⟨_, _, hno hc⟩

/-- C71: the number of results is the number the transformation announces, for softmax, logistic and exponential. -/
theorem C71_count (P : Platform) (t : Transform) (w out : List F64) (h : IsTransformed P t w out) (ht : ∀ n, t ≠ .raw n ∧ t ≠ .leafIndex n) :
    (out.length : Int) = t.nOutputGroups := by
  rw [IsTransformed.length h]
  cases t with
  | raw n => exact absurd rfl (ht n).1
  | leafIndex n => exact absurd rfl (ht n).2
  | logistic => obtain ⟨x, rfl, -⟩ := h; rfl
  | exponential => obtain ⟨x, rfl, -⟩ := h; rfl
  | softmax n => exact h.1

/-- C71: raw transformations do not check the number of values: two values pass as the one value announced. -/
theorem C71_raw_unchecked (P : Platform) (x y : F64) : IsTransformed P (.raw 1) [x, y] [x, y] ∧ (Transform.raw 1).nOutputGroups = 1 := ⟨rfl, rfl⟩

/-- two cases of C71: softmax for three classes refuses two values; for two classes, it stores two values after the first -/
example : ((Transform.softmax 3).apply Platform.demo [F64.zero, F64.one] 1).run [F64.one, F64.one, F64.one] = (.ok false, [F64.one, F64.one, F64.one]) :=
  (C71_transform Platform.demo _ _ 1 _ (by decide)).2.1.2 fun ⟨_, h⟩ => absurd h.1 (by decide)

example : ∃ m', ((Transform.softmax 2).apply Platform.demo [F64.ofNat 3, F64.ofNat 3] 1).run [F64.one, F64.zero, F64.zero, F64.zero] = (.ok true, m') ∧
    m' = [F64.one, F64.const 1 2, F64.const 1 2, F64.zero] := by
  refine ⟨_, ((C71_transform Platform.demo _ _ 1 _ (by decide)).1 _).2 ⟨[F64.const 1 2, F64.const 1 2], ⟨rfl, by decide +kernel⟩, ?_⟩, rfl⟩
  exact (stored_iff (pre := [F64.one]) (w := [F64.zero, F64.zero]) (post := [F64.zero]) (out := [F64.const 1 2, F64.const 1 2]) rfl).2 rfl

end Leaves
