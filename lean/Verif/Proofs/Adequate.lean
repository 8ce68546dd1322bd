import Verif.Model.Tree
import Verif.Proofs.Convert
import Mathlib.Data.Fintype.Card

/-!
Adequacy of the fuel in `LgTree.predict`: the loop of lgtree.go 79-93 either leaves within
`nodes.length + 1` iterations or never.
-/

namespace Leaves

namespace LgTree

/-- one iteration: leave with a result, or continue at a node -/
def body (P : Platform) (t : LgTree) (fvals : List F64) (idx : Nat) : Res ((F64 × Nat) ⊕ Nat) := do
  let node ← Res.idx t.nodes idx
  let fval ← Res.idx fvals node.feature
  let left ← t.decision P node fval
  if left then
    if hasFlag node.flags Flag.leftLeaf then
      let v ← Res.idx t.leafValues node.left
      return .inl (v, node.left)
    else return .inr node.left
  else
    if hasFlag node.flags Flag.rightLeaf then
      let v ← Res.idx t.leafValues node.right
      return .inl (v, node.right)
    else return .inr (u32 (idx + 1))

theorem predictLoop_succ (P : Platform) (t : LgTree) (fvals : List F64) (fuel idx : Nat) :
    t.predictLoop P fvals (fuel + 1) idx =
      (t.body P fvals idx >>= fun x => match x with | .inl r => .ok r | .inr i => t.predictLoop P fvals fuel i) := by
  rw [predictLoop]
  unfold body
  cases Res.idx t.nodes idx with
  | ok node =>
    simp only [Res.ok_bind]
    cases Res.idx fvals node.feature with
    | ok fval =>
      simp only [Res.ok_bind]
      cases t.decision P node fval with
      | ok left =>
        simp only [Res.ok_bind]
        cases left
        · simp only [Bool.false_eq_true, if_false]
          split
          · cases Res.idx t.leafValues node.right <;> simp
          · simp
        · simp only [if_true]
          split
          · cases Res.idx t.leafValues node.left <;> simp
          · simp
      | _ => simp
    | _ => simp
  | _ => simp

theorem findInBitset_ne_hang (t : LgTree) (idx pos : Nat) : t.findInBitset idx pos ≠ .hang := by
  unfold findInBitset
  refine Res.bind_ne_hang (Res.idx_ne_hang _ _) fun _ _ => ?_
  refine Res.bind_ne_hang (Res.idx_ne_hang _ _) fun _ _ => ?_
  split
  · simp
  · exact Res.bind_ne_hang (Res.idx_ne_hang _ _) fun _ _ => by simp

theorem decision_ne_hang (P : Platform) (t : LgTree) (node : LgNode) (x : F64) : t.decision P node x ≠ .hang := by
  unfold decision categoricalDecision
  split
  · dsimp only
    split
    · simp
    · split
      · simp
      · split
        · simp
        · split
          · simp
          · exact findInBitset_ne_hang _ _ _
  · simp

theorem body_ne_hang (P : Platform) (t : LgTree) (fvals : List F64) (idx : Nat) : t.body P fvals idx ≠ .hang := by
  unfold body
  refine Res.bind_ne_hang (Res.idx_ne_hang _ _) fun _ _ => ?_
  refine Res.bind_ne_hang (Res.idx_ne_hang _ _) fun _ _ => ?_
  refine Res.bind_ne_hang (decision_ne_hang _ _ _ _) fun b _ => ?_
  cases b
  · simp only [Bool.false_eq_true, if_false]
    split
    · exact Res.bind_ne_hang (Res.idx_ne_hang _ _) fun _ _ => by simp
    · simp
  · simp only [if_true]
    split
    · exact Res.bind_ne_hang (Res.idx_ne_hang _ _) fun _ _ => by simp
    · simp

theorem body_lt {P : Platform} {t : LgTree} {fvals : List F64} {idx : Nat} {x : (F64 × Nat) ⊕ Nat}
    (h : t.body P fvals idx = .ok x) : idx < t.nodes.length := by
  unfold body at h
  rw [Res.bind_eq_ok] at h
  obtain ⟨n, hn, _⟩ := h
  rw [Res.idx_eq_ok] at hn
  exact (List.getElem?_eq_some_iff.1 hn).1

theorem predictLoop_mono (P : Platform) (t : LgTree) (fvals : List F64) :
    ∀ fuel idx, t.predictLoop P fvals fuel idx ≠ .hang →
      t.predictLoop P fvals (fuel + 1) idx = t.predictLoop P fvals fuel idx
  | 0, idx, h => absurd rfl h
  | fuel + 1, idx, h => by
    rw [predictLoop_succ] at h
    rw [predictLoop_succ, predictLoop_succ P t fvals fuel idx]
    cases hb : t.body P fvals idx with
    | ok x =>
      rw [hb] at h
      cases x with
      | inl r => rfl
      | inr i =>
        simp only [Res.ok_bind] at h ⊢
        exact predictLoop_mono P t fvals fuel i h
    | _ => simp

theorem predictLoop_mono_le (P : Platform) (t : LgTree) (fvals : List F64) {fuel fuel' idx : Nat} (hle : fuel ≤ fuel')
    (h : t.predictLoop P fvals fuel idx ≠ .hang) :
    t.predictLoop P fvals fuel' idx = t.predictLoop P fvals fuel idx := by
  induction hle with
  | refl => rfl
  | step _ ih => rw [predictLoop_mono _ _ _ _ _ (by rw [ih]; exact h), ih]

/-- an index whose loop needs exactly `v + 1` iterations -/
def Needs (P : Platform) (t : LgTree) (fvals : List F64) (v i : Nat) : Prop :=
  t.predictLoop P fvals (v + 1) i ≠ .hang ∧ t.predictLoop P fvals v i = .hang

theorem needs_chain (P : Platform) (t : LgTree) (fvals : List F64) : ∀ f idx, Needs P t fvals f idx →
    ∀ v, 1 ≤ v → v ≤ f → ∃ i, i < t.nodes.length ∧ Needs P t fvals v i
  | 0, idx, _, v, h1, h2 => by omega
  | f + 1, idx, h, v, h1, h2 => by
    obtain ⟨ha, hb⟩ := h
    rw [predictLoop_succ] at ha hb
    cases hbody : t.body P fvals idx with
    | ok x =>
      rw [hbody] at ha hb
      simp only [Res.ok_bind] at ha hb
      cases x with
      | inl r => simp at hb
      | inr i =>
        dsimp only at ha hb
        rcases Nat.lt_or_ge f v with hv | hv
        · have : v = f + 1 := by omega
          subst this
          refine ⟨idx, body_lt hbody, ?_, ?_⟩
          · rw [predictLoop_succ, hbody]; exact ha
          · rw [predictLoop_succ, hbody]; exact hb
        · exact needs_chain P t fvals f i ⟨ha, hb⟩ v h1 hv
    | err e => rw [hbody] at hb; simp at hb
    | panic => rw [hbody] at hb; simp at hb
    | hang => exact absurd hbody (body_ne_hang _ _ _ _)

theorem needs_le {P : Platform} {t : LgTree} {fvals : List F64} {f idx : Nat} (h : Needs P t fvals f idx) :
    f ≤ t.nodes.length := by
  have hchain := needs_chain P t fvals f idx h
  choose! g hg1 hg2 using hchain
  have hinj : ∀ a b, 1 ≤ a → a ≤ f → 1 ≤ b → b ≤ f → g a = g b → ¬ a < b := by
    intro a b ha1 ha2 hb1 hb2 hab hlt
    have h1 := (hg2 a ha1 ha2).1
    have h2 := (hg2 b hb1 hb2).2
    rw [← hab] at h2
    have := predictLoop_mono_le P t fvals (fuel' := b) (by omega) h1
    rw [h2] at this
    exact h1 this.symm
  let F : Fin f → Fin t.nodes.length := fun i => ⟨g (i.1 + 1), hg1 _ (by omega) (by omega)⟩
  have hF : Function.Injective F := by
    intro a b hab
    have : g (a.1 + 1) = g (b.1 + 1) := by simpa [F] using hab
    apply Fin.ext
    have h1 := hinj (a.1 + 1) (b.1 + 1) (by omega) (by omega) (by omega) (by omega) this
    have h2 := hinj (b.1 + 1) (a.1 + 1) (by omega) (by omega) (by omega) (by omega) this.symm
    omega
  simpa using Fintype.card_le_of_injective F hF

/-- If the loop ever leaves, it leaves within the iterations that `predict` allows, with the same outcome. -/
theorem predict_adequate (P : Platform) (t : LgTree) (fvals : List F64) (fuel idx : Nat)
    (h : t.predictLoop P fvals fuel idx ≠ .hang) :
    t.predictLoop P fvals (t.nodes.length + 1) idx = t.predictLoop P fvals fuel idx := by
  rcases Nat.le_total fuel (t.nodes.length + 1) with hle | hle
  · exact predictLoop_mono_le P t fvals hle h
  · -- the exact number of iterations
    have hex : ∃ f, t.predictLoop P fvals f idx ≠ .hang := ⟨fuel, h⟩
    classical
    let m := Nat.find hex
    have hm : t.predictLoop P fvals m idx ≠ .hang := Nat.find_spec hex
    have hm0 : m ≠ 0 := by intro h0; rw [h0] at hm; exact hm rfl
    obtain ⟨f, hf⟩ := Nat.exists_eq_succ_of_ne_zero hm0
    have hneed : Needs P t fvals f idx := by
      refine ⟨by rw [← Nat.succ_eq_add_one, ← hf]; exact hm, ?_⟩
      have := Nat.find_min hex (m := f) (by show f < m; omega)
      simpa using this
    have := needs_le hneed
    rw [predictLoop_mono_le P t fvals (fuel := m) (by omega) hm]
    exact (predictLoop_mono_le P t fvals (fuel := m) (by omega) hm).symm

end LgTree
end Leaves
