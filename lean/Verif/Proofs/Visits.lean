import Verif.Model.Visits
import Verif.Proofs.Convert
import Verif.Spec.Height

/-! # Lemmas about the splits that a prediction looks at -/

namespace Leaves
open Spec

namespace LgTree

theorem predictLoop_next {P : Platform} {t : LgTree} {fvals : List F64} {idx i : Nat} (h : next P t fvals idx = some i) (fuel : Nat) :
    predictLoop P t fvals (fuel + 1) idx = predictLoop P t fvals fuel i := by
  unfold next at h
  split at h
  · cases h
  rename_i node hnode
  split at h
  · cases h
  rename_i fval hfval
  rw [predictLoop, Res.idx_eq_ok.2 hnode]
  simp only [Res.ok_bind]
  rw [Res.idx_eq_ok.2 hfval]
  simp only [Res.ok_bind]
  split at h
  · rename_i hd
    rw [hd]
    simp only [Res.ok_bind, if_true]
    split at h
    · cases h
    · cases h; rename_i hf; rw [if_neg hf]
  · rename_i hd
    rw [hd]
    simp only [Res.ok_bind, Bool.false_eq_true, if_false]
    split at h
    · cases h
    · cases h; rename_i hf; rw [if_neg hf]
  · cases h

theorem predictLoop_last {P : Platform} {t : LgTree} {fvals : List F64} {idx : Nat} (hd : ∀ nd x, t.decision P nd x ≠ .hang)
    (h : next P t fvals idx = none) (fuel : Nat) : predictLoop P t fvals (fuel + 1) idx ≠ .hang := by
  rw [predictLoop]
  refine Res.bind_ne_hang (Res.idx_ne_hang _ _) fun node hnode => ?_
  refine Res.bind_ne_hang (Res.idx_ne_hang _ _) fun fval hfval => ?_
  refine Res.bind_ne_hang (hd _ _) fun b hb => ?_
  unfold next at h
  rw [Res.idx_eq_ok.1 hnode] at h
  dsimp only at h
  rw [Res.idx_eq_ok.1 hfval] at h
  dsimp only at h
  rw [hb] at h
  cases b with
  | true =>
    dsimp only at h
    rw [if_pos rfl]
    split
    · exact Res.bind_ne_hang (Res.idx_ne_hang _ _) fun v _ => by simp
    · rename_i hf; rw [if_neg hf] at h; cases h
  | false =>
    dsimp only at h
    rw [if_neg (by simp)]
    split
    · exact Res.bind_ne_hang (Res.idx_ne_hang _ _) fun v _ => by simp
    · rename_i hf; rw [if_neg hf] at h; cases h

/-- a loop that ends within `fuel` iterations looks at no more than `fuel` nodes -/
theorem visits_le {P : Platform} {t : LgTree} {fvals : List F64} : ∀ (fuel idx : Nat), predictLoop P t fvals fuel idx ≠ .hang →
    ∀ n, (visits P t fvals n idx).length ≤ fuel
  | 0, _, h, _ => absurd rfl h
  | _ + 1, _, _, 0 => Nat.zero_le _
  | fuel + 1, idx, h, n + 1 => by
    rw [visits]
    cases hn : next P t fvals idx with
    | none => simp
    | some i =>
      rw [predictLoop_next hn] at h
      simpa using visits_le fuel i h n

/-- the nodes listed are those of the loop: `n` iterations are not enough exactly if there is one more to list -/
theorem visits_hang_iff {P : Platform} {t : LgTree} {fvals : List F64} (hd : ∀ nd x, t.decision P nd x ≠ .hang) : ∀ (n idx : Nat),
    predictLoop P t fvals n idx = .hang ↔ (visits P t fvals (n + 1) idx).length = n + 1
  | 0, idx => by
    rw [visits]
    cases next P t fvals idx <;> simp [predictLoop, visits]
  | n + 1, idx => by
    rw [visits]
    cases hn : next P t fvals idx with
    | none => simpa using predictLoop_last hd hn n
    | some i =>
      rw [predictLoop_next hn, visits_hang_iff hd n i]
      simp

end LgTree

/-- prediction on an embedded tree ends after no more iterations than the tree has levels -/
theorem predictLoop_emb_height {σ : Type} {M : Meaning σ} {P : Platform} {t : LgTree} {fvals : List F64} {aux : σ}
    (hdec : ∀ nd x, t.decision P nd x ≠ .hang) (hlen : t.nodes.length < 2 ^ 32) :
    ∀ (T : BTree) (c fuel : Nat), T.isLeaf = false → Emb M t.nodes aux T c → T.height ≤ fuel →
      t.predictLoop P fvals fuel c ≠ .hang := by
  intro T
  induction T with
  | leaf k => intro c fuel h; cases h
  | node i l r ihl ihr =>
    intro c fuel _ hemb hf
    obtain ⟨nd, h1, h2, h3, h4, h5, h6, h7⟩ := hemb
    have hsz : (BTree.node i l r).height = max l.height r.height + 1 := rfl
    have m1 := Nat.le_max_left l.height r.height
    have m2 := Nat.le_max_right l.height r.height
    obtain ⟨fuel, rfl⟩ : ∃ g, fuel = g + 1 := ⟨fuel - 1, by omega⟩
    have hc : c < t.nodes.length := (List.getElem?_eq_some_iff.1 h1).1
    rw [LgTree.predictLoop]
    refine Res.bind_ne_hang (Res.idx_ne_hang _ _) fun nd' hnd' => ?_
    rw [Res.idx_eq_ok, h1] at hnd'
    cases hnd'
    refine Res.bind_ne_hang (Res.idx_ne_hang _ _) fun x _ => ?_
    refine Res.bind_ne_hang (hdec _ _) fun b _ => ?_
    cases b with
    | true =>
      rw [if_pos rfl]
      by_cases hl : l.isLeaf = true
      · rw [h3, hl, if_pos rfl]
        exact Res.bind_ne_hang (Res.idx_ne_hang _ _) fun v _ => by simp
      · rw [h3, if_neg hl]
        exact ihl _ _ (by simpa using hl) h6 (by omega)
    | false =>
      rw [if_neg (by simp)]
      by_cases hr : r.isLeaf = true
      · rw [h4, hr, if_pos rfl]
        exact Res.bind_ne_hang (Res.idx_ne_hang _ _) fun v _ => by simp
      · rw [h4, if_neg hr]
        rw [if_neg hr] at h7
        rw [show u32 (c + 1) = c + 1 from Nat.mod_eq_of_lt (by omega)]
        exact ihr _ _ (by simpa using hr) h7 (by omega)

/-- what a prediction on an embedded tree looks at -/
theorem examined_emb {σ : Type} {M : Meaning σ} {P : Platform} {t : LgTree} {aux : σ} {T : BTree} (hdec : ∀ nd x, t.decision P nd x ≠ .hang)
    (hlen : t.nodes.length < 2 ^ 32) (hT : T.isLeaf = false) (he : Emb M t.nodes aux T 0) (fvals : List F64) (n : Nat) :
    (t.examined P fvals n).length ≤ T.height := by
  unfold LgTree.examined
  split
  · exact Nat.zero_le _
  · exact LgTree.visits_le _ _ (predictLoop_emb_height hdec hlen T 0 _ hT he le_rfl) n

end Leaves
