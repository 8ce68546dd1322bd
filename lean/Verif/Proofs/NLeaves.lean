import Verif.Proofs.PredictTop

/-! `NLeaves`: the nested loops fill the list group by group. -/

namespace Leaves

open Spec

theorem loopRes_inv {α : Type} {f : Nat → α → Res α} {I : Nat → α → Prop} : ∀ {c s : Nat} {a : α},
    (∀ k, s ≤ k → k < s + c → ∀ a, I k a → ∃ a', f k a = .ok a' ∧ I (k + 1) a') → I s a →
      ∃ a', loopRes f s c a = .ok a' ∧ I (s + c) a' := by
  intro c
  induction c with
  | zero => intro s a _ h; exact ⟨a, rfl, h⟩
  | succ c ih =>
    intro s a hf h
    obtain ⟨a1, h1, h2⟩ := hf s (Nat.le_refl _) (by omega) a h
    obtain ⟨a2, h3, h4⟩ := ih (fun k g1 g2 => hf k (by omega) (by omega)) h2
    refine ⟨a2, ?_, by rw [show s + (c + 1) = s + 1 + c by omega]; exact h4⟩
    rw [loopRes, h1, Res.ok_bind, h3]

theorem setI_nat {α : Type} {l : List α} {j : Nat} (h : j < l.length) (v : α) : setI l (j : Int) v = .ok (l.set j v) := by
  unfold setI
  rw [if_neg (by omega), Int.toNat_natCast]

theorem nLeavesOf_spec {trees : List LgTree} {G n : Nat} (h : n * G ≤ trees.length) :
    ∃ L, nLeavesOf trees n G = .ok L ∧ L.length = G * n ∧
      ∀ i < n, ∀ k < G, ∃ t, trees[i * G + k]? = some t ∧ L[k * n + i]? = some t.nLeaves := by
  unfold nLeavesOf
  rw [show ((n : Int) * (G : Int)) = ((G * n : Nat) : Int) by push_cast; ring, makeSlice_ok, Res.ok_bind]
  simp only [Int.toNat_natCast]
  have hm : ∀ (u v w : Nat), ((u : Int) * (v : Int) + (w : Int)) = ((u * v + w : Nat) : Int) := by intros; push_cast; ring
  let Good := fun (L : List Nat) (i k : Nat) => ∃ t, trees[i * G + k]? = some t ∧ L[k * n + i]? = some t.nLeaves
  have hrow : ∀ i, i < n → ∀ L : List Nat, (L.length = G * n ∧ ∀ i' < i, ∀ k < G, Good L i' k) →
      ∃ L', loopRes (fun groupID nleaves => do
        let t ← Res.idxI trees ((i : Int) * (G : Int) + (groupID : Int))
        setI nleaves ((groupID : Int) * (n : Int) + (i : Int)) t.nLeaves) 0 G L = .ok L' ∧
        (L'.length = G * n ∧ ∀ i' < i + 1, ∀ k < G, Good L' i' k) := by
    intro i hi L ⟨hL1, hL2⟩
    obtain ⟨L', h1, h2, h3, h4⟩ := loopRes_inv (f := fun groupID nleaves => do
        let t ← Res.idxI trees ((i : Int) * (G : Int) + (groupID : Int))
        setI nleaves ((groupID : Int) * (n : Int) + (i : Int)) t.nLeaves)
      (I := fun k0 L => L.length = G * n ∧ (∀ i' < i, ∀ k < G, Good L i' k) ∧ ∀ k < k0, Good L i k)
      (c := G) (s := 0) (a := L) (by
        intro k _ hk L ⟨g1, g2, g3⟩
        have hlt : i * G + k < trees.length := lt_of_lt_of_le (cell_lt hi (by omega)) h
        have hc := cell_lt (k := k) (G := G) (n := n) (i := i) (by omega) hi
        refine ⟨L.set (k * n + i) (trees[i * G + k]).nLeaves, ?_, by simpa using g1, ?_, ?_⟩
        · rw [hm, hm, Res.idxI_ofNat, Res.idx_of_lt hlt, Res.ok_bind, setI_nat (by omega)]
        · intro i' hi' k' hk'
          obtain ⟨t, ht1, ht2⟩ := g2 i' hi' k' hk'
          refine ⟨t, ht1, ?_⟩
          rw [List.getElem?_set_ne (fun he => by have := (cell_inj hi (by omega) he).2; omega)]
          exact ht2
        · intro k' hk'
          by_cases he : k' = k
          · subst he
            exact ⟨_, List.getElem?_eq_getElem hlt, by rw [List.getElem?_set_self (by omega)]⟩
          · obtain ⟨t, ht1, ht2⟩ := g3 k' (by omega)
            refine ⟨t, ht1, ?_⟩
            rw [List.getElem?_set_ne (fun he' => he (cell_inj hi hi he').1.symm)]
            exact ht2)
      ⟨hL1, hL2, fun k hk => by omega⟩
    refine ⟨L', h1, h2, fun i' hi' k hk => ?_⟩
    by_cases he : i' = i
    · subst he; exact h4 k (by omega)
    · exact h3 i' (by omega) k hk
  obtain ⟨L, h1, h2, h3⟩ := loopRes_inv (I := fun i (L : List Nat) => L.length = G * n ∧ ∀ i' < i, ∀ k < G, Good L i' k)
    (c := n) (s := 0) (a := List.replicate (G * n) 0)
    (f := fun estimatorID nleaves => loopRes (fun groupID nleaves => do
        let t ← Res.idxI trees ((estimatorID : Int) * (G : Int) + (groupID : Int))
        setI nleaves ((groupID : Int) * (n : Int) + (estimatorID : Int)) t.nLeaves) 0 G nleaves)
    (fun i _ hi L hL => hrow i (by omega) L hL) ⟨by simp, fun i hi => by omega⟩
  exact ⟨L, h1, h2, fun i hi k hk => h3 i (by omega) k hk⟩

end Leaves
