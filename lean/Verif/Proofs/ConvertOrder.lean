import Verif.Proofs.Convert

/-! The order in which the conversion loop creates nodes: the root, then everything to its right, then everything to its left. -/

namespace Leaves

open Spec

section Order
variable {α : Type} {S : Source (List α)} {kids : Nat → List α}

/-- creating node `i` appends `kids i` to the table, whatever the table is -/
inductive Grows (S : Source (List α)) (kids : Nat → List α) : BTree → Prop
  | leaf (k : Nat) : Grows S kids (.leaf k)
  | node (i : Nat) (l r : BTree) (hc : ∀ a, ∃ n, S.createNode (i : Int) a = .ok (n, a ++ kids i) ∧
        hasFlag n.flags Flag.leftLeaf = l.isLeaf ∧ hasFlag n.flags Flag.rightLeaf = r.isLeaf)
      (hl : ∀ j l1 l2, l = .node j l1 l2 → S.leftChild i = .ok (j : Int))
      (hr : ∀ j r1 r2, r = .node j r1 r2 → S.rightChild i = .ok (j : Int))
      (cl : Grows S kids l) (cr : Grows S kids r) : Grows S kids (.node i l r)

/-- where the conversion of the subtree whose root was just created ends -/
structure GrownInOrder (kids : Nat → List α) (s s' : Conv (List α)) (t : BTree) (c : Nat) (below : List (Nat × Nat)) : Prop where
  stack : s'.stack = below
  len : s'.nodes.length = c + t.size
  old : ∀ j, j < c → s'.nodes[j]? = s.nodes[j]?
  vis : marked s.visited s'.visited t.inner.tail
  aux : s'.aux = s.aux ++ t.inner.tail.flatMap kids

theorem convLoop_order :
    ∀ (t : BTree) (i : Nat) (l r : BTree), t = .node i l r → Grows S kids t →
      t.inner.Nodup → (∀ j ∈ t.inner, j < 2 ^ 32) →
    ∀ (s : Conv (List α)) (c : Nat) (below : List (Nat × Nat)) (nd : LgNode), s.stack = (i, c) :: below →
      s.nodes.length = c + 1 → c + t.size < 2 ^ 32 → s.nodes[c]? = some nd →
      hasFlag nd.flags Flag.leftLeaf = l.isLeaf → hasFlag nd.flags Flag.rightLeaf = r.isLeaf →
      (∀ j ∈ t.inner.tail, s.visited[j]? = some false) →
      ∃ (s' : Conv (List α)) (k : Nat), k + 1 = 2 * t.size ∧ (∀ fuel, convLoop S (fuel + k) s = convLoop S fuel s') ∧
        GrownInOrder kids s s' t c below := by
  intro t
  induction t with
  | leaf k => intro i l r h; cases h
  | node i l r ihl ihr =>
    rintro _ _ _ ⟨⟩ hcon hnd hlt s c below nd hst hlen hbound hnc hfl hfr hvis
    cases hcon with
    | node _ _ _ hcreate hlc hrc conl conr =>
    have hinner : (BTree.node i l r).inner = i :: (r.inner ++ l.inner) := rfl
    have hsize : (BTree.node i l r).size = l.size + r.size + 1 := rfl
    rw [hinner] at hnd hlt hvis
    rw [hsize] at hbound
    simp only [List.tail_cons, List.mem_append] at hvis
    have hndr : r.inner.Nodup := by
      have := (List.nodup_cons.1 hnd).2; exact (List.nodup_append.1 this).1
    have hndl : l.inner.Nodup := by
      have := (List.nodup_cons.1 hnd).2; exact (List.nodup_append.1 this).2.1
    have hdisj : ∀ x ∈ r.inner, ∀ y ∈ l.inner, x ≠ y := by
      have := (List.nodup_cons.1 hnd).2; exact (List.nodup_append.1 this).2.2
    have hltr : ∀ j ∈ r.inner, j < 2 ^ 32 := fun j hj => hlt j (by simp [hj])
    have hltl : ∀ j ∈ l.inner, j < 2 ^ 32 := fun j hj => hlt j (by simp [hj])
    have hilt : i < 2 ^ 32 := hlt i (by simp)
    -- phase 1: the right child
    obtain ⟨s1, k1, nd1, hk1, hrun1, hst1, hlen1, hold1, hnc1, hfl1, hfr1, hvis1, haux1⟩ :
        ∃ (s1 : Conv (List α)) (k1 : Nat) (nd1 : LgNode), k1 = 2 * r.size ∧
          (∀ fuel, convLoop S (fuel + k1) s = convLoop S fuel s1) ∧ s1.stack = (i, c) :: below ∧
          s1.nodes.length = c + 1 + r.size ∧ (∀ j, j < c → s1.nodes[j]? = s.nodes[j]?) ∧
          s1.nodes[c]? = some nd1 ∧ hasFlag nd1.flags Flag.leftLeaf = l.isLeaf ∧
          hasFlag nd1.flags Flag.rightLeaf = r.isLeaf ∧
          marked s.visited s1.visited r.inner ∧ s1.aux = s.aux ++ r.inner.flatMap kids := by
      cases hr : r with
      | leaf k =>
        subst hr
        exact ⟨s, 0, nd, rfl, fun _ => rfl, hst, hlen, fun _ _ => rfl, hnc, hfl, hfr,
          marked_nil _, by simp [BTree.inner]⟩
      | node ri rl rr =>
        have hrinner : r.inner = ri :: (rr.inner ++ rl.inner) := by rw [hr]; rfl
        have hrsize : r.size = rl.size + rr.size + 1 := by rw [hr]; rfl
        have hrleaf : r.isLeaf = false := by rw [hr]; rfl
        have hriv : s.visited[ri]? = some false := hvis ri (.inl (by rw [hrinner]; simp))
        have hrcreate : ∀ a, ∃ n, S.createNode (ri : Int) a = .ok (n, a ++ kids ri) ∧
            hasFlag n.flags Flag.leftLeaf = rl.isLeaf ∧ hasFlag n.flags Flag.rightLeaf = rr.isLeaf := by rw [hr] at conr; cases conr; assumption
        obtain ⟨n, hc1, hc5, hc6⟩ := hrcreate s.aux
        have hstep := visitChild_new (S := S) false hriv hnc (hltr ri (by rw [hrinner]; simp))
          (by omega) hc1
        simp only [Bool.false_eq_true, if_false] at hstep
        obtain ⟨s1, hs1⟩ : ∃ s1, s1 = ({
                  nodes := (s.nodes ++ [n]).set c { nd with right := s.nodes.length },
                  visited := s.visited.set ri true, stack := (ri, s.nodes.length) :: s.stack, aux := s.aux ++ kids ri } : Conv (List α)) :=
          ⟨_, rfl⟩
        rw [← hs1] at hstep
        have hone : ∀ fuel, convLoop S (fuel + 1) s = convLoop S fuel s1 := by
          intro fuel
          rw [convLoop, hst]
          dsimp only
          unfold convStep
          rw [Res.idx_eq_ok.2 hnc]
          simp only [Res.ok_bind]
          unfold tryChild
          rw [hfr, hrleaf]
          simp only [Bool.false_eq_true, if_false]
          rw [hrc ri rl rr hr]
          simp only [Res.ok_bind]
          rw [hstep]
          simp only [Res.ok_bind, Res.pure_eq]
        have hn1 : s1.nodes[c + 1]? = some n := by
          rw [hs1]; dsimp only
          rw [get_set_ne (by omega), List.getElem?_append_right (by omega), hlen]; simp
        obtain ⟨s2, k2, hk2, hrun2, hdone⟩ := ihr ri rl rr hr conr hndr hltr s1 (c + 1) ((i, c) :: below) n
          (by rw [hs1]; dsimp only; rw [hst, hlen]) (by rw [hs1]; simp [hlen]) (by omega) hn1
          hc5 hc6
          (by
            intro j hj
            rw [hs1]; dsimp only
            rw [hrinner] at hj
            have hjne : ri ≠ j := by
              intro h; rw [hrinner] at hndr; rw [h] at hndr; exact (List.nodup_cons.1 hndr).1 hj
            rw [List.getElem?_set_ne hjne]
            exact hvis j (.inl (by rw [hrinner]; exact List.mem_cons_of_mem _ hj)))
        have hold2 : ∀ j, j < c + 1 → s2.nodes[j]? = s1.nodes[j]? := hdone.old
        have hc1' : s1.nodes[c]? = some { nd with right := s.nodes.length } := by
          rw [hs1]; dsimp only
          rw [List.getElem?_set_self (by simp; omega)]
        rw [← hr]
        refine ⟨s2, k2 + 1, { nd with right := s.nodes.length }, by omega, ?_, hdone.stack, hdone.len, ?_, ?_, hfl,
          hfr, ?_, ?_⟩
        · intro fuel
          have : fuel + (k2 + 1) = (fuel + k2) + 1 := by omega
          rw [this, hone, hrun2]
        · intro j hj
          rw [hold2 j (by omega), hs1]; dsimp only
          rw [get_set_ne (by omega), List.getElem?_append_left (by omega)]
        · rw [hold2 c (by omega)]; exact hc1'
        · have := marked_trans (v1 := s.visited) (v2 := s1.visited) (by rw [hs1]; exact marked_set _ ri) hdone.vis
          rw [hrinner] at this ⊢
          exact this
        · rw [hdone.aux, hs1, hrinner]
          simp
    -- the right child is dealt with
    have hright1 : ∀ (f : List LgNode → Nat → Nat → Res (List LgNode)) (s2 : Conv (List α)), marked s1.visited s2.visited l.inner ∨ s2 = s1 →
        tryChild S f s2 c r.isLeaf (S.rightChild i) = .ok none := by
      intro f s2 hs2
      unfold tryChild
      cases hr : r with
      | leaf k => rfl
      | node ri rl rr =>
        simp only [BTree.isLeaf, Bool.false_eq_true, if_false]
        rw [hrc ri rl rr hr]
        simp only [Res.ok_bind]
        apply visitChild_old
        have hri : ri ∈ r.inner := by rw [hr]; simp [BTree.inner]
        have hin : ri < s.visited.length := (List.getElem?_eq_some_iff.1 (hvis ri (.inl hri))).1
        have h1 : s1.visited[ri]? = some true := by rw [hvis1.2 ri hin, if_pos hri]
        rcases hs2 with h | rfl
        · rw [h.2 ri (by rw [hvis1.1]; exact hin), h1]; simp
        · exact h1
    -- phase 2: the left child
    obtain ⟨s2, k2, nd2, hk2, hrun2, hst2, hlen2, hold2, hnc2, hfl2, hfr2, hvis2, haux2⟩ :
        ∃ (s2 : Conv (List α)) (k2 : Nat) (nd2 : LgNode), k2 = 2 * l.size ∧
          (∀ fuel, convLoop S (fuel + k2) s1 = convLoop S fuel s2) ∧ s2.stack = (i, c) :: below ∧
          s2.nodes.length = c + 1 + r.size + l.size ∧ (∀ j, j < c → s2.nodes[j]? = s1.nodes[j]?) ∧
          s2.nodes[c]? = some nd2 ∧ hasFlag nd2.flags Flag.leftLeaf = l.isLeaf ∧
          hasFlag nd2.flags Flag.rightLeaf = r.isLeaf ∧
          marked s1.visited s2.visited l.inner ∧ s2.aux = s1.aux ++ l.inner.flatMap kids := by
      cases hl : l with
      | leaf k =>
        subst hl
        exact ⟨s1, 0, nd1, rfl, fun _ => rfl, hst1, hlen1, fun _ _ => rfl, hnc1, hfl1, hfr1,
          marked_nil _, by simp [BTree.inner]⟩
      | node li ll lr =>
        have hlinner : l.inner = li :: (lr.inner ++ ll.inner) := by rw [hl]; rfl
        have hlsize : l.size = ll.size + lr.size + 1 := by rw [hl]; rfl
        have hlleaf : l.isLeaf = false := by rw [hl]; rfl
        have hlmem : li ∈ l.inner := by rw [hlinner]; simp
        have hunv : ∀ j ∈ l.inner, s1.visited[j]? = some false := by
          intro j hj
          have h0 := hvis j (.inr hj)
          have hin : j < s.visited.length := (List.getElem?_eq_some_iff.1 h0).1
          rw [hvis1.2 j hin, if_neg (fun h => hdisj j h j hj rfl)]
          exact h0
        have hlcreate : ∀ a, ∃ n, S.createNode (li : Int) a = .ok (n, a ++ kids li) ∧
            hasFlag n.flags Flag.leftLeaf = ll.isLeaf ∧ hasFlag n.flags Flag.rightLeaf = lr.isLeaf := by rw [hl] at conl; cases conl; assumption
        obtain ⟨n, hc1, hc5, hc6⟩ := hlcreate s1.aux
        have hstep := visitChild_new (S := S) true (hunv li hlmem) hnc1 (hltl li hlmem) (by omega) hc1
        simp only [if_true] at hstep
        obtain ⟨s2, hs2⟩ : ∃ s2, s2 = ({
                  nodes := (s1.nodes ++ [n]).set c { nd1 with left := s1.nodes.length },
                  visited := s1.visited.set li true, stack := (li, s1.nodes.length) :: s1.stack, aux := s1.aux ++ kids li } : Conv (List α)) :=
          ⟨_, rfl⟩
        rw [← hs2] at hstep
        have hone : ∀ fuel, convLoop S (fuel + 1) s1 = convLoop S fuel s2 := by
          intro fuel
          rw [convLoop, hst1]
          dsimp only
          unfold convStep
          rw [Res.idx_eq_ok.2 hnc1]
          simp only [Res.ok_bind]
          rw [hfr1, hfl1, hright1 setRight s1 (.inr rfl)]
          unfold tryChild
          rw [hlleaf]
          simp only [Res.ok_bind, Bool.false_eq_true, if_false]
          rw [hlc li ll lr hl]
          simp only [Res.ok_bind]
          rw [hstep]
          simp only [Res.ok_bind, Res.pure_eq]
        have hn1 : s2.nodes[c + 1 + r.size]? = some n := by
          rw [hs2]; dsimp only
          rw [get_set_ne (by omega), List.getElem?_append_right (by omega), hlen1]; simp
        obtain ⟨s3, k3, hk3, hrun3, hdone⟩ := ihl li ll lr hl conl hndl hltl s2 (c + 1 + r.size)
          ((i, c) :: below) n
          (by rw [hs2]; dsimp only; rw [hst1, hlen1]) (by rw [hs2]; simp [hlen1]) (by omega) hn1
          hc5 hc6
          (by
            intro j hj
            rw [hs2]; dsimp only
            have hjm : j ∈ l.inner := List.mem_of_mem_tail hj
            rw [hlinner] at hj
            have hjne : li ≠ j := by
              intro h; rw [hlinner] at hndl; rw [h] at hndl; exact (List.nodup_cons.1 hndl).1 hj
            rw [List.getElem?_set_ne hjne]
            exact hunv j hjm)
        have hold3 : ∀ j, j < c + 1 + r.size → s3.nodes[j]? = s2.nodes[j]? := hdone.old
        have hc1' : s2.nodes[c]? = some { nd1 with left := s1.nodes.length } := by
          rw [hs2]; dsimp only
          rw [List.getElem?_set_self (by simp; omega)]
        rw [← hl]
        refine ⟨s3, k3 + 1, { nd1 with left := s1.nodes.length }, by omega, ?_, hdone.stack, hdone.len, ?_, ?_, hfl1,
          hfr1, ?_, ?_⟩
        · intro fuel
          have : fuel + (k3 + 1) = (fuel + k3) + 1 := by omega
          rw [this, hone, hrun3]
        · intro j hj
          rw [hold3 j (by omega), hs2]; dsimp only
          rw [get_set_ne (by omega), List.getElem?_append_left (by omega)]
        · rw [hold3 c (by omega)]; exact hc1'
        · have := marked_trans (v1 := s1.visited) (v2 := s2.visited) (by rw [hs2]; exact marked_set _ li) hdone.vis
          rw [hlinner] at this ⊢
          exact this
        · rw [hdone.aux, hs2, hlinner]
          simp
    -- phase 3: pop
    refine ⟨{ s2 with stack := below }, k1 + k2 + 1, by rw [hsize]; omega, ?_, ?_⟩
    · intro fuel
      have : fuel + (k1 + k2 + 1) = ((fuel + 1) + k2) + k1 := by omega
      rw [this, hrun1, hrun2, convLoop, hst2]
      dsimp only
      unfold convStep
      rw [Res.idx_eq_ok.2 hnc2]
      simp only [Res.ok_bind]
      rw [hfr2, hfl2, hright1 setRight s2 (.inl hvis2)]
      have hsecond : tryChild S setLeft s2 c l.isLeaf (S.leftChild i) = .ok none := by
        unfold tryChild
        cases hl : l with
        | leaf k => rfl
        | node li ll lr =>
          simp only [BTree.isLeaf, Bool.false_eq_true, if_false]
          rw [hlc li ll lr hl]
          simp only [Res.ok_bind]
          apply visitChild_old
          have hli : li ∈ l.inner := by rw [hl]; simp [BTree.inner]
          have hin : li < s.visited.length := (List.getElem?_eq_some_iff.1 (hvis li (.inr hli))).1
          rw [hvis2.2 li (by rw [hvis1.1]; exact hin), if_pos hli]
      simp only [Res.ok_bind]
      rw [hsecond]
      simp only [Res.ok_bind, Res.pure_eq]
    · refine ⟨rfl, ?_, ?_, ?_, ?_⟩
      · rw [hsize]; dsimp only; omega
      · intro j hj
        rw [hold2 j hj, hold1 j hj]
      · rw [hinner]; exact marked_trans hvis1 hvis2
      · rw [hinner]
        show s2.aux = _
        rw [haux2, haux1]
        simp

/-- the table after the whole conversion of a tree -/
theorem convert_order (P : Platform) {l r : BTree} (hcon : Grows S kids (.node 0 l r)) (hnd : (BTree.node 0 l r).inner.Nodup)
    {numNodes nVisited : Nat} (hlt : ∀ j ∈ (BTree.node 0 l r).inner, j < nVisited) (hv : nVisited < 2 ^ 32)
    {nodes : List LgNode} {aux : List α} (h : convert P S numNodes nVisited [] = .ok (nodes, aux)) :
    aux = (BTree.node 0 l r).inner.flatMap kids := by
  have hsz : (BTree.node 0 l r).size ≤ nVisited := by
    rw [← BTree.inner_length]; exact nodup_length_le hnd hlt
  obtain ⟨n, hc1, hc5, hc6⟩ : ∃ n, S.createNode ((0 : Nat) : Int) [] = .ok (n, [] ++ kids 0) ∧
      hasFlag n.flags Flag.leftLeaf = l.isLeaf ∧ hasFlag n.flags Flag.rightLeaf = r.isLeaf := by
    cases hcon with
    | node _ _ _ hc => exact hc []
  obtain ⟨s', k, hk, hrun, hdone⟩ := convLoop_order (.node 0 l r) 0 l r rfl hcon hnd
    (fun j hj => by have := hlt j hj; omega)
    { nodes := [n], visited := List.replicate nVisited false, stack := [(0, 0)], aux := [] ++ kids 0 } 0 [] n rfl rfl
    (by omega) rfl hc5 hc6
    (by
      intro j hj
      have := hlt j (List.mem_of_mem_tail hj)
      simp [this])
  have hfinal : convLoop S (2 * nVisited + 2)
      { nodes := [n], visited := List.replicate nVisited false, stack := [(0, 0)], aux := [] ++ kids 0 } = .ok s' := by
    have : 2 * nVisited + 2 = (2 * nVisited + 1 - k) + 1 + k := by omega
    rw [this, hrun, convLoop, hdone.stack]
  unfold convert at h
  obtain ⟨-, -, h⟩ := Res.bind_eq_ok.1 h
  obtain ⟨-, -, h⟩ := Res.bind_eq_ok.1 h
  obtain ⟨-, -, h⟩ := Res.bind_eq_ok.1 h
  obtain ⟨-, -, h⟩ := Res.bind_eq_ok.1 h
  rw [show (0 : Int) = ((0 : Nat) : Int) from rfl, hc1] at h
  simp only [Res.ok_bind, Int.toNat_natCast] at h
  rw [hfinal] at h
  simp only [Res.ok_bind, Res.pure_eq, Res.ok.injEq, Prod.mk.injEq] at h
  rw [← h.2, hdone.aux]
  simp [BTree.inner]

end Order

end Leaves
