import Verif.Spec.NodeOrder
import Verif.Props.Unused

/-! # Renumbered nodes: the conversion loop does the same -/

namespace Leaves
open Spec XgBin

variable {σ : Type}

/-- the same error or crash, or related values -/
inductive Alike {α β : Type} (Q : α → β → Prop) : Res α → Res β → Prop
  | ok {a b} (h : Q a b) : Alike Q (.ok a) (.ok b)
  | err {e} : Alike Q (.err e) (.err e)
  | panic : Alike Q .panic .panic
  | hang : Alike Q .hang .hang

/-- the two sources differ by the numbering `ρ` of their `n` nodes -/
structure SourceMoved (n : Nat) (ρ : Nat → Nat) (S S' : Source σ) : Prop where
  create : ∀ i : Nat, i < n → ∀ a, S'.createNode (ρ i : Nat) a = S.createNode i a
  right : ∀ i : Nat, i < n → Alike (fun c c' => c' = newRef n ρ c) (S.rightChild i) (S'.rightChild (ρ i))
  left : ∀ i : Nat, i < n → Alike (fun c c' => c' = newRef n ρ c) (S.leftChild i) (S'.leftChild (ρ i))

/-- the states of the two loops -/
structure ConvMoved (n : Nat) (ρ : Nat → Nat) (s s' : Conv σ) : Prop where
  nodes : s'.nodes = s.nodes
  aux : s'.aux = s.aux
  len : s.visited.length = n
  len' : s'.visited.length = n
  visited : ∀ i < n, s'.visited[ρ i]? = s.visited[i]?
  stack : s'.stack = s.stack.map fun p => (ρ p.1, p.2)
  inside : ∀ p ∈ s.stack, p.1 < n

/-- both states or none -/
def OptMoved (n : Nat) (ρ : Nat → Nat) : Option (Conv σ) → Option (Conv σ) → Prop
  | some s, some s' => ConvMoved n ρ s s'
  | none, none => True
  | _, _ => False

theorem visitChild_moved {n : Nat} {ρ τ : Nat → Nat} (hn : n ≤ 2 ^ 32) (hρ : Renumbering n ρ τ) {S S' : Source σ} (hS : SourceMoved n ρ S S')
    (setChild : List LgNode → Nat → Nat → Res (List LgNode)) {s s' : Conv σ} (h : ConvMoved n ρ s s') (c : Nat) (i : Int) :
    Alike (OptMoved n ρ) (visitChild S setChild s c i) (visitChild S' setChild s' c (newRef n ρ i)) := by
  unfold visitChild newRef
  by_cases hi : 0 ≤ i ∧ i < n
  · obtain ⟨k, rfl⟩ := Int.eq_ofNat_of_zero_le hi.1
    have hk : k < n := by omega
    have hk' := (hρ k hk).1
    rw [if_pos hi, Int.toNat_natCast, Res.idxI_ofNat, Res.idxI_ofNat]
    have hv := h.visited k hk
    unfold Res.idx
    rw [hv, List.getElem?_eq_getElem (by rw [h.len]; exact hk), Res.ok_bind, Res.ok_bind]
    split
    · exact .ok trivial
    · rw [h.aux, hS.create k hk, h.nodes]
      cases S.createNode (k : Int) s.aux with
      | ok r =>
        rw [Res.ok_bind, Res.ok_bind]
        dsimp only
        cases setChild (s.nodes ++ [r.1]) c (u32 ((s.nodes ++ [r.1]).length - 1)) with
        | ok ns =>
          rw [Res.ok_bind, Res.ok_bind]
          have e1 : u32I ((k : Nat) : Int) = k := by unfold u32I; omega
          have e2 : u32I ((ρ k : Nat) : Int) = ρ k := by unfold u32I; omega
          refine .ok ⟨rfl, rfl, ?_, ?_, fun j hj => ?_, ?_, ?_⟩
          · show (s.visited.set _ _).length = n
            rw [List.length_set, h.len]
          · show (s'.visited.set _ _).length = n
            rw [List.length_set, h.len']
          · show (s'.visited.set (ρ k) true)[ρ j]? = (s.visited.set (Int.toNat (k : Int)) true)[j]?
            rw [Int.toNat_natCast, List.getElem?_set, List.getElem?_set, h.visited j hj, h.len, h.len']
            by_cases hkj : k = j
            · subst hkj
              rw [if_pos rfl, if_pos rfl, if_pos hk', if_pos hk]
            · have : ρ k ≠ ρ j := fun he => hkj (by rw [← (hρ k hk).2.2.1, he, (hρ j hj).2.2.1])
              rw [if_neg this, if_neg hkj]
          · show (u32I ((ρ k : Nat) : Int), _) :: s'.stack = List.map _ ((u32I ((k : Nat) : Int), _) :: s.stack)
            rw [h.stack, e1, e2]
            rfl
          · intro p hp
            rcases List.mem_cons.1 hp with rfl | hp
            · show u32I ((k : Nat) : Int) < n
              rw [e1]; exact hk
            · exact h.inside p hp
        | err t => exact .err
        | panic => exact .panic
        | hang => exact .hang
      | err t => exact .err
      | panic => exact .panic
      | hang => exact .hang
  · rw [if_neg hi]
    have e1 : Res.idxI s.visited i = .panic := by
      unfold Res.idxI Res.idx
      split
      · rfl
      · rw [List.getElem?_eq_none (by rw [h.len]; omega)]
    have e2 : Res.idxI s'.visited i = .panic := by
      unfold Res.idxI Res.idx
      split
      · rfl
      · rw [List.getElem?_eq_none (by rw [h.len']; omega)]
    rw [e1, e2]
    exact .panic

theorem tryChild_moved {n : Nat} {ρ τ : Nat → Nat} (hn : n ≤ 2 ^ 32) (hρ : Renumbering n ρ τ) {S S' : Source σ} (hS : SourceMoved n ρ S S')
    (setChild : List LgNode → Nat → Nat → Res (List LgNode)) {s s' : Conv σ} (h : ConvMoved n ρ s s') (c : Nat) (b : Bool) {x x' : Res Int}
    (hx : Alike (fun c c' => c' = newRef n ρ c) x x') :
    Alike (OptMoved n ρ) (tryChild S setChild s c b x) (tryChild S' setChild s' c b x') := by
  unfold tryChild
  split
  · exact .ok trivial
  · cases hx with
    | ok hq => subst hq; exact visitChild_moved hn hρ hS setChild h c _
    | err => exact .err
    | panic => exact .panic
    | hang => exact .hang

theorem convStep_moved {n : Nat} {ρ τ : Nat → Nat} (hn : n ≤ 2 ^ 32) (hρ : Renumbering n ρ τ) {S S' : Source σ} (hS : SourceMoved n ρ S S')
    {s s' : Conv σ} (h : ConvMoved n ρ s s') {o c : Nat} {below : List (Nat × Nat)} (hs : s.stack = (o, c) :: below) :
    Alike (ConvMoved n ρ) (convStep S s o c below) (convStep S' s' (ρ o) c (below.map fun p => (ρ p.1, p.2))) := by
  have ho : o < n := h.inside (o, c) (by rw [hs]; exact List.mem_cons_self)
  unfold convStep
  rw [h.nodes]
  cases Res.idx s.nodes c with
  | ok node =>
    rw [Res.ok_bind, Res.ok_bind]
    have hr := tryChild_moved hn hρ hS setRight h c (hasFlag node.flags Flag.rightLeaf) (hS.right o ho)
    revert hr
    generalize tryChild S setRight s c (hasFlag node.flags Flag.rightLeaf) (S.rightChild o) = y
    generalize tryChild S' setRight s' c (hasFlag node.flags Flag.rightLeaf) (S'.rightChild (ρ o)) = y'
    intro hr
    cases hr with
    | @ok a a' hq =>
      rw [Res.ok_bind, Res.ok_bind]
      match a, a', hq with
      | some s1, some s1', hq => exact .ok hq
      | none, none, _ =>
        dsimp only
        have hl := tryChild_moved hn hρ hS setLeft h c (hasFlag node.flags Flag.leftLeaf) (hS.left o ho)
        revert hl
        generalize tryChild S setLeft s c (hasFlag node.flags Flag.leftLeaf) (S.leftChild o) = z
        generalize tryChild S' setLeft s' c (hasFlag node.flags Flag.leftLeaf) (S'.leftChild (ρ o)) = z'
        intro hl
        cases hl with
        | @ok b b' hq =>
          rw [Res.ok_bind, Res.ok_bind]
          match b, b', hq with
          | some s1, some s1', hq => exact .ok hq
          | none, none, _ =>
            exact .ok ⟨rfl, h.aux, h.len, h.len', h.visited, rfl, fun p hp => h.inside p (by rw [hs]; exact List.mem_cons_of_mem _ hp)⟩
        | err => exact .err
        | panic => exact .panic
        | hang => exact .hang
    | err => exact .err
    | panic => exact .panic
    | hang => exact .hang
  | err t => exact .err
  | panic => exact .panic
  | hang => exact .hang

theorem convLoop_moved {n : Nat} {ρ τ : Nat → Nat} (hn : n ≤ 2 ^ 32) (hρ : Renumbering n ρ τ) {S S' : Source σ} (hS : SourceMoved n ρ S S') (fuel : Nat) :
    ∀ s s', ConvMoved n ρ s s' → Alike (ConvMoved n ρ) (convLoop S fuel s) (convLoop S' fuel s') := by
  induction fuel with
  | zero => intro s s' _; exact .hang
  | succ fuel ih =>
    intro s s' h
    have hst := h.stack
    unfold convLoop
    cases hs : s.stack with
    | nil =>
      rw [hs] at hst
      rw [hst]
      exact .ok h
    | cons p below =>
      rw [hs] at hst
      rw [hst]
      have hstep := convStep_moved hn hρ hS h (o := p.1) (c := p.2) hs
      show Alike _ (convStep S s p.1 p.2 below >>= fun x => convLoop S fuel x)
        (convStep S' s' (ρ p.1) p.2 (below.map fun p => (ρ p.1, p.2)) >>= fun x => convLoop S' fuel x)
      revert hstep
      generalize convStep S s p.1 p.2 below = y
      generalize convStep S' s' (ρ p.1) p.2 (below.map fun p => (ρ p.1, p.2)) = y'
      intro hstep
      cases hstep with
      | ok hq => exact ih _ _ hq
      | err => exact .err
      | panic => exact .panic
      | hang => exact .hang

/-- the conversion of a table of `n` nodes and of the renumbered table have the same outcome -/
theorem convert_moved (P : Platform) {n : Nat} {ρ τ : Nat → Nat} (h0 : 0 < n) (hn : n ≤ 2 ^ 32) (hr : ρ 0 = 0) (hρ : Renumbering n ρ τ) {S S' : Source σ}
    (hS : SourceMoved n ρ S S') (numNodes : Int) (aux : σ) : convert P S' numNodes n aux = convert P S numNodes n aux := by
  have hc := hS.create 0 h0 aux
  rw [hr] at hc
  unfold convert
  rw [show S'.createNode 0 aux = S.createNode 0 aux from hc]
  cases S.createNode 0 aux with
  | ok r =>
    simp only [Res.ok_bind]
    have hl := convLoop_moved hn hρ hS (2 * (n : Int).toNat + 2)
      { nodes := [r.1], visited := List.replicate (n : Int).toNat false, stack := [(0, 0)], aux := r.2 }
      { nodes := [r.1], visited := List.replicate (n : Int).toNat false, stack := [(0, 0)], aux := r.2 }
      ⟨rfl, rfl, by simp, by simp, fun i hi => by
        have := (hρ i hi).1
        simp [hi, this], by simp [hr], by simpa using h0⟩
    revert hl
    generalize convLoop S _ _ = y
    generalize convLoop S' _ _ = y'
    intro hl
    cases hl with
    | ok hq => simp only [Res.ok_bind, hq.nodes, hq.aux]
    | err => rfl
    | panic => rfl
    | hang => rfl
  | err t => rfl
  | panic => rfl
  | hang => rfl

end Leaves
