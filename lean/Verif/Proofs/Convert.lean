import Verif.Model.Convert
import Verif.Proofs.Split
import Verif.Spec.Tree

/-! The conversion loop turns an array-encoded tree into nodes that embed that tree. -/

namespace Leaves

open Spec

/-- What the conversion of original nodes has to achieve, independent of the source format. `R i n a`: node
`n` carries the split of original node `i`, given the tables `a`; `Q k j a`: leaf index `j` stands for leaf
`k`. -/
structure Meaning (σ : Type) where
  R : Nat → LgNode → σ → Prop
  Q : Nat → Nat → σ → Prop

/-- The child reference that leads to subtree `T` placed at `c`: leaf index or node index. -/
def Emb {σ : Type} (M : Meaning σ) (nodes : List LgNode) (aux : σ) : BTree → Nat → Prop
  | .leaf k, j => M.Q k j aux
  | .node i l r, c => ∃ nd, nodes[c]? = some nd ∧ M.R i nd aux ∧
      hasFlag nd.flags Flag.leftLeaf = l.isLeaf ∧ hasFlag nd.flags Flag.rightLeaf = r.isLeaf ∧
      (l.isLeaf = false → nd.left = c + 1 + r.size) ∧ Emb M nodes aux l nd.left ∧
      Emb M nodes aux r (if r.isLeaf then nd.right else c + 1)

/-- Properties of a source needed by the conversion proof. `W i` is the budget that node `i` consumes;
`Inv b a` says that the tables `a` are consistent and have used at most budget `b`. -/
structure SourceOK {σ : Type} (S : Source σ) (M : Meaning σ) (le : σ → σ → Prop) (Inv : Nat → σ → Prop)
    (W : Nat → Nat) (lim : Nat) : Prop where
  le_refl : ∀ a, le a a
  le_trans : ∀ a b c, le a b → le b c → le a c
  R_mono : ∀ i n a b, le a b → M.R i n a → M.R i n b
  Q_mono : ∀ k j a b, le a b → M.Q k j a → M.Q k j b
  /-- child references do not matter for the split -/
  R_child : ∀ i n n' a, n'.threshold = n.threshold → n'.feature = n.feature → n'.flags = n.flags →
    M.R i n a → M.R i n' a

/-- creation of one node succeeds with the right meaning -/
def CreateOK {σ : Type} (S : Source σ) (M : Meaning σ) (le : σ → σ → Prop) (Inv : Nat → σ → Prop)
    (W : Nat → Nat) (lim : Nat) (i : Nat) (l r : BTree) : Prop :=
  ∀ b a, Inv b a → b + W i ≤ lim → ∃ n a', S.createNode (i : Int) a = .ok (n, a') ∧ Inv (b + W i) a' ∧ le a a' ∧
    M.R i n a' ∧ hasFlag n.flags Flag.leftLeaf = l.isLeaf ∧ hasFlag n.flags Flag.rightLeaf = r.isLeaf ∧
    (∀ k, l = .leaf k → M.Q k n.left a') ∧ (∀ k, r = .leaf k → M.Q k n.right a')

/-- the source contains the tree: child indices and node creation -/
inductive Contains {σ : Type} (S : Source σ) (M : Meaning σ) (le : σ → σ → Prop) (Inv : Nat → σ → Prop)
    (W : Nat → Nat) (lim : Nat) : BTree → Prop
  | leaf (k : Nat) : Contains S M le Inv W lim (.leaf k)
  | node (i : Nat) (l r : BTree) (hc : CreateOK S M le Inv W lim i l r)
      (hl : ∀ j l1 l2, l = .node j l1 l2 → S.leftChild i = .ok (j : Int))
      (hr : ∀ j r1 r2, r = .node j r1 r2 → S.rightChild i = .ok (j : Int))
      (cl : Contains S M le Inv W lim l) (cr : Contains S M le Inv W lim r) :
      Contains S M le Inv W lim (.node i l r)

/-- budget of a tree -/
def weight (W : Nat → Nat) : BTree → Nat
  | .leaf _ => 0
  | .node i l r => W i + weight W r + weight W l

theorem weight_eq (W : Nat → Nat) (t : BTree) : weight W t = (t.inner.map W).sum := by
  induction t with
  | leaf k => rfl
  | node i l r hl hr => simp [weight, BTree.inner, hl, hr]; omega

/-- embeddings only look at the nodes of their own range -/
theorem Emb.congr {σ : Type} {M : Meaning σ} {le : σ → σ → Prop} {S : Source σ} {Inv : Nat → σ → Prop}
    {W : Nat → Nat} {lim : Nat} (hS : SourceOK S M le Inv W lim) {nodes nodes' : List LgNode} {a a' : σ} (ha : le a a') :
    ∀ (t : BTree) (c : Nat), (∀ j, c ≤ j → j < c + t.size → nodes'[j]? = nodes[j]?) →
      Emb M nodes a t c → Emb M nodes' a' t c
  | .leaf k, j, _, h => hS.Q_mono _ _ _ _ ha h
  | .node i l r, c, hn, h => by
    obtain ⟨nd, h1, h2, h3, h4, h5, h6, h7⟩ := h
    have hsz : (BTree.node i l r).size = l.size + r.size + 1 := rfl
    rw [hsz] at hn
    refine ⟨nd, ?_, hS.R_mono _ _ _ _ ha h2, h3, h4, h5, ?_, ?_⟩
    · rw [hn c (by omega) (by omega)]; exact h1
    · refine Emb.congr hS ha l _ ?_ h6
      cases hl : l with
      | leaf k => intro j h1 h2; simp [BTree.size] at h2; omega
      | node i' l1 l2 =>
        have := h5 (by rw [hl]; rfl)
        intro j hj1 hj2
        rw [← hl] at hj2
        exact hn j (by omega) (by omega)
    · refine Emb.congr hS ha r _ ?_ h7
      cases hr : r with
      | leaf k => intro j h1 h2; simp [BTree.size] at h2; omega
      | node i' l1 l2 =>
        intro j hj1 hj2
        simp only [BTree.isLeaf, Bool.false_eq_true, if_false] at hj1 hj2
        rw [← hr] at hj2
        exact hn j (by omega) (by omega)

section Loop

variable {σ : Type} {S : Source σ} {M : Meaning σ} {le : σ → σ → Prop} {Inv : Nat → σ → Prop} {W : Nat → Nat}
  {lim : Nat}

/-- marking a list of numbers -/
def marked (visited visited' : List Bool) (l : List Nat) : Prop :=
  visited'.length = visited.length ∧
  ∀ j, j < visited.length → visited'[j]? = if j ∈ l then some true else visited[j]?

theorem marked_nil (v : List Bool) : marked v v [] := ⟨rfl, by simp⟩

theorem marked_trans {v1 v2 v3 : List Bool} {l1 l2 : List Nat} (h1 : marked v1 v2 l1) (h2 : marked v2 v3 l2) :
    marked v1 v3 (l1 ++ l2) := by
  refine ⟨h2.1.trans h1.1, ?_⟩
  intro j hj
  rw [h2.2 j (by rw [h1.1]; exact hj), h1.2 j hj]
  by_cases a : j ∈ l2 <;> by_cases b : j ∈ l1 <;> simp [a, b]

theorem marked_set (v : List Bool) (i : Nat) : marked v (v.set i true) [i] := by
  refine ⟨by simp, ?_⟩
  intro j hj
  by_cases h : j = i
  · subst h; simp [hj]
  · rw [List.getElem?_set_ne (by omega)]; simp [h]

theorem get_set_ne {nodes : List LgNode} {c j : Nat} {x : LgNode} (h : c ≠ j) : (nodes.set c x)[j]? = nodes[j]? :=
  List.getElem?_set_ne h

/-- a child visit that succeeds -/
theorem visitChild_new (isLeft : Bool) {s : Conv σ} {c i : Nat} {nd : LgNode} {n : LgNode} {a' : σ}
    (hv : s.visited[i]? = some false) (hn : s.nodes[c]? = some nd) (hi : i < 2 ^ 32)
    (hlen : s.nodes.length < 2 ^ 32) (hc : S.createNode (i : Int) s.aux = .ok (n, a')) :
    visitChild S (if isLeft then setLeft else setRight) s c (i : Int) = .ok (some
      { nodes := (s.nodes ++ [n]).set c
          (if isLeft then { nd with left := s.nodes.length } else { nd with right := s.nodes.length }),
        visited := s.visited.set i true,
        stack := (i, s.nodes.length) :: s.stack, aux := a' }) := by
  unfold visitChild
  have hcl : c < s.nodes.length := (List.getElem?_eq_some_iff.1 hn).1
  have hn' : (s.nodes ++ [n])[c]? = some nd := by rw [List.getElem?_append_left hcl]; exact hn
  rw [Res.idxI_ofNat, Res.idx_eq_ok.2 hv]
  simp only [Res.ok_bind, Bool.false_eq_true, if_false]
  rw [hc]
  simp only [Res.ok_bind, List.length_append, List.length_singleton, Nat.add_sub_cancel, Int.toNat_natCast]
  rw [u32_of_lt hlen, u32I_natCast hi]
  cases isLeft
  · simp only [Bool.false_eq_true, if_false]
    unfold setRight
    rw [Res.idx_eq_ok.2 hn']
    simp only [Res.ok_bind, Res.pure_eq]
  · simp only [if_true]
    unfold setLeft
    rw [Res.idx_eq_ok.2 hn']
    simp only [Res.ok_bind, Res.pure_eq]

theorem visitChild_old (f : List LgNode → Nat → Nat → Res (List LgNode)) {s : Conv σ} {c i : Nat}
    (hv : s.visited[i]? = some true) : visitChild S f s c (i : Int) = .ok none := by
  unfold visitChild
  rw [Res.idxI_ofNat, Res.idx_eq_ok.2 hv]
  simp

/-- where the conversion of the subtree whose root was just created ends -/
structure Done (M : Meaning σ) (le : σ → σ → Prop) (Inv : Nat → σ → Prop) (W : Nat → Nat) (b : Nat)
    (s s' : Conv σ) (t : BTree) (c : Nat) (below : List (Nat × Nat)) (i : Nat) : Prop where
  stack : s'.stack = below
  len : s'.nodes.length = c + t.size
  old : ∀ j, j < c → s'.nodes[j]? = s.nodes[j]?
  emb : Emb M s'.nodes s'.aux t c
  vis : marked s.visited s'.visited t.inner.tail
  inv : Inv (b + (weight W t - W i)) s'.aux
  aux : le s.aux s'.aux

theorem convLoop_tree (hS : SourceOK S M le Inv W lim) :
    ∀ (t : BTree) (i : Nat) (l r : BTree), t = .node i l r → Contains S M le Inv W lim t →
      t.inner.Nodup → (∀ j ∈ t.inner, j < 2 ^ 32) →
    ∀ (s : Conv σ) (c b : Nat) (below : List (Nat × Nat)) (nd : LgNode), s.stack = (i, c) :: below →
      s.nodes.length = c + 1 → c + t.size < 2 ^ 32 → s.nodes[c]? = some nd → M.R i nd s.aux →
      hasFlag nd.flags Flag.leftLeaf = l.isLeaf → hasFlag nd.flags Flag.rightLeaf = r.isLeaf →
      (∀ k, l = .leaf k → M.Q k nd.left s.aux) → (∀ k, r = .leaf k → M.Q k nd.right s.aux) →
      Inv b s.aux → b + (weight W t - W i) ≤ lim →
      (∀ j ∈ t.inner.tail, s.visited[j]? = some false) →
      ∃ (s' : Conv σ) (k : Nat), k + 1 = 2 * t.size ∧ (∀ fuel, convLoop S (fuel + k) s = convLoop S fuel s') ∧
        Done M le Inv W b s s' t c below i := by
  intro t
  induction t with
  | leaf k => intro i l r h; cases h
  | node i l r ihl ihr =>
    rintro _ _ _ ⟨⟩ hcon hnd hlt s c b below nd hst hlen hbound hnc hR hfl hfr hQl hQr hinv hbud hvis
    cases hcon with
    | node _ _ _ hcreate hlc hrc conl conr =>
    have hinner : (BTree.node i l r).inner = i :: (r.inner ++ l.inner) := rfl
    have hsize : (BTree.node i l r).size = l.size + r.size + 1 := rfl
    have hweight : weight W (.node i l r) - W i = weight W r + weight W l := by
      show W i + weight W r + weight W l - W i = _
      omega
    rw [hinner] at hnd hlt hvis
    rw [hsize] at hbound
    rw [hweight] at hbud
    simp only [List.tail_cons, List.mem_append] at hvis
    have hndr : r.inner.Nodup := by
      have := (List.nodup_cons.1 hnd).2; exact (List.nodup_append.1 this).1
    have hndl : l.inner.Nodup := by
      have := (List.nodup_cons.1 hnd).2; exact (List.nodup_append.1 this).2.1
    have hdisj : ∀ x ∈ r.inner, ∀ y ∈ l.inner, x ≠ y := by
      have := (List.nodup_cons.1 hnd).2; exact (List.nodup_append.1 this).2.2
    have hltr : ∀ j ∈ r.inner, j < 2 ^ 32 := fun j hj => hlt j (by simp [hj])
    have hltl : ∀ j ∈ l.inner, j < 2 ^ 32 := fun j hj => hlt j (by simp [hj])
    have hilt : i < 2 ^ 32 := hlt i (by simp)
    -- phase 1: the right child
    obtain ⟨s1, k1, nd1, hk1, hrun1, hst1, hlen1, hold1, hnc1, hR1, hfl1, hfr1, hQl1, hembr, hvis1, hinv1, haux1⟩ :
        ∃ (s1 : Conv σ) (k1 : Nat) (nd1 : LgNode), k1 = 2 * r.size ∧
          (∀ fuel, convLoop S (fuel + k1) s = convLoop S fuel s1) ∧ s1.stack = (i, c) :: below ∧
          s1.nodes.length = c + 1 + r.size ∧ (∀ j, j < c → s1.nodes[j]? = s.nodes[j]?) ∧
          s1.nodes[c]? = some nd1 ∧ M.R i nd1 s1.aux ∧ hasFlag nd1.flags Flag.leftLeaf = l.isLeaf ∧
          hasFlag nd1.flags Flag.rightLeaf = r.isLeaf ∧ (∀ k, l = .leaf k → M.Q k nd1.left s1.aux) ∧
          Emb M s1.nodes s1.aux r (if r.isLeaf then nd1.right else c + 1) ∧
          marked s.visited s1.visited r.inner ∧ Inv (b + weight W r) s1.aux ∧ le s.aux s1.aux := by
      cases hr : r with
      | leaf k =>
        subst hr
        exact ⟨s, 0, nd, rfl, fun _ => rfl, hst, hlen, fun _ _ => rfl, hnc, hR, hfl, hfr, hQl, hQr k rfl,
          marked_nil _, hinv, hS.le_refl _⟩
      | node ri rl rr =>
        have hrinner : r.inner = ri :: (rr.inner ++ rl.inner) := by rw [hr]; rfl
        have hrweight : weight W r = W ri + weight W rr + weight W rl := by rw [hr]; rfl
        have hrsize : r.size = rl.size + rr.size + 1 := by rw [hr]; rfl
        have hrleaf : r.isLeaf = false := by rw [hr]; rfl
        have hriv : s.visited[ri]? = some false := hvis ri (.inl (by rw [hrinner]; simp))
        have hrcreate : CreateOK S M le Inv W lim ri rl rr := by rw [hr] at conr; cases conr; assumption
        obtain ⟨n, a', hc1, hc2, hc3, hc4, hc5, hc6, hc7, hc8⟩ := hrcreate b s.aux hinv (by omega)
        have hstep := visitChild_new (S := S) false hriv hnc (hltr ri (by rw [hrinner]; simp))
          (by omega) hc1
        simp only [Bool.false_eq_true, if_false] at hstep
        obtain ⟨s1, hs1⟩ : ∃ s1, s1 = ({
                  nodes := (s.nodes ++ [n]).set c { nd with right := s.nodes.length },
                  visited := s.visited.set ri true, stack := (ri, s.nodes.length) :: s.stack, aux := a' } : Conv σ) :=
          ⟨_, rfl⟩
        rw [← hs1] at hstep
        have hone : ∀ fuel, convLoop S (fuel + 1) s = convLoop S fuel s1 := by
          intro fuel
          rw [convLoop, hst]
          dsimp only
          unfold convStep
          rw [Res.idx_eq_ok.2 hnc]
          simp only [Res.ok_bind]
          unfold tryChild
          rw [hfr, hrleaf]
          simp only [Bool.false_eq_true, if_false]
          rw [hrc ri rl rr hr]
          simp only [Res.ok_bind]
          rw [hstep]
          simp only [Res.ok_bind, Res.pure_eq]
        have hn1 : s1.nodes[c + 1]? = some n := by
          rw [hs1]; dsimp only
          rw [get_set_ne (by omega), List.getElem?_append_right (by omega), hlen]; simp
        obtain ⟨s2, k2, hk2, hrun2, hdone⟩ := ihr ri rl rr hr conr hndr hltr s1 (c + 1) (b + W ri) ((i, c) :: below) n
          (by rw [hs1]; dsimp only; rw [hst, hlen]) (by rw [hs1]; simp [hlen]) (by omega) hn1
          (by rw [hs1]; exact hc4) hc5 hc6 (by rw [hs1]; exact hc7) (by rw [hs1]; exact hc8)
          (by rw [hs1]; exact hc2) (by omega)
          (by
            intro j hj
            rw [hs1]; dsimp only
            rw [hrinner] at hj
            have hjne : ri ≠ j := by
              intro h; rw [hrinner] at hndr; rw [h] at hndr; exact (List.nodup_cons.1 hndr).1 hj
            rw [List.getElem?_set_ne hjne]
            exact hvis j (.inl (by rw [hrinner]; exact List.mem_cons_of_mem _ hj)))
        have hold2 : ∀ j, j < c + 1 → s2.nodes[j]? = s1.nodes[j]? := hdone.old
        have hc1' : s1.nodes[c]? = some { nd with right := s.nodes.length } := by
          rw [hs1]; dsimp only
          rw [List.getElem?_set_self (by simp; omega)]
        rw [← hr]
        refine ⟨s2, k2 + 1, { nd with right := s.nodes.length }, by omega, ?_, hdone.stack, hdone.len, ?_, ?_, ?_, hfl,
          hfr, ?_, ?_, ?_, ?_, ?_⟩
        · intro fuel
          have : fuel + (k2 + 1) = (fuel + k2) + 1 := by omega
          rw [this, hone, hrun2]
        · intro j hj
          rw [hold2 j (by omega), hs1]; dsimp only
          rw [get_set_ne (by omega), List.getElem?_append_left (by omega)]
        · rw [hold2 c (by omega)]; exact hc1'
        · have hle : le s.aux s2.aux := hS.le_trans _ _ _ (by rw [hs1]; exact hc3) hdone.aux
          exact hS.R_child i nd _ _ rfl rfl rfl (hS.R_mono _ _ _ _ hle hR)
        · intro k hk
          have hle : le s.aux s2.aux := hS.le_trans _ _ _ (by rw [hs1]; exact hc3) hdone.aux
          exact hS.Q_mono _ _ _ _ hle (hQl k hk)
        · rw [hrleaf]; exact hdone.emb
        · have := marked_trans (v1 := s.visited) (v2 := s1.visited) (by rw [hs1]; exact marked_set _ ri) hdone.vis
          rw [hrinner] at this ⊢
          exact this
        · have : b + weight W r = b + W ri + (weight W r - W ri) := by omega
          rw [this]; exact hdone.inv
        · exact hS.le_trans _ _ _ (by rw [hs1]; exact hc3) hdone.aux
    -- the right child is dealt with
    have hright1 : ∀ (f : List LgNode → Nat → Nat → Res (List LgNode)) (s2 : Conv σ), marked s1.visited s2.visited l.inner ∨ s2 = s1 →
        tryChild S f s2 c r.isLeaf (S.rightChild i) = .ok none := by
      intro f s2 hs2
      unfold tryChild
      cases hr : r with
      | leaf k => rfl
      | node ri rl rr =>
        simp only [BTree.isLeaf, Bool.false_eq_true, if_false]
        rw [hrc ri rl rr hr]
        simp only [Res.ok_bind]
        apply visitChild_old
        have hri : ri ∈ r.inner := by rw [hr]; simp [BTree.inner]
        have hin : ri < s.visited.length := (List.getElem?_eq_some_iff.1 (hvis ri (.inl hri))).1
        have h1 : s1.visited[ri]? = some true := by rw [hvis1.2 ri hin, if_pos hri]
        rcases hs2 with h | rfl
        · rw [h.2 ri (by rw [hvis1.1]; exact hin), h1]; simp
        · exact h1
    -- phase 2: the left child
    obtain ⟨s2, k2, nd2, hk2, hrun2, hst2, hlen2, hold2, hnc2, hR2, hfl2, hfr2, hleft2, hembl, hembr2, hvis2, hinv2, haux2⟩ :
        ∃ (s2 : Conv σ) (k2 : Nat) (nd2 : LgNode), k2 = 2 * l.size ∧
          (∀ fuel, convLoop S (fuel + k2) s1 = convLoop S fuel s2) ∧ s2.stack = (i, c) :: below ∧
          s2.nodes.length = c + 1 + r.size + l.size ∧ (∀ j, j < c → s2.nodes[j]? = s1.nodes[j]?) ∧
          s2.nodes[c]? = some nd2 ∧ M.R i nd2 s2.aux ∧ hasFlag nd2.flags Flag.leftLeaf = l.isLeaf ∧
          hasFlag nd2.flags Flag.rightLeaf = r.isLeaf ∧ (l.isLeaf = false → nd2.left = c + 1 + r.size) ∧
          Emb M s2.nodes s2.aux l nd2.left ∧
          Emb M s2.nodes s2.aux r (if r.isLeaf then nd2.right else c + 1) ∧
          marked s1.visited s2.visited l.inner ∧ Inv (b + weight W r + weight W l) s2.aux ∧ le s1.aux s2.aux := by
      cases hl : l with
      | leaf k =>
        subst hl
        exact ⟨s1, 0, nd1, rfl, fun _ => rfl, hst1, hlen1, fun _ _ => rfl, hnc1, hR1, hfl1, hfr1,
          (fun h => by cases h), hQl1 k rfl, hembr, marked_nil _, hinv1, hS.le_refl _⟩
      | node li ll lr =>
        have hlinner : l.inner = li :: (lr.inner ++ ll.inner) := by rw [hl]; rfl
        have hlweight : weight W l = W li + weight W lr + weight W ll := by rw [hl]; rfl
        have hlsize : l.size = ll.size + lr.size + 1 := by rw [hl]; rfl
        have hlleaf : l.isLeaf = false := by rw [hl]; rfl
        have hlmem : li ∈ l.inner := by rw [hlinner]; simp
        have hunv : ∀ j ∈ l.inner, s1.visited[j]? = some false := by
          intro j hj
          have h0 := hvis j (.inr hj)
          have hin : j < s.visited.length := (List.getElem?_eq_some_iff.1 h0).1
          rw [hvis1.2 j hin, if_neg (fun h => hdisj j h j hj rfl)]
          exact h0
        have hlcreate : CreateOK S M le Inv W lim li ll lr := by rw [hl] at conl; cases conl; assumption
        obtain ⟨n, a', hc1, hc2, hc3, hc4, hc5, hc6, hc7, hc8⟩ := hlcreate (b + weight W r) s1.aux hinv1 (by omega)
        have hstep := visitChild_new (S := S) true (hunv li hlmem) hnc1 (hltl li hlmem) (by omega) hc1
        simp only [if_true] at hstep
        obtain ⟨s2, hs2⟩ : ∃ s2, s2 = ({
                  nodes := (s1.nodes ++ [n]).set c { nd1 with left := s1.nodes.length },
                  visited := s1.visited.set li true, stack := (li, s1.nodes.length) :: s1.stack, aux := a' } : Conv σ) :=
          ⟨_, rfl⟩
        rw [← hs2] at hstep
        have hone : ∀ fuel, convLoop S (fuel + 1) s1 = convLoop S fuel s2 := by
          intro fuel
          rw [convLoop, hst1]
          dsimp only
          unfold convStep
          rw [Res.idx_eq_ok.2 hnc1]
          simp only [Res.ok_bind]
          rw [hfr1, hfl1, hright1 setRight s1 (.inr rfl)]
          unfold tryChild
          rw [hlleaf]
          simp only [Res.ok_bind, Bool.false_eq_true, if_false]
          rw [hlc li ll lr hl]
          simp only [Res.ok_bind]
          rw [hstep]
          simp only [Res.ok_bind, Res.pure_eq]
        have hn1 : s2.nodes[c + 1 + r.size]? = some n := by
          rw [hs2]; dsimp only
          rw [get_set_ne (by omega), List.getElem?_append_right (by omega), hlen1]; simp
        obtain ⟨s3, k3, hk3, hrun3, hdone⟩ := ihl li ll lr hl conl hndl hltl s2 (c + 1 + r.size) (b + weight W r + W li)
          ((i, c) :: below) n
          (by rw [hs2]; dsimp only; rw [hst1, hlen1]) (by rw [hs2]; simp [hlen1]) (by omega) hn1
          (by rw [hs2]; exact hc4) hc5 hc6 (by rw [hs2]; exact hc7) (by rw [hs2]; exact hc8)
          (by rw [hs2]; exact hc2) (by omega)
          (by
            intro j hj
            rw [hs2]; dsimp only
            have hjm : j ∈ l.inner := List.mem_of_mem_tail hj
            rw [hlinner] at hj
            have hjne : li ≠ j := by
              intro h; rw [hlinner] at hndl; rw [h] at hndl; exact (List.nodup_cons.1 hndl).1 hj
            rw [List.getElem?_set_ne hjne]
            exact hunv j hjm)
        have hold3 : ∀ j, j < c + 1 + r.size → s3.nodes[j]? = s2.nodes[j]? := hdone.old
        have hc1' : s2.nodes[c]? = some { nd1 with left := s1.nodes.length } := by
          rw [hs2]; dsimp only
          rw [List.getElem?_set_self (by simp; omega)]
        have hle : le s1.aux s3.aux := hS.le_trans _ _ _ (by rw [hs2]; exact hc3) hdone.aux
        rw [← hl]
        refine ⟨s3, k3 + 1, { nd1 with left := s1.nodes.length }, by omega, ?_, hdone.stack, hdone.len, ?_, ?_, ?_, hfl1,
          hfr1, ?_, ?_, ?_, ?_, ?_, hle⟩
        · intro fuel
          have : fuel + (k3 + 1) = (fuel + k3) + 1 := by omega
          rw [this, hone, hrun3]
        · intro j hj
          rw [hold3 j (by omega), hs2]; dsimp only
          rw [get_set_ne (by omega), List.getElem?_append_left (by omega)]
        · rw [hold3 c (by omega)]; exact hc1'
        · exact hS.R_child i nd1 _ _ rfl rfl rfl (hS.R_mono _ _ _ _ hle hR1)
        · intro _; exact hlen1
        · dsimp only; rw [hlen1]; exact hdone.emb
        · cases hrl : r.isLeaf
          · rw [hrl] at hembr
            simp only [Bool.false_eq_true, if_false] at hembr ⊢
            refine Emb.congr hS hle r (c + 1) ?_ hembr
            intro j h1 h2
            rw [hold3 j (by omega), hs2]; dsimp only
            rw [get_set_ne (by omega), List.getElem?_append_left (by omega)]
          · rw [hrl] at hembr
            simp only [if_true] at hembr ⊢
            refine Emb.congr hS hle r _ ?_ hembr
            intro j h1 h2
            cases r with
            | leaf k => simp [BTree.size] at h2; omega
            | node => cases hrl
        · have := marked_trans (v1 := s1.visited) (v2 := s2.visited) (by rw [hs2]; exact marked_set _ li) hdone.vis
          rw [hlinner] at this ⊢
          exact this
        · have : b + weight W r + weight W l = b + weight W r + W li + (weight W l - W li) := by omega
          rw [this]; exact hdone.inv
    -- phase 3: pop
    refine ⟨{ s2 with stack := below }, k1 + k2 + 1, by rw [hsize]; omega, ?_, ?_⟩
    · intro fuel
      have : fuel + (k1 + k2 + 1) = ((fuel + 1) + k2) + k1 := by omega
      rw [this, hrun1, hrun2, convLoop, hst2]
      dsimp only
      unfold convStep
      rw [Res.idx_eq_ok.2 hnc2]
      simp only [Res.ok_bind]
      rw [hfr2, hfl2, hright1 setRight s2 (.inl hvis2)]
      have hsecond : tryChild S setLeft s2 c l.isLeaf (S.leftChild i) = .ok none := by
        unfold tryChild
        cases hl : l with
        | leaf k => rfl
        | node li ll lr =>
          simp only [BTree.isLeaf, Bool.false_eq_true, if_false]
          rw [hlc li ll lr hl]
          simp only [Res.ok_bind]
          apply visitChild_old
          have hli : li ∈ l.inner := by rw [hl]; simp [BTree.inner]
          have hin : li < s.visited.length := (List.getElem?_eq_some_iff.1 (hvis li (.inr hli))).1
          rw [hvis2.2 li (by rw [hvis1.1]; exact hin), if_pos hli]
      simp only [Res.ok_bind]
      rw [hsecond]
      simp only [Res.ok_bind, Res.pure_eq]
    · refine ⟨rfl, ?_, ?_, ?_, ?_, ?_, ?_⟩
      · rw [hsize]; dsimp only; omega
      · intro j hj
        rw [hold2 j hj, hold1 j hj]
      · exact ⟨nd2, hnc2, hR2, hfl2, hfr2, hleft2, hembl, hembr2⟩
      · rw [hinner]; exact marked_trans hvis1 hvis2
      · rw [hweight, ← Nat.add_assoc]; exact hinv2
      · exact hS.le_trans _ _ _ haux1 haux2

end Loop


theorem allocCheck_ok {P : Platform} {n : Int} {size : Nat} (h0 : 0 ≤ n) (h : n * size ≤ P.maxAlloc) :
    allocCheck P n size = .ok () := by
  unfold allocCheck
  rw [if_neg]
  omega

/-- numbers below `n` without repetition are at most `n` many -/
theorem nodup_length_le {l : List Nat} {n : Nat} (h : l.Nodup) (hlt : ∀ j ∈ l, j < n) : l.length ≤ n := by
  have : l ⊆ List.range n := fun j hj => List.mem_range.2 (hlt j hj)
  simpa using (List.subperm_of_subset h this).length_le

/-- the whole conversion of a tree -/
theorem convert_tree {σ : Type} {S : Source σ} {M : Meaning σ} {le : σ → σ → Prop} {Inv : Nat → σ → Prop}
    {W : Nat → Nat} {lim : Nat} (P : Platform) (hS : SourceOK S M le Inv W lim) {l r : BTree} {aux : σ}
    (hcon : Contains S M le Inv W lim (.node 0 l r)) (hnd : (BTree.node 0 l r).inner.Nodup)
    {numNodes nVisited : Nat} (hlt : ∀ j ∈ (BTree.node 0 l r).inner, j < nVisited) (hv : nVisited < 2 ^ 32)
    (ha1 : numNodes * 24 ≤ P.maxAlloc) (ha2 : nVisited ≤ P.maxAlloc) (hinv : Inv 0 aux)
    (hw : weight W (.node 0 l r) ≤ lim) :
    ∃ nodes aux', convert P S numNodes nVisited aux = .ok (nodes, aux') ∧ nodes.length = (BTree.node 0 l r).size ∧
      Emb M nodes aux' (.node 0 l r) 0 ∧ Inv (weight W (.node 0 l r)) aux' := by
  have hsz : (BTree.node 0 l r).size ≤ nVisited := by
    rw [← BTree.inner_length]; exact nodup_length_le hnd hlt
  have hcreate : CreateOK S M le Inv W lim 0 l r := by cases hcon; assumption
  have hw0 : W 0 ≤ weight W (.node 0 l r) := by
    show W 0 ≤ W 0 + weight W r + weight W l; omega
  obtain ⟨n, a', hc1, hc2, hc3, hc4, hc5, hc6, hc7, hc8⟩ := hcreate 0 aux hinv (by omega)
  have hinner : (BTree.node 0 l r).inner = 0 :: (r.inner ++ l.inner) := rfl
  obtain ⟨s', k, hk, hrun, hdone⟩ := convLoop_tree hS (.node 0 l r) 0 l r rfl hcon hnd
    (fun j hj => by have := hlt j hj; omega)
    { nodes := [n], visited := List.replicate nVisited false, stack := [(0, 0)], aux := a' } 0 (W 0) [] n rfl rfl
    (by omega) rfl hc4 hc5 hc6 hc7 hc8 (by simpa using hc2) (by omega)
    (by
      intro j hj
      have := hlt j (List.mem_of_mem_tail hj)
      simp [this])
  have hfinal : convLoop S (2 * nVisited + 2)
      { nodes := [n], visited := List.replicate nVisited false, stack := [(0, 0)], aux := a' } = .ok s' := by
    have : 2 * nVisited + 2 = (2 * nVisited + 1 - k) + 1 + k := by omega
    rw [this, hrun, convLoop, hdone.stack]
  refine ⟨s'.nodes, s'.aux, ?_, ?_, hdone.emb, ?_⟩
  · unfold convert
    rw [allocCheck_ok (by omega) (by push_cast; omega), allocCheck_ok (by omega) (by push_cast; omega),
      allocCheck_ok (by omega) (by push_cast; omega)]
    simp only [Res.ok_bind, Int.toNat_natCast]
    rw [show (0 : Int) = ((0 : Nat) : Int) from rfl, hc1]
    simp only [Res.ok_bind]
    rw [hfinal]
    simp
  · rw [hdone.len]; simp
  · have : weight W (.node 0 l r) = W 0 + (weight W (.node 0 l r) - W 0) := by omega
    rw [this]; exact hdone.inv

/-! ### The fuel of the conversion loop is never exhausted -/

/-- bound on the remaining iterations -/
def convMeasure {σ : Type} (s : Conv σ) : Nat := 2 * s.visited.count false + s.stack.length

theorem count_set_true {l : List Bool} {i : Nat} (h : l[i]? = some false) :
    (l.set i true).count false + 1 = l.count false := by
  induction l generalizing i with
  | nil => simp at h
  | cons b l ih =>
    cases i with
    | zero => simp at h; subst h; simp
    | succ i => simp at h; simp [List.count_cons]; have := ih h; omega

theorem tryChild_measure {σ : Type} {S : Source σ} {f : List LgNode → Nat → Nat → Res (List LgNode)}
    {s s' : Conv σ} {c : Nat} {b : Bool} {child : Res Int} (h : tryChild S f s c b child = .ok (some s')) :
    convMeasure s' + 1 = convMeasure s := by
  unfold tryChild at h
  split at h
  · cases h
  · rw [Res.bind_eq_ok] at h
    obtain ⟨i, _, h⟩ := h
    unfold visitChild at h
    rw [Res.bind_eq_ok] at h
    obtain ⟨v, hv, h⟩ := h
    cases v with
    | true => simp at h
    | false =>
      simp only [Bool.false_eq_true, if_false] at h
      rw [Res.bind_eq_ok] at h
      obtain ⟨⟨n, a⟩, _, h⟩ := h
      rw [Res.bind_eq_ok] at h
      obtain ⟨ns, _, h⟩ := h
      simp only [Res.pure_eq, Res.ok.injEq, Option.some.injEq] at h
      subst h
      unfold Res.idxI at hv
      split at hv
      · cases hv
      · rw [Res.idx_eq_ok] at hv
        have := count_set_true hv
        simp only [convMeasure, List.length_cons]
        omega

theorem convStep_measure {σ : Type} {S : Source σ} {s s' : Conv σ} {o c : Nat} {below : List (Nat × Nat)}
    (hst : s.stack = (o, c) :: below) (h : convStep S s o c below = .ok s') :
    convMeasure s' + 1 = convMeasure s := by
  unfold convStep at h
  rw [Res.bind_eq_ok] at h
  obtain ⟨node, _, h⟩ := h
  rw [Res.bind_eq_ok] at h
  obtain ⟨x, hx, h⟩ := h
  cases x with
  | some s1 => simp at h; subst h; exact tryChild_measure hx
  | none =>
    dsimp only at h
    rw [Res.bind_eq_ok] at h
    obtain ⟨y, hy, h⟩ := h
    cases y with
    | some s1 => simp at h; subst h; exact tryChild_measure hy
    | none => simp at h; subst h; simp [convMeasure, hst]; omega

/-- no part of an iteration loops -/
def Source.NoHang {σ : Type} (S : Source σ) : Prop :=
  (∀ i a, S.createNode i a ≠ .hang) ∧ (∀ i, S.rightChild i ≠ .hang) ∧ (∀ i, S.leftChild i ≠ .hang)

theorem Res.bind_ne_hang {α β : Type u} {x : Res α} {f : α → Res β} (hx : x ≠ .hang)
    (hf : ∀ a, x = .ok a → f a ≠ .hang) : (x >>= f) ≠ .hang := by
  cases x with
  | ok a => exact hf a rfl
  | err e => simp
  | panic => simp
  | hang => exact absurd rfl hx

theorem Res.idx_ne_hang {α : Type u} (l : List α) (i : Nat) : Res.idx l i ≠ .hang := by
  unfold Res.idx; split <;> simp

theorem Res.idxI_ne_hang {α : Type u} (l : List α) (i : Int) : Res.idxI l i ≠ .hang := by
  unfold Res.idxI; split
  · simp
  · exact Res.idx_ne_hang _ _

theorem allocCheck_ne_hang (P : Platform) (n : Int) (k : Nat) : allocCheck P n k ≠ .hang := by
  unfold allocCheck; split <;> simp

theorem convStep_ne_hang {σ : Type} {S : Source σ} (hS : S.NoHang) (s : Conv σ) (o c : Nat) (below : List (Nat × Nat)) :
    convStep S s o c below ≠ .hang := by
  have htry : ∀ (f : List LgNode → Nat → Nat → Res (List LgNode)) (b : Bool) (child : Res Int),
      (∀ n i v, f n i v ≠ .hang) → child ≠ .hang → tryChild S f s c b child ≠ .hang := by
    intro f b child hf hc
    unfold tryChild
    split
    · simp
    · refine Res.bind_ne_hang hc fun i _ => ?_
      unfold visitChild
      refine Res.bind_ne_hang (Res.idxI_ne_hang _ _) fun v _ => ?_
      split
      · simp
      · refine Res.bind_ne_hang (hS.1 _ _) fun x _ => ?_
        refine Res.bind_ne_hang (hf _ _ _) fun x _ => ?_
        simp
  unfold convStep
  refine Res.bind_ne_hang (Res.idx_ne_hang _ _) fun n _ => ?_
  refine Res.bind_ne_hang (htry _ _ _ ?_ (hS.2.1 _)) fun x _ => ?_
  · intro n i v; unfold setRight; exact Res.bind_ne_hang (Res.idx_ne_hang _ _) fun _ _ => by simp
  cases x with
  | some s1 => simp
  | none =>
    refine Res.bind_ne_hang (htry _ _ _ ?_ (hS.2.2 _)) fun y _ => ?_
    · intro n i v; unfold setLeft; exact Res.bind_ne_hang (Res.idx_ne_hang _ _) fun _ _ => by simp
    cases y <;> simp

/-- adequacy of the fuel in `convert`: the loop is never cut short -/
theorem convLoop_fuel {σ : Type} {S : Source σ} (hS : S.NoHang) : ∀ (fuel : Nat) (s : Conv σ),
    convMeasure s < fuel → convLoop S fuel s ≠ .hang
  | 0, s, h => by omega
  | fuel + 1, s, h => by
    rw [convLoop]
    cases hst : s.stack with
    | nil => simp
    | cons p below =>
      obtain ⟨o, c⟩ := p
      refine Res.bind_ne_hang (convStep_ne_hang hS _ _ _ _) fun s' hs' => ?_
      apply convLoop_fuel hS
      have := convStep_measure hst hs'
      omega

theorem convert_ne_hang {σ : Type} (P : Platform) {S : Source σ} (hS : S.NoHang) (numNodes nVisited : Int) (aux : σ) :
    convert P S numNodes nVisited aux ≠ .hang := by
  unfold convert
  refine Res.bind_ne_hang (allocCheck_ne_hang _ _ _) fun _ _ => ?_
  refine Res.bind_ne_hang (allocCheck_ne_hang _ _ _) fun _ _ => ?_
  refine Res.bind_ne_hang (allocCheck_ne_hang _ _ _) fun _ _ => ?_
  refine Res.bind_ne_hang (allocCheck_ne_hang _ _ _) fun _ _ => ?_
  refine Res.bind_ne_hang (hS.1 _ _) fun x _ => ?_
  obtain ⟨node, a⟩ := x
  refine Res.bind_ne_hang (convLoop_fuel hS _ _ ?_) fun s _ => by simp
  simp [convMeasure]

/-! ### Prediction on an embedded tree -/

section Predict

variable {σ : Type} {M : Meaning σ} {P : Platform} {t : LgTree} {fvals : List F64} {aux : σ} {goes : Nat → Bool → Prop}
  {V : Nat → Res F64}

/-- the walk through the embedded tree determines the prediction -/
theorem predictLoop_walk
    (hdec : ∀ i nd, M.R i nd aux → ∀ b, goes i b → ∃ x, fvals[nd.feature]? = some x ∧ t.decision P nd x = .ok b)
    (hleaf : ∀ k j, M.Q k j aux → Res.idx t.leafValues j = V k) (hlen : t.nodes.length < 2 ^ 32) :
    ∀ (T : BTree) (k c fuel : Nat), T.isLeaf = false → Emb M t.nodes aux T c → Walk goes T k → T.size ≤ fuel →
      ∃ j, M.Q k j aux ∧ t.predictLoop P fvals fuel c = (V k >>= fun v => .ok (v, j)) := by
  intro T
  induction T with
  | leaf k => intro k' c fuel h; cases h
  | node i l r ihl ihr =>
    intro k c fuel _ hemb hw hf
    obtain ⟨nd, h1, h2, h3, h4, h5, h6, h7⟩ := hemb
    have hsz : (BTree.node i l r).size = l.size + r.size + 1 := rfl
    obtain ⟨fuel, rfl⟩ : ∃ f, fuel = f + 1 := ⟨fuel - 1, by omega⟩
    have hc : c < t.nodes.length := (List.getElem?_eq_some_iff.1 h1).1
    unfold LgTree.predictLoop
    rw [Res.idx_eq_ok.2 h1]
    simp only [Res.ok_bind]
    cases hw with
    | left hg hw =>
      obtain ⟨x, hx1, hx2⟩ := hdec i nd h2 true hg
      rw [Res.idx_eq_ok.2 hx1]
      simp only [Res.ok_bind]
      rw [hx2]
      simp only [Res.ok_bind, if_true]
      rw [h3]
      cases hl : l with
      | leaf k' =>
        subst hl
        cases hw
        simp only [BTree.isLeaf, if_true]
        exact ⟨nd.left, h6, by rw [hleaf _ _ h6]; rfl⟩
      | node i' l1 l2 =>
        simp only [BTree.isLeaf, Bool.false_eq_true, if_false]
        exact ihl k nd.left fuel (by rw [hl]; rfl) h6 hw (by omega)
    | right hg hw =>
      obtain ⟨x, hx1, hx2⟩ := hdec i nd h2 false hg
      rw [Res.idx_eq_ok.2 hx1]
      simp only [Res.ok_bind]
      rw [hx2]
      simp only [Res.ok_bind, Bool.false_eq_true, if_false]
      rw [h4]
      cases hr : r with
      | leaf k' =>
        subst hr
        cases hw
        simp only [BTree.isLeaf, if_true]
        have h7' : M.Q k nd.right aux := h7
        exact ⟨nd.right, h7', by rw [hleaf _ _ h7']; rfl⟩
      | node i' l1 l2 =>
        simp only [BTree.isLeaf, Bool.false_eq_true, if_false]
        rw [u32_of_lt (by omega)]
        rw [hr] at h7
        simp only [BTree.isLeaf, Bool.false_eq_true, if_false] at h7
        rw [← hr] at h7
        exact ihr k (c + 1) fuel (by rw [hr]; rfl) h7 hw (by omega)

/-- a successful prediction comes from a walk -/
theorem walk_of_predictLoop
    (hdec : ∀ i nd, M.R i nd aux → ∀ b x, fvals[nd.feature]? = some x → t.decision P nd x = .ok b → goes i b)
    (hlen : t.nodes.length < 2 ^ 32) :
    ∀ (T : BTree) (c fuel : Nat) (v : F64) (j : Nat), T.isLeaf = false → Emb M t.nodes aux T c →
      t.predictLoop P fvals fuel c = .ok (v, j) → ∃ k, Walk goes T k ∧ M.Q k j aux ∧ t.leafValues[j]? = some v := by
  intro T
  induction T with
  | leaf k => intro c fuel v j h; cases h
  | node i l r ihl ihr =>
    intro c fuel v j _ hemb hp
    obtain ⟨nd, h1, h2, h3, h4, h5, h6, h7⟩ := hemb
    have hc : c < t.nodes.length := (List.getElem?_eq_some_iff.1 h1).1
    cases fuel with
    | zero => simp [LgTree.predictLoop] at hp
    | succ fuel =>
    unfold LgTree.predictLoop at hp
    rw [Res.idx_eq_ok.2 h1] at hp
    simp only [Res.ok_bind] at hp
    rw [Res.bind_eq_ok] at hp
    obtain ⟨x, hx, hp⟩ := hp
    rw [Res.bind_eq_ok] at hp
    obtain ⟨b, hb, hp⟩ := hp
    have hg := hdec i nd h2 b x (Res.idx_eq_ok.1 hx) hb
    cases b with
    | true =>
      simp only [if_true] at hp
      rw [h3] at hp
      cases hl : l with
      | leaf k' =>
        subst hl
        simp only [BTree.isLeaf, if_true] at hp
        rw [Res.bind_eq_ok] at hp
        obtain ⟨v', hv, hp⟩ := hp
        simp only [Res.pure_eq, Res.ok.injEq, Prod.mk.injEq] at hp
        obtain ⟨rfl, rfl⟩ := hp
        exact ⟨k', .left hg (.leaf k'), h6, Res.idx_eq_ok.1 hv⟩
      | node i' l1 l2 =>
        rw [hl] at hp
        simp only [BTree.isLeaf, Bool.false_eq_true, if_false] at hp
        obtain ⟨k, hw, hq, hv⟩ := ihl nd.left fuel v j (by rw [hl]; rfl) h6 hp
        rw [hl] at hw
        exact ⟨k, .left hg hw, hq, hv⟩
    | false =>
      simp only [Bool.false_eq_true, if_false] at hp
      rw [h4] at hp
      cases hr : r with
      | leaf k' =>
        subst hr
        simp only [BTree.isLeaf, if_true] at hp
        rw [Res.bind_eq_ok] at hp
        obtain ⟨v', hv, hp⟩ := hp
        simp only [Res.pure_eq, Res.ok.injEq, Prod.mk.injEq] at hp
        obtain ⟨rfl, rfl⟩ := hp
        exact ⟨k', .right hg (.leaf k'), h7, Res.idx_eq_ok.1 hv⟩
      | node i' l1 l2 =>
        rw [hr] at hp h7
        simp only [BTree.isLeaf, Bool.false_eq_true, if_false] at hp h7
        rw [u32_of_lt (by omega)] at hp
        rw [← hr] at h7
        obtain ⟨k, hw, hq, hv⟩ := ihr (c + 1) fuel v j (by rw [hr]; rfl) h7 hp
        rw [hr] at hw
        exact ⟨k, .right hg hw, hq, hv⟩

/-- prediction on an embedded tree ends -/
theorem predictLoop_emb_ne_hang (hdec : ∀ nd x, t.decision P nd x ≠ .hang) (hlen : t.nodes.length < 2 ^ 32) :
    ∀ (T : BTree) (c fuel : Nat), T.isLeaf = false → Emb M t.nodes aux T c → T.size ≤ fuel →
      t.predictLoop P fvals fuel c ≠ .hang := by
  intro T
  induction T with
  | leaf k => intro c fuel h; cases h
  | node i l r ihl ihr =>
    intro c fuel _ hemb hf
    obtain ⟨nd, h1, h2, h3, h4, h5, h6, h7⟩ := hemb
    have hsz : (BTree.node i l r).size = l.size + r.size + 1 := rfl
    obtain ⟨fuel, rfl⟩ : ∃ g, fuel = g + 1 := ⟨fuel - 1, by omega⟩
    have hc : c < t.nodes.length := (List.getElem?_eq_some_iff.1 h1).1
    rw [LgTree.predictLoop]
    refine Res.bind_ne_hang (Res.idx_ne_hang _ _) fun nd' hnd' => ?_
    rw [Res.idx_eq_ok, h1] at hnd'
    cases hnd'
    refine Res.bind_ne_hang (Res.idx_ne_hang _ _) fun x _ => ?_
    refine Res.bind_ne_hang (hdec _ _) fun b _ => ?_
    cases b with
    | true =>
      rw [if_pos rfl]
      by_cases hl : l.isLeaf = true
      · rw [h3, hl, if_pos rfl]
        exact Res.bind_ne_hang (Res.idx_ne_hang _ _) fun v _ => by simp
      · rw [h3, if_neg hl]
        exact ihl _ _ (by simpa using hl) h6 (by omega)
    | false =>
      rw [if_neg (by simp)]
      by_cases hr : r.isLeaf = true
      · rw [h4, hr, if_pos rfl]
        exact Res.bind_ne_hang (Res.idx_ne_hang _ _) fun v _ => by simp
      · rw [h4, if_neg hr]
        rw [if_neg hr] at h7
        rw [show u32 (c + 1) = c + 1 from Nat.mod_eq_of_lt (by omega)]
        exact ihr _ _ (by simpa using hr) h7 (by omega)

end Predict

/-- if every inner node has a direction, the walk reaches a leaf -/
theorem walk_exists {goes : Nat → Bool → Prop} (T : BTree) (h : ∀ i ∈ T.inner, ∃ b, goes i b) :
    ∃ k, Walk goes T k ∧ k ∈ T.leaves := by
  induction T with
  | leaf k => exact ⟨k, .leaf k, by simp [BTree.leaves]⟩
  | node i l r ihl ihr =>
    obtain ⟨b, hb⟩ := h i (by simp [BTree.inner])
    cases b with
    | true =>
      obtain ⟨k, hw, hk⟩ := ihl fun j hj => h j (by simp [BTree.inner, hj])
      exact ⟨k, .left hb hw, by simp [BTree.leaves, hk]⟩
    | false =>
      obtain ⟨k, hw, hk⟩ := ihr fun j hj => h j (by simp [BTree.inner, hj])
      exact ⟨k, .right hb hw, by simp [BTree.leaves, hk]⟩

end Leaves
