import Verif.Proofs.ConvertOrder
import Verif.Spec.LeafOrder
import Verif.Proofs.Visits
import Verif.Proofs.NodeRep
import Verif.Proofs.Adequate
import Verif.Proofs.LgTree

/-!
Trees stored as node arrays whose leaves are array entries too (XGBoost, scikit-learn): their node creation appends
the leaf values of leaf children. The conversion is run with the leaf numbers kept beside the values.
-/

namespace Leaves

open Spec

/-- append the value of a left leaf child -/
def attachL {α : Type} (v : Option α) (p : LgNode × List α) : LgNode × List α :=
  match v with
  | none => p
  | some x => ({ p.1 with flags := p.1.flags ||| Flag.leftLeaf, left := u32 p.2.length }, p.2 ++ [x])

/-- append the value of a right leaf child -/
def attachR {α : Type} (v : Option α) (p : LgNode × List α) : LgNode × List α :=
  match v with
  | none => p
  | some x => ({ p.1 with flags := p.1.flags ||| Flag.rightLeaf, right := u32 p.2.length }, p.2 ++ [x])

/-- a source that creates a node and attaches leaf children -/
def arrSource {α : Type} (F : Int → Res (LgNode × Option α × Option α)) (lc rc : Nat → Res Int) : Source (List α) where
  createNode := fun i a => F i >>= fun x => .ok (attachR x.2.2 (attachL x.2.1 (x.1, a)))
  rightChild := rc
  leftChild := lc

/-! ### forgetting ghost state -/

/-- a result under a function -/
def Res.mapOk {α β : Type} (f : α → β) : Res α → Res β
  | .ok x => .ok (f x)
  | .err e => .err e
  | .panic => .panic
  | .hang => .hang

/-- conversion state under a function on the tables -/
def Conv.mapAux {σ τ : Type} (π : σ → τ) (s : Conv σ) : Conv τ :=
  { nodes := s.nodes, visited := s.visited, stack := s.stack, aux := π s.aux }

section ghost
variable {σ τ : Type} {S : Source σ} {S' : Source τ} {π : σ → τ}

theorem Res.mapOk_bind {α β γ : Type} (f : β → γ) (x : Res α) (g : α → Res β) :
    Res.mapOk f (x >>= g) = (x >>= fun a => Res.mapOk f (g a)) := by cases x <;> rfl

theorem visitChild_ghost (hc : ∀ i a, S'.createNode i (π a) = Res.mapOk (Prod.map id π) (S.createNode i a))
    (f : List LgNode → Nat → Nat → Res (List LgNode)) (s : Conv σ) (c : Nat) (i : Int) :
    visitChild S' f (s.mapAux π) c i = Res.mapOk (Option.map (Conv.mapAux π)) (visitChild S f s c i) := by
  unfold visitChild
  show (Res.idxI s.visited i >>= _) = Res.mapOk _ (Res.idxI s.visited i >>= _)
  cases Res.idxI s.visited i with
  | ok v =>
    simp only [Res.ok_bind]
    cases v with
    | true => simp [Res.mapOk]
    | false =>
      simp only [Bool.false_eq_true, if_false]
      show (S'.createNode i (π s.aux) >>= _) = _
      rw [hc]
      cases S.createNode i s.aux with
      | ok x =>
        obtain ⟨n, a⟩ := x
        simp only [Res.mapOk, Res.ok_bind, Prod.map, id]
        show (f (s.nodes ++ [n]) c (u32 ((s.nodes ++ [n]).length - 1)) >>= _) = Res.mapOk _ (f (s.nodes ++ [n]) c _ >>= _)
        cases f (s.nodes ++ [n]) c (u32 ((s.nodes ++ [n]).length - 1)) <;> rfl
      | _ => rfl
  | _ => rfl

theorem convStep_ghost (hc : ∀ i a, S'.createNode i (π a) = Res.mapOk (Prod.map id π) (S.createNode i a))
    (hl : S'.leftChild = S.leftChild) (hr : S'.rightChild = S.rightChild) (s : Conv σ) (o c : Nat) (below : List (Nat × Nat)) :
    convStep S' (s.mapAux π) o c below = Res.mapOk (Conv.mapAux π) (convStep S s o c below) := by
  have ht : ∀ f b ch, tryChild S' f (s.mapAux π) c b ch = Res.mapOk (Option.map (Conv.mapAux π)) (tryChild S f s c b ch) := by
    intro f b ch
    unfold tryChild
    cases b with
    | true => rfl
    | false =>
      simp only [Bool.false_eq_true, if_false]
      rw [Res.mapOk_bind]
      cases ch with
      | ok i => exact visitChild_ghost hc f s c i
      | _ => rfl
  unfold convStep
  show (Res.idx s.nodes c >>= _) = Res.mapOk _ (Res.idx s.nodes c >>= _)
  cases Res.idx s.nodes c with
  | ok nd =>
    simp only [Res.ok_bind]
    rw [ht, hr, hl]
    cases tryChild S setRight s c (hasFlag nd.flags Flag.rightLeaf) (S.rightChild o) with
    | ok x =>
      simp only [Res.mapOk, Res.ok_bind]
      cases x with
      | some s' => rfl
      | none =>
        simp only [Option.map]
        rw [ht]
        cases tryChild S setLeft s c (hasFlag nd.flags Flag.leftLeaf) (S.leftChild o) with
        | ok x => cases x <;> rfl
        | _ => rfl
    | _ => rfl
  | _ => rfl

theorem convLoop_ghost (hc : ∀ i a, S'.createNode i (π a) = Res.mapOk (Prod.map id π) (S.createNode i a))
    (hl : S'.leftChild = S.leftChild) (hr : S'.rightChild = S.rightChild) : ∀ (fuel : Nat) (s : Conv σ),
    convLoop S' fuel (s.mapAux π) = Res.mapOk (Conv.mapAux π) (convLoop S fuel s)
  | 0, _ => rfl
  | fuel + 1, s => by
    unfold convLoop
    rw [show (Conv.mapAux π s).stack = s.stack from rfl]
    cases s.stack with
    | nil => rfl
    | cons x below =>
      obtain ⟨o, c⟩ := x
      simp only
      rw [convStep_ghost hc hl hr]
      cases convStep S s o c below with
      | ok s' => exact convLoop_ghost hc hl hr fuel s'
      | _ => rfl

theorem convert_ghost (P : Platform) (hc : ∀ i a, S'.createNode i (π a) = Res.mapOk (Prod.map id π) (S.createNode i a))
    (hl : S'.leftChild = S.leftChild) (hr : S'.rightChild = S.rightChild) (n m : Int) (a : σ) :
    convert P S' n m (π a) = Res.mapOk (Prod.map id π) (convert P S n m a) := by
  unfold convert
  cases allocCheck P n 4 with
  | ok _ =>
    simp only [Res.ok_bind]
    cases allocCheck P m 1 with
    | ok _ =>
      simp only [Res.ok_bind]
      cases allocCheck P n 24 with
      | ok _ =>
        simp only [Res.ok_bind]
        rw [hc]
        cases S.createNode 0 a with
        | ok x =>
          obtain ⟨nd, a'⟩ := x
          simp only [Res.mapOk, Res.ok_bind, Prod.map, id]
          have := convLoop_ghost hc hl hr (2 * m.toNat + 2)
            { nodes := [nd], visited := List.replicate m.toNat false, stack := [(0, 0)], aux := a' }
          rw [show ({ nodes := [nd], visited := List.replicate m.toNat false, stack := [(0, 0)], aux := π a' } : Conv τ) =
            Conv.mapAux π { nodes := [nd], visited := List.replicate m.toNat false, stack := [(0, 0)], aux := a' } from rfl, this]
          cases convLoop S (2 * m.toNat + 2)
            { nodes := [nd], visited := List.replicate m.toNat false, stack := [(0, 0)], aux := a' } <;> rfl
        | _ => rfl
      | _ => rfl
    | _ => rfl
  | _ => rfl

end ghost

/-! ### the tree in the array -/

/-- `lv` tells whether the child is a leaf, with its number and a value admitted by `val` -/
def LeafOpt (val : Nat → F64 → Prop) (l : BTree) (lv : Option (Nat × F64)) : Prop :=
  match l with
  | .leaf k => ∃ v, lv = some (k, v) ∧ val k v
  | .node .. => lv = none

/-- node creation describes the tree -/
inductive ArrShape (F : Int → Res (LgNode × Option (Nat × F64) × Option (Nat × F64))) (lc rc : Nat → Res Int)
    (split : Nat → Nat → Rule → Prop) (val : Nat → F64 → Prop) : BTree → Prop
  | leaf (k : Nat) : ArrShape F lc rc split val (.leaf k)
  | node (i : Nat) (l r : BTree) (f : Nat) (m : Missing) (thr : F64) (dl : Bool) (lv rv : Option (Nat × F64))
      (hF : F i = .ok (numericalNode f (missingFlag m) thr (if dl then Flag.defaultLeft else 0), lv, rv))
      (hs : split i f (.num ⟨m, dl, thr⟩)) (hlv : LeafOpt val l lv) (hrv : LeafOpt val r rv)
      (hl : ∀ j l1 l2, l = .node j l1 l2 → lc i = .ok (j : Int))
      (hr : ∀ j r1 r2, r = .node j r1 r2 → rc i = .ok (j : Int))
      (cl : ArrShape F lc rc split val l) (cr : ArrShape F lc rc split val r) :
      ArrShape F lc rc split val (.node i l r)

/-- meaning of nodes and leaf indices -/
def arrMeaning (split : Nat → Nat → Rule → Prop) (val : Nat → F64 → Prop) : Meaning (List (Nat × F64)) where
  R i nd _ := ∃ f rule, split i f rule ∧ NodeRep [] [] nd f rule
  Q k j a := ∃ v, a[j]? = some (k, v) ∧ val k v

/-- leaf values created with a node -/
def arrW {α : Type} (F : Int → Res (LgNode × Option α × Option α)) (i : Nat) : Nat :=
  match F i with
  | .ok (_, lv, rv) => lv.toList.length + rv.toList.length
  | _ => 0

section arr
variable {F : Int → Res (LgNode × Option (Nat × F64) × Option (Nat × F64))} {lc rc : Nat → Res Int}
  {split : Nat → Nat → Rule → Prop} {val : Nat → F64 → Prop}

theorem arrSource_ok (lim : Nat) :
    SourceOK (arrSource F lc rc) (arrMeaning split val) List.IsPrefix (fun b a => a.length = b) (arrW F) lim where
  le_refl _ := List.prefix_rfl
  le_trans _ _ _ h1 h2 := h1.trans h2
  R_mono _ _ _ _ _ h := h
  Q_mono k j a b hle h := by
    obtain ⟨v, h1, h2⟩ := h
    obtain ⟨t, rfl⟩ := hle
    exact ⟨v, by rw [List.getElem?_append_left (List.getElem?_eq_some_iff.1 h1).1]; exact h1, h2⟩
  R_child i n n' x h1 h2 h3 h := by
    obtain ⟨f, rule, hs, hr⟩ := h
    exact ⟨f, rule, hs, hr.congr h1 h2 h3⟩

theorem arr_createOK {i f : Nat} {m : Missing} {thr : F64} {dl : Bool} {lv rv : Option (Nat × F64)} {l r : BTree}
    (hF : F i = .ok (numericalNode f (missingFlag m) thr (if dl then Flag.defaultLeft else 0), lv, rv))
    (hs : split i f (.num ⟨m, dl, thr⟩)) (hlv : LeafOpt val l lv) (hrv : LeafOpt val r rv) {lim : Nat} (hlim : lim < 2 ^ 32) :
    CreateOK (arrSource F lc rc) (arrMeaning split val) List.IsPrefix (fun b a => a.length = b) (arrW F) lim i l r := by
  intro b a hb hlimit
  have hw : arrW F i = lv.toList.length + rv.toList.length := by unfold arrW; rw [hF]
  obtain ⟨q1, q2, q3⟩ := numericalNode_rep [] [] f m thr dl
  show ∃ n a', (F (i : Int) >>= _) = _ ∧ _
  rw [hF]
  simp only [Res.ok_bind]
  generalize hnd : numericalNode f (missingFlag m) thr (if dl then Flag.defaultLeft else 0) = nd at q1 q2 q3
  have key : ∀ (x : Flags) (k : Nat), k ≠ 2 → k ≠ 3 → ∀ b c : Bool,
      ((x ||| (if b then Flag.leftLeaf else 0)) ||| (if c then Flag.rightLeaf else 0)).getLsbD k = x.getLsbD k := by
    intro x k a b c d; exact getLsbD_leafBit x k a b c d
  refine ⟨_, _, rfl, ?_⟩
  rw [hw] at hlimit ⊢
  cases l with
  | leaf k =>
    obtain ⟨v, rfl, hv⟩ := hlv
    cases r with
    | leaf k' =>
      obtain ⟨v', rfl, hv'⟩ := hrv
      simp only [Option.toList, List.length_cons, List.length_nil] at hlimit
      refine ⟨?_, ?_, ⟨f, _, hs, ?_⟩, ?_, ?_, ?_, ?_⟩
      · simp [attachL, hb]
      · simp [attachL]
      · exact NodeRep.leafBits (nd := nd) (hfl := fun j h h' => key nd.flags j h h' true true) q1
      · rw [flag_leftLeaf]
        simp [-BitVec.getLsbD_eq_getElem, attachL, BitVec.getLsbD_or, flags_leftLeaf, BTree.isLeaf]
      · rw [flag_rightLeaf]
        simp [-BitVec.getLsbD_eq_getElem, attachL, BitVec.getLsbD_or, flags_rightLeaf, BTree.isLeaf]
      · intro j hj; cases hj
        refine ⟨v, ?_, hv⟩
        simp [attachL, u32_of_lt (show a.length < 2 ^ 32 by omega)]
      · intro j hj; cases hj
        refine ⟨v', ?_, hv'⟩
        simp [attachL, u32_of_lt (show a.length + 1 < 2 ^ 32 by omega)]
    | node j r1 r2 =>
      obtain rfl : rv = none := hrv
      simp only [Option.toList, List.length_cons, List.length_nil] at hlimit
      refine ⟨?_, ?_, ⟨f, _, hs, ?_⟩, ?_, ?_, ?_, ?_⟩
      · simp [attachL, hb]
      · simp [attachL]
      · exact NodeRep.leafBits (nd := nd) (hfl := fun j h h' => by have := key nd.flags j h h' true false; simpa using this) q1
      · rw [flag_leftLeaf]
        simp [-BitVec.getLsbD_eq_getElem, attachL, BitVec.getLsbD_or, flags_leftLeaf, BTree.isLeaf]
      · rw [flag_rightLeaf]
        simp [-BitVec.getLsbD_eq_getElem, attachL, BitVec.getLsbD_or, flags_leftLeaf, BTree.isLeaf, q3]
      · intro j hj; cases hj
        refine ⟨v, ?_, hv⟩
        simp [attachL, u32_of_lt (show a.length < 2 ^ 32 by omega)]
      · intro j hj; cases hj
  | node j l1 l2 =>
    obtain rfl : lv = none := hlv
    cases r with
    | leaf k' =>
      obtain ⟨v', rfl, hv'⟩ := hrv
      simp only [Option.toList, List.length_cons, List.length_nil] at hlimit
      refine ⟨?_, ?_, ⟨f, _, hs, ?_⟩, ?_, ?_, ?_, ?_⟩
      · simp [attachL, hb]
      · simp [attachL]
      · exact NodeRep.leafBits (nd := nd) (hfl := fun j h h' => by have := key nd.flags j h h' false true; simpa [attachL] using this) q1
      · rw [flag_leftLeaf]
        simp [-BitVec.getLsbD_eq_getElem, attachL, BitVec.getLsbD_or, flags_rightLeaf, BTree.isLeaf, q2]
      · rw [flag_rightLeaf]
        simp [-BitVec.getLsbD_eq_getElem, attachL, BitVec.getLsbD_or, flags_rightLeaf, BTree.isLeaf]
      · intro j hj; cases hj
      · intro j hj; cases hj
        refine ⟨v', ?_, hv'⟩
        simp [attachL, u32_of_lt (show a.length < 2 ^ 32 by omega)]
    | node j' r1 r2 =>
      obtain rfl : rv = none := hrv
      refine ⟨?_, ?_, ⟨f, _, hs, ?_⟩, ?_, ?_, ?_, ?_⟩
      · simp [attachL, hb]
      · simp [attachL]
      · exact q1
      · simp only [attachL]; rw [flag_leftLeaf, q2]; rfl
      · simp only [attachL]; rw [flag_rightLeaf, q3]; rfl
      · intro j hj; cases hj
      · intro j hj; cases hj

theorem arr_contains {lim : Nat} (hlim : lim < 2 ^ 32) {T : BTree} (h : ArrShape F lc rc split val T) :
    Contains (arrSource F lc rc) (arrMeaning split val) List.IsPrefix (fun b a => a.length = b) (arrW F) lim T := by
  induction h with
  | leaf k => exact .leaf k
  | node i l r f m thr dl lv rv hF hs hlv hrv hl hr cl cr ihl ihr =>
    exact .node i l r (arr_createOK hF hs hlv hrv hlim) hl hr ihl ihr

theorem LeafOpt.length {l : BTree} {lv : Option (Nat × F64)} (h : LeafOpt val l lv) :
    lv.toList.length = if l.isLeaf then 1 else 0 := by
  cases l with
  | leaf k => obtain ⟨v, rfl, _⟩ := h; rfl
  | node i l r => obtain rfl : lv = none := h; rfl

theorem arr_weight {T : BTree} (h : ArrShape F lc rc split val T) :
    weight (arrW F) T + (if T.isLeaf then 1 else 0) = T.leaves.length := by
  induction h with
  | leaf k => rfl
  | node i l r f m thr dl lv rv hF hs hlv hrv hl hr cl cr ihl ihr =>
    have hw : arrW F i = lv.toList.length + rv.toList.length := by unfold arrW; rw [hF]
    rw [LeafOpt.length hlv, LeafOpt.length hrv] at hw
    show arrW F i + weight (arrW F) r + weight (arrW F) l + 0 = (l.leaves ++ r.leaves).length
    rw [List.length_append]
    omega

end arr

theorem BTree.leaves_length (T : BTree) : T.leaves.length = T.size + 1 := by
  induction T with
  | leaf k => rfl
  | node i l r hl hr => simp [BTree.leaves, BTree.size, hl, hr]; omega

/-! ### leaf indices as a function of the leaf -/

theorem Emb.index {σ : Type} {M : Meaning σ} {nodes : List LgNode} {aux : σ} : ∀ (T : BTree) (c : Nat),
    T.leaves.Nodup → Emb M nodes aux T c → ∃ idx : Nat → Nat,
      Emb { R := M.R, Q := fun k j a => j = idx k ∧ M.Q k j a } nodes aux T c
  | .leaf k, j, _, h => ⟨fun _ => j, rfl, h⟩
  | .node i l r, c, hnd, h => by
    obtain ⟨nd, h1, h2, h3, h4, h5, h6, h7⟩ := h
    have hnd' : l.leaves.Nodup ∧ r.leaves.Nodup ∧ ∀ k ∈ l.leaves, k ∉ r.leaves := by
      have : (l.leaves ++ r.leaves).Nodup := hnd
      rw [List.nodup_append] at this
      exact ⟨this.1, this.2.1, fun k hk hk' => this.2.2 k hk k hk' rfl⟩
    obtain ⟨il, el⟩ := Emb.index l _ hnd'.1 h6
    obtain ⟨ir, er⟩ := Emb.index r _ hnd'.2.1 h7
    have hcongr : ∀ (T : BTree) (c : Nat) (f g : Nat → Nat), (∀ k ∈ T.leaves, f k = g k) →
        Emb { R := M.R, Q := fun k j a => j = f k ∧ M.Q k j a } nodes aux T c →
        Emb { R := M.R, Q := fun k j a => j = g k ∧ M.Q k j a } nodes aux T c := by
      intro T
      induction T with
      | leaf k => intro c f g hfg h; exact ⟨by rw [← hfg k (by simp [BTree.leaves])]; exact h.1, h.2⟩
      | node i l r ihl ihr =>
        intro c f g hfg h
        obtain ⟨nd, h1, h2, h3, h4, h5, h6, h7⟩ := h
        exact ⟨nd, h1, h2, h3, h4, h5, ihl _ f g (fun k hk => hfg k (by simp [BTree.leaves, hk])) h6,
          ihr _ f g (fun k hk => hfg k (by simp [BTree.leaves, hk])) h7⟩
    classical
    refine ⟨fun k => if k ∈ l.leaves then il k else ir k, nd, h1, h2, h3, h4, h5, ?_, ?_⟩
    · exact hcongr _ _ _ _ (fun k hk => by simp [hk]) el
    · exact hcongr _ _ _ _ (fun k hk => by rw [if_neg]; exact fun h => hnd'.2.2 k h hk) er

theorem Emb.leaf_of_mem {σ : Type} {M : Meaning σ} {nodes : List LgNode} {aux : σ} : ∀ (T : BTree) (c : Nat),
    Emb M nodes aux T c → ∀ k ∈ T.leaves, ∃ j, M.Q k j aux
  | .leaf k', j, h, k, hk => by
    have : k = k' := by simpa [BTree.leaves] using hk
    subst this; exact ⟨j, h⟩
  | .node i l r, c, h, k, hk => by
    obtain ⟨nd, h1, h2, h3, h4, h5, h6, h7⟩ := h
    have : k ∈ l.leaves ++ r.leaves := hk
    rw [List.mem_append] at this
    rcases this with hk | hk
    · exact Emb.leaf_of_mem l _ h6 k hk
    · exact Emb.leaf_of_mem r _ h7 k hk

theorem Walk.mem {goes : Nat → Bool → Prop} {T : BTree} {k : Nat} (h : Walk goes T k) : k ∈ T.leaves := by
  induction h with
  | leaf k => simp [BTree.leaves]
  | left _ _ ih => simp [BTree.leaves, ih]
  | right _ _ ih => simp [BTree.leaves, ih]

theorem Walk.congr {g g' : Nat → Bool → Prop} {T : BTree} (hg : ∀ i ∈ T.inner, ∀ b, g i b → g' i b) {k : Nat}
    (h : Walk g T k) : Walk g' T k := by
  induction h with
  | leaf k => exact .leaf k
  | left h w ih => exact .left (hg _ (by simp [BTree.inner]) _ h) (ih fun i hi => hg i (by simp [BTree.inner, hi]))
  | right h w ih => exact .right (hg _ (by simp [BTree.inner]) _ h) (ih fun i hi => hg i (by simp [BTree.inner, hi]))

theorem Walk.iff {g g' : Nat → Bool → Prop} {T : BTree} (hg : ∀ i ∈ T.inner, ∀ b, g i b ↔ g' i b) {k : Nat} :
    Walk g T k ↔ Walk g' T k :=
  ⟨fun h => Walk.congr (fun i hi b hb => (hg i hi b).1 hb) h, fun h => Walk.congr (fun i hi b hb => (hg i hi b).2 hb) h⟩

/-! ### leaf indices in the order of creation -/

section kids
variable {F : Int → Res (LgNode × Option (Nat × F64) × Option (Nat × F64))} {lc rc : Nat → Res Int}
  {split : Nat → Nat → Rule → Prop} {val : Nat → F64 → Prop}

/-- the leaves created with a node -/
def arrKids {α : Type} (F : Int → Res (LgNode × Option α × Option α)) (i : Nat) : List α :=
  match F i with
  | .ok (_, lv, rv) => lv.toList ++ rv.toList
  | _ => []

theorem arr_grows {T : BTree} (h : ArrShape F lc rc split val T) : Grows (arrSource F lc rc) (arrKids F) T := by
  induction h with
  | leaf k => exact .leaf k
  | node i l r f m thr dl lv rv hF hs hlv hrv hl hr cl cr ihl ihr =>
    refine .node i l r (fun a => ?_) hl hr ihl ihr
    have hw : arrW F i ≤ 2 := by
      unfold arrW
      rw [hF]
      cases lv <;> cases rv <;> simp
    obtain ⟨n, a', h1, -, -, -, h2, h3, -, -⟩ := arr_createOK (lc := lc) (rc := rc) hF hs hlv hrv (lim := 2) (by norm_num) 0 [] rfl (by omega)
    have hk : arrKids F i = lv.toList ++ rv.toList := by unfold arrKids; rw [hF]
    have hc : ∀ a, (arrSource F lc rc).createNode (i : Int) a =
        .ok (attachR rv (attachL lv (numericalNode f (missingFlag m) thr (if dl then Flag.defaultLeft else 0), a))) := by
      intro a
      show (F (i : Int) >>= _) = _
      rw [hF]
      rfl
    rw [hc] at h1
    have h1 := congrArg Prod.fst (Res.ok.inj h1)
    dsimp only at h1
    subst h1
    refine ⟨_, (hc a).trans (congrArg Res.ok (Prod.ext rfl ?_)), ?_, ?_⟩
    · rw [hk]
      cases lv <;> cases rv <;> simp [attachL, attachR]
    · rw [← h2]
      cases lv <;> cases rv <;> rfl
    · rw [← h3]
      cases lv <;> cases rv <;> rfl

theorem arr_kids {T : BTree} (h : ArrShape F lc rc split val T) : T.isLeaf = false → (T.inner.flatMap (arrKids F)).map Prod.fst = T.counted := by
  induction h with
  | leaf k => intro h; cases h
  | node i l r f m thr dl lv rv hF hs hlv hrv hl hr cl cr ihl ihr =>
    intro _
    have hk : arrKids F i = lv.toList ++ rv.toList := by unfold arrKids; rw [hF]
    show ((i :: (r.inner ++ l.inner)).flatMap (arrKids F)).map Prod.fst = _
    rw [List.flatMap_cons, List.flatMap_append, hk]
    cases l with
    | leaf a =>
      obtain ⟨v, rfl, -⟩ := hlv
      cases r with
      | leaf b =>
        obtain ⟨w, rfl, -⟩ := hrv
        simp [BTree.inner, BTree.counted]
      | node j r1 r2 =>
        obtain rfl : rv = none := hrv
        rw [BTree.counted, ← ihr rfl]
        simp [BTree.inner]
    | node j l1 l2 =>
      obtain rfl : lv = none := hlv
      cases r with
      | leaf b =>
        obtain ⟨w, rfl, -⟩ := hrv
        rw [BTree.counted, ← ihl rfl]
        simp [BTree.inner]
      | node j' r1 r2 =>
        obtain rfl : rv = none := hrv
        rw [BTree.counted, ← ihl rfl, ← ihr rfl]
        simp [BTree.inner]

end kids

/-- Everything about a tree converted from a node array: `idx` numbers its leaves `0 … n-1` without repetition, the
prediction is the walk. -/
theorem arr_tree (P : Platform) {S : Source (List F64)}
    {F : Int → Res (LgNode × Option (Nat × F64) × Option (Nat × F64))} {lc rc : Nat → Res Int}
    {split : Nat → Nat → Rule → Prop} {val : Nat → F64 → Prop} {l r : BTree} {n m : Nat}
    (hS : ∀ i (a : List (Nat × F64)), S.createNode i (a.map Prod.snd) =
      Res.mapOk (Prod.map id (List.map Prod.snd)) ((arrSource F lc rc).createNode i a))
    (hlc : S.leftChild = lc) (hrc : S.rightChild = rc)
    (hsh : ArrShape F lc rc split val (.node 0 l r))
    (huniq : ∀ i f f' r r', split i f r → split i f' r' → f = f' ∧ r = r')
    (hval : ∀ k v v', val k v → val k v' → v = v')
    (hnd : (BTree.node 0 l r).inner.Nodup) (hndl : (BTree.node 0 l r).leaves.Nodup)
    (hlt : ∀ j ∈ (BTree.node 0 l r).inner, j < m) (hm : m < 2 ^ 32 - 1)
    (ha1 : n * 24 ≤ P.maxAlloc) (ha2 : m ≤ P.maxAlloc) :
    ∃ nodes lvs, convert P S n m [] = .ok (nodes, lvs) ∧ nodes.length = (BTree.node 0 l r).size ∧
      lvs.length = (BTree.node 0 l r).leaves.length ∧ ∃ idx : Nat → Nat,
      (∀ k ∈ (BTree.node 0 l r).leaves, idx k < lvs.length) ∧
      ((∀ k ∈ (BTree.node 0 l r).leaves, ∀ k' ∈ (BTree.node 0 l r).leaves, idx k = idx k' → k = k') ∧
        ∀ k ∈ (BTree.node 0 l r).leaves, (BTree.node 0 l r).counted[idx k]? = some k) ∧
      ∀ fvals, ((({ nodes := nodes, leafValues := lvs } : LgTree).predict P fvals ≠ .hang ∧
          ∀ i, (({ nodes := nodes, leafValues := lvs } : LgTree).examined P fvals i).length ≤ (BTree.node 0 l r).height) ∧
        ∀ v j, ({ nodes := nodes, leafValues := lvs } : LgTree).predict P fvals = .ok (v, j) ↔
        ∃ k, Walk (Goes P.out split fvals) (.node 0 l r) k ∧ j = idx k ∧ val k v) := by
  have hsz : (BTree.node 0 l r).size ≤ m := by rw [← BTree.inner_length]; exact nodup_length_le hnd hlt
  have hw := arr_weight hsh
  have hll := BTree.leaves_length (.node 0 l r)
  have hw' : weight (arrW F) (.node 0 l r) = (BTree.node 0 l r).leaves.length := hw
  obtain ⟨nodes, aux, h1, h2, h3, h4⟩ := convert_tree P (aux := ([] : List (Nat × F64))) (arrSource_ok (lc := lc) (rc := rc) (split := split) (val := val) (m + 1))
    (arr_contains (lim := m + 1) (by omega) hsh) hnd hlt (by omega) ha1 ha2 rfl (by omega)
  have hconv : convert P S n m [] = .ok (nodes, aux.map Prod.snd) := by
    have := convert_ghost P (π := List.map Prod.snd) (S := arrSource F lc rc) (S' := S) hS hlc hrc n m []
    rw [h1] at this
    exact this
  refine ⟨nodes, _, hconv, h2, by rw [List.length_map, h4, hw'], ?_⟩
  obtain ⟨idx, hemb⟩ := Emb.index _ _ hndl h3
  have hq : ∀ k ∈ (BTree.node 0 l r).leaves, ∃ v, aux[idx k]? = some (k, v) ∧ val k v := by
    intro k hk
    obtain ⟨j, rfl, hj⟩ := Emb.leaf_of_mem _ _ hemb k hk
    exact hj
  refine ⟨idx, ?_, ?_, ?_⟩
  · intro k hk
    obtain ⟨v, hv, _⟩ := hq k hk
    rw [List.length_map]
    exact (List.getElem?_eq_some_iff.1 hv).1
  · refine ⟨fun k hk k' hk' he => ?_, fun k hk => ?_⟩
    swap
    · obtain ⟨v, hv, _⟩ := hq k hk
      rw [← arr_kids hsh rfl, ← convert_order P (arr_grows hsh) hnd hlt (by omega) h1, List.getElem?_map, hv]
      rfl
    obtain ⟨v, hv, _⟩ := hq k hk
    obtain ⟨v', hv', _⟩ := hq k' hk'
    rw [he, hv'] at hv
    cases hv
    rfl
  · intro fvals
    have hlen : nodes.length < 2 ^ 32 := by omega
    have hpos : nodes.length ≠ 0 := by rw [h2]; simp [BTree.size]
    have hex := examined_emb (P := P) (t := { nodes := nodes, leafValues := aux.map Prod.snd }) (LgTree.decision_ne_hang P _) hlen rfl hemb fvals
    unfold LgTree.predict
    rw [if_neg hpos]
    refine ⟨⟨predictLoop_emb_ne_hang (t := { nodes := nodes, leafValues := aux.map Prod.snd })
      (LgTree.decision_ne_hang P _) hlen _ 0 _ rfl hemb (by show _ ≤ nodes.length + 1; omega), hex⟩, fun v j => ?_⟩
    constructor
    · intro h
      obtain ⟨k, w, ⟨rfl, v', hv', hval'⟩, hj⟩ := walk_of_predictLoop (P := P)
        (t := { nodes := nodes, leafValues := aux.map Prod.snd }) (fvals := fvals)
        (goes := Goes P.out split fvals)
        (fun i nd hR b x hx hd => (goes_rep P _ split huniq hR fvals b).2 ⟨x, hx, hd⟩) hlen _ 0 _ v j rfl hemb h
      refine ⟨k, w, rfl, ?_⟩
      simp only [List.getElem?_map, hv', Option.map_some, Option.some.injEq] at hj
      rw [← hj]; exact hval'
    · rintro ⟨k, w, rfl, hv⟩
      obtain ⟨v', hv', hval'⟩ := hq k (Walk.mem w)
      obtain rfl := hval k _ _ hv hval'
      obtain ⟨j, ⟨rfl, _⟩, hp⟩ := predictLoop_walk (P := P)
        (t := { nodes := nodes, leafValues := aux.map Prod.snd }) (fvals := fvals)
        (goes := Goes P.out split fvals) (V := fun k => Res.idx (aux.map Prod.snd) (idx k))
        (fun i nd hR b hg => (goes_rep P _ split huniq hR fvals b).1 hg)
        (fun k j hj => by obtain rfl := hj.1; rfl) hlen _ k 0 (nodes.length + 1) rfl hemb w (by omega)
      rw [hp, Res.idx_eq_ok.2 (show (aux.map Prod.snd)[idx k]? = some v by rw [List.getElem?_map, hv']; rfl)]
      rfl

end Leaves
