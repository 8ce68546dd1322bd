import Verif.Proofs.ArrTree
import Verif.Model.SkLoad
import Verif.Spec.SkFile
import Mathlib.Data.List.Perm.Subperm

/-! scikit-learn trees as node arrays. -/

namespace Leaves

open Spec Pickle

/-- creation of a node, with leaf numbers -/
def skF (P : Platform) (tree : SkTree) (scale base : F64) (i : Int) : Res (LgNode × Option (Nat × F64) × Option (Nat × F64)) :=
  Res.idxI tree.nodes i >>= fun n =>
  Res.idxI tree.nodes n.leftChild >>= fun l =>
  (if l.leftChild < 0 then
      skLeaf P tree.values scale base n.leftChild >>= fun v => .ok (some (n.leftChild.toNat, v)) else .ok none) >>= fun lv =>
  Res.idxI tree.nodes n.rightChild >>= fun r =>
  (if r.leftChild < 0 then
      skLeaf P tree.values scale base n.rightChild >>= fun v => .ok (some (n.rightChild.toNat, v)) else .ok none) >>= fun rv =>
  .ok (numericalNode (u32I n.feature) 0 n.threshold 0, lv, rv)

theorem sk_ghost (P : Platform) (tree : SkTree) (scale base : F64) (lc rc : Nat → Res Int) (i : Int) (a : List (Nat × F64)) :
    (skSource P tree scale base).createNode i (a.map Prod.snd) =
      Res.mapOk (Prod.map id (List.map Prod.snd)) ((arrSource (skF P tree scale base) lc rc).createNode i a) := by
  show skCreateNode P tree scale base i (a.map Prod.snd) = Res.mapOk _ (skF P tree scale base i >>= _)
  unfold skCreateNode skF
  cases Res.idxI tree.nodes i with
  | ok n =>
    simp only [Res.ok_bind]
    cases Res.idxI tree.nodes n.leftChild with
    | ok l =>
      simp only [Res.ok_bind]
      by_cases h1 : l.leftChild < 0
      · rw [if_pos h1, if_pos h1]
        cases skLeaf P tree.values scale base n.leftChild with
        | ok v =>
          simp only [Res.ok_bind, Res.pure_eq]
          cases Res.idxI tree.nodes n.rightChild with
          | ok r =>
            simp only [Res.ok_bind]
            by_cases h2 : r.leftChild < 0
            · rw [if_pos h2, if_pos h2]
              cases skLeaf P tree.values scale base n.rightChild with
              | ok w => simp [attachL, attachR, Res.mapOk]
              | _ => rfl
            · rw [if_neg h2, if_neg h2]
              simp [attachL, attachR, Res.mapOk]
          | _ => rfl
        | _ => rfl
      · rw [if_neg h1, if_neg h1]
        simp only [Res.ok_bind, Res.pure_eq]
        cases Res.idxI tree.nodes n.rightChild with
        | ok r =>
          simp only [Res.ok_bind]
          by_cases h2 : r.leftChild < 0
          · rw [if_pos h2, if_pos h2]
            cases skLeaf P tree.values scale base n.rightChild with
            | ok w => simp [attachL, attachR, Res.mapOk]
            | _ => rfl
          · rw [if_neg h2, if_neg h2]
            simp [attachL, attachR, Res.mapOk]
        | _ => rfl
    | _ => rfl
  | _ => rfl

/-- the split of inner node `i` as the model stores it -/
def SkSplitM (nodes : List SkNode) (i f : Nat) (rule : Rule) : Prop :=
  ∃ n, nodes[i]? = some n ∧ n.feature = (f : Nat) ∧ rule = .num ⟨.none, false, n.threshold⟩

/-- leaf value -/
def SkVal (P : Platform) (tree : SkTree) (scale base : F64) (k : Nat) (v : F64) : Prop :=
  ∃ x, tree.values[k]? = some x ∧ v = P.mulAdd x scale base

theorem SkShape.root {nodes : List SkNode} {i : Nat} {T : BTree} (h : SkShape nodes i T) :
    ∃ n, nodes[i]? = some n ∧ ((∃ k, T = .leaf k ∧ k = i ∧ n.leftChild = -1) ∨
      (∃ l r, T = .node i l r ∧ 0 ≤ n.leftChild)) := by
  cases h with
  | leaf _ n hn hl => exact ⟨n, hn, .inl ⟨i, rfl, rfl, hl⟩⟩
  | node _ n li ri l r hn hl hr sl sr => exact ⟨n, hn, .inr ⟨l, r, rfl, by omega⟩⟩

theorem sk_leafOpt (P : Platform) {tree : SkTree} {scale base : F64} {i : Nat} {T : BTree} (h : SkShape tree.nodes i T)
    {n : SkNode} (hn : tree.nodes[i]? = some n) (hv : tree.values.length = tree.nodes.length) :
    ∃ lv, (if n.leftChild < 0 then
      skLeaf P tree.values scale base (i : Int) >>= fun v => Res.ok (some (((i : Int)).toNat, v)) else .ok none) = .ok lv ∧
    LeafOpt (SkVal P tree scale base) T lv := by
  obtain ⟨n', hn', hc⟩ := SkShape.root h
  rw [hn] at hn'; cases hn'
  rcases hc with ⟨k, rfl, rfl, hc⟩ | ⟨l, r, rfl, hc⟩
  · have hk : k < tree.values.length := by rw [hv]; exact (List.getElem?_eq_some_iff.1 hn).1
    rw [if_pos (by omega)]
    unfold skLeaf
    rw [Res.idxI_ofNat, Res.idx_eq_ok.2 (List.getElem?_eq_getElem hk)]
    exact ⟨_, rfl, _, rfl, _, List.getElem?_eq_getElem hk, rfl⟩
  · rw [if_neg (by omega)]
    exact ⟨none, rfl, rfl⟩

theorem sk_arrShape (P : Platform) {tree : SkTree} {scale base : F64} (hv : tree.values.length = tree.nodes.length)
    {i : Nat} {T : BTree} (h : SkShape tree.nodes i T)
    (hf : ∀ i ∈ T.inner, ∀ n, tree.nodes[i]? = some n → 0 ≤ n.feature ∧ n.feature < 2 ^ 32) :
    ArrShape (skF P tree scale base) (skSource P tree scale base).leftChild (skSource P tree scale base).rightChild
      (SkSplitM tree.nodes) (SkVal P tree scale base) T := by
  induction h with
  | leaf i n hn hl => exact .leaf i
  | node i n li ri l r hn hl hr sl sr ihl ihr =>
    obtain ⟨nl, hnl, _⟩ := SkShape.root sl
    obtain ⟨nr, hnr, _⟩ := SkShape.root sr
    obtain ⟨lv, e1, hlv⟩ := sk_leafOpt P (scale := scale) (base := base) sl hnl hv
    obtain ⟨rv, e2, hrv⟩ := sk_leafOpt P (scale := scale) (base := base) sr hnr hv
    obtain ⟨f1, f2⟩ := hf i (by simp [BTree.inner]) n hn
    have hfe : u32I n.feature = n.feature.toNat := by
      have : n.feature = ((n.feature.toNat : Nat) : Int) := by omega
      rw [this]; exact u32I_natCast (by omega)
    refine .node i l r n.feature.toNat .none n.threshold false lv rv ?_
      ⟨n, hn, by omega, rfl⟩ hlv hrv ?_ ?_ (ihl fun j hj => hf j (by simp [BTree.inner, hj]))
      (ihr fun j hj => hf j (by simp [BTree.inner, hj]))
    · unfold skF
      rw [Res.idxI_ofNat, Res.idx_eq_ok.2 hn]
      simp only [Res.ok_bind]
      rw [hl, hr, Res.idxI_ofNat, Res.idxI_ofNat, Res.idx_eq_ok.2 hnl, Res.idx_eq_ok.2 hnr]
      simp only [Res.ok_bind]
      rw [e1]
      simp only [Res.ok_bind]
      rw [e2]
      simp only [Res.ok_bind]
      rw [hfe]
      rfl
    · rintro j l1 l2 rfl
      have : li = j := by cases sl; rfl
      subst this
      show (Res.idx tree.nodes i >>= fun n => Res.ok n.leftChild) = _
      rw [Res.idx_eq_ok.2 hn, Res.ok_bind, hl]
    · rintro j r1 r2 rfl
      have : ri = j := by cases sr; rfl
      subst this
      show (Res.idx tree.nodes i >>= fun n => Res.ok n.rightChild) = _
      rw [Res.idx_eq_ok.2 hn, Res.ok_bind, hr]

theorem SkSplitM.unique {nodes : List SkNode} (i f f' : Nat) (r r' : Rule) (h : SkSplitM nodes i f r)
    (h' : SkSplitM nodes i f' r') : f = f' ∧ r = r' := by
  obtain ⟨n, h1, hf, rfl⟩ := h
  obtain ⟨n', h2, hf', rfl⟩ := h'
  rw [h1] at h2; cases h2
  exact ⟨by omega, rfl⟩

theorem SkVal.unique {P : Platform} {t : SkTree} {s b : F64} (k : Nat) (v v' : F64) (h : SkVal P t s b k v)
    (h' : SkVal P t s b k v') : v = v' := by
  obtain ⟨n, h1, rfl⟩ := h
  obtain ⟨n', h2, rfl⟩ := h'
  rw [h1] at h2; cases h2; rfl

theorem SkShape.inner_lt {nodes : List SkNode} {i : Nat} {T : BTree} (h : SkShape nodes i T) :
    ∀ j ∈ T.inner, ∃ n, nodes[j]? = some n ∧ 0 ≤ n.leftChild := by
  induction h with
  | leaf i n hn hl => simp [BTree.inner]
  | node i n li ri l r hn hl hr sl sr ihl ihr =>
    intro j hj
    have : j = i ∨ j ∈ r.inner ∨ j ∈ l.inner := by simpa [BTree.inner] using hj
    rcases this with rfl | h | h
    · exact ⟨n, hn, by omega⟩
    · exact ihr j h
    · exact ihl j h

theorem SkShape.leaves_lt {nodes : List SkNode} {i : Nat} {T : BTree} (h : SkShape nodes i T) :
    ∀ j ∈ T.leaves, ∃ n, nodes[j]? = some n ∧ n.leftChild = -1 := by
  induction h with
  | leaf i n hn hl =>
    intro k hk
    have : k = i := by simpa [BTree.leaves] using hk
    subst this; exact ⟨n, hn, hl⟩
  | node i n li ri l r hn hl hr sl sr ihl ihr =>
    intro j hj
    have : j ∈ l.leaves ∨ j ∈ r.leaves := by simpa [BTree.leaves] using hj
    rcases this with h | h
    · exact ihl j h
    · exact ihr j h

theorem countP_range {α : Type} (p : α → Bool) (l : List α) (q : Nat → Bool) (h : ∀ i x, l[i]? = some x → q i = p x) :
    l.countP p = (List.range l.length).countP q := by
  induction l generalizing q with
  | nil => rfl
  | cons a l ih =>
    have h0 : q 0 = p a := h 0 a rfl
    have := ih (fun i => q (i + 1)) (fun i x hx => h (i + 1) x (by simpa using hx))
    rw [List.length_cons, List.range_succ_eq_map, List.countP_cons, List.countP_cons, List.countP_map, this, h0]
    rfl

theorem sk_counts {t : SkTree} {T : BTree} (h : SkTreeOK t T) :
    (t.nodes.countP fun n => decide (n.leftChild < 0)) = T.leaves.length ∧
    (t.nodes.countP fun n => !decide (n.leftChild < 0)) = T.size ∧ (T.inner ++ T.leaves).Perm (List.range t.nodes.length) := by
  have hperm : (T.inner ++ T.leaves).Perm (List.range t.nodes.length) := by
    refine (List.perm_ext_iff_of_nodup h.distinct List.nodup_range).2 fun i => ?_
    rw [List.mem_append, List.mem_range]
    constructor
    · rintro (hi | hi)
      · obtain ⟨n, hn, _⟩ := SkShape.inner_lt h.shape i hi; exact (List.getElem?_eq_some_iff.1 hn).1
      · obtain ⟨n, hn, _⟩ := SkShape.leaves_lt h.shape i hi; exact (List.getElem?_eq_some_iff.1 hn).1
    · exact h.all i
  have hd : ∀ i ∈ T.leaves, i ∉ T.inner := fun i hi hi' => (List.nodup_append.1 h.distinct).2.2 i hi' i hi rfl
  have hq : ∀ i x, t.nodes[i]? = some x → decide (i ∈ T.leaves) = decide (x.leftChild < 0) := by
    intro i x hx
    rcases h.all i (List.getElem?_eq_some_iff.1 hx).1 with hi | hi
    · obtain ⟨n, hn, h0⟩ := SkShape.inner_lt h.shape i hi
      rw [hx] at hn; cases hn
      rw [decide_eq_false (fun hl => hd i hl hi), decide_eq_false (by omega)]
    · obtain ⟨n, hn, h0⟩ := SkShape.leaves_lt h.shape i hi
      rw [hx] at hn; cases hn
      rw [decide_eq_true hi, decide_eq_true (by omega)]
  refine ⟨?_, ?_, hperm⟩
  · rw [countP_range _ _ (fun i => decide (i ∈ T.leaves)) hq, ← hperm.countP_eq, List.countP_append,
      List.countP_eq_zero.2 (by intro i hi; simp; exact fun hl => hd i hl hi),
      List.countP_eq_length.2 (by intro i hi; simpa using hi), Nat.zero_add]
  · rw [countP_range _ _ (fun i => !decide (i ∈ T.leaves)) (fun i x hx => by rw [hq i x hx]), ← hperm.countP_eq,
      List.countP_append, List.countP_eq_length.2 (by intro i hi; simp; exact fun hl => hd i hl hi),
      List.countP_eq_zero.2 (by intro i hi; simpa using hi), Nat.add_zero, BTree.inner_length]

theorem sk_goes (out : F64 → Int) (nodes : List SkNode) (fvals : List F64) (i : Nat) (b : Bool) :
    Goes out (SkSplitM nodes) fvals i b ↔ SkGoes nodes (nanToZero fvals) i b := by
  have key : ∀ (thr x : F64), (Rule.num ⟨.none, false, thr⟩).Left out x ↔ Le (if x = .nan then .zero else x) thr := by
    intro thr x
    show NumLeft _ x ↔ _
    unfold NumLeft IsMissing
    simp
  unfold nanToZero
  constructor
  · rintro ⟨f, rule, x, ⟨n, hn, hf, rfl⟩, hx, hb⟩
    exact ⟨n, f, _, hn, hf, by rw [List.getElem?_map, hx]; rfl, by rw [hb, key]⟩
  · rintro ⟨n, f, x, hn, hf, hx, hb⟩
    rw [List.getElem?_map, Option.map_eq_some_iff] at hx
    obtain ⟨y, hy, rfl⟩ := hx
    exact ⟨f, _, y, ⟨n, hn, hf, rfl⟩, hy, by rw [hb, key]⟩

theorem nanToZero_id {fvals : List F64} (h : ∀ x ∈ fvals, x ≠ .nan) : nanToZero fvals = fvals := by
  unfold nanToZero
  conv_rhs => rw [← List.map_id fvals]
  exact List.map_congr_left fun x hx => by rw [if_neg (h x hx)]; rfl

/-- loading the arrays of a tree with at least one split -/
theorem sk_load (P : Platform) {t : SkTree} {T : BTree} (scale base : F64) (h : SkTreeOK t T) (hs : T.isLeaf = false)
    (ha : t.nodes.length * 24 ≤ P.maxAlloc) :
    ∃ t', lgTreeFromSklearn P t scale base = .ok t' ∧ t'.nodes.length + 1 = T.leaves.length ∧
      t'.leafValues.length = T.leaves.length ∧ ∃ idx : Nat → Nat, (∀ k ∈ T.leaves, idx k < T.leaves.length) ∧
      ((∀ k ∈ T.leaves, ∀ k' ∈ T.leaves, idx k = idx k' → k = k') ∧ ∀ k ∈ T.leaves, T.counted[idx k]? = some k) ∧
      ∀ fvals, ((t'.predict P fvals ≠ .hang ∧ ∀ i, (t'.examined P fvals i).length ≤ T.height) ∧ ∀ v j, t'.predict P fvals = .ok (v, j) ↔
        ∃ k, Walk (SkGoes t.nodes (nanToZero fvals)) T k ∧ j = idx k ∧ SkVal P t scale base k v) := by
  have hsh := h.shape
  obtain ⟨n, hn, hr⟩ := SkShape.root hsh
  rcases hr with ⟨k, rfl, -, -⟩ | ⟨l, r, rfl, hcl⟩
  · cases hs
  have hnd := List.nodup_append.1 h.distinct
  obtain ⟨k1, k2, hperm⟩ := sk_counts h
  have hll := BTree.leaves_length (.node 0 l r)
  have hsz : (BTree.node 0 l r).size ≠ 0 := by simp [BTree.size]
  have hle : (BTree.node 0 l r).size ≤ t.nodes.length := by
    have := hperm.length_eq
    rw [List.length_append, BTree.inner_length, List.length_range] at this
    omega
  have hsm := h.small
  obtain ⟨nodes, lvs, c1, c2, c3, idx, c4, c5, c6⟩ := arr_tree P (n := (BTree.node 0 l r).size) (m := t.nodes.length)
    (fun i a => sk_ghost P t scale base (skSource P t scale base).leftChild (skSource P t scale base).rightChild i a)
    rfl rfl (sk_arrShape P h.values hsh h.features) SkSplitM.unique SkVal.unique hnd.1 hnd.2.1
    (fun j hj => by obtain ⟨n, hn, _⟩ := SkShape.inner_lt hsh j hj; exact (List.getElem?_eq_some_iff.1 hn).1) h.small
    (by omega) (by omega)
  refine ⟨{ nodes := nodes, leafValues := lvs }, ?_, ?_, c3, idx, ?_, c5, ?_⟩
  · unfold lgTreeFromSklearn
    dsimp only
    rw [k1, k2, if_neg (by omega), if_neg hsz, h.nodeCount, c1]
    rfl
  · show nodes.length + 1 = _
    rw [c2, BTree.leaves_length]
  · intro k hk; have := c4 k hk; omega
  · intro fvals
    refine ⟨(c6 fvals).1, fun v j => ?_⟩
    rw [(c6 fvals).2]
    refine exists_congr fun k => and_congr (Walk.iff fun i _ b => ?_) Iff.rfl
    exact sk_goes P.out t.nodes fvals i b

/-- loading the arrays of a one-leaf tree -/
theorem sk_load_leaf (P : Platform) {t : SkTree} {k : Nat} (scale base : F64) (h : SkTreeOK t (.leaf k)) :
    k = 0 ∧ ∃ v, SkVal P t scale base 0 v ∧ lgTreeFromSklearn P t scale base = .ok
      { nodes := [⟨F64.zero, 0, 0, 0, Flag.leftLeaf ||| Flag.rightLeaf⟩], leafValues := [v] } := by
  obtain ⟨n, hn, hr⟩ := SkShape.root h.shape
  obtain ⟨k1, k2, hperm⟩ := sk_counts h
  have hk : k = 0 := by
    rcases hr with ⟨k', hk, rfl, -⟩ | ⟨l, r, hh, -⟩
    · cases hk; rfl
    · cases hh
  subst hk
  have h0 : 0 < t.values.length := by rw [h.values]; exact (List.getElem?_eq_some_iff.1 hn).1
  refine ⟨rfl, P.mulAdd t.values[0] scale base, ⟨_, List.getElem?_eq_getElem h0, rfl⟩, ?_⟩
  unfold lgTreeFromSklearn skLeaf
  dsimp only
  rw [k1, k2, if_neg (by simp [BTree.leaves, BTree.size]), if_pos (by simp [BTree.size])]
  rw [show (0 : Int) = ((0 : Nat) : Int) from rfl, Res.idxI_ofNat, Res.idx_eq_ok.2 (List.getElem?_eq_getElem h0)]
  simp only [Res.ok_bind, Res.pure_eq]
  rfl

end Leaves
