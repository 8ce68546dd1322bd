import Verif.Proofs.ArrTree
import Verif.Proofs.F64Lemmas
import Verif.Model.XgLoad
import Verif.Spec.XgFile

/-! XGBoost trees as node arrays; exactness of the float32 → float64 conversion. -/

namespace Leaves

open Spec XgBin

/-! ### float32 is exact in float64 -/

namespace F64

theorem unit_split {a b : Nat} (h : a + b = 1074) : (unit : ℚ) = 2 ^ a * 2 ^ b := by
  rw [unit_eq, Nat.cast_pow, Nat.cast_ofNat, ← pow_add, h]

theorem rep24 {q e : Nat} (hq : q < 2 ^ 24) (he : e ≤ 1200) : Rep (q * 2 ^ e) := by
  refine rep_of_mul_pow (by omega) ?_
  rw [magLimit_eq]
  calc q * 2 ^ e < 2 ^ 24 * 2 ^ e := Nat.mul_lt_mul_of_pos_right hq (Nat.two_pow_pos _)
    _ = 2 ^ (24 + e) := by rw [← Nat.pow_add]
    _ < 2 ^ 2098 := Nat.pow_lt_pow_right (by norm_num) (by omega)

theorem value_ofRatio24 (s : Bool) {q e : Nat} (hq : q < 2 ^ 24) (he : e ≤ 1200) :
    value (ofRatio s (q * 2 ^ e) 1) = some (pt ((if s then -1 else 1) * (((q * 2 ^ e : Nat) : ℚ) / unit))) := by
  rw [ofRatio_rep (rep24 hq he)]
  cases s
  · simp [value]
  · simp [value]

theorem scale_sub (f : Nat) : (((f * 2 ^ 925 : Nat) : ℚ) / unit) = f / 2 ^ 149 := by
  rw [unit_split (a := 925) (b := 149) rfl, Nat.cast_mul, Nat.cast_pow, Nat.cast_ofNat]
  generalize (925 : Nat) = k
  have : (2 : ℚ) ^ k ≠ 0 := by positivity
  field_simp

theorem scale_norm (f : Nat) {e : Nat} (he : e ≠ 0) :
    ((((2 ^ 23 + f) * 2 ^ (e - 1 + 925) : Nat) : ℚ) / unit) = (2 ^ 23 + f) * 2 ^ e / 2 ^ 150 := by
  rw [unit_split (a := 924) (b := 150) rfl, show e - 1 + 925 = e + 924 by omega, Nat.cast_mul, Nat.cast_pow,
    Nat.cast_ofNat, pow_add, Nat.cast_add, Nat.cast_pow, Nat.cast_ofNat]
  generalize (924 : Nat) = k
  have : (2 : ℚ) ^ k ≠ 0 := by positivity
  field_simp

/-- `float64(math.Float32frombits(b))` denotes the float32's number -/
theorem value_ofBits32 (b : BitVec 32) : value (ofBits32 b) = value32 b := by
  have hb : b.getLsbD 31 = decide (b.toNat / 2 ^ 31 = 1) := by
    rw [BitVec.getLsbD, Nat.testBit_eq_decide_div_mod_eq]
    have := b.isLt
    congr 1
    rw [Nat.mod_eq_of_lt (by omega)]
  have hf : b.toNat % 2 ^ 23 < 2 ^ 23 := Nat.mod_lt _ (by norm_num)
  have he : b.toNat / 2 ^ 23 % 2 ^ 8 < 2 ^ 8 := Nat.mod_lt _ (by norm_num)
  unfold ofBits32 value32
  dsimp only
  rw [hb]
  generalize b.toNat % 2 ^ 23 = f at *
  generalize b.toNat / 2 ^ 23 % 2 ^ 8 = e at *
  by_cases h1 : e = 255
  · rw [if_pos h1, if_pos h1]
    by_cases h2 : f = 0
    · rw [if_pos h2, if_neg (by simpa using h2)]
      by_cases h3 : b.toNat / 2 ^ 31 = 1
      · rw [if_pos h3, decide_eq_true h3]; rfl
      · rw [if_neg h3, decide_eq_false h3]; rfl
    · rw [if_neg h2, if_pos h2]; rfl
  · rw [if_neg h1, if_neg h1]
    by_cases h2 : e = 0
    · rw [if_pos h2, if_pos h2, value_ofRatio24 _ (by omega) (by norm_num), scale_sub]
      simp
    · rw [if_neg h2, if_neg h2, value_ofRatio24 _ (by omega) (by omega), scale_norm _ h2]
      simp

end F64

/-! ### the source -/

/-- creation of a node, with leaf numbers -/
def xgF (nodes : List Node) (i : Int) : Res (LgNode × Option (Nat × F64) × Option (Nat × F64)) :=
  Res.idxI nodes i >>= fun n =>
    if n.cLeft.toInt < 0 then .err "logic error: CLeft < 0"
    else if n.cRight.toInt < 0 then .err "logic error: CRight < 0"
    else
      Res.idxI nodes n.cLeft.toInt >>= fun l =>
      Res.idxI nodes n.cRight.toInt >>= fun r =>
      .ok (numericalNode (xgSplitIndex n) Flag.missingNan (F64.ofBits32 n.info) (if xgDefaultLeft n then Flag.defaultLeft else 0),
        (if xgIsLeaf l then some (n.cLeft.toNat, F64.ofBits32 l.info) else none),
        (if xgIsLeaf r then some (n.cRight.toNat, F64.ofBits32 r.info) else none))

theorem xg_ghost (nodes : List Node) (lc rc : Nat → Res Int) (i : Int) (a : List (Nat × F64)) :
    (xgSource nodes).createNode i (a.map Prod.snd) =
      Res.mapOk (Prod.map id (List.map Prod.snd)) ((arrSource (xgF nodes) lc rc).createNode i a) := by
  show xgCreateNode nodes i (a.map Prod.snd) = Res.mapOk _ (xgF nodes i >>= _)
  unfold xgCreateNode xgF
  cases Res.idxI nodes i with
  | ok n =>
    simp only [Res.ok_bind]
    by_cases h1 : n.cLeft.toInt < 0
    · rw [if_pos h1, if_pos h1]; rfl
    rw [if_neg h1, if_neg h1]
    by_cases h2 : n.cRight.toInt < 0
    · rw [if_pos h2, if_pos h2]; rfl
    rw [if_neg h2, if_neg h2]
    cases Res.idxI nodes n.cLeft.toInt with
    | ok l =>
      simp only [Res.ok_bind]
      cases Res.idxI nodes n.cRight.toInt with
      | ok r =>
        simp only [Res.ok_bind]
        cases xgIsLeaf l <;> cases xgIsLeaf r <;> simp [attachL, attachR, Res.mapOk]
      | _ => cases xgIsLeaf l <;> rfl
    | _ => rfl
  | _ => rfl

/-- the split of inner node `i` as the model stores it -/
def XgSplitM (nodes : List Node) (i f : Nat) (rule : Rule) : Prop :=
  ∃ n, nodes[i]? = some n ∧ f = xgFeature n ∧
    rule = .num ⟨.nan, decide (n.sIndex.toNat / 2 ^ 31 = 1), F64.ofBits32 n.info⟩

theorem xgSplitIndex_eq (n : Node) : xgSplitIndex n = xgFeature n := by
  unfold xgSplitIndex xgFeature
  rw [BitVec.toNat_and, BitVec.toNat_ofNat, Nat.mod_eq_of_lt (by norm_num)]
  exact Nat.and_two_pow_sub_one_eq_mod _ 31

theorem xgDefaultLeft_eq (n : Node) : xgDefaultLeft n = decide (n.sIndex.toNat / 2 ^ 31 = 1) := by
  unfold xgDefaultLeft
  rw [BitVec.toNat_ushiftRight, Nat.shiftRight_eq_div_pow]
  have := n.sIndex.isLt
  congr 1
  exact propext ⟨fun h => by omega, fun h => by omega⟩

theorem XgShape.root {nodes : List Node} {i : Nat} {T : BTree} (h : XgShape nodes i T) :
    ∃ n, nodes[i]? = some n ∧ ((∃ k, T = .leaf k ∧ k = i ∧ n.cLeft.toInt = -1) ∨
      (∃ l r, T = .node i l r ∧ 0 ≤ n.cLeft.toInt)) := by
  cases h with
  | leaf _ n hn hl => exact ⟨n, hn, .inl ⟨i, rfl, rfl, hl⟩⟩
  | node _ n li ri l r hn hl hr sl sr => exact ⟨n, hn, .inr ⟨l, r, rfl, by omega⟩⟩

theorem xg_leafOpt {nodes : List Node} {i : Nat} {T : BTree} (h : XgShape nodes i T) {n : Node} (hn : nodes[i]? = some n) :
    LeafOpt (XgVal nodes) T (if xgIsLeaf n then some (i, F64.ofBits32 n.info) else none) := by
  obtain ⟨n', hn', hc⟩ := XgShape.root h
  rw [hn] at hn'; cases hn'
  unfold xgIsLeaf
  rcases hc with ⟨k, rfl, rfl, hc⟩ | ⟨l, r, rfl, hc⟩
  · rw [if_pos (by simpa using hc)]
    exact ⟨_, rfl, n, hn, rfl⟩
  · rw [if_neg (by simp; omega)]
    rfl

theorem bv_toNat_of_toInt {x : BitVec 32} {k : Nat} (h : x.toInt = k) : x.toNat = k := by
  have := BitVec.toInt_eq_toNat_cond x
  have := x.isLt
  split at * <;> omega

theorem xg_arrShape {nodes : List Node} {i : Nat} {T : BTree} (h : XgShape nodes i T) :
    ArrShape (xgF nodes) (xgSource nodes).leftChild (xgSource nodes).rightChild (XgSplitM nodes) (XgVal nodes) T := by
  induction h with
  | leaf i n hn hl => exact .leaf i
  | node i n li ri l r hn hl hr sl sr ihl ihr =>
    obtain ⟨nl, hnl, _⟩ := XgShape.root sl
    obtain ⟨nr, hnr, _⟩ := XgShape.root sr
    refine .node i l r (xgFeature n) .nan (F64.ofBits32 n.info) (decide (n.sIndex.toNat / 2 ^ 31 = 1)) _ _ ?_
      ⟨n, hn, rfl, rfl⟩ (xg_leafOpt sl hnl) (xg_leafOpt sr hnr) ?_ ?_ ihl ihr
    · unfold xgF
      rw [Res.idxI_ofNat, Res.idx_eq_ok.2 hn]
      simp only [Res.ok_bind]
      rw [if_neg (by omega), if_neg (by omega), hl, hr, Res.idxI_ofNat, Res.idxI_ofNat, Res.idx_eq_ok.2 hnl,
        Res.idx_eq_ok.2 hnr]
      simp only [Res.ok_bind]
      rw [xgSplitIndex_eq, xgDefaultLeft_eq, bv_toNat_of_toInt hl, bv_toNat_of_toInt hr]
      rfl
    · rintro j l1 l2 rfl
      have : li = j := by cases sl; rfl
      subst this
      show (Res.idx nodes i >>= fun n => Res.ok n.cLeft.toInt) = _
      rw [Res.idx_eq_ok.2 hn, Res.ok_bind, hl]
    · rintro j r1 r2 rfl
      have : ri = j := by cases sr; rfl
      subst this
      show (Res.idx nodes i >>= fun n => Res.ok n.cRight.toInt) = _
      rw [Res.idx_eq_ok.2 hn, Res.ok_bind, hr]

theorem XgSplitM.unique {nodes : List Node} (i f f' : Nat) (r r' : Rule) (h : XgSplitM nodes i f r)
    (h' : XgSplitM nodes i f' r') : f = f' ∧ r = r' := by
  obtain ⟨n, h1, rfl, rfl⟩ := h
  obtain ⟨n', h2, rfl, rfl⟩ := h'
  rw [h1] at h2; cases h2
  exact ⟨rfl, rfl⟩

theorem XgVal.unique {nodes : List Node} (k : Nat) (v v' : F64) (h : XgVal nodes k v) (h' : XgVal nodes k v') : v = v' := by
  obtain ⟨n, h1, rfl⟩ := h
  obtain ⟨n', h2, rfl⟩ := h'
  rw [h1] at h2; cases h2; rfl

theorem XgShape.inner_lt {nodes : List Node} {i : Nat} {T : BTree} (h : XgShape nodes i T) :
    ∀ j ∈ T.inner, j < nodes.length := by
  induction h with
  | leaf i n hn hl => simp [BTree.inner]
  | node i n li ri l r hn hl hr sl sr ihl ihr =>
    intro j hj
    have : j = i ∨ j ∈ r.inner ∨ j ∈ l.inner := by simpa [BTree.inner] using hj
    rcases this with rfl | h | h
    · exact (List.getElem?_eq_some_iff.1 hn).1
    · exact ihr j h
    · exact ihl j h

theorem XgShape.inner_get {nodes : List Node} {i : Nat} {T : BTree} (h : XgShape nodes i T) :
    ∀ j ∈ T.inner, ∃ n, nodes[j]? = some n := fun j hj =>
  ⟨_, List.getElem?_eq_getElem (XgShape.inner_lt h j hj)⟩

theorem XgShape.leaf_val {nodes : List Node} {i : Nat} {T : BTree} (h : XgShape nodes i T) :
    ∀ k ∈ T.leaves, ∃ v, XgVal nodes k v := by
  induction h with
  | leaf i n hn hl =>
    intro k hk
    have : k = i := by simpa [BTree.leaves] using hk
    subst this; exact ⟨_, n, hn, rfl⟩
  | node i n li ri l r hn hl hr sl sr ihl ihr =>
    intro k hk
    have : k ∈ l.leaves ∨ k ∈ r.leaves := by simpa [BTree.leaves] using hk
    rcases this with h | h
    · exact ihl k h
    · exact ihr k h

/-- the stored rule is XGBoost's rule with `<=` -/
theorem xg_rule (out : F64 → Int) (n : Node) (x : F64) :
    (Rule.num ⟨.nan, decide (n.sIndex.toNat / 2 ^ 31 = 1), F64.ofBits32 n.info⟩).Left out x ↔ XgLeftLe n x := by
  show NumLeft _ x ↔ _
  unfold NumLeft XgLeftLe XgDefaultLeft IsMissing Le
  simp only [decide_eq_true_eq]
  rw [F64.value_ofBits32]
  constructor
  · rintro (h | ⟨h1, h2⟩)
    · exact .inl h
    · rw [if_neg h1] at h2; exact .inr h2
  · rintro (h | h)
    · exact .inl h
    · have hx : x ≠ .nan := by
        rintro rfl
        obtain ⟨a, c, h, _⟩ := h
        simp [value] at h
      exact .inr ⟨hx, by rw [if_neg hx]; exact h⟩

theorem xg_goes (out : F64 → Int) (nodes : List Node) (fvals : List F64) (i : Nat) (b : Bool) :
    Goes out (XgSplitM nodes) fvals i b ↔ XgGoesLe nodes fvals i b := by
  constructor
  · rintro ⟨f, rule, x, ⟨n, hn, rfl, rfl⟩, hx, hb⟩
    exact ⟨n, x, hn, hx, by rw [hb, xg_rule]⟩
  · rintro ⟨n, x, hn, hx, hb⟩
    exact ⟨_, _, x, ⟨n, hn, rfl, rfl⟩, hx, by rw [hb, xg_rule]⟩

/-- away from ties `<` and `<=` agree -/
theorem xg_noTie {nodes : List Node} {T : BTree} {fvals : List F64} (h : ¬ XgTie nodes T fvals) {i : Nat} (hi : i ∈ T.inner)
    (b : Bool) : XgGoes nodes fvals i b ↔ XgGoesLe nodes fvals i b := by
  have key : ∀ n x, nodes[i]? = some n → fvals[xgFeature n]? = some x → (XgLeft n x ↔ XgLeftLe n x) := by
    intro n x hn hx
    unfold XgLeft XgLeftLe
    refine or_congr Iff.rfl ⟨?_, ?_⟩
    · rintro ⟨a, c, h1, h2, h3⟩; exact ⟨a, c, h1, h2, le_of_lt h3⟩
    · rintro ⟨a, c, h1, h2, h3⟩
      refine ⟨a, c, h1, h2, lt_of_le_of_ne h3 ?_⟩
      rintro rfl
      exact h ⟨i, hi, n, x, a, hn, hx, h1, h2⟩
  constructor
  · rintro ⟨n, x, hn, hx, hb⟩; exact ⟨n, x, hn, hx, by rw [hb, key n x hn hx]⟩
  · rintro ⟨n, x, hn, hx, hb⟩; exact ⟨n, x, hn, hx, by rw [hb, key n x hn hx]⟩

/-- loading a node array that describes a tree -/
theorem xg_load (P : Platform) {t : TreeModel} {T : BTree} {nf : BitVec 32} (h : XgTreeOK t T)
    (hf : t.param.numFeature.toInt ≤ nf.toInt) (ha : t.nodes.length * 24 ≤ P.maxAlloc) :
    ∃ t', xgTreeFromTreeModel P t nf = .ok t' ∧ t'.nodes.length + 1 = T.leaves.length ∧
      t'.leafValues.length = T.leaves.length ∧ ∃ idx : Nat → Nat, (∀ k ∈ T.leaves, idx k < T.leaves.length) ∧
      ((∀ k ∈ T.leaves, ∀ k' ∈ T.leaves, idx k = idx k' → k = k') ∧ ∀ k ∈ T.leaves, T.counted[idx k]? = some k) ∧
      ∀ fvals, ((t'.predict P fvals ≠ .hang ∧ ∀ i, (t'.examined P fvals i).length ≤ T.height) ∧ ∀ v j, t'.predict P fvals = .ok (v, j) ↔
        ∃ k, Walk (XgGoesLe t.nodes fvals) T k ∧ j = idx k ∧ XgVal t.nodes k v) := by
  have hsh := h.shape
  obtain ⟨n, hn, hr⟩ := XgShape.root hsh
  rcases hr with ⟨k, rfl, -, -⟩ | ⟨l, r, rfl, hcl⟩
  · cases h.split
  have hnd := List.nodup_append.1 h.distinct
  have hlen : t.nodes.length < 2 ^ 31 := by
    have h1 := BitVec.toInt_lt (x := t.param.numNodes)
    rw [h.numNodes] at h1
    norm_num at h1
    omega
  have h2 : 2 ≤ t.nodes.length := by
    have h0 := (List.getElem?_eq_some_iff.1 hn).1
    cases hsh with
    | node _ n' li ri l r hn' hl hr sl sr =>
      obtain ⟨nl, hnl, hl'⟩ := XgShape.root sl
      have hlt := (List.getElem?_eq_some_iff.1 hnl).1
      have : li ≠ 0 := by
        rintro rfl
        rcases hl' with ⟨k, rfl, rfl, _⟩ | ⟨l1, l2, rfl, _⟩
        · exact hnd.2.2 0 (by simp [BTree.inner]) 0 (by simp [BTree.leaves]) rfl
        · have := hnd.1
          simp [BTree.inner] at this
      omega
  obtain ⟨nodes, lvs, c1, c2, c3, idx, c4, c5, c6⟩ := arr_tree P (n := t.nodes.length) (m := t.nodes.length)
    (fun i a => xg_ghost t.nodes (xgSource t.nodes).leftChild (xgSource t.nodes).rightChild i a)
    rfl rfl (xg_arrShape hsh) XgSplitM.unique XgVal.unique hnd.1 hnd.2.1 (XgShape.inner_lt hsh) (by omega) ha
    (by omega)
  refine ⟨{ nodes := nodes, leafValues := lvs }, ?_, ?_, c3, idx, ?_, c5, ?_⟩
  · unfold xgTreeFromTreeModel
    rw [if_neg (by omega), if_neg (by rw [h.roots]; simp), if_neg (by rw [h.numNodes]; omega)]
    dsimp only
    rw [h.numNodes, if_neg (by omega), c1]
    rfl
  · show nodes.length + 1 = _
    rw [c2, BTree.leaves_length]
  · intro k hk; have := c4 k hk; omega
  · intro fvals
    refine ⟨(c6 fvals).1, fun v j => ?_⟩
    rw [(c6 fvals).2]
    refine exists_congr fun k => and_congr (Walk.iff fun i _ b => ?_) Iff.rfl
    exact xg_goes P.out t.nodes fvals i b

end Leaves
