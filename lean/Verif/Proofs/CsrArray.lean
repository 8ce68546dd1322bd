import Verif.Proofs.Batch
import Verif.Model.Mat

/-! Matrices converted to sparse form row by row; predictions depend on the model's features only. -/

namespace Leaves

open Spec GoM

namespace Mat

/-- the first `k` rows of the sparse form of a full matrix with `c` columns -/
structure FullRows (c k : Nat) (h col : List Int) : Prop where
  hlen : h.length = k
  clen : col.length = k * c
  head : ∀ i < k, h[i]? = some ((i * c : Nat) : Int)
  cols : ∀ i < k, ∀ j < c, col[i * c + j]? = some (j : Int)

theorem csrRows_full {c : Nat} : ∀ (n k : Nat) {h col : List Int}, FullRows c k h col →
    FullRows c (k + n) (csrRows c n h col).1 (csrRows c n h col).2 := by
  intro n
  induction n with
  | zero => intro k h col g; exact g
  | succ n ih =>
    intro k h col g
    rw [csrRows, show k + (n + 1) = (k + 1) + n by omega]
    refine ih (k + 1) ⟨by simp [g.hlen], by simp [g.clen, Nat.succ_mul], fun i hi => ?_, fun i hi j hj => ?_⟩
    · rw [List.getElem?_append]
      split
      · exact g.head i (by rw [g.hlen] at *; omega)
      · rename_i hge
        rw [g.hlen] at hge ⊢
        have : i = k := by omega
        subst this
        simp [g.clen]
    · rw [List.getElem?_append]
      split
      · rename_i hlt
        rw [g.clen] at hlt
        have : i < k := by
          by_contra hh
          have : k * c ≤ i * c := Nat.mul_le_mul_right c (by omega)
          omega
        exact g.cols i this j hj
      · rename_i hge
        rw [g.clen] at hge ⊢
        have : i = k := by
          by_contra hh
          have := Nat.mul_le_mul_right c (show i + 1 ≤ k by omega)
          rw [Nat.succ_mul] at this
          omega
        subst this
        rw [Nat.add_sub_cancel_left]
        simp [hj]

theorem csrMatFromArray_full {P : Platform} {vals : List F64} {r c : Nat} {mt : CSRMat}
    (h : csrMatFromArray P vals r c = .ok mt) :
    FullRows c r (csrRows c r [] []).1 mt.colIndexes ∧ mt.values = vals ∧
    mt.rowHeaders.length = r + 1 ∧ (∀ i ≤ r, mt.rowHeaders[i]? = some ((i * c : Nat) : Int)) ∧
    (vals.length : Int) = wrap64 (c * r) := by
  have hf : FullRows c (0 + r) (csrRows c r [] []).1 (csrRows c r [] []).2 :=
    csrRows_full r 0 ⟨rfl, by simp, fun i hi => by omega, fun i hi => by omega⟩
  rw [Nat.zero_add] at hf
  unfold csrMatFromArray at h
  split at h
  · cases h
  · rename_i hw
    obtain ⟨_, _, h⟩ := Res.bind_eq_ok.1 h
    obtain ⟨_, _, h⟩ := Res.bind_eq_ok.1 h
    simp only [Int.toNat_natCast, Res.pure_eq, Res.ok.injEq] at h
    subst h
    refine ⟨hf, rfl, by simp [hf.hlen], fun i hi => ?_, by push Not at hw; exact hw⟩
    show (_ ++ _)[i]? = _
    rw [List.getElem?_append]
    split
    · exact hf.head i (by rw [hf.hlen] at *; omega)
    · rename_i hge
      rw [hf.hlen] at hge ⊢
      have : i = r := by omega
      subst this
      simp [hf.clen]

/-- a row of the converted matrix is the beginning of the dense row -/
theorem sparse_of_dense {P : Platform} {vals : List F64} {r c nf i : Nat} {d : F64} {mt : CSRMat} {row : List F64}
    (h : csrMatFromArray P vals r c = .ok mt) (hnf : nf ≤ c) (hi : i < r) (hd : DenseRow vals c i row) :
    SparseRow mt.rowHeaders mt.colIndexes mt.values nf d i (row.take nf) := by
  obtain ⟨h1, h2, h3, h4, _⟩ := csrMatFromArray_full h
  obtain ⟨d1, d2⟩ := hd
  refine ⟨((i * c : Nat) : Int), (((i + 1) * c : Nat) : Int), h4 i (by omega), h4 (i + 1) (by omega), fun j g1 g2 => ?_, by simp; omega,
    fun k hk => Or.inl ?_⟩
  · have hj0 : 0 ≤ j := by omega
    obtain ⟨q, rfl⟩ : ∃ q : Nat, j = ((i * c + q : Nat) : Int) := ⟨j.toNat - i * c, by omega⟩
    have hq : q < c := by rw [Nat.succ_mul] at g2; omega
    refine ⟨hj0, (q : Int), by rw [Int.toNat_natCast]; exact h1.cols i hi q hq, fun _ => ⟨by omega, ?_⟩⟩
    obtain ⟨x, hx, _⟩ := d2 q hq
    exact ⟨x, by rw [h2, Int.toNat_natCast]; exact hx⟩
  · have hkc : k < c := by omega
    obtain ⟨x, hx, hr⟩ := d2 k hkc
    refine ⟨i * c + k, by omega, by rw [Nat.succ_mul]; omega, h1.cols i hi k hkc, ?_, fun j' g1 g2 => ?_⟩
    · rw [h2, hx, List.getElem?_take, if_pos hk, hr]
    · obtain ⟨q, rfl⟩ : ∃ q : Nat, j' = i * c + q := ⟨j' - i * c, by omega⟩
      have hq : q < c := by rw [Nat.succ_mul] at g2; omega
      rw [h1.cols i hi q hq]
      simp only [ne_eq, Option.some.injEq]
      omega

theorem dense_of_len {vals : List F64} {r c i : Nat} (h : vals.length = r * c) (hi : i < r) :
    ∃ row, DenseRow vals c i row := by
  have hle : i * c + c ≤ vals.length := by
    rw [h, ← Nat.succ_mul]; exact Nat.mul_le_mul_right c hi
  refine ⟨(vals.drop (i * c)).take c, by simp; omega, fun j hj => ⟨vals[i * c + j], by simp, ?_⟩⟩
  rw [List.getElem?_take, if_pos hj, List.getElem?_drop]
  simp

end Mat

/-! ### more columns than features -/

theorem predictLoop_take {P : Platform} {t : LgTree} {fvals : List F64} {nf : Nat} (hb : ∀ nd ∈ t.nodes, nd.feature < nf) :
    ∀ (fuel idx : Nat), t.predictLoop P (fvals.take nf) fuel idx = t.predictLoop P fvals fuel idx := by
  intro fuel
  induction fuel with
  | zero => intro idx; rfl
  | succ fuel ih =>
    intro idx
    rw [LgTree.predictLoop, LgTree.predictLoop]
    unfold Res.idx
    cases hn : t.nodes[idx]? with
    | none => rfl
    | some nd =>
      simp only [Res.ok_bind]
      rw [List.getElem?_take, if_pos (hb nd (List.mem_of_getElem? hn))]
      simp only [ih]

theorem predict_take {P : Platform} {t : LgTree} {fvals : List F64} {nf : Nat} (hb : ∀ nd ∈ t.nodes, nd.feature < nf) :
    t.predict P (fvals.take nf) = t.predict P fvals := by
  unfold LgTree.predict
  rw [predictLoop_take hb]

/-- a tree that can be evaluated on the beginning of a row gives the same result on the whole row -/
theorem predictLoop_prefix {P : Platform} {t : LgTree} {fvals : List F64} {nf : Nat} {x : F64 × Nat} :
    ∀ {fuel idx : Nat}, t.predictLoop P (fvals.take nf) fuel idx = .ok x → t.predictLoop P fvals fuel idx = .ok x := by
  intro fuel
  induction fuel with
  | zero => intro idx h; cases h
  | succ fuel ih =>
    intro idx h
    rw [LgTree.predictLoop] at h ⊢
    obtain ⟨nd, h1, h⟩ := Res.bind_eq_ok.1 h
    obtain ⟨fv, h2, h⟩ := Res.bind_eq_ok.1 h
    obtain ⟨b, h3, h⟩ := Res.bind_eq_ok.1 h
    have h2' : Res.idx fvals nd.feature = .ok fv := by
      rw [Res.idx_eq_ok] at h2 ⊢
      rw [List.getElem?_take] at h2
      split at h2
      · exact h2
      · cases h2
    rw [h1, Res.ok_bind, h2', Res.ok_bind, h3, Res.ok_bind]
    cases b <;> simp only [if_true, Bool.false_eq_true, if_false] at h ⊢ <;> split at h <;> rename_i hl <;>
      simp only [hl, if_true, Bool.false_eq_true, if_false]
    · exact h
    · exact ih h
    · exact h
    · exact ih h

theorem predict_prefix {P : Platform} {t : LgTree} {fvals : List F64} {nf : Nat} {x : F64 × Nat}
    (h : t.predict P (fvals.take nf) = .ok x) : t.predict P fvals = .ok x := by
  unfold LgTree.predict at h ⊢
  split at h
  · rename_i hn; rw [if_pos hn]; exact h
  · rename_i hn; rw [if_neg hn]; exact predictLoop_prefix h

/-- the trees of a model -/
def treesOf (b : Base) : List LgTree :=
  match core b with
  | .lg e => e.trees
  | .xg e => e.trees
  | _ => []

theorem raw_prefix {P : Platform} {b : Base} {fvals : List F64} {nf n : Nat} {w : List F64}
    (h : IsRaw P b (fvals.take nf) n w) : IsRaw P b fvals n w := by
  have tv : ∀ {trees : List LgTree} {G : Nat} {v : Nat → Nat → F64}, TreeValues P trees G n (fvals.take nf) v →
      TreeValues P trees G n fvals v := by
    intro trees G v hv i hi k hk
    obtain ⟨t, j, h1, h2⟩ := hv i hi k hk
    exact ⟨t, j, h1, predict_prefix h2⟩
  unfold IsRaw at h ⊢
  cases hc : core b with
  | lg e =>
    rw [hc] at h
    obtain ⟨G, v, h1, h2, h3⟩ := h
    exact ⟨G, v, h1, tv h2, h3⟩
  | xg e =>
    rw [hc] at h
    obtain ⟨G, v, c, h1, h2, h3⟩ := h
    exact ⟨G, v, c, h1, tv h2, h3⟩
  | lin e =>
    rw [hc] at h
    obtain ⟨G, F, x, c, bias, h1, h2, h3, h4⟩ := h
    refine ⟨G, F, x, c, bias, h1, h2, fun i hi => ?_, h4⟩
    have := h3 i hi
    rw [List.getElem?_take] at this
    split at this
    · exact this
    · cases this
  | wrap b t => rw [hc] at h; exact h

theorem output_prefix {P : Platform} {e : Ensemble} {fvals : List F64} {nf n : Nat} {out : List F64}
    (h : IsOutput P e (fvals.take nf) n out) : IsOutput P e fvals n out := by
  have tl : ∀ {trees : List LgTree} {G : Nat} {v : Nat → Nat → Nat}, TreeLeaves P trees G n (fvals.take nf) v →
      TreeLeaves P trees G n fvals v := by
    intro trees G v hv i hi k hk
    obtain ⟨t, j, h1, h2⟩ := hv i hi k hk
    exact ⟨t, j, h1, predict_prefix h2⟩
  have leaf : ∀ {b : Base} {w : List F64}, IsLeafVec P b (fvals.take nf) n w → IsLeafVec P b fvals n w := by
    intro b w h
    unfold IsLeafVec at h ⊢
    cases hc : core b with
    | lg e =>
      rw [hc] at h
      obtain ⟨G, v, h1, h2, h3⟩ := h
      exact ⟨G, v, h1, tl h2, h3⟩
    | xg e =>
      rw [hc] at h
      obtain ⟨G, v, h1, h2, h3⟩ := h
      exact ⟨G, v, h1, tl h2, h3⟩
    | lin e => rw [hc] at h; exact h
    | wrap b t => rw [hc] at h; exact h
  obtain ⟨b, t⟩ := e
  cases t with
  | leafIndex k => exact leaf h
  | raw k => obtain ⟨w, h1, h2⟩ := h; exact ⟨w, raw_prefix h1, h2⟩
  | logistic => obtain ⟨w, h1, h2⟩ := h; exact ⟨w, raw_prefix h1, h2⟩
  | exponential => obtain ⟨w, h1, h2⟩ := h; exact ⟨w, raw_prefix h1, h2⟩
  | softmax k => obtain ⟨w, h1, h2⟩ := h; exact ⟨w, raw_prefix h1, h2⟩

/-- the features a linear model reads are the ones it announces -/
theorem lin_features {b : Base} {e : XgLinear} (h : core b = .lin e) : b.nFeatures = e.numFeature := by
  induction b with
  | wrap b t ih => exact ih h
  | lg _ => cases h
  | xg _ => cases h
  | lin _ => cases h; rfl

theorem raw_take {P : Platform} {b : Base} {fvals : List F64} {nf n : Nat} {w : List F64} (hnf : b.nFeatures = nf)
    (hb : ∀ t ∈ treesOf b, ∀ nd ∈ t.nodes, nd.feature < nf)
    (h : IsRaw P b fvals n w) : IsRaw P b (fvals.take nf) n w := by
  have tv : ∀ {trees : List LgTree} {G : Nat} {v : Nat → Nat → F64}, (∀ t ∈ trees, ∀ nd ∈ t.nodes, nd.feature < nf) →
      TreeValues P trees G n fvals v → TreeValues P trees G n (fvals.take nf) v := by
    intro trees G v hb hv i hi k hk
    obtain ⟨t, j, h1, h2⟩ := hv i hi k hk
    exact ⟨t, j, h1, by rw [predict_take (hb t (List.mem_of_getElem? h1))]; exact h2⟩
  unfold IsRaw at h ⊢
  unfold treesOf at hb
  cases hc : core b with
  | lg e =>
    rw [hc] at h hb
    obtain ⟨G, v, h1, h2, h3⟩ := h
    exact ⟨G, v, h1, tv hb h2, h3⟩
  | xg e =>
    rw [hc] at h hb
    obtain ⟨G, v, c, h1, h2, h3⟩ := h
    exact ⟨G, v, c, h1, tv hb h2, h3⟩
  | lin e =>
    rw [hc] at h
    obtain ⟨G, F, x, c, bias, h1, h2, h3, h4⟩ := h
    refine ⟨G, F, x, c, bias, h1, h2, fun i hi => ?_, h4⟩
    have := lin_features hc
    rw [List.getElem?_take, if_pos (by omega)]
    exact h3 i hi
  | wrap b t => rw [hc] at h; exact h

theorem output_take {P : Platform} {e : Ensemble} {fvals : List F64} {nf n : Nat} {out : List F64} (hnf : e.nFeatures = nf)
    (hb : ∀ t ∈ treesOf e.base, ∀ nd ∈ t.nodes, nd.feature < nf)
    (h : IsOutput P e fvals n out) : IsOutput P e (fvals.take nf) n out := by
  have tl : ∀ {trees : List LgTree} {G : Nat} {v : Nat → Nat → Nat}, (∀ t ∈ trees, ∀ nd ∈ t.nodes, nd.feature < nf) →
      TreeLeaves P trees G n fvals v → TreeLeaves P trees G n (fvals.take nf) v := by
    intro trees G v hb hv i hi k hk
    obtain ⟨t, j, h1, h2⟩ := hv i hi k hk
    exact ⟨t, j, h1, by rw [predict_take (hb t (List.mem_of_getElem? h1))]; exact h2⟩
  have leaf : ∀ {b : Base} {w : List F64}, (∀ t ∈ treesOf b, ∀ nd ∈ t.nodes, nd.feature < nf) → IsLeafVec P b fvals n w →
      IsLeafVec P b (fvals.take nf) n w := by
    intro b w hb h
    unfold IsLeafVec at h ⊢
    unfold treesOf at hb
    cases hc : core b with
    | lg e =>
      rw [hc] at h hb
      obtain ⟨G, v, h1, h2, h3⟩ := h
      exact ⟨G, v, h1, tl hb h2, h3⟩
    | xg e =>
      rw [hc] at h hb
      obtain ⟨G, v, h1, h2, h3⟩ := h
      exact ⟨G, v, h1, tl hb h2, h3⟩
    | lin e => rw [hc] at h; exact h
    | wrap b t => rw [hc] at h; exact h
  obtain ⟨b, t⟩ := e
  cases t with
  | leafIndex k => exact leaf hb h
  | raw k => obtain ⟨w, h1, h2⟩ := h; exact ⟨w, raw_take hnf hb h1, h2⟩
  | logistic => obtain ⟨w, h1, h2⟩ := h; exact ⟨w, raw_take hnf hb h1, h2⟩
  | exponential => obtain ⟨w, h1, h2⟩ := h; exact ⟨w, raw_take hnf hb h1, h2⟩
  | softmax k => obtain ⟨w, h1, h2⟩ := h; exact ⟨w, raw_take hnf hb h1, h2⟩

end Leaves
