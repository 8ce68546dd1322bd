import Verif.Props.Relevant
import Verif.Props.Monotone
import Verif.Spec.Cells

/-!
# C105: predictions change only when a value crosses a threshold
-/

namespace Leaves
open Spec GoM

theorem bool_congr {a b : Bool} {p q : Prop} (ha : a = true ↔ p) (hb : b = true ↔ q) (h : p ↔ q) : a = b := by
  rw [Bool.eq_iff_iff, ha, hb, h]

theorem numerical_same {node : LgNode} {x y : F64} (hn : x = .nan ↔ y = .nan) (hl : Le x node.threshold ↔ Le y node.threshold)
    (hz : hasFlag node.flags Flag.missingZero = true → (Within (-zeroBound) zeroBound x ↔ Within (-zeroBound) zeroBound y)) :
    LgTree.numericalDecision node x = LgTree.numericalDecision node y := by
  by_cases hx : x = .nan
  · rw [hx, hn.1 hx]
  · have hy : y ≠ .nan := fun h => hx (hn.2 h)
    have hx' : x.isNaN = false := by cases x <;> simp_all [F64.isNaN]
    have hy' : y.isNaN = false := by cases y <;> simp_all [F64.isNaN]
    have h1 : F64.le x node.threshold = F64.le y node.threshold := bool_congr (F64.le_iff _ _) (F64.le_iff _ _) hl
    have h2 : (hasFlag node.flags Flag.missingZero && isZero x) = (hasFlag node.flags Flag.missingZero && isZero y) := by
      cases hm : hasFlag node.flags Flag.missingZero
      · rfl
      · rw [bool_congr (isZero_iff x) (isZero_iff y) (hz hm)]
    unfold LgTree.numericalDecision
    simp only [hx', hy', Bool.false_and, Bool.false_eq_true, if_false, Bool.and_false, Bool.or_false, h1, h2]

theorem decision_same {P : Platform} {t : LgTree} {node : LgNode} {x y : F64} (h : SameSide node x y) :
    t.decision P node x = t.decision P node y := by
  unfold SameSide at h
  unfold LgTree.decision
  split at h
  · rename_i hc
    rw [if_pos hc, if_pos hc]
    rcases h with rfl | ⟨c, hx, hy, hr⟩
    · rfl
    · have tx := (trunc_iff x c).2 hx
      have ty := (trunc_iff y c).2 hy
      have ix : P.toInt32 x = c := by unfold Platform.toInt32; rw [tx]; simp only; rw [if_pos hr]
      have iy : P.toInt32 y = c := by unfold Platform.toInt32; rw [ty]; simp only; rw [if_pos hr]
      have nx : x.isNaN = false := by cases x <;> simp_all [F64.isNaN, F64.trunc]
      have ny : y.isNaN = false := by cases y <;> simp_all [F64.isNaN, F64.trunc]
      unfold LgTree.categoricalDecision
      simp only [ix, iy, nx, ny]
  · rename_i hc
    rw [if_neg hc, if_neg hc, numerical_same h.1 h.2.1 h.2.2]

theorem predictLoop_cell (P : Platform) (t : LgTree) (row row' : List F64) (h : ∀ node ∈ t.nodes, SameSideIn node row row') :
    ∀ fuel idx, t.predictLoop P row fuel idx = t.predictLoop P row' fuel idx
  | 0, _ => rfl
  | fuel + 1, idx => by
    unfold LgTree.predictLoop
    cases hn : Res.idx t.nodes idx with
    | ok node =>
      have hm : node ∈ t.nodes := List.mem_of_getElem? (Res.idx_eq_ok.1 hn)
      simp only [Res.ok_bind]
      rcases h node hm with ⟨h1, h2⟩ | ⟨x, y, h1, h2, h3⟩
      · have : Res.idx row node.feature = Res.idx row' node.feature := by unfold Res.idx; rw [h1, h2]
        rw [this, predictLoop_cell P t row row' h fuel, predictLoop_cell P t row row' h fuel]
      · rw [Res.idx_eq_ok.2 h1, Res.idx_eq_ok.2 h2, Res.ok_bind, Res.ok_bind, decision_same h3, predictLoop_cell P t row row' h fuel,
          predictLoop_cell P t row row' h fuel]
    | _ => rfl

theorem tree_cell (P : Platform) (t : LgTree) (row row' : List F64) (h : ∀ node ∈ t.nodes, SameSideIn node row row') :
    t.predict P row = t.predict P row' := by
  unfold LgTree.predict
  rw [predictLoop_cell P t row row' h]

theorem inner_cell (P : Platform) (b : Base) (row row' : List F64) (h : SameCell b row row') (n s : Int) :
    b.predictInner P row n s = b.predictInner P row' n s := by
  induction b with
  | wrap b t ih => exact ih h
  | lg e =>
    show LgEnsemble.predictInner .. = LgEnsemble.predictInner ..
    unfold LgEnsemble.predictInner
    refine bind_congr fun _ => forRange_congr _ _ fun i _ _ => forRange_congr _ _ fun k _ _ => bind_idxI_congr fun t ht => ?_
    rw [tree_cell P t row row' (h t ht)]
  | xg e =>
    show XgEnsemble.predictInner .. = XgEnsemble.predictInner ..
    unfold XgEnsemble.predictInner
    refine bind_congr fun _ => forRange_congr _ _ fun i _ _ => forRange_congr _ _ fun k _ _ => bind_idxI_congr fun t ht => ?_
    rw [tree_cell P t row row' (h t ht)]
  | lin e => exact inner_same P (.lin e) row row' h n s

theorem leaf_cell (P : Platform) (b : Base) (row row' : List F64) (h : SameCell b row row') (n s : Int) :
    b.predictLeafIndicesInner P row n s = b.predictLeafIndicesInner P row' n s := by
  induction b with
  | wrap b t ih => exact ih h
  | lin e => rfl
  | lg e =>
    show leafIndicesInner .. = leafIndicesInner ..
    unfold leafIndicesInner
    refine bind_congr fun _ => forRange_congr _ _ fun i _ _ => forRange_congr _ _ fun k _ _ => bind_idxI_congr fun t ht => ?_
    rw [tree_cell P t row row' (h t ht)]
  | xg e =>
    show leafIndicesInner .. = leafIndicesInner ..
    unfold leafIndicesInner
    refine bind_congr fun _ => forRange_congr _ _ fun i _ _ => forRange_congr _ _ fun k _ _ => bind_idxI_congr fun t ht => ?_
    rw [tree_cell P t row row' (h t ht)]

theorem pit_cell (P : Platform) (e : Ensemble) (row row' : List F64) (h : SameCell e.base row row') (n s : Int) :
    e.predictInnerAndTransform P row n s = e.predictInnerAndTransform P row' n s := by
  unfold Ensemble.predictInnerAndTransform
  simp only [inner_cell P e.base row row' h, leaf_cell P e.base row row' h]

/-- **C105.** For every model, Predict does the same, access by access, for two rows of one length that no split of the model separates.
-/
theorem C105_row (P : Platform) (e : Ensemble) (row row' : List F64) (h : SameCell e.base row row') (hl : row.length = row'.length)
    (req : Int) (len : Nat) : e.predict P row req len = e.predict P row' req len := by
  unfold Ensemble.predict
  simp only [pit_cell P e row row' h, hl]

/-- **C105.** So does PredictSingle. -/
theorem C105_single (P : Platform) (e : Ensemble) (row row' : List F64) (h : SameCell e.base row row') (hl : row.length = row'.length)
    (req : Int) : e.predictSingle P row req = e.predictSingle P row' req := by
  unfold Ensemble.predictSingle
  simp only [pit_cell P e row row' h, hl]

/-- **C105, matrices.** The predictions of a dense matrix stay as they are when each row is exchanged for one that no split separates from
it. -/
theorem C105_dense (P : Platform) (e : Ensemble) (hf : Fits e) (w r ncols : Nat) (hw : e.nOutputGroups = w)
    (hrange : w * r < 2 ^ 63) (hr : r ≤ 2 ^ 53) (hr0 : 0 < r) (vals vals' m m' : List F64) (req nt nt' : Int)
    (hv : ∀ i < r, ∀ row, DenseRow vals ncols i row → ∃ row', DenseRow vals' ncols i row' ∧ SameCell e.base row row')
    (h : e.PredictDense P vals r ncols m req nt (.ok ⟨⟩, m')) : e.PredictDense P vals' r ncols m req nt' (.ok ⟨⟩, m') := by
  obtain ⟨outs, hs, h1⟩ := C14_dense_is_rowwise P e hf w r ncols hw hrange hr vals m m' req nt h
  have hc : 0 < ncols := ((dense_iff hf hw hrange hr).1 h).1
  refine C14_rowwise_is_dense P e hf w r ncols hw hrange hr hr0 hc vals' m m' req nt' outs hs fun i hi => ?_
  obtain ⟨row, h2, h3⟩ := h1 i hi
  obtain ⟨row', h4, h5⟩ := hv i hi row h2
  refine ⟨row', List.replicate w F64.zero, h4, by simp, ?_⟩
  rw [← C105_row P e row row' h5 (h2.1.trans h4.1.symm)]
  exact h3 _ (by simp)

/-- **C105, sparse matrices.** -/
theorem C105_csr (P : Platform) (e : Ensemble) (hf : Fits e) (w r nf : Nat) (hw : e.nOutputGroups = w)
    (hnf : e.nFeatures = nf ∧ nf * 8 ≤ P.maxAlloc) (hrange : w * r < 2 ^ 63) (hr : r ≤ 2 ^ 53) (hr0 : 0 < r)
    (indptr indptr' cols cols' : List Int) (hp : indptr.length = r + 1) (hp' : indptr'.length = r + 1) (vals vals' m m' : List F64)
    (req nt nt' : Int)
    (hv : ∀ i < r, ∀ row, SparseRow indptr cols vals nf (dflt e.base) i row →
      ∃ row', SparseRow indptr' cols' vals' nf (dflt e.base) i row' ∧ row.length = row'.length ∧ SameCell e.base row row')
    (h : e.PredictCSR P indptr cols vals m req nt (.ok ⟨⟩, m')) : e.PredictCSR P indptr' cols' vals' m req nt' (.ok ⟨⟩, m') := by
  obtain ⟨outs, hs, h1⟩ := C15_csr_is_rowwise P e hf w r nf hw hnf hrange hr indptr cols hp vals m m' req nt h
  refine C15_rowwise_is_csr P e hf w r nf hw hnf hrange hr hr0 indptr' cols' hp' vals' m m' req nt' outs hs fun i hi => ?_
  obtain ⟨row, h2, h3⟩ := h1 i hi
  obtain ⟨row', h4, h5, h6⟩ := hv i hi row h2
  refine ⟨row', List.replicate w F64.zero, h4, by simp, ?_⟩
  rw [← C105_row P e row row' h6 h5]
  exact h3 _ (by simp)

/-! ### moving a value within an interval without thresholds -/

/-- Moving a value up to `y` crosses no threshold `t` unless `x ≤ t < y`. -/
theorem C105_between (node : LgNode) (x y : F64) (hc : hasFlag node.flags Flag.categorical = false)
    (hz : hasFlag node.flags Flag.missingZero = false) (hxy : Le x y) (ht : ¬ (Le x node.threshold ∧ Lt node.threshold y)) :
    SameSide node x y := by
  unfold SameSide
  rw [if_neg (by simp [hc])]
  obtain ⟨a, b, ha, hb, hab⟩ := hxy
  refine ⟨⟨fun h => ?_, fun h => ?_⟩, ⟨fun ⟨a', c, h1, h2, h3⟩ => ?_, fun ⟨b', c, h1, h2, h3⟩ => ?_⟩, fun h => by simp [hz] at h⟩
  · subst h; cases ha
  · subst h; cases hb
  · refine ⟨b, c, hb, h2, ?_⟩
    by_contra hlt
    exact ht ⟨⟨a', c, h1, h2, h3⟩, c, b, h2, hb, not_le.1 hlt⟩
  · rw [hb] at h1
    cases h1
    exact ⟨a, c, ha, h2, hab.trans h3⟩

/-! ### the two zeros -/

theorem value_same {x y : F64} (h : value x = value y) : x = y ∨ (value x = some (pt 0) ∧ value y = some (pt 0)) := by
  have hu : (unit : ℚ) ≠ 0 := by exact_mod_cast unit_pos.ne'
  rcases x with _ | s | ⟨s, m, hm⟩ <;> rcases y with _ | t | ⟨t, n, hn⟩
  · exact .inl rfl
  · cases t <;> simp [value] at h
  · cases t <;> simp [value] at h
  · cases s <;> simp [value] at h
  · cases s <;> cases t <;> simp [value] at h ⊢
  · cases s <;> cases t <;> simp [value, pt] at h
    cases h
  · cases s <;> simp [value] at h
  · cases s <;> cases t <;> simp [value, pt] at h
  · rw [F64.value_fin, F64.value_fin, Option.some.injEq, F64.pt_inj, div_left_inj' hu] at h
    have h' : (F64.fin s m hm).toInt = (F64.fin t n hn).toInt := by exact_mod_cast h
    by_cases hz : (F64.fin s m hm).toInt = 0
    · right
      rw [F64.value_fin, F64.value_fin, ← h', hz]
      simp
    · left
      have : s = t ∧ m = n := by
        cases s <;> cases t <;> simp only [F64.toInt] at h' hz <;> constructor <;> first | rfl | omega
      obtain ⟨rfl, rfl⟩ := this
      rfl

theorem sameSide_value {node : LgNode} {x y : F64} (h : value x = value y) : SameSide node x y := by
  unfold SameSide
  split
  · rcases value_same h with h | ⟨hx, hy⟩
    · exact .inl h
    · exact .inr ⟨0, ⟨0, hx, by simp [truncQ]⟩, ⟨0, hy, by simp [truncQ]⟩, by norm_num⟩
  · refine ⟨?_, ?_, fun _ => ?_⟩
    · rw [← F64.value_eq_none, ← F64.value_eq_none, h]
    · unfold Le; rw [h]
    · unfold Spec.Within; rw [h]

theorem core_ne_wrap (b b' : Base) (t : Transform) : core b ≠ .wrap b' t := by
  induction b with
  | wrap b t ih => exact ih
  | _ => exact fun h => by cases h

theorem sameSideIn_numbers {node : LgNode} {row row' : List F64} (h : SameNumbers row row') : SameSideIn node row row' := by
  by_cases hi : node.feature < row.length
  · have hi' : node.feature < row'.length := h.length_eq ▸ hi
    exact .inr ⟨_, _, List.getElem?_eq_getElem hi, List.getElem?_eq_getElem hi', sameSide_value ((List.forall₂_iff_get.1 h).2 _ hi hi')⟩
  · exact .inl ⟨List.getElem?_eq_none (by omega), List.getElem?_eq_none (by have := h.length_eq; omega)⟩

/-- **C105, the two zeros.** Models of trees do not distinguish rows with the same numbers: it makes no difference whether a zero is
`0` or `-0`. -/
theorem C105_zeros (P : Platform) (e : Ensemble) (ht : ∀ l, core e.base ≠ .lin l) (row row' : List F64)
    (h : SameNumbers row row') (req : Int) (len : Nat) :
    e.predict P row req len = e.predict P row' req len ∧ e.predictSingle P row req = e.predictSingle P row' req := by
  have hc : SameCell e.base row row' := by
    unfold SameCell
    split
    · exact fun _ _ _ _ => sameSideIn_numbers h
    · exact fun _ _ _ _ => sameSideIn_numbers h
    · rename_i l hl
      exact absurd hl (ht l)
    · rename_i hl
      exact absurd hl (core_ne_wrap _ _ _)
  exact ⟨C105_row P e row row' hc h.length_eq req len, C105_single P e row row' hc h.length_eq req⟩

/-! ### linear models -/

namespace F64

theorem zero_of_value {z : F64} (h : value z = some (pt 0)) : ∃ u h0, z = fin u 0 h0 := by
  rcases value_same (h.trans (show some (pt 0) = value (fin false 0 (by decide +kernel)) by rw [value_fin]; simp [toInt])) with rfl | -
  · exact ⟨_, _, rfl⟩
  · rcases z with _ | s | ⟨s, m, hm⟩
    · cases h
    · cases s <;> simp [value, pt] at h
      cases h
    · rw [value_fin, Option.some.injEq, pt_inj, div_eq_zero_iff] at h
      have hu : (unit : ℚ) ≠ 0 := by exact_mod_cast unit_pos.ne'
      have : (fin s m hm).toInt = 0 := by exact_mod_cast h.resolve_right hu
      obtain rfl : m = 0 := by cases s <;> simpa [toInt] using this
      exact ⟨s, hm, rfl⟩

theorem value_zero (u : Bool) (h0 : Rep 0) : value (fin u 0 h0) = some (pt 0) := by
  rw [value_fin]
  cases u <;> simp [toInt]

theorem toInt_zero (u : Bool) (h0 : Rep 0) : (fin u 0 h0).toInt = 0 := by cases u <;> simp [toInt]

theorem ofScaled_value (sz s : Bool) (m : Nat) (hm : Rep m) : value (ofScaled sz (fin s m hm).toInt 1) = value (fin s m hm) := by
  unfold ofScaled
  split
  · rename_i h
    rw [value_zero, value_fin, h]
    simp
  · rename_i h
    cases s
    · rw [show decide ((fin false m hm).toInt < 0) = false from decide_eq_false (by simp only [toInt]; omega), show (fin false m hm).toInt.natAbs = m by simp [toInt], ofRatio_rep hm]
    · have : 0 < m := by simp only [toInt] at h; omega
      rw [show decide ((fin true m hm).toInt < 0) = true by simp [toInt, this], show (fin true m hm).toInt.natAbs = m by simp [toInt], ofRatio_rep hm]

theorem add_zero_value (p : F64) (u : Bool) (h0 : Rep 0) : value (add p (fin u 0 h0)) = value p := by
  rcases p with _ | s | ⟨s, m, hm⟩
  · rfl
  · rfl
  · show value (ofScaled (s && u) ((fin s m hm).toInt + (fin u 0 h0).toInt) 1) = _
    rw [toInt_zero, _root_.add_zero, ofScaled_value]

theorem ofRatio_zero_value (s : Bool) (d : Nat) (hd : 0 < d) : value (ofRatio s 0 d) = some (pt 0) := by
  have h := roundMag_zero hd
  unfold ofRatio
  have hl : roundMag 0 d < magLimit := by rw [h]; decide +kernel
  rw [dif_pos hl, value_fin]
  cases s <;> simp [toInt, h]

theorem fma_zero_value (x y : F64) (u : Bool) (h0 : Rep 0) : value (fma x y (fin u 0 h0)) = value (mul x y) := by
  rcases x with _ | s | ⟨s, m, hm⟩
  · rw [fma_nan_left]; cases y <;> rfl
  · rw [fma_of_inf_left, add_zero_value]
  · rcases y with _ | t | ⟨t, n, hn⟩
    · rfl
    · rw [fma_of_inf_right, add_zero_value]
    · show value (ofScaled (xor s t && u) ((fin s m hm).toInt * (fin t n hn).toInt + (fin u 0 h0).toInt * unit) unit) = _
      rw [toInt_zero, zero_mul, _root_.add_zero, mul_fin]
      unfold ofScaled
      by_cases hz : m * n = 0
      · have : (fin s m hm).toInt * (fin t n hn).toInt = 0 := by
          rcases Nat.mul_eq_zero.1 hz with rfl | rfl
          · rw [toInt_zero, zero_mul]
          · rw [toInt_zero, mul_zero]
        rw [if_pos this, value_zero, hz, ofRatio_zero_value _ _ unit_pos]
      · have hpos : (0 : Int) < (m : Int) * n := by
          have := Nat.pos_of_ne_zero hz
          exact_mod_cast this
        have hab : ((fin s m hm).toInt * (fin t n hn).toInt).natAbs = m * n := by
          rw [Int.natAbs_mul]
          cases s <;> cases t <;> simp [toInt]
        have hsg : decide ((fin s m hm).toInt * (fin t n hn).toInt < 0) = xor s t := by
          cases s <;> cases t
          · exact decide_eq_false (by show ¬ (m : Int) * n < 0; omega)
          · exact decide_eq_true (by show (m : Int) * (-n) < 0; rw [mul_neg]; omega)
          · exact decide_eq_true (by show -(m : Int) * n < 0; rw [neg_mul]; omega)
          · exact decide_eq_false (by show ¬ -(m : Int) * (-n) < 0; rw [neg_mul_neg]; omega)
        have hne : (fin s m hm).toInt * (fin t n hn).toInt ≠ 0 := by
          intro h
          rw [h] at hab
          exact hz hab.symm
        rw [if_neg hne, hab, hsg]

theorem zero_fma_value (u : Bool) (h0 : Rep 0) (t : Bool) (n : Nat) (hn : Rep n) (z : F64) : value (fma (fin u 0 h0) (fin t n hn) z) = value z := by
  rcases z with _ | s | ⟨s, m, hm⟩
  · rfl
  · rfl
  · show value (ofScaled (xor u t && s) ((fin u 0 h0).toInt * (fin t n hn).toInt + (fin s m hm).toInt * unit) unit) = _
    rw [toInt_zero, zero_mul, _root_.zero_add, ← ofScaled_value (xor u t && s) s m hm]
    congr 1
    unfold ofScaled
    have hu := unit_pos
    by_cases h : (fin s m hm).toInt = 0
    · rw [if_pos h, if_pos (by rw [h, zero_mul])]
    · rw [if_neg h, if_neg (by positivity), Int.natAbs_mul, Int.natAbs_natCast, ofRatio_unit]
      congr 1
      have hu' : (0 : Int) < unit := by exact_mod_cast hu
      rw [decide_eq_decide]
      constructor
      · intro hh; by_contra hc; exact absurd hh (not_lt.2 (mul_nonneg (not_lt.1 hc) hu'.le))
      · intro hh; exact mul_neg_of_neg_of_pos hh hu'

/-- neither NaN nor infinite -/
def finite : F64 → Bool
  | fin .. => true
  | _ => false

theorem zero_mul_value (u : Bool) (h0 : Rep 0) (t : Bool) (n : Nat) (hn : Rep n) : value (mul (fin u 0 h0) (fin t n hn)) = some (pt 0) := by
  rw [mul_fin, zero_mul, ofRatio_zero_value _ _ unit_pos]

end F64

open F64 in
theorem mulAdd_value {P : Platform} (hP : P.MulAddOK) {x x' y z z' : F64} (hx : value x = value x') (hz : value z = value z') :
    value (P.mulAdd x y z) = value (P.mulAdd x' y z') := by
  have first : ∀ x z, value x = some (pt 0) → value (P.mulAdd x y z) = if y.finite then value z else none := by
    intro x z h
    obtain ⟨u, h0, rfl⟩ := F64.zero_of_value h
    rcases y with _ | t | ⟨t, n, hn⟩
    · rw [if_neg (by simp [finite])]
      rcases hP (.fin u 0 h0) .nan z with h | h <;> rw [h] <;> cases z <;> rfl
    · rw [if_neg (by simp [finite])]
      rcases hP (.fin u 0 h0) (.inf t) z with h | h <;> rw [h] <;> cases z <;> rfl
    · rw [if_pos (show (F64.fin t n hn).finite = true from rfl)]
      rcases hP (.fin u 0 h0) (.fin t n hn) z with h | h <;> rw [h]
      · obtain ⟨v, hv, e⟩ := zero_of_value (zero_mul_value u h0 t n hn)
        rw [e, F64.add_comm, add_zero_value]
      · exact zero_fma_value u h0 t n hn z
  have last : ∀ z, value z = some (pt 0) → value (P.mulAdd x y z) = value (F64.mul x y) := by
    intro z h
    obtain ⟨u, h0, rfl⟩ := F64.zero_of_value h
    rcases hP x y (.fin u 0 h0) with h | h <;> rw [h]
    · exact add_zero_value _ _ _
    · exact fma_zero_value _ _ _ _
  rcases value_same hx with rfl | ⟨h1, h2⟩
  · rcases value_same hz with rfl | ⟨h1, h2⟩
    · rfl
    · rw [last z h1, last z' h2]
  · rw [first x z h1, first x' z' h2, hz]

theorem accumulate_value {f g : Nat → F64 → F64} {n : Nat} {z z' : F64} (hz : value z = value z')
    (h : ∀ i < n, ∀ a b, value a = value b → value (f i a) = value (g i b)) : value (accumulate f n z) = value (accumulate g n z') := by
  induction n with
  | zero => exact hz
  | succ n ih =>
    rw [accumulate_add_one, accumulate_add_one]
    exact h n (by omega) _ _ (ih fun i hi => h i (by omega))

/-- **C105, the two zeros in linear models.** The raw predictions for rows with the same numbers are the same numbers. (They need not be
the same zeros, `C105_linear_zero_differs`.) -/
theorem C105_linear (P : Platform) (hP : P.MulAddOK) (b : Base) (l : XgLinear) (hb : core b = .lin l) (G : Nat) (hf : Fits ⟨b, .raw G⟩)
    (hw : G < 2 ^ 63) (row row' : List F64) (h : SameNumbers row row') (req : Int) (m m' : List F64)
    (hp : ((⟨b, .raw G⟩ : Ensemble).predict P row req m.length).run m = (.ok ⟨⟩, m')) :
    ∃ m₂, ((⟨b, .raw G⟩ : Ensemble).predict P row' req m.length).run m = (.ok ⟨⟩, m₂) ∧ SameNumbers m' m₂ := by
  have hw' : (⟨b, .raw G⟩ : Ensemble).nOutputGroups < 2 ^ 63 := by
    show (G : Int) < _
    exact_mod_cast hw
  rw [C12_predict_iff P _ hf hw'] at hp
  obtain ⟨h1, h2, total, n, ht, hu, hl, out, ho, hs⟩ := hp
  obtain ⟨w, hraw, htr⟩ : ∃ w, IsRaw P b row n w ∧ IsTransformed P (.raw G) w out := ho
  unfold IsRaw at hraw
  rw [hb] at hraw
  obtain ⟨G', F, x, c, bias, e1, e2, e3, e4, e5, rfl⟩ := hraw
  have hx : ∀ i, ∃ x', i < F → row'[i]? = some x' ∧ value (x i) = value x' := by
    intro i
    by_cases hi : i < F
    · obtain ⟨hlt, he⟩ := List.getElem?_eq_some_iff.1 (e3 i hi)
      refine ⟨row'[i]'(h.length_eq ▸ hlt), fun _ => ⟨List.getElem?_eq_getElem _, ?_⟩⟩
      have := (List.forall₂_iff_get.1 h).2 i hlt (h.length_eq ▸ hlt)
      simp only [List.get_eq_getElem] at this
      rw [← he, this]
    · exact ⟨.nan, fun h => absurd h hi⟩
  choose x' hx' using hx
  have hraw' : IsRaw P b row' n ((List.range G').map fun k => accumulate (fun i acc => P.mulAdd (x' i) (c i k) acc) F (F64.add l.baseScore (bias k))) := by
    unfold IsRaw
    rw [hb]
    exact ⟨G', F, x', c, bias, e1, e2, fun i hi => (hx' i hi).1, e4, e5, rfl⟩
  have hlen : ((List.range G').map fun k => accumulate (fun i acc => P.mulAdd (x' i) (c i k) acc) F (F64.add l.baseScore (bias k))).length = G' := by simp
  obtain rfl : out = _ := htr
  obtain ⟨m₂, hs₂⟩ := stored_exists m ((List.range G').map fun k =>
    accumulate (fun i acc => P.mulAdd (x' i) (c i k) acc) F (F64.add l.baseScore (bias k))) (by have := hs.1; simpa using this)
  refine ⟨m₂, (C12_predict_iff P _ hf hw' row' req m m₂).2 ⟨h1, by rw [← h.length_eq]; exact h2, total, n, ht, hu, hl, _,
    ⟨_, hraw', rfl⟩, hs₂⟩, List.forall₂_iff_get.2 ⟨hs.2.1.trans hs₂.2.1.symm, fun j hj hj' => ?_⟩⟩
  have a := hs.2.2 j
  have b := hs₂.2.2 j
  simp only [List.length_map, List.length_range, Nat.zero_add, Nat.zero_le, true_and, Nat.sub_zero] at a b
  rw [List.getElem?_eq_getElem hj] at a
  rw [List.getElem?_eq_getElem hj'] at b
  simp only [List.get_eq_getElem]
  split at a
  · rename_i hjG
    rw [if_pos hjG] at b
    rw [List.getElem?_map, List.getElem?_range hjG, Option.map_some, Option.some.injEq] at a b
    rw [a, b]
    exact accumulate_value rfl fun i hi p q hpq => mulAdd_value hP (hx' i hi).2 hpq
  · rename_i hjG
    rw [if_neg hjG] at b
    rw [Option.some.inj (a.trans b.symm)]

namespace CellsExample

open PredictExample

/-- The trees of `lg` have the threshold 5 for feature 0 and no other: all values above it are predicted alike … -/
example (x y : F64) (hx : F64.le (F64.ofNat 6) x = true) (req : Int) (len : Nat) :
    lg.predict Platform.demo [F64.ofNat 6, y] req len = lg.predict Platform.demo [x, y] req len := by
  refine C105_row Platform.demo lg [F64.ofNat 6, y] [x, y] ?_ rfl req len
  have : ∀ t ∈ trees, ∀ node ∈ t.nodes, node.feature = 0 ∧ hasFlag node.flags Flag.categorical = false ∧
    hasFlag node.flags Flag.missingZero = false ∧ F64.le (F64.ofNat 6) node.threshold = false := by decide +kernel
  intro t ht node hn
  obtain ⟨h1, h2, h3, h4⟩ := this t ht node hn
  refine .inr ⟨F64.ofNat 6, x, by rw [h1]; rfl, by rw [h1]; rfl, C105_between node _ _ h2 h3 ((F64.le_iff _ _).1 hx) fun h => ?_⟩
  rw [← F64.le_iff, h4] at h
  cases h.1

/-- … and the value at the threshold is not. -/
example : (lg.predict Platform.demo [F64.ofNat 6, F64.zero] 0 2).run [F64.nan, F64.nan] ≠
    (lg.predict Platform.demo [F64.ofNat 5, F64.zero] 0 2).run [F64.nan, F64.nan] := by decide +kernel

/-- rows with different zeros -/
example : SameNumbers [F64.ofNat 7, F64.zero] [F64.ofNat 7, F64.zero.neg] :=
  .cons rfl (.cons (by decide +kernel) .nil)

/-- a linear model with one feature, whose base score and bias are `-0` -/
def negativeZero : Ensemble :=
  ⟨.lin { numFeature := 1, nRawOutputGroups := 1, baseScore := F64.zero.neg, weights := [F64.one, F64.zero.neg] }, .raw 1⟩

/-- Linear models do distinguish the zeros: this one predicts `0` for `0` and `-0` for `-0`. -/
theorem C105_linear_zero_differs : SameNumbers [F64.zero] [F64.zero.neg] ∧ Fits negativeZero ∧
    (negativeZero.predict Platform.demo [F64.zero] 0 1).run [F64.nan] = (.ok ⟨⟩, [F64.zero]) ∧
    (negativeZero.predict Platform.demo [F64.zero.neg] 0 1).run [F64.nan] = (.ok ⟨⟩, [F64.zero.neg]) ∧ F64.zero ≠ F64.zero.neg :=
  ⟨.cons (by decide +kernel) .nil, ⟨1, 1, rfl, by decide, rfl, rfl⟩, by decide +kernel, by decide +kernel, by decide +kernel⟩

end CellsExample

end Leaves
