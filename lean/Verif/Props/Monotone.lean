import Verif.Props.LgLoad
import Verif.Props.XgFile
import Verif.Props.SkModel
import Verif.Props.JsonModel
import Verif.Props.Relevant
import Verif.Props.Transform
import Verif.Proofs.F64Mono
import Verif.Spec.Monotone

/-!
# C79: monotone constraints

If every tree of a file obeys a constraint on a feature, so do the predictions, rounding included.
-/

namespace Leaves

open Spec GoM

/-! ### sums -/

/-- `x*c + z` is monotone in `x` and `z` where it is defined, and undefined when `z` is -/
structure MonoAt (P : Platform) (c : F64) : Prop where
  mono : ∀ x x' z z', F64.le x x' = true → F64.le z z' = true → P.mulAdd x c z ≠ F64.nan → P.mulAdd x' c z' ≠ F64.nan →
    F64.le (P.mulAdd x c z) (P.mulAdd x' c z') = true
  strict : ∀ x, P.mulAdd x c F64.nan = F64.nan
  strictLeft : ∀ z, P.mulAdd F64.nan c z = F64.nan

theorem monoAt_one {P : Platform} (hP : P.MulAddOK) : MonoAt P F64.one where
  mono x x' z z' hx hz h h' := by
    rw [hP.one] at h h' ⊢
    rw [hP.one]
    exact F64.add_mono hz hx h h'
  strict x := by rw [hP.one, F64.nan_add]
  strictLeft z := by rw [hP.one, F64.add_nan]

theorem monoAt_nonneg {P : Platform} (hP : Uniform P) {c : F64} (hc : F64.le F64.zero c = true) : MonoAt P c := by
  rcases hP with hP | hP
  · refine ⟨fun x x' z z' hx hz h h' => ?_, fun x => ?_, fun z => ?_⟩
    · rw [hP] at h h' ⊢
      rw [hP]
      exact F64.add_mono (F64.mul_mono_left hx hc (fun e => h (by rw [e, F64.nan_add])) fun e => h' (by rw [e, F64.nan_add])) hz h h'
    · rw [hP, F64.add_nan]
    · rw [hP]
      cases c <;> exact F64.nan_add z
  · refine ⟨fun x x' z z' hx hz h h' => ?_, fun x => ?_, fun z => ?_⟩
    · rw [hP] at h h' ⊢
      rw [hP]
      exact F64.fma_mono hx hc hz h h'
    · rw [hP, F64.fma_nan_addend]
    · rw [hP, F64.fma_nan_left]

theorem Uniform.ok {P : Platform} (h : Uniform P) : P.MulAddOK := fun x y z => h.imp (fun h => h x y z) fun h => h x y z

/-- `x <= y` unless one of them is not a number -/
def NLe (x y : F64) : Prop := x ≠ F64.nan → y ≠ F64.nan → F64.le x y = true

theorem accumulate_mono {P : Platform} {c v v' : Nat → F64} : ∀ {n : Nat}, (∀ i < n, MonoAt P (c i)) → (∀ i < n, NLe (v i) (v' i)) →
    ∀ {z z' : F64}, NLe z z' →
    NLe (accumulate (fun i acc => P.mulAdd (v i) (c i) acc) n z) (accumulate (fun i acc => P.mulAdd (v' i) (c i) acc) n z')
  | 0, _, _, _, _, hz => hz
  | n + 1, hc, hv, z, z', hz => by
    intro h h'
    rw [accumulate_add_one] at h h' ⊢
    rw [accumulate_add_one]
    have hn := hc n (by omega)
    refine hn.mono _ _ _ _ (hv n (by omega) ?_ ?_) (accumulate_mono (fun i hi => hc i (by omega)) (fun i hi => hv i (by omega)) hz ?_ ?_) h h'
    · intro e
      exact h (by rw [e, hn.strictLeft])
    · intro e
      exact h' (by rw [e, hn.strictLeft])
    · intro e
      exact h (by rw [e, hn.strict])
    · intro e
      exact h' (by rw [e, hn.strict])

/-- ordered unless one of them is not a number -/
def NOrdered (up : Bool) (x y : F64) : Prop := x ≠ F64.nan → y ≠ F64.nan → Ordered up x y

theorem NOrdered.refl (up : Bool) (x : F64) : NOrdered up x x := fun h _ => by
  unfold Ordered
  have := (F64.le_iff _ _).1 (F64.le_refl h)
  split <;> exact this

theorem accumulate_ordered {P : Platform} {up : Bool} {c v v' : Nat → F64} {n : Nat} (hc : ∀ i < n, MonoAt P (c i))
    (hv : ∀ i < n, NOrdered up (v i) (v' i)) {z z' : F64} (hz : NOrdered up z z') :
    NOrdered up (accumulate (fun i acc => P.mulAdd (v i) (c i) acc) n z) (accumulate (fun i acc => P.mulAdd (v' i) (c i) acc) n z') := by
  intro h h'
  cases up
  · exact (F64.le_iff _ _).1 (accumulate_mono hc (fun i hi a b => (F64.le_iff _ _).2 (hv i hi b a)) (fun a b => (F64.le_iff _ _).2 (hz b a)) h' h)
  · exact (F64.le_iff _ _).1 (accumulate_mono hc (fun i hi a b => (F64.le_iff _ _).2 (hv i hi a b)) (fun a b => (F64.le_iff _ _).2 (hz a b)) h h')

theorem mulAdd_ordered {P : Platform} {up : Bool} {c x x' z z' : F64} (hc : MonoAt P c) (hx : NOrdered up x x') (hz : NOrdered up z z') :
    NOrdered up (P.mulAdd x c z) (P.mulAdd x' c z') :=
  accumulate_ordered (n := 1) (c := fun _ => c) (v := fun _ => x) (v' := fun _ => x') (fun _ _ => hc) (fun _ _ => hx) hz

/-! ### walks -/

/-- two walks that part only at splits of the constrained feature, the first one going left -/
theorem walk_ordered {up : Bool} {tests : Nat → Prop} {val : Nat → F64 → Prop} {goes goes' : Nat → Bool → Prop} : ∀ {T : BTree} {k k' : Nat},
    Constrained up tests val T →
    (∀ i ∈ T.inner, ∀ b b', goes i b → goes' i b' → b = b' ∨ (tests i ∧ b = true ∧ b' = false)) →
    Walk goes T k → Walk goes' T k' → ∀ {x y : F64}, val k x → val k' y → k = k' ∨ Ordered up x y := by
  intro T
  induction T with
  | leaf j =>
    intro k k' _ _ w w' x y _ _
    cases w
    cases w'
    exact .inl rfl
  | node i l r ihl ihr =>
    intro k k' hc hg w w' x y hx hy
    obtain ⟨h1, h2, h3⟩ := hc
    have hgl : ∀ j ∈ l.inner, ∀ b b', goes j b → goes' j b' → b = b' ∨ (tests j ∧ b = true ∧ b' = false) :=
      fun j hj => hg j (by simp [BTree.inner, hj])
    have hgr : ∀ j ∈ r.inner, ∀ b b', goes j b → goes' j b' → b = b' ∨ (tests j ∧ b = true ∧ b' = false) :=
      fun j hj => hg j (by simp [BTree.inner, hj])
    cases w with
    | left g w =>
      cases w' with
      | left g' w' => exact ihl h2 hgl w w' hx hy
      | right g' w' =>
        rcases hg i (by simp [BTree.inner]) _ _ g g' with h | ⟨h, -, -⟩
        · cases h
        · exact .inr (h1 h k (Walk.mem w) k' (Walk.mem w') x y hx hy)
    | right g w =>
      cases w' with
      | left g' w' =>
        rcases hg i (by simp [BTree.inner]) _ _ g g' with h | ⟨h, h', -⟩
        · cases h
        · cases h'
      | right g' w' => exact ihr h3 hgr w w' hx hy

theorem Le.trans' {x y z : F64} (h : Le x y) (h' : Le y z) : Le x z := by
  obtain ⟨a, b, h1, h2, h3⟩ := h
  obtain ⟨b', c, h4, h5, h6⟩ := h'
  cases h2.symm.trans h4
  exact ⟨a, c, h1, h5, _root_.le_trans h3 h6⟩

theorem Le.left_ne_nan {x y : F64} (h : Le x y) : x ≠ F64.nan := by
  rintro rfl
  obtain ⟨a, b, h1, -, -⟩ := h
  cases h1

theorem Le.right_ne_nan {x y : F64} (h : Le x y) : y ≠ F64.nan := by
  rintro rfl
  obtain ⟨a, b, -, h1, -⟩ := h
  cases h1

/-! ### LightGBM -/

theorem numLeft_present {r : NumRule} {x : F64} (hx : x ≠ F64.nan) (hm : ¬ IsMissing r.missing x) : NumLeft r x ↔ Le x r.threshold := by
  unfold NumLeft
  rw [if_neg hx]
  exact ⟨fun h => h.elim (fun h => absurd h.1 hm) And.right, fun h => .inr ⟨hm, h⟩⟩

theorem lg_goes {a : LgArrays} {out : F64 → Int} {f : Nat} {x y : F64} {row row' : List F64} (hr : Raised f x y row row') {i : Nat} {b b' : Bool}
    (hn : ∀ rule, LgSplit a i f rule → ∃ r, rule = .num r ∧ ¬ IsMissing r.missing x ∧ ¬ IsMissing r.missing y)
    (g : Goes out (LgSplit a) row i b) (g' : Goes out (LgSplit a) row' i b') :
    b = b' ∨ ((∃ rule, LgSplit a i f rule) ∧ b = true ∧ b' = false) := by
  obtain ⟨j, rule, u, h1, h2, h3⟩ := g
  obtain ⟨j', rule', u', h1', h2', h3'⟩ := g'
  obtain ⟨rfl, rfl⟩ := LgSplit.unique _ _ _ _ _ h1 h1'
  by_cases hj : j = f
  · subst hj
    obtain ⟨e1, e2, hle, -⟩ := hr
    cases h2.symm.trans e1
    cases h2'.symm.trans e2
    obtain ⟨r, rfl, m1, m2⟩ := hn _ h1
    have hx := Le.left_ne_nan hle
    have hy := Le.right_ne_nan hle
    have k1 := numLeft_present hx m1
    have k2 := numLeft_present hy m2
    have h3 : b = true ↔ NumLeft r x := h3
    have h3' : b' = true ↔ NumLeft r y := h3'
    rw [k1] at h3
    rw [k2] at h3'
    cases b <;> cases b'
    · exact .inl rfl
    · exact absurd (h3.2 (Le.trans' hle (h3'.1 rfl))) (by simp)
    · exact .inr ⟨⟨_, h1⟩, rfl, rfl⟩
    · exact .inl rfl
  · rw [hr.2.2.2 j hj] at h2
    cases h2.symm.trans h2'
    left
    have := h3.trans h3'.symm
    cases b <;> cases b' <;> simp_all

/-- the value of a tree that obeys the constraint -/
theorem lg_tree_ordered {d : TreeDesc} {out : F64 → Int} {up : Bool} {f : Nat} {x y : F64} {row row' : List F64} (ho : d.Obeys up f x y)
    (hr : Raised f x y row row') {v v' : F64} (h : d.Value out row v) (h' : d.Value out row' v') : NOrdered up v v' := by
  unfold TreeDesc.Value at h h'
  split at h
  next h0 =>
    rw [if_pos h0] at h'
    cases h.symm.trans h'
    exact NOrdered.refl _ _
  next h0 =>
    rw [if_neg h0] at h'
    obtain ⟨k, w, hv⟩ := h
    obtain ⟨k', w', hv'⟩ := h'
    rcases walk_ordered (ho.leaves h0) (fun i hi b b' g g' => lg_goes hr (ho.numerical h0 i hi) g g') w w' hv hv' with rfl | h
    · cases hv.symm.trans hv'
      exact NOrdered.refl _ _
    · exact fun _ _ => h

theorem one_le_ofNat {n : Nat} (h : 0 < n) : F64.le F64.one (F64.ofNat n) = true := by
  have e : F64.one = F64.ofNat 1 := by decide +kernel
  rw [e]
  unfold F64.ofNat F64.ofInt
  refine F64.ofScaled_mono Nat.one_pos Nat.one_pos ?_
  have := mul_le_mul_of_nonneg_right (show ((1 : Nat) : Int) ≤ (n : Int) by omega) (show (0 : Int) ≤ (unit : Nat) by omega)
  simpa using this

theorem zero_le_share (n : Nat) (h : 0 < n) : F64.le F64.zero (F64.div F64.one (F64.ofNat n)) = true :=
  F64.zero_le_div_one (F64.pos_of_one_le (one_le_ofNat h))

/-- two raw scores of a LightGBM model -/
theorem lg_raw_ordered {P : Platform} {ds : List TreeDesc} {K n : Nat} {avg up : Bool} {f : Nat} {x y : F64} {row row' w w' : List F64}
    (hP : P.MulAddOK ∧ (avg = true → Uniform P)) (ho : ∀ d ∈ ds, d.Obeys up f x y) (hr : Raised f x y row row')
    (h : RefRaw P P.out ds K avg row n w) (h' : RefRaw P P.out ds K avg row' n w') : List.Forall₂ (NOrdered up) w w' := by
  obtain ⟨v, hv, rfl⟩ := h
  obtain ⟨v', hv', rfl⟩ := h'
  rw [List.forall₂_map_left_iff, List.forall₂_map_right_iff, List.forall₂_same]
  intro k hk
  have hk := List.mem_range.1 hk
  refine accumulate_ordered (c := fun _ => _) (fun i hi => ?_) (fun i hi => ?_) (NOrdered.refl _ _)
  · split
    next e => exact monoAt_nonneg (hP.2 e) (zero_le_share n (by omega))
    next => exact monoAt_one hP.1
  · obtain ⟨d, hd, h1⟩ := hv i hi k hk
    obtain ⟨d', hd', h1'⟩ := hv' i hi k hk
    cases hd.symm.trans hd'
    exact lg_tree_ordered (ho d (List.mem_of_getElem? hd)) hr h1 h1'

/-- the entries of two stored results -/
theorem stored_ordered {up : Bool} {m m1 m2 w w' : List F64} (hs : Stored m 0 w m1) (hs' : Stored m 0 w' m2)
    (h : List.Forall₂ (NOrdered up) w w') (k : Nat) (hk : k < w.length) :
    ∃ a b, m1[k]? = some a ∧ m2[k]? = some b ∧ (a ≠ F64.nan → b ≠ F64.nan → Ordered up a b) := by
  have hl := h.length_eq
  refine ⟨w[k], w'[k], ?_, ?_, (List.forall₂_iff_get.1 h).2 k hk (by omega)⟩
  · rw [hs.2.2 k, if_pos (by omega)]; exact List.getElem?_eq_getElem (by omega)
  · rw [hs'.2.2 k, if_pos (by omega)]; exact List.getElem?_eq_getElem (by omega)

/-- **C79, LightGBM text files.** If every tree of the file obeys the constraint on feature `f`, raising this feature in a row does not
lower any raw score (does not raise it for a decreasing constraint), whatever the number of estimators. Averaging forests need a platform
that fuses `x*y + z` everywhere or nowhere. Scores that are not numbers are left out. -/
theorem C79_text_file (P : Platform) (print : F64 → Str) (text rest0 rest : Str) (header : List Str) (e0 e1 : Bool)
    (bs : List (List Str)) (ds : List TreeDesc) (K N : Nat) (M : Int) (avg : Bool)
    (hK : 1 ≤ K ∧ K < 2 ^ 63) (hN : 1 ≤ N) (hlen : ds.length = N * K)
    (hh : FileBlock text header rest0 e0) (hhl : HeaderLines header K M ds.length avg)
    (hb : FileBlocks rest0 bs rest e1) (hbl : List.Forall₂ (TreeLines print) ds bs)
    (hok : ∀ d ∈ ds, d.OK P.parseFloat print ∧ d.inner * 24 ≤ P.maxAlloc)
    (hP : P.MulAddOK ∧ (avg = true → Uniform P)) (up : Bool) (f : Nat) (x y : F64) (ho : ∀ d ∈ ds, d.Obeys up f x y) :
    ∃ ens, lgEnsembleFromReader P ⟨text, false⟩ false = .ok (ens, ⟨rest, false⟩) ∧ ∀ row row', Raised f x y row row' →
      ∀ req m m1 m2, (ens.predict P row req m.length).run m = (.ok ⟨⟩, m1) → (ens.predict P row' req m.length).run m = (.ok ⟨⟩, m2) →
        ∀ k < K, ∃ a b, m1[k]? = some a ∧ m2[k]? = some b ∧ (a ≠ F64.nan → b ≠ F64.nan → Ordered up a b) := by
  obtain ⟨ens, h1, -, -, -, -, -, -, h2⟩ := C39_text_file P print text rest0 rest header e0 e1 bs ds K N M avg hK hN hlen hh hhl hb hbl hok
  refine ⟨ens, h1, fun row row' hr req m m1 m2 hm1 hm2 k hk => ?_⟩
  obtain ⟨hl, -, n, w, hu, hw, hs⟩ := (h2 _ _ _ _).1 hm1
  obtain ⟨-, -, n', w', hu', hw', hs'⟩ := (h2 _ _ _ _).1 hm2
  obtain rfl := Used.unique hu hu'
  exact stored_ordered hs hs' (lg_raw_ordered hP ho hr hw hw') k (by obtain ⟨v, -, rfl⟩ := hw; simpa using hk)

/-! ### XGBoost -/

theorem xg_goes_raised {nodes : List XgBin.Node} {f : Nat} {x y : F64} {row row' : List F64} (hr : Raised f x y row row') {i : Nat} {b b' : Bool}
    (g : XgGoesLe nodes row i b) (g' : XgGoesLe nodes row' i b') :
    b = b' ∨ ((∃ n, nodes[i]? = some n ∧ xgFeature n = f) ∧ b = true ∧ b' = false) := by
  obtain ⟨n, u, h1, h2, h3⟩ := g
  obtain ⟨n', u', h1', h2', h3'⟩ := g'
  cases h1.symm.trans h1'
  by_cases hj : xgFeature n = f
  · obtain ⟨e1, e2, hle, -⟩ := hr
    rw [hj] at h2 h2'
    cases h2.symm.trans e1
    cases h2'.symm.trans e2
    have hx := Le.left_ne_nan hle
    have hy := Le.right_ne_nan hle
    cases b <;> cases b'
    · exact .inl rfl
    · rcases h3'.1 rfl with ⟨h, -⟩ | ⟨a, c, ha, hc, hac⟩
      · exact absurd h hy
      · obtain ⟨p, q, hp, hq, hpq⟩ := hle
        cases hq.symm.trans ha
        exact absurd (h3.2 (.inr ⟨p, c, hp, hc, _root_.le_trans hpq hac⟩)) (by simp)
    · exact .inr ⟨⟨_, h1, hj⟩, rfl, rfl⟩
    · exact .inl rfl
  · rw [hr.2.2.2 _ hj] at h2
    cases h2.symm.trans h2'
    left
    have := h3.trans h3'.symm
    cases b <;> cases b' <;> simp_all

theorem xg_raw_ordered {P : Platform} {m : XgModel} {K n : Nat} {up : Bool} {f : Nat} {x y : F64} {row row' w w' : List F64}
    (hP : P.MulAddOK ∧ (m.dart = true → Uniform P ∧ ∀ b ∈ m.weights, F64.le F64.zero (F64.ofBits32 b) = true))
    (ho : ∀ (i : Nat) t T, m.gbtree.trees[i]? = some t → m.shapes[i]? = some T → XgObeys t.nodes T up f) (hr : Raised f x y row row')
    (h : XgRefRaw P XgGoesLe m K row n w) (h' : XgRefRaw P XgGoesLe m K row' n w') : List.Forall₂ (NOrdered up) w w' := by
  obtain ⟨v, c, hv, hc, rfl⟩ := h
  obtain ⟨v', c', hv', hc', rfl⟩ := h'
  rw [List.forall₂_map_left_iff, List.forall₂_map_right_iff, List.forall₂_same]
  intro k hk
  have hk := List.mem_range.1 hk
  have hcc : accumulate (fun i acc => P.mulAdd (v' i k) (c' i k) acc) n (F64.ofBits32 m.header.param.baseScore) =
      accumulate (fun i acc => P.mulAdd (v' i k) (c i k) acc) n (F64.ofBits32 m.header.param.baseScore) :=
    accumulate_congr _ (fun i hi z => ?_)
  · rw [hcc]
    refine accumulate_ordered (c := fun i => c i k) (fun i hi => ?_) (fun i hi => ?_) (NOrdered.refl _ _)
    · have := hc i hi k hk
      unfold XgModel.Weight at this
      split at this
      next e =>
        obtain ⟨b, hb, e2⟩ := this
        show MonoAt P (c i k)
        rw [e2]
        exact monoAt_nonneg (hP.2 e).1 ((hP.2 e).2 b (List.mem_of_getElem? hb))
      next =>
        show MonoAt P (c i k)
        rw [this]
        exact monoAt_one hP.1
    · obtain ⟨t, T, leaf, ht, hT, hw, hval⟩ := hv i hi k hk
      obtain ⟨t', T', leaf', ht', hT', hw', hval'⟩ := hv' i hi k hk
      cases ht.symm.trans ht'
      cases hT.symm.trans hT'
      rcases walk_ordered (ho _ t T ht hT) (fun i hi b b' g g' => xg_goes_raised hr g g') hw hw' hval hval' with rfl | h
      · obtain ⟨p, hp, e⟩ := hval
        obtain ⟨p', hp', e'⟩ := hval'
        cases hp.symm.trans hp'
        rw [e, e']
        exact NOrdered.refl _ _
      · exact fun _ _ => h
  · have e : c i k = c' i k := by
      have h1 := hc i hi k hk
      have h2 := hc' i hi k hk
      unfold XgModel.Weight at h1 h2
      split at h1
      next e =>
        rw [if_pos e] at h2
        obtain ⟨b, hb, e1⟩ := h1
        obtain ⟨b', hb', e2⟩ := h2
        cases hb.symm.trans hb'
        rw [e1, e2]
      next e =>
        rw [if_neg e] at h2
        rw [h1, h2]
    rw [e]

/-- the logistic transformation keeps the order -/
theorem logistic_ordered {P : Platform} (hexp : ExpNonneg P) (hmono : ExpMono P) (hnan : P.exp F64.nan = F64.nan) {up : Bool}
    {w w' out out' : List F64} (h : List.Forall₂ (NOrdered up) w w') (ht : IsTransformed P .logistic w out)
    (ht' : IsTransformed P .logistic w' out') : List.Forall₂ (NOrdered up) out out' := by
  obtain ⟨a, rfl, rfl⟩ := id ht
  obtain ⟨b, rfl, rfl⟩ := id ht'
  rw [List.forall₂_cons] at h ⊢
  refine ⟨fun na nb => ?_, .nil⟩
  have hz : F64.div F64.one (F64.add F64.one (P.exp F64.nan.neg)) = F64.nan := by
    rw [show F64.nan.neg = F64.nan from rfl, hnan]
    rfl
  have ha : a ≠ F64.nan := fun e => na (by rw [e, hz])
  have hb : b ≠ F64.nan := fun e => nb (by rw [e, hz])
  have := h.1 ha hb
  cases up
  · exact C25_order P hexp hmono _ _ _ _ this ht' ht
  · exact C25_order P hexp hmono _ _ _ _ this ht ht'

/-- **C79, XGBoost files.** If every tree of the file obeys the constraint on feature `f`, raising this feature in a row does not lower
any prediction (does not raise it for a decreasing constraint), be it a raw score or a probability. For 'dart' the tree weights must not be
negative and the platform must fuse `x*y + z` everywhere or nowhere. -/
theorem C79_xgboost_file (P : Platform) (m : XgModel) (K N : Nat) (ok : m.OK P.maxAlloc K N) (lt : Bool) (tr : Transform)
    (ho : XgObjective K m.header.nameObj lt tr) (hlog : tr = .logistic → K = 1)
    (hP : P.MulAddOK ∧ (m.dart = true → Uniform P ∧ ∀ b ∈ m.weights, Le F64.zero (F64.ofBits32 b)))
    (hexp : tr = .logistic → ExpNonneg P ∧ ExpMono P ∧ P.exp F64.nan = F64.nan) (up : Bool) (f : Nat)
    (hc : ∀ (i : Nat) t T, m.gbtree.trees[i]? = some t → m.shapes[i]? = some T → XgObeys t.nodes T up f) :
    ∃ ens, (∀ rest, xgEnsembleFromReader P lt (m.image ++ rest) = .ok (ens, rest)) ∧ ∀ x y row row', Raised f x y row row' →
      ∀ req s s1 s2, (ens.predict P row req s.length).run s = (.ok ⟨⟩, s1) → (ens.predict P row' req s.length).run s = (.ok ⟨⟩, s2) →
        ∀ k < K, ∃ a b, s1[k]? = some a ∧ s2[k]? = some b ∧ (a ≠ F64.nan → b ≠ F64.nan → Ordered up a b) := by
  obtain ⟨ens, h1, -, -, -, -, -, -, h2⟩ := C62_xgboost_file_le P m K N ok lt tr ho hlog
  refine ⟨ens, h1, fun x y row row' hr req s s1 s2 hs1 hs2 k hk => ?_⟩
  obtain ⟨-, -, n, w, out, hu, hw, ht, hs⟩ := (h2 _ _ _ _).1 hs1
  obtain ⟨-, -, n', w', out', hu', hw', ht', hs'⟩ := (h2 _ _ _ _).1 hs2
  obtain rfl := Used.unique hu hu'
  have hwl : w.length = K := by obtain ⟨v, c, -, -, rfl⟩ := hw; simp
  have hord := xg_raw_ordered ⟨hP.1, fun e => ⟨(hP.2 e).1, fun b hb => (F64.le_iff _ _).2 ((hP.2 e).2 b hb)⟩⟩ hc hr hw hw'
  cases ho with
  | raw =>
    obtain rfl : out = w := ht
    obtain rfl : out' = w' := ht'
    exact stored_ordered hs hs' hord k (by omega)
  | logistic =>
    obtain ⟨e1, e2, e3⟩ := hexp rfl
    refine stored_ordered hs hs' (logistic_ordered e1 e2 e3 hord ht ht') k ?_
    obtain ⟨a, -, rfl⟩ := ht
    have := hlog rfl
    simp only [List.length_singleton]
    omega

/-! ### scikit-learn -/

theorem raised_nanToZero {f : Nat} {x y : F64} {row row' : List F64} (h : Raised f x y row row') :
    Raised f x y (nanToZero row) (nanToZero row') := by
  obtain ⟨h1, h2, h3, h4⟩ := h
  unfold nanToZero
  refine ⟨?_, ?_, h3, fun g hg => ?_⟩
  · rw [List.getElem?_map, h1, Option.map_some, if_neg (Le.left_ne_nan h3)]
  · rw [List.getElem?_map, h2, Option.map_some, if_neg (Le.right_ne_nan h3)]
  · rw [List.getElem?_map, List.getElem?_map, h4 g hg]

theorem sk_goes_raised {nodes : List Pickle.SkNode} {f : Nat} {x y : F64} {row row' : List F64} (hr : Raised f x y row row') {i : Nat} {b b' : Bool}
    (g : SkGoes nodes row i b) (g' : SkGoes nodes row' i b') :
    b = b' ∨ ((∃ n, nodes[i]? = some n ∧ n.feature = f) ∧ b = true ∧ b' = false) := by
  obtain ⟨n, j, u, h1, hj, h2, h3⟩ := g
  obtain ⟨n', j', u', h1', hj', h2', h3'⟩ := g'
  cases h1.symm.trans h1'
  have hjj : j = j' := by have := hj.symm.trans hj'; exact_mod_cast this
  subst hjj
  by_cases hf : j = f
  · subst hf
    obtain ⟨e1, e2, hle, -⟩ := hr
    cases h2.symm.trans e1
    cases h2'.symm.trans e2
    cases b <;> cases b'
    · exact .inl rfl
    · exact absurd (h3.2 (Le.trans' hle (h3'.1 rfl))) (by simp)
    · exact .inr ⟨⟨_, h1, hj⟩, rfl, rfl⟩
    · exact .inl rfl
  · rw [hr.2.2.2 _ hf] at h2
    cases h2.symm.trans h2'
    left
    have := h3.trans h3'.symm
    cases b <;> cases b' <;> simp_all

theorem sk_raw_ordered {P : Platform} {m : SkModel} {n : Nat} {up : Bool} {f : Nat} {x y : F64} {row row' w w' : List F64}
    (hP : Uniform P) (hlr : F64.le F64.zero m.learningRate = true)
    (ho : ∀ (i : Nat) t T, m.trees[i]? = some t → m.shapes[i]? = some T → SkObeys t T up f) (hr : Raised f x y row row')
    (h : SkRefRaw P m row n w) (h' : SkRefRaw P m row' n w') : List.Forall₂ (NOrdered up) w w' := by
  obtain ⟨v, hv, rfl⟩ := h
  obtain ⟨v', hv', rfl⟩ := h'
  rw [List.forall₂_map_left_iff, List.forall₂_map_right_iff, List.forall₂_same]
  intro k hk
  have hk := List.mem_range.1 hk
  refine accumulate_ordered (c := fun _ => F64.one) (fun i hi => monoAt_one (Uniform.ok hP)) (fun i hi => ?_) (NOrdered.refl _ _)
  obtain ⟨t, T, leaf, a, p, ht, hT, -, hw, hval, hp, e⟩ := hv i hi k hk
  obtain ⟨t', T', leaf', a', p', ht', hT', -, hw', hval', hp', e'⟩ := hv' i hi k hk
  cases ht.symm.trans ht'
  cases hT.symm.trans hT'
  cases hp.symm.trans hp'
  rw [e, e']
  refine mulAdd_ordered (monoAt_nonneg hP hlr) ?_ (NOrdered.refl _ _)
  rcases walk_ordered (ho _ t T ht hT) (fun i hi b b' g g' => sk_goes_raised (raised_nanToZero hr) g g') hw hw' hval hval' with rfl | h
  · cases hval.symm.trans hval'
    exact NOrdered.refl _ _
  · exact fun _ _ => h

/-- **C79, scikit-learn pickles.** If every tree obeys the constraint on feature `f`, raising this feature in a row does not lower any raw
score (does not raise it for a decreasing constraint). The learning rate must not be negative, and the platform must fuse `x*y + z`
everywhere or nowhere. -/
theorem C79_sklearn_file (P : Platform) (v : PyVal) (bs : Pickle.Bytes) (μ : Memo) (hd : Dumps P noMemo v bs μ) (M : SkModel)
    (hc : IsClassifier M v) (ok : M.OK P.maxAlloc) (hP : Uniform P) (hlr : Le F64.zero M.learningRate) (up : Bool) (f : Nat)
    (ho : ∀ (i : Nat) t T, M.trees[i]? = some t → M.shapes[i]? = some T → SkObeys t T up f) :
    ∃ ens, (∀ rest lt, skEnsembleFromReader P (bs ++ octet '.' :: rest) lt = .ok ens) ∧ ∀ x y row row', Raised f x y row row' →
      ∀ req s s1 s2, (ens.predict P row req s.length).run s = (.ok ⟨⟩, s1) → (ens.predict P row' req s.length).run s = (.ok ⟨⟩, s2) →
        ∀ k < M.groups, ∃ a b, s1[k]? = some a ∧ s2[k]? = some b ∧ (a ≠ F64.nan → b ≠ F64.nan → Ordered up a b) := by
  obtain ⟨ens, h1, -, -, -, -, -, -, -, h2⟩ := C63_sklearn_file P v bs μ hd M hc ok
  refine ⟨ens, h1, fun x y row row' hr req s s1 s2 hs1 hs2 k hk => ?_⟩
  obtain ⟨-, -, n, w, hu, hw, hs⟩ := (h2 _ _ _ _).1 hs1
  obtain ⟨-, -, n', w', hu', hw', hs'⟩ := (h2 _ _ _ _).1 hs2
  obtain rfl := Used.unique hu hu'
  exact stored_ordered hs hs' (sk_raw_ordered hP ((F64.le_iff _ _).2 hlr) ho hr hw hw') k (by obtain ⟨v, -, rfl⟩ := hw; simpa using hk)

/-! ### JSON dumps of LightGBM models -/

theorem jwalk_mem {out : F64 → Int} {row : List F64} {t : JRaw} {p : List Bool} {v : F64} (h : JWalk out row t p v) : v ∈ jValues t := by
  induction h with
  | leaf v => exact List.mem_singleton.2 rfl
  | left hs hx h w ih => exact List.mem_append_left _ ih
  | right hs hx h w ih => exact List.mem_append_right _ ih

theorem j_tree_ordered {out : F64 → Int} {up : Bool} {f : Nat} {x y : F64} {row row' : List F64} (hr : Raised f x y row row') {t : JRaw}
    {p p' : List Bool} {v v' : F64} (ho : JObeys up f x y t) (h : JWalk out row t p v) (h' : JWalk out row' t p' v') : NOrdered up v v' := by
  induction h generalizing p' with
  | leaf v =>
    cases h'
    exact NOrdered.refl _ _
  | @left g thr d dl m ms l r rule u v p hs hx h w ih =>
    cases h' with
    | left hs' hx' h' w' => exact ih ho.2.1 w'
    | right hs' hx' h' w' =>
      cases JSplit.unique hs hs'
      by_cases hg : g = f
      · exact fun _ _ => (ho.1 hg).1 _ (jwalk_mem w) _ (jwalk_mem w')
      · rw [hr.2.2.2 g hg] at hx
        cases hx.symm.trans hx'
        exact absurd h h'
  | @right g thr d dl m ms l r rule u v p hs hx h w ih =>
    cases h' with
    | right hs' hx' h' w' => exact ih ho.2.2 w'
    | left hs' hx' h' w' =>
      cases JSplit.unique hs hs'
      by_cases hg : g = f
      · obtain ⟨q, rfl, m1, m2⟩ := (ho.1 hg).2 _ hs
        obtain ⟨e1, e2, hle, -⟩ := hr
        subst hg
        cases hx.symm.trans e1
        cases hx'.symm.trans e2
        exact absurd ((numLeft_present (Le.left_ne_nan hle) m1).2 (Le.trans' hle ((numLeft_present (Le.right_ne_nan hle) m2).1 h'))) h
      · rw [hr.2.2.2 g hg] at hx
        cases hx.symm.trans hx'
        exact absurd h' h

/-- **C79, JSON dumps of LightGBM models.** -/
theorem C79_json_file (P : Platform) (d : JEnsemble) (K N : Nat) (M : Int) (ts : List JTree) (ok : JEnsembleOK d P.maxAlloc K N M ts)
    (hK : K < 2 ^ 63) (hP : P.MulAddOK) (up : Bool) (f : Nat) (x y : F64) (ho : ∀ t ∈ ts, JObeys up f x y t.root) :
    ∃ ens, lgEnsembleFromJSON P (some d) false = .ok ens ∧ ∀ row row', Raised f x y row row' →
      ∀ req m m1 m2, (ens.predict P row req m.length).run m = (.ok ⟨⟩, m1) → (ens.predict P row' req m.length).run m = (.ok ⟨⟩, m2) →
        ∀ k < K, ∃ a b, m1[k]? = some a ∧ m2[k]? = some b ∧ (a ≠ F64.nan → b ≠ F64.nan → Ordered up a b) := by
  obtain ⟨ens, h1, -, -, -, -, -, -, -, h2⟩ := C67_json_file P d K N M ts ok hK
  refine ⟨ens, h1, fun row row' hr req m m1 m2 hm1 hm2 k hk => ?_⟩
  obtain ⟨-, -, n, w, hu, ⟨v, hv, rfl⟩, hs⟩ := (h2 _ _ _ _).1 hm1
  obtain ⟨-, -, n', w', hu', ⟨v', hv', rfl⟩, hs'⟩ := (h2 _ _ _ _).1 hm2
  obtain rfl := Used.unique hu hu'
  refine stored_ordered hs hs' ?_ k (by simpa using hk)
  rw [List.forall₂_map_left_iff, List.forall₂_map_right_iff, List.forall₂_same]
  intro k hk
  have hk := List.mem_range.1 hk
  refine accumulate_ordered (c := fun _ => _) (fun i hi => monoAt_one hP) (fun i hi => ?_) (NOrdered.refl _ _)
  obtain ⟨t, p, ht, hw⟩ := hv i hi k hk
  obtain ⟨t', p', ht', hw'⟩ := hv' i hi k hk
  cases ht.symm.trans ht'
  exact j_tree_ordered hr (ho t (List.mem_of_getElem? ht)) hw hw'

/-! ### linear XGBoost models -/

theorem mul_neg_neg' (x c : F64) : F64.mul x.neg c.neg = F64.mul x c := by
  cases x <;> cases c <;> simp [F64.mul, F64.neg]

theorem fma_neg_neg (x c z : F64) : F64.fma x.neg c.neg z = F64.fma x c z := by
  cases x <;> cases c <;> cases z <;> simp [F64.fma, F64.mul, F64.neg]
  rename_i s _ _ t _ _ _ _ _
  cases s <;> cases t <;> simp [F64.toInt]

theorem zero_le_neg {c : F64} (h : F64.le c F64.zero = true) : F64.le F64.zero c.neg = true :=
  F64.le_trans (show F64.le F64.zero F64.zero.neg = true by decide +kernel) (F64.neg_le_neg h)

theorem mulAdd_neg_neg {P : Platform} (hP : Uniform P) (x c z : F64) : P.mulAdd x.neg c.neg z = P.mulAdd x c z := by
  rcases hP with h | h
  · rw [h, h, mul_neg_neg']
  · rw [h, h, fma_neg_neg]

theorem mulAdd_nan {P : Platform} (hP : Uniform P) (x z : F64) : P.mulAdd x F64.nan z = F64.nan := by
  rcases hP with h | h
  · rw [h]; cases x <;> rfl
  · rw [h]; cases x <;> rfl

/-- the same factors -/
theorem mulAdd_same {P : Platform} (hP : Uniform P) {up : Bool} (x c : F64) {z z' : F64} (hz : NOrdered up z z') :
    NOrdered up (P.mulAdd x c z) (P.mulAdd x c z') := by
  by_cases hc : c = F64.nan
  · intro h
    exact absurd (by rw [hc, mulAdd_nan hP]) h
  · rcases F64.le_total (x := F64.zero) (y := c) (by decide) hc with h | h
    · exact mulAdd_ordered (monoAt_nonneg hP h) (NOrdered.refl _ _) hz
    · rw [← mulAdd_neg_neg hP, ← mulAdd_neg_neg hP x c z']
      exact mulAdd_ordered (monoAt_nonneg hP (zero_le_neg h)) (NOrdered.refl _ _) hz

/-- a weight of the right sign -/
theorem mulAdd_signed {P : Platform} (hP : Uniform P) {up : Bool} {x x' c : F64} (hx : Le x x') (hc : Ordered up F64.zero c) {z z' : F64}
    (hz : NOrdered up z z') : NOrdered up (P.mulAdd x c z) (P.mulAdd x' c z') := by
  cases up
  · rw [← mulAdd_neg_neg hP, ← mulAdd_neg_neg hP x' c z']
    refine mulAdd_ordered (monoAt_nonneg hP (zero_le_neg ((F64.le_iff _ _).2 hc))) (fun _ _ => ?_) hz
    exact (F64.le_iff _ _).1 (F64.neg_le_neg ((F64.le_iff _ _).2 hx))
  · exact mulAdd_ordered (monoAt_nonneg hP ((F64.le_iff _ _).2 hc)) (fun _ _ => hx) hz

theorem lin_ordered {P : Platform} (hP : Uniform P) {up : Bool} {x x' c : Nat → F64} {z : F64} : ∀ {n : Nat},
    (∀ i < n, x i = x' i ∨ (Le (x i) (x' i) ∧ Ordered up F64.zero (c i))) →
    NOrdered up (accumulate (fun i acc => P.mulAdd (x i) (c i) acc) n z) (accumulate (fun i acc => P.mulAdd (x' i) (c i) acc) n z)
  | 0, _ => NOrdered.refl _ _
  | n + 1, h => by
    rw [accumulate_add_one, accumulate_add_one]
    have ih := lin_ordered hP (z := z) (n := n) fun i hi => h i (by omega)
    rcases h n (by omega) with e | ⟨h1, h2⟩
    · rw [e]
      exact mulAdd_same hP _ _ ih
    · exact mulAdd_signed hP h1 h2 ih

/-- **C79, linear XGBoost files.** Raising a feature whose weights are not negative does not lower a prediction, raising a feature
whose weights are not positive does not raise one. -/
theorem C79_linear_file (P : Platform) (m : XgLinFile) (K F : Nat) (ok : m.OK P.maxAlloc K F) (lt : Bool) (tr : Transform)
    (ho : XgObjective K m.header.nameObj lt tr) (hlog : tr = .logistic → K = 1) (hP : Uniform P)
    (hexp : tr = .logistic → ExpNonneg P ∧ ExpMono P ∧ P.exp F64.nan = F64.nan) (up : Bool) (f : Nat) (hc : LinObeys m K up f) :
    ∃ ens, (∀ rest, xgbLinearFromReader P lt (m.image ++ rest) = .ok (ens, rest)) ∧ ∀ x y row row', Raised f x y row row' →
      ∀ req s s1 s2, (ens.predict P row req s.length).run s = (.ok ⟨⟩, s1) → (ens.predict P row' req s.length).run s = (.ok ⟨⟩, s2) →
        ∀ k < K, ∃ a b, s1[k]? = some a ∧ s2[k]? = some b ∧ (a ≠ F64.nan → b ≠ F64.nan → Ordered up a b) := by
  obtain ⟨ens, h1, -, -, -, -, -, -, h2⟩ := C62_linear_file P m K F ok lt tr ho hlog
  refine ⟨ens, h1, fun x y row row' hr req s s1 s2 hs1 hs2 k hk => ?_⟩
  obtain ⟨-, -, w, out, ⟨u, c, hu, hcw, rfl⟩, ht, hs⟩ := (h2 _ _ _ _).1 hs1
  obtain ⟨-, -, w', out', ⟨u', c', hu', hcw', rfl⟩, ht', hs'⟩ := (h2 _ _ _ _).1 hs2
  have hcc : ∀ i ≤ F, ∀ k < K, c' i k = c i k := by
    intro i hi k hk
    obtain ⟨b, hb, e⟩ := hcw i hi k hk
    obtain ⟨b', hb', e'⟩ := hcw' i hi k hk
    cases hb.symm.trans hb'
    rw [e, e']
  have hord : List.Forall₂ (NOrdered up)
      ((List.range K).map fun k => accumulate (fun i acc => P.mulAdd (u i) (c i k) acc) F (F64.add (F64.ofBits32 m.header.param.baseScore) (c F k)))
      ((List.range K).map fun k => accumulate (fun i acc => P.mulAdd (u' i) (c' i k) acc) F (F64.add (F64.ofBits32 m.header.param.baseScore) (c' F k))) := by
    rw [List.forall₂_map_left_iff, List.forall₂_map_right_iff, List.forall₂_same]
    intro k hk
    have hk := List.mem_range.1 hk
    rw [hcc F le_rfl k hk, accumulate_congr (f := fun i acc => P.mulAdd (u' i) (c' i k) acc) (g := fun i acc => P.mulAdd (u' i) (c i k) acc) _
      (fun i hi z => by rw [hcc i (by omega) k hk])]
    refine lin_ordered hP fun i hi => ?_
    by_cases hf : i = f
    · subst hf
      obtain ⟨e1, e2, hle, -⟩ := hr
      cases (hu i hi).symm.trans e1
      cases (hu' i hi).symm.trans e2
      obtain ⟨b, hb, e⟩ := hcw i (by omega) k hk
      exact .inr ⟨hle, by rw [e]; exact hc k hk b hb⟩
    · have := hr.2.2.2 i hf
      rw [hu i hi, hu' i hi] at this
      exact .inl (Option.some.inj this)
  cases ho with
  | raw =>
    obtain rfl := show out = _ from ht
    obtain rfl := show out' = _ from ht'
    exact stored_ordered hs hs' hord k (by simpa using hk)
  | logistic =>
    obtain ⟨e1, e2, e3⟩ := hexp rfl
    refine stored_ordered hs hs' (logistic_ordered e1 e2 e3 hord ht ht') k ?_
    obtain ⟨a, -, rfl⟩ := ht
    have := hlog rfl
    simp only [List.length_singleton]
    omega

/-! ### concrete cases -/

namespace MonotoneExample

open LgExample (platform)
open LgLoadExample (d1 d2 print)

theorem ordered_of_le {x y : F64} (h : F64.le x y = true) : Ordered true x y := (F64.le_iff x y).1 h

/-- The tree of `LgExample` grows with its first feature: below the root, 10 and 20 are on the left, 30 and 40 on the right. -/
theorem d1_obeys (x y : F64) (hx : x ≠ F64.nan) (hy : y ≠ F64.nan) : d1.Obeys true 0 x y where
  leaves := fun _ => by
    have le : ∀ k ∈ [0, 1], ∀ k' ∈ [2, 3], ∀ v v', d1.leafValues[k]? = some v → d1.leafValues[k']? = some v' → Ordered true v v' := by
      intro k hk k' hk' v v' h h'
      have e : ∀ k ∈ [0, 1], ∀ k' ∈ [2, 3], ∀ v ∈ d1.leafValues[k]?, ∀ v' ∈ d1.leafValues[k']?, F64.le v v' = true := by decide +kernel
      exact ordered_of_le (e k hk k' hk' v h v' h')
    refine ⟨fun _ => le, ⟨?_, trivial, trivial⟩, ?_, trivial, trivial⟩
    · rintro ⟨rule, d, thr, m, h1, h2, -⟩
      cases h2
    · intro _ k hk k' hk' v v' h h'
      obtain rfl := List.mem_singleton.1 hk
      obtain rfl := List.mem_singleton.1 hk'
      cases h
      cases h'
      exact ordered_of_le (by decide +kernel)
  numerical := by
    rintro _ i hi rule ⟨d, thr, m, h1, h2, -, hm, h4⟩
    have : i = 0 ∨ i = 2 ∨ i = 1 := by simpa [d1, LgExample.tree, BTree.inner] using hi
    rcases this with rfl | rfl | rfl
    · cases h1
      rcases h4 with ⟨-, rfl⟩ | ⟨h, -⟩
      · have : m = .nan := by unfold MissingOf at hm; revert hm; cases m <;> decide
        subst this
        exact ⟨_, rfl, hx, hy⟩
      · cases h
    · cases h1
      rcases h4 with ⟨-, rfl⟩ | ⟨h, -⟩
      · have : m = .none := by unfold MissingOf at hm; revert hm; cases m <;> decide
        subst this
        exact ⟨_, rfl, id, id⟩
      · cases h
    · cases h2

theorem d2_obeys (x y : F64) : d2.Obeys true 0 x y where
  leaves := fun h => absurd rfl h
  numerical := fun h => absurd rfl h

/-- The theorem applies: raising the first feature of a row never lowers a score. -/
example (tail : Str) (x y : F64) (hle : Le x y) : ∃ ens,
    lgEnsembleFromReader platform ⟨modelText print [d1, d2] 2 1 false ++ tail, false⟩ false = .ok (ens, ⟨tail, false⟩) ∧
    ∀ row row', Raised 0 x y row row' → ∀ req m m1 m2, (ens.predict platform row req m.length).run m = (.ok ⟨⟩, m1) →
      (ens.predict platform row' req m.length).run m = (.ok ⟨⟩, m2) →
        ∀ k < 2, ∃ a b, m1[k]? = some a ∧ m2[k]? = some b ∧ (a ≠ F64.nan → b ≠ F64.nan → Ordered true a b) := by
  obtain ⟨header, rest0, blocks, h1, h2, h3, h4⟩ := modelText_blocks (M := 1) tail 2 false (by norm_num) LgLoadExample.ds_ok
  refine C79_text_file platform print _ _ tail _ false false _ [d1, d2] 2 1 1 false (by norm_num) le_rfl rfl h1 h2 h3 h4
    (fun d hd => ⟨(LgLoadExample.ds_ok d hd).1, (LgLoadExample.ds_ok d hd).2.2⟩) ⟨fun _ _ _ => .inl rfl, fun h => by cases h⟩ true 0 x y ?_
  intro d hd
  simp only [List.mem_cons, List.not_mem_nil, or_false] at hd
  rcases hd with rfl | rfl
  · exact d1_obeys x y (Le.left_ne_nan hle) (Le.right_ne_nan hle)
  · exact d2_obeys x y

/-- A 'dart' file: feature 0 is tested once, with leaf -1 on the left and 3 on the right. -/
example : ∃ ens, (∀ rest, xgEnsembleFromReader Platform.demo false ((XgFileExample.file 1#32).image ++ rest) = .ok (ens, rest)) ∧
    ∀ x y row row', Raised 0 x y row row' → ∀ req s s1 s2, (ens.predict Platform.demo row req s.length).run s = (.ok ⟨⟩, s1) →
      (ens.predict Platform.demo row' req s.length).run s = (.ok ⟨⟩, s2) →
        ∀ k < 1, ∃ a b, s1[k]? = some a ∧ s2[k]? = some b ∧ (a ≠ F64.nan → b ≠ F64.nan → Ordered true a b) := by
  refine C79_xgboost_file Platform.demo (XgFileExample.file 1#32) 1 2 XgFileExample.file_ok false (.raw 1) .raw (fun h => by cases h)
    ⟨fun _ _ _ => .inl rfl, fun _ => ⟨.inl fun _ _ _ => rfl, fun b hb => (F64.le_iff _ _).1 ?_⟩⟩ (fun h => by cases h) true 0 ?_
  · have : b = 0x3f800000#32 ∨ b = 0x3f000000#32 := by simpa [XgFileExample.file] using hb
    rcases this with rfl | rfl <;> decide +kernel
  · intro i t T ht hT
    match i with
    | 0 =>
      cases ht
      cases hT
      refine ⟨?_, trivial, ?_, trivial, trivial⟩
      · rintro ⟨n, hn, h⟩
        cases hn
        exact absurd h (by decide)
      · intro _ k hk k' hk' v v' h h'
        obtain rfl := List.mem_singleton.1 hk
        obtain rfl := List.mem_singleton.1 hk'
        obtain ⟨n, hn, e⟩ := h
        obtain ⟨n', hn', e'⟩ := h'
        cases hn
        cases hn'
        rw [e, e']
        exact ordered_of_le (by decide +kernel)
    | 1 =>
      cases hT
      exact True.intro
    | i + 2 => cases ht

/-- A linear file with weights 1 and 2. -/
example : ∃ ens, (∀ rest, xgbLinearFromReader Platform.demo false (XgFileExample.linFile.image ++ rest) = .ok (ens, rest)) ∧
    ∀ x y row row', Raised 1 x y row row' → ∀ req s s1 s2, (ens.predict Platform.demo row req s.length).run s = (.ok ⟨⟩, s1) →
      (ens.predict Platform.demo row' req s.length).run s = (.ok ⟨⟩, s2) →
        ∀ k < 1, ∃ a b, s1[k]? = some a ∧ s2[k]? = some b ∧ (a ≠ F64.nan → b ≠ F64.nan → Ordered true a b) := by
  refine C79_linear_file Platform.demo XgFileExample.linFile 1 2 XgFileExample.linFile_ok false (.raw 1) .raw (fun h => by cases h)
    (.inl fun _ _ _ => rfl) (fun h => by cases h) true 1 ?_
  intro k hk b hb
  obtain rfl : k = 0 := by omega
  cases hb
  exact ordered_of_le (by decide +kernel)

/-- The pickle of `SkModelExample`: both features are increasing; feature 1 is tested at the root, with leaves 10 and 20 on the left
and 30 on the right. -/
example : ∃ ens, (∀ rest lt, skEnsembleFromReader Platform.demo ((SkModelExample.value 2).dump SkModelExample.print ++ octet '.' :: rest) lt = .ok ens) ∧
    ∀ x y row row', Raised 1 x y row row' → ∀ req s s1 s2, (ens.predict Platform.demo row req s.length).run s = (.ok ⟨⟩, s1) →
      (ens.predict Platform.demo row' req s.length).run s = (.ok ⟨⟩, s2) →
        ∀ k < (SkModelExample.model 2).groups, ∃ a b, s1[k]? = some a ∧ s2[k]? = some b ∧ (a ≠ F64.nan → b ≠ F64.nan → Ordered true a b) := by
  refine C79_sklearn_file Platform.demo _ _ _ (dump_dumps _ (SkModelExample.writable 2 ⟨by decide, by decide⟩)) _
    (SkModelExample.is_classifier 2) (SkModelExample.model_ok 2) (.inl fun _ _ _ => rfl) ((F64.le_iff _ _).1 (by decide +kernel)) true 1 ?_
  have h0 : SkObeys SkExample.tree SkExample.shape true 1 := by
    refine ⟨fun _ k hk k' hk' v v' h h' => ?_, ⟨?_, trivial, trivial⟩, trivial⟩
    · have e : ∀ k ∈ [2, 3], ∀ k' ∈ [4], ∀ v ∈ SkExample.tree.values[k]?, ∀ v' ∈ SkExample.tree.values[k']?, F64.le v v' = true := by
        decide +kernel
      exact ordered_of_le (e k hk k' hk' v h v' h')
    · rintro ⟨n, hn, h⟩
      cases hn
      cases h
  intro i t T ht hT
  match i with
  | 0 => cases ht; cases hT; exact h0
  | 1 => cases ht; cases hT; exact h0
  | i + 2 => cases ht

/-- The same tree as nested objects. -/
example (x y : F64) (hx : x ≠ F64.nan) (hy : y ≠ F64.nan) : JObeys true 0 x y JsonModelExample.root1 := by
  have e : ∀ v ∈ [F64.ofNat 10, F64.ofNat 20], ∀ v' ∈ [F64.ofNat 30, F64.ofNat 40], F64.le v v' = true := by decide +kernel
  refine ⟨fun _ => ⟨fun v hv v' hv' => ordered_of_le (e v hv v' hv'), fun rule h => ?_⟩, ⟨(fun (h : 1 = 0) => absurd h (by decide)), trivial, trivial⟩,
    fun _ => ⟨fun v hv v' hv' => ?_, fun rule h => ?_⟩, trivial, trivial⟩
  · cases h with
    | num t dl mt m hm =>
      rcases hm with ⟨h, -⟩ | ⟨h, -⟩ | ⟨-, rfl⟩
      · exact absurd h (by decide)
      · exact absurd h (by decide)
      · exact ⟨_, rfl, hx, hy⟩
  · obtain rfl := List.mem_singleton.1 hv
    obtain rfl := List.mem_singleton.1 hv'
    exact ordered_of_le (by decide +kernel)
  · cases h with
    | num t dl mt m hm =>
      rcases hm with ⟨-, rfl⟩ | ⟨h, -⟩ | ⟨h, -⟩
      · exact ⟨_, rfl, id, id⟩
      · exact absurd h (by decide)
      · exact absurd h (by decide)

/-- a single split that sends values close to zero to the right -/
def zeroText : Str :=
"tree
version=v3
num_class=1
num_tree_per_iteration=1
max_feature_idx=1
tree_sizes=0

num_leaves=2
num_cat=0
split_feature=0
threshold=5
decision_type=4
left_child=-1
right_child=-2
leaf_value=10 20

".toList

/-- Why values that count as missing are excluded: the leaves of this file grow with the first feature, but raising it from 0 (missing,
sent to the right) to 5 lowers the score from 20 to 10. -/
theorem C79_missing_breaks : ∃ ens, lgEnsembleFromReader platform ⟨zeroText, false⟩ false = .ok (ens, ⟨[], false⟩) ∧
    Raised 0 F64.zero (F64.ofNat 5) [F64.zero, F64.zero] [F64.ofNat 5, F64.zero] ∧
    (ens.predict platform [F64.zero, F64.zero] 0 1).run [F64.zero] = (.ok ⟨⟩, [F64.ofNat 20]) ∧
    (ens.predict platform [F64.ofNat 5, F64.zero] 0 1).run [F64.zero] = (.ok ⟨⟩, [F64.ofNat 10]) := by
  let t : LgTree := { nodes := [⟨F64.ofNat 5, 0, 1, 0, 0x1c#8⟩], leafValues := [F64.ofNat 10, F64.ofNat 20] }
  let lgm : LgEnsemble := { trees := [t], maxFeatureIdx := 1, nRawOutputGroups := 1, name := "lightgbm.gbdt" }
  refine ⟨⟨.lg lgm, .raw 1⟩, by decide +kernel, ⟨rfl, rfl, (F64.le_iff _ _).1 (by decide +kernel), fun g hg => ?_⟩, by decide +kernel, by decide +kernel⟩
  match g with
  | 0 => exact absurd rfl hg
  | g + 1 => rfl

end MonotoneExample

end Leaves
