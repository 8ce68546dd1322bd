import Verif.Proofs.GoM
import Verif.Spec.Output
import Verif.Model.Predict

/-! The prediction loops compute the specified outputs on a window of their own. -/

namespace Leaves

open Spec GoM

theorem foldRange_eq {σ : Type} (f : Nat → σ → σ) (s c : Nat) (a : σ) :
    foldRange f s c a = (List.range' s c).foldl (fun acc i => f i acc) a := by
  induction c generalizing s a with
  | zero => rfl
  | succ c ih => rw [foldRange, ih, List.range'_succ]; rfl

theorem foldRange_zero (f : Nat → F64 → F64) (n : Nat) (a : F64) : foldRange f 0 n a = accumulate f n a := by
  rw [foldRange_eq, accumulate, List.range_eq_range']

theorem idxI_cell {α : Type} (l : List α) (i G k : Nat) :
    Res.idxI l ((i : Int) * (G : Int) + (k : Int)) = Res.idx l (i * G + k) := by
  rw [show ((i : Int) * (G : Int) + (k : Int)) = ((i * G + k : Nat) : Int) by push_cast; ring, Res.idxI_ofNat]

theorem set_cell {n k : Nat} (h : k < n) (a : Nat → F64) (v : F64) :
    (GoM.set (0 + (k : Int)) v).run (vec n a) = (.ok ⟨⟩, vec n (Function.update a k v)) := by
  rw [run_set (by simp; omega), Int.zero_add, Int.toNat_natCast, vec_set]

theorem get_cell {n k : Nat} (h : k < n) (a : Nat → F64) :
    (GoM.get (0 + (k : Int))).run (vec n a) = (.ok (a k), vec n a) := by
  rw [run_get (by simp; omega), Int.zero_add, Int.toNat_natCast, vec_getD h]

theorem fill_run {n : Nat} (v : F64) (a : Nat → F64) :
    (forRange (fun k => GoM.set (0 + (k : Int)) v) 0 n).run (vec n a) = (.ok ⟨⟩, vec n fun _ => v) :=
  run_forRange_vec _ (fun _ _ => v) a (fun _ hk a => set_cell hk a v)

/-! ### tree values are determined by the run -/

/-- the value of a tree, if any -/
def treeVal (P : Platform) (trees : List LgTree) (fvals : List F64) (id : Nat) : Res (F64 × Nat) :=
  Res.idx trees id >>= fun t => t.predict P fvals

theorem treeVal_ok {P : Platform} {trees : List LgTree} {fvals : List F64} {id : Nat} {x : F64 × Nat} :
    treeVal P trees fvals id = .ok x ↔ ∃ t, trees[id]? = some t ∧ t.predict P fvals = .ok x := by
  unfold treeVal
  rw [Res.bind_eq_ok]
  simp only [Res.idx_eq_ok]

/-- read off the values -/
theorem treeValues_of (P : Platform) (trees : List LgTree) (G n : Nat) (fvals : List F64)
    (h : ∀ i < n, ∀ k < G, ∃ x, treeVal P trees fvals (i * G + k) = .ok x) :
    ∃ v l, TreeValues P trees G n fvals v ∧ TreeLeaves P trees G n fvals l := by
  let x : Nat → Nat → F64 × Nat := fun i k =>
    match treeVal P trees fvals (i * G + k) with
    | .ok y => y
    | _ => (.zero, 0)
  refine ⟨fun i k => (x i k).1, fun i k => (x i k).2, ?_, ?_⟩ <;> intro i hi k hk <;>
    obtain ⟨y, hy⟩ := h i hi k hk <;>
    have hx : x i k = y := by simp only [x, hy]
  · obtain ⟨t, h1, h2⟩ := treeVal_ok.1 hy
    exact ⟨t, y.2, h1, by dsimp only; rw [hx]; exact h2⟩
  · obtain ⟨t, h1, h2⟩ := treeVal_ok.1 hy
    exact ⟨t, y.1, h1, by dsimp only; rw [hx]; exact h2⟩

/-! ### LightGBM -/

theorem lg_body_run {P : Platform} {trees : List LgTree} {fvals : List F64} {G i k : Nat} (hk : k < G) (a : Nat → F64)
    (c : F64) {t : LgTree} {v : F64} {j : Nat} (ht : trees[i * G + k]? = some t) (hp : t.predict P fvals = .ok (v, j)) :
    (do
      let t ← ofRes (Res.idxI trees ((i : Int) * (G : Int) + (k : Int)))
      let (pred, _) ← ofRes (t.predict P fvals)
      let old ← get (0 + (k : Int))
      set (0 + (k : Int)) (P.mulAdd pred c old) : GoM Unit).run (vec G a) =
      (.ok ⟨⟩, vec G (Function.update a k (P.mulAdd v c (a k)))) := by
  rw [idxI_cell, Res.idx_eq_ok.2 ht]
  simp only [ofRes_ok, ret_bind, hp]
  rw [run_bind, get_cell hk]
  exact set_cell hk a _

theorem lg_inner_run {P : Platform} {e : LgEnsemble} {fvals : List F64} {G n : Nat} (hG : e.nRawOutputGroups = G)
    {v : Nat → Nat → F64} (hv : TreeValues P e.trees G n fvals v) (a : Nat → F64) :
    (e.predictInner P fvals n 0).run (vec G a) = (.ok ⟨⟩, vec G fun k => accumulate
      (fun i acc => P.mulAdd (v i k) (if e.averageOutput then F64.div F64.one (F64.ofNat n) else F64.one) acc) n F64.zero) := by
  unfold LgEnsemble.predictInner
  rw [hG, run_bind, Int.toNat_natCast, fill_run, andThen_ok, Int.toNat_natCast]
  rw [run_forRange_fold (n := G) _
    (fun i k acc => P.mulAdd (v i k) (if e.averageOutput then F64.div F64.one (F64.ofInt n) else F64.one) acc)]
  · congr 1
    apply vec_congr
    intro k _
    rw [foldRange_zero]
    rfl
  · intro i _ hi a
    refine run_forRange_vec _ (fun k acc => P.mulAdd (v i k) _ acc) a ?_
    intro k hk a
    obtain ⟨t, j, ht, hp⟩ := hv i (by omega) k hk
    exact lg_body_run hk a _ ht hp

theorem lg_inner_conv {P : Platform} {e : LgEnsemble} {fvals : List F64} {G n : Nat} (hG : e.nRawOutputGroups = G)
    {m m' : List F64} (h : (e.predictInner P fvals n 0).run m = (.ok ⟨⟩, m')) :
    ∃ v, TreeValues P e.trees G n fvals v := by
  unfold LgEnsemble.predictInner at h
  rw [hG, run_bind_ok] at h
  obtain ⟨_, m1, _, h⟩ := h
  obtain ⟨v, _, hv, _⟩ := treeValues_of P e.trees G n fvals (fun i hi k hk => by
    obtain ⟨m2, m3, _, h2⟩ := forRange_ok h i (Nat.zero_le _) (by omega)
    obtain ⟨m4, m5, _, h3⟩ := forRange_ok h2 k (Nat.zero_le _) (by omega)
    rw [idxI_cell, run_bind_ok] at h3
    obtain ⟨t, m6, h4, h3⟩ := h3
    rw [run_ofRes] at h4
    rw [run_bind_ok] at h3
    obtain ⟨x, m7, h5, _⟩ := h3
    rw [run_ofRes] at h5
    exact ⟨x, by unfold treeVal; rw [(Prod.mk.inj h4).1]; exact (Prod.mk.inj h5).1⟩)
  exact ⟨v, hv⟩

theorem lg_inner_within (P : Platform) {e : LgEnsemble} (fvals : List F64) {G : Nat} (n : Int) (hG : e.nRawOutputGroups = G) :
    Within 0 G (e.predictInner P fvals n 0) := by
  unfold LgEnsemble.predictInner
  rw [hG]
  refine Within.bind (Within.forRange fun k _ hk => Within.set (by omega)) fun _ => ?_
  refine Within.forRange fun i _ _ => Within.forRange fun k _ hk => ?_
  refine Within.bind (Within.ofRes _) fun t => Within.bind (Within.ofRes _) fun x => ?_
  exact Within.bind (Within.get (by omega)) fun _ => Within.set (by omega)

theorem lg_inner_shift (P : Platform) (e : LgEnsemble) (fvals : List F64) (n s : Int) :
    e.predictInner P fvals n s = shift s (e.predictInner P fvals n 0) := by
  unfold LgEnsemble.predictInner
  simp only [shift_bind, shift_forRange, shift_ofRes, shift_get, shift_set, Int.zero_add]

/-! ### XGBoost trees -/

theorem xg_inner_run {P : Platform} {e : XgEnsemble} {fvals : List F64} {G n : Nat} (hG : e.nRawOutputGroups = G)
    {v c : Nat → Nat → F64} (hv : TreeValues P e.trees G n fvals v)
    (hc : ∀ i < n, ∀ k < G, e.weightDrop[i * G + k]? = some (c i k)) (a : Nat → F64) :
    (e.predictInner P fvals n 0).run (vec G a) = (.ok ⟨⟩, vec G fun k => accumulate
      (fun i acc => P.mulAdd (v i k) (c i k) acc) n e.baseScore) := by
  unfold XgEnsemble.predictInner
  rw [hG, run_bind, Int.toNat_natCast, fill_run, andThen_ok, Int.toNat_natCast]
  rw [run_forRange_fold (n := G) _ (fun i k acc => P.mulAdd (v i k) (c i k) acc)]
  · congr 1
    apply vec_congr
    intro k _
    rw [foldRange_zero]
  · intro i _ hi a
    refine run_forRange_vec _ (fun k acc => P.mulAdd (v i k) (c i k) acc) a ?_
    intro k hk a
    obtain ⟨t, j, ht, hp⟩ := hv i (by omega) k hk
    simp only [idxI_cell, Res.idx_eq_ok.2 ht, Res.idx_eq_ok.2 (hc i (by omega) k hk), ofRes_ok, ret_bind, hp]
    rw [run_bind, get_cell hk]
    exact set_cell hk a _

theorem res_get_of {α : Type} [Inhabited α] (l : List α) (n : Nat) (f : Nat → Nat → Nat) (G : Nat)
    (h : ∀ i < n, ∀ k < G, ∃ x, Res.idx l (f i k) = .ok x) : ∃ c : Nat → Nat → α, ∀ i < n, ∀ k < G, l[f i k]? = some (c i k) := by
  refine ⟨fun i k => (l[f i k]?).getD default, fun i hi k hk => ?_⟩
  obtain ⟨x, hx⟩ := h i hi k hk
  rw [Res.idx_eq_ok] at hx
  dsimp only
  rw [hx]; rfl

instance : Inhabited F64 := ⟨F64.zero⟩

theorem xg_inner_conv {P : Platform} {e : XgEnsemble} {fvals : List F64} {G n : Nat} (hG : e.nRawOutputGroups = G)
    {m m' : List F64} (h : (e.predictInner P fvals n 0).run m = (.ok ⟨⟩, m')) :
    ∃ v c : Nat → Nat → F64, TreeValues P e.trees G n fvals v ∧ ∀ i < n, ∀ k < G, e.weightDrop[i * G + k]? = some (c i k) := by
  unfold XgEnsemble.predictInner at h
  rw [hG, run_bind_ok] at h
  obtain ⟨_, m1, _, h⟩ := h
  have key : ∀ i < n, ∀ k < G, (∃ x, treeVal P e.trees fvals (i * G + k) = .ok x) ∧
      ∃ y, Res.idx e.weightDrop (i * G + k) = .ok y := by
    intro i hi k hk
    obtain ⟨m2, m3, _, h2⟩ := forRange_ok h i (Nat.zero_le _) (by omega)
    obtain ⟨m4, m5, _, h3⟩ := forRange_ok h2 k (Nat.zero_le _) (by omega)
    dsimp only at h3
    rw [idxI_cell, idxI_cell, run_bind_ok] at h3
    obtain ⟨t, m6, h4, h3⟩ := h3
    rw [run_ofRes] at h4
    rw [run_bind_ok] at h3
    obtain ⟨x, m7, h5, h3⟩ := h3
    rw [run_ofRes] at h5
    rw [run_bind_ok] at h3
    obtain ⟨o, m8, _, h3⟩ := h3
    rw [run_bind_ok] at h3
    obtain ⟨y, m9, h6, _⟩ := h3
    rw [run_ofRes] at h6
    exact ⟨⟨x, by unfold treeVal; rw [(Prod.mk.inj h4).1]; exact (Prod.mk.inj h5).1⟩, y, (Prod.mk.inj h6).1⟩
  obtain ⟨v, _, hv, _⟩ := treeValues_of P e.trees G n fvals (fun i hi k hk => (key i hi k hk).1)
  obtain ⟨c, hc⟩ := res_get_of e.weightDrop n (fun i k => i * G + k) G (fun i hi k hk => (key i hi k hk).2)
  exact ⟨v, c, hv, hc⟩

theorem xg_inner_within (P : Platform) {e : XgEnsemble} (fvals : List F64) {G : Nat} (n : Int) (hG : e.nRawOutputGroups = G) :
    Within 0 G (e.predictInner P fvals n 0) := by
  unfold XgEnsemble.predictInner
  rw [hG]
  refine Within.bind (Within.forRange fun k _ hk => Within.set (by omega)) fun _ => ?_
  refine Within.forRange fun i _ _ => Within.forRange fun k _ hk => ?_
  refine Within.bind (Within.ofRes _) fun t => Within.bind (Within.ofRes _) fun x => ?_
  exact Within.bind (Within.get (by omega)) fun _ => Within.bind (Within.ofRes _) fun _ => Within.set (by omega)

theorem xg_inner_shift (P : Platform) (e : XgEnsemble) (fvals : List F64) (n s : Int) :
    e.predictInner P fvals n s = shift s (e.predictInner P fvals n 0) := by
  unfold XgEnsemble.predictInner
  simp only [shift_bind, shift_forRange, shift_ofRes, shift_get, shift_set, Int.zero_add]

/-! ### linear models -/

/-- a loop that keeps updating one cell -/
theorem run_forRange_cell {n k : Nat} (body : Nat → GoM Unit) (f : Nat → F64 → F64) :
    ∀ (c s : Nat) (a : Nat → F64),
      (∀ i, s ≤ i → i < s + c → ∀ a, (body i).run (vec n a) = (.ok ⟨⟩, vec n (Function.update a k (f i (a k))))) →
      (forRange body s c).run (vec n a) = (.ok ⟨⟩, vec n (Function.update a k (foldRange f s c (a k)))) := by
  intro c
  induction c with
  | zero => intro s a _; rw [forRange, run_ret]; simp [foldRange]
  | succ c ih =>
    intro s a hb
    rw [forRange, run_bind, hb s (Nat.le_refl _) (by omega), andThen_ok,
      ih (s + 1) _ (fun k h1 h2 => hb k (by omega) (by omega))]
    simp [foldRange]

theorem lin_inner_run {P : Platform} {e : XgLinear} {fvals : List F64} {G F : Nat} (hG : e.nRawOutputGroups = G)
    (hF : e.numFeature = F) {x : Nat → F64} {c : Nat → Nat → F64} {bias : Nat → F64} (hx : ∀ i < F, fvals[i]? = some (x i))
    (hc : ∀ i < F, ∀ k < G, e.weights[G * i + k]? = some (c i k)) (hb : ∀ k < G, e.weights[G * F + k]? = some (bias k))
    (n : Int) (a : Nat → F64) :
    (e.predictInner P fvals n 0).run (vec G a) = (.ok ⟨⟩, vec G fun k => accumulate
      (fun i acc => P.mulAdd (x i) (c i k) acc) F (F64.add e.baseScore (bias k))) := by
  unfold XgLinear.predictInner
  rw [hG, hF, Int.toNat_natCast, Int.toNat_natCast]
  have hm : ∀ (u v w : Nat), ((u : Int) * (v : Int) + (w : Int)) = ((u * v + w : Nat) : Int) := by intros; push_cast; ring
  refine run_forRange_vec _ (fun k _ => accumulate (fun i acc => P.mulAdd (x i) (c i k) acc) F (F64.add e.baseScore (bias k))) a ?_
  intro k hk a
  rw [hm, Res.idxI_ofNat, Res.idx_eq_ok.2 (hb k hk), ofRes_ok, ret_bind, run_bind, set_cell hk, andThen_ok,
    run_forRange_cell (k := k) _ (fun i acc => P.mulAdd (x i) (c i k) acc)]
  · congr 2
    simp only [Function.update_self, Function.update_idem]
    rw [foldRange_zero]
  · intro i _ hi a
    rw [run_bind, get_cell hk, andThen_ok, Res.idx_eq_ok.2 (hx i (by omega)), ofRes_ok, ret_bind, hm, Res.idxI_ofNat,
      Res.idx_eq_ok.2 (hc i (by omega) k hk), ofRes_ok, ret_bind, set_cell hk]

theorem lin_inner_conv {P : Platform} {e : XgLinear} {fvals : List F64} {G F : Nat} (hG : e.nRawOutputGroups = G)
    (hG0 : 0 < G) (hF : e.numFeature = F) {n : Int} {m m' : List F64} (h : (e.predictInner P fvals n 0).run m = (.ok ⟨⟩, m')) :
    ∃ (x : Nat → F64) (c : Nat → Nat → F64) (bias : Nat → F64), (∀ i < F, fvals[i]? = some (x i)) ∧
      (∀ i < F, ∀ k < G, e.weights[G * i + k]? = some (c i k)) ∧ (∀ k < G, e.weights[G * F + k]? = some (bias k)) := by
  unfold XgLinear.predictInner at h
  rw [hG, hF, Int.toNat_natCast, Int.toNat_natCast] at h
  have hm : ∀ (u v w : Nat), ((u : Int) * (v : Int) + (w : Int)) = ((u * v + w : Nat) : Int) := by intros; push_cast; ring
  have key : ∀ k < G, (∃ b, e.weights[G * F + k]? = some b) ∧ ∀ i < F, (∃ y, fvals[i]? = some y) ∧ ∃ z, e.weights[G * i + k]? = some z := by
    intro k hk
    obtain ⟨m2, m3, _, h2⟩ := forRange_ok h k (Nat.zero_le _) (by omega)
    rw [hm, Res.idxI_ofNat, run_bind_ok] at h2
    obtain ⟨b, m4, hb, h2⟩ := h2
    rw [run_ofRes] at hb
    refine ⟨⟨b, Res.idx_eq_ok.1 (Prod.mk.inj hb).1⟩, fun i hi => ?_⟩
    rw [run_bind_ok] at h2
    obtain ⟨_, m5, _, h2⟩ := h2
    obtain ⟨m6, m7, _, h3⟩ := forRange_ok h2 i (Nat.zero_le _) (by omega)
    rw [run_bind_ok] at h3
    obtain ⟨_, m8, _, h3⟩ := h3
    rw [run_bind_ok] at h3
    obtain ⟨y, m9, hy, h3⟩ := h3
    rw [run_ofRes] at hy
    rw [hm, Res.idxI_ofNat, run_bind_ok] at h3
    obtain ⟨z, m10, hz, _⟩ := h3
    rw [run_ofRes] at hz
    exact ⟨⟨y, Res.idx_eq_ok.1 (Prod.mk.inj hy).1⟩, ⟨z, Res.idx_eq_ok.1 (Prod.mk.inj hz).1⟩⟩
  refine ⟨fun i => (fvals[i]?).getD .zero, fun i k => (e.weights[G * i + k]?).getD .zero,
    fun k => (e.weights[G * F + k]?).getD .zero, fun i hi => ?_, fun i hi k hk => ?_, fun k hk => ?_⟩
  · obtain ⟨y, hy⟩ := ((key 0 hG0).2 i hi).1; dsimp only; rw [hy]; rfl
  · obtain ⟨y, hy⟩ := ((key k hk).2 i hi).2; dsimp only; rw [hy]; rfl
  · obtain ⟨y, hy⟩ := (key k hk).1; dsimp only; rw [hy]; rfl

theorem lin_inner_within (P : Platform) {e : XgLinear} (fvals : List F64) {G : Nat} (n : Int) (hG : e.nRawOutputGroups = G) :
    Within 0 G (e.predictInner P fvals n 0) := by
  unfold XgLinear.predictInner
  rw [hG]
  refine Within.forRange fun k _ hk => ?_
  refine Within.bind (Within.ofRes _) fun t => Within.bind (Within.set (by omega)) fun x => ?_
  refine Within.forRange fun i _ _ => Within.bind (Within.get (by omega)) fun _ => Within.bind (Within.ofRes _) fun _ =>
    Within.bind (Within.ofRes _) fun _ => Within.set (by omega)

theorem lin_inner_shift (P : Platform) (e : XgLinear) (fvals : List F64) (n s : Int) :
    e.predictInner P fvals n s = shift s (e.predictInner P fvals n 0) := by
  unfold XgLinear.predictInner
  simp only [shift_bind, shift_forRange, shift_ofRes, shift_get, shift_set, Int.zero_add]

/-! ### leaf indices -/

theorem cell_lt {k G n i : Nat} (hk : k < G) (hi : i < n) : k * n + i < G * n := by
  have : (k + 1) * n ≤ G * n := Nat.mul_le_mul_right _ hk
  rw [Nat.add_mul] at this
  omega

theorem cell_inj {n k i k' i' : Nat} (hi : i < n) (hi' : i' < n) (h : k * n + i = k' * n + i') : k = k' ∧ i = i' := by
  have h1 : (k * n + i) / n = k := by
    rw [Nat.add_comm, Nat.add_mul_div_right _ _ (by omega), Nat.div_eq_of_lt hi, Nat.zero_add]
  have h2 : (k' * n + i') / n = k' := by
    rw [Nat.add_comm, Nat.add_mul_div_right _ _ (by omega), Nat.div_eq_of_lt hi', Nat.zero_add]
  have : k = k' := by rw [← h1, h, h2]
  subst this
  exact ⟨rfl, by omega⟩

/-- a loop that stores one cell per iteration -/
theorem run_forRange_put {N : Nat} (body : Nat → GoM Unit) (pos : Nat → Nat) (val : Nat → F64) :
    ∀ (c s : Nat) (a : Nat → F64), (∀ k, s ≤ k → k < s + c → ∀ a, (body k).run (vec N a) =
        (.ok ⟨⟩, vec N (Function.update a (pos k) (val k)))) →
      (∀ k k', s ≤ k → k < s + c → s ≤ k' → k' < s + c → pos k = pos k' → k = k') →
      ∃ a', (forRange body s c).run (vec N a) = (.ok ⟨⟩, vec N a') ∧ (∀ k, s ≤ k → k < s + c → a' (pos k) = val k) ∧
        ∀ j, (∀ k, s ≤ k → k < s + c → j ≠ pos k) → a' j = a j := by
  intro c
  induction c with
  | zero => intro s a _ _; exact ⟨a, rfl, fun k h1 h2 => by omega, fun j _ => rfl⟩
  | succ c ih =>
    intro s a hb hinj
    obtain ⟨a', h1, h2, h3⟩ := ih (s + 1) (Function.update a (pos s) (val s)) (fun k g1 g2 => hb k (by omega) (by omega))
      (fun k k' g1 g2 g3 g4 => hinj k k' (by omega) (by omega) (by omega) (by omega))
    refine ⟨a', ?_, ?_, ?_⟩
    · rw [forRange, run_bind, hb s (Nat.le_refl _) (by omega), andThen_ok, h1]
    · intro k g1 g2
      by_cases hk : k = s
      · subst hk
        rw [h3 (pos k) (fun k' g3 g4 he => by have := hinj k k' (by omega) (by omega) (by omega) (by omega) he; omega)]
        simp
      · exact h2 k (by omega) (by omega)
    · intro j hj
      rw [h3 j (fun k g1 g2 => hj k (by omega) (by omega)), Function.update_of_ne (hj s (by omega) (by omega))]

theorem leaf_inner_run {P : Platform} {trees : List LgTree} {fvals : List F64} {G n : Nat}
    {l : Nat → Nat → Nat} (hl : TreeLeaves P trees G n fvals l) (a : Nat → F64) :
    ∃ b, (leafIndicesInner P trees G fvals n 0).run (vec (G * n) a) = (.ok ⟨⟩, vec (G * n) b) ∧
      ∀ i < n, ∀ k < G, b (k * n + i) = F64.ofNat (l i k) := by
  unfold leafIndicesInner
  have hmul : ((G : Int) * (n : Int)).toNat = G * n := by
    rw [show ((G : Int) * (n : Int)) = ((G * n : Nat) : Int) by push_cast; ring, Int.toNat_natCast]
  have hpos : ∀ i k : Nat, (0 : Int) + (k : Int) * (n : Int) + (i : Int) = 0 + ((k * n + i : Nat) : Int) := by
    intros; push_cast; ring
  dsimp only
  rw [run_bind, hmul, fill_run, andThen_ok, Int.toNat_natCast, Int.toNat_natCast]
  -- one estimator
  have hrow : ∀ i, i < n → ∀ a : Nat → F64, ∃ a', (forRange (fun k => (do
      let t ← ofRes (Res.idxI trees ((i : Int) * (G : Int) + (k : Int)))
      let (_, idx) ← ofRes (t.predict P fvals)
      set (0 + (k : Int) * (n : Int) + (i : Int)) (F64.ofNat idx) : GoM Unit)) 0 G).run (vec (G * n) a) = (.ok ⟨⟩, vec (G * n) a') ∧
      (∀ k < G, a' (k * n + i) = F64.ofNat (l i k)) ∧ ∀ j, (∀ k < G, j ≠ k * n + i) → a' j = a j := by
    intro i hi a
    obtain ⟨a', h1, h2, h3⟩ := run_forRange_put (N := G * n) (fun k => (do
      let t ← ofRes (Res.idxI trees ((i : Int) * (G : Int) + (k : Int)))
      let (_, idx) ← ofRes (t.predict P fvals)
      set (0 + (k : Int) * (n : Int) + (i : Int)) (F64.ofNat idx) : GoM Unit)) (fun k => k * n + i) (fun k => F64.ofNat (l i k)) G 0 a
      (by
        intro k _ hk a
        obtain ⟨t, x, ht, hp⟩ := hl i hi k (by omega)
        simp only [idxI_cell, Res.idx_eq_ok.2 ht, ofRes_ok, ret_bind, hp, hpos]
        exact set_cell (cell_lt (by omega) hi) a _)
      (fun k k' _ _ _ _ he => (cell_inj hi hi he).1)
    exact ⟨a', h1, fun k hk => h2 k (Nat.zero_le _) (by omega), fun j hj => h3 j (fun k _ hk => hj k (by omega))⟩
  -- all estimators
  have hall : ∀ (c s : Nat) (a : Nat → F64), s + c ≤ n → ∃ b, (forRange (fun i => forRange (fun k => (do
      let t ← ofRes (Res.idxI trees ((i : Int) * (G : Int) + (k : Int)))
      let (_, idx) ← ofRes (t.predict P fvals)
      set (0 + (k : Int) * (n : Int) + (i : Int)) (F64.ofNat idx) : GoM Unit)) 0 G) s c).run (vec (G * n) a) = (.ok ⟨⟩, vec (G * n) b) ∧
      (∀ i, s ≤ i → i < s + c → ∀ k < G, b (k * n + i) = F64.ofNat (l i k)) ∧
      ∀ j, (∀ i, s ≤ i → i < s + c → ∀ k < G, j ≠ k * n + i) → b j = a j := by
    intro c
    induction c with
    | zero => intro s a _; exact ⟨a, rfl, fun i h1 h2 => by omega, fun j _ => rfl⟩
    | succ c ih =>
      intro s a hs
      obtain ⟨a1, r1, p1, q1⟩ := hrow s (by omega) a
      obtain ⟨b, r2, p2, q2⟩ := ih (s + 1) a1 (by omega)
      refine ⟨b, ?_, ?_, ?_⟩
      · rw [forRange, run_bind, r1, andThen_ok, r2]
      · intro i h1 h2 k hk
        by_cases hi : i = s
        · subst hi
          rw [q2 _ (fun i' g1 g2 k' hk' he => by have := (cell_inj (by omega) (by omega) he).2; omega), p1 k hk]
        · exact p2 i (by omega) (by omega) k hk
      · intro j hj
        rw [q2 j (fun i g1 g2 k hk => hj i (by omega) (by omega) k hk), q1 j (fun k hk => hj s (by omega) (by omega) k hk)]
  obtain ⟨b, r, p, _⟩ := hall n 0 (fun _ => F64.zero) (by omega)
  exact ⟨b, r, fun i hi k hk => p i (Nat.zero_le _) (by omega) k hk⟩

theorem leaf_inner_conv {P : Platform} {trees : List LgTree} {fvals : List F64} {G n : Nat}
    {m m' : List F64} (h : (leafIndicesInner P trees G fvals n 0).run m = (.ok ⟨⟩, m')) :
    ∃ l, TreeLeaves P trees G n fvals l := by
  unfold leafIndicesInner at h
  dsimp only at h
  rw [run_bind_ok] at h
  obtain ⟨_, m1, _, h⟩ := h
  obtain ⟨_, l, _, hl⟩ := treeValues_of P trees G n fvals (fun i hi k hk => by
    obtain ⟨m2, m3, _, h2⟩ := forRange_ok h i (Nat.zero_le _) (by omega)
    obtain ⟨m4, m5, _, h3⟩ := forRange_ok h2 k (Nat.zero_le _) (by omega)
    rw [idxI_cell, run_bind_ok] at h3
    obtain ⟨t, m6, h4, h3⟩ := h3
    rw [run_ofRes] at h4
    rw [run_bind_ok] at h3
    obtain ⟨x, m7, h5, _⟩ := h3
    rw [run_ofRes] at h5
    exact ⟨x, by unfold treeVal; rw [(Prod.mk.inj h4).1]; exact (Prod.mk.inj h5).1⟩)
  exact ⟨l, hl⟩

theorem leaf_inner_within (P : Platform) (trees : List LgTree) (fvals : List F64) (G n : Nat) :
    Within 0 (G * n : Nat) (leafIndicesInner P trees G fvals n 0) := by
  unfold leafIndicesInner
  have hmul : ((G : Int) * (n : Int)).toNat = G * n := by
    rw [show ((G : Int) * (n : Int)) = ((G * n : Nat) : Int) by push_cast; ring, Int.toNat_natCast]
  dsimp only
  rw [hmul]
  refine Within.bind (Within.forRange fun k _ hk => Within.set (by omega)) fun _ => ?_
  refine Within.forRange fun i _ hi => Within.forRange fun k _ hk => ?_
  refine Within.bind (Within.ofRes _) fun t => Within.bind (Within.ofRes _) fun x => Within.set ?_
  have := cell_lt (k := k) (G := G) (n := n) (i := i) (by omega) (by omega)
  rw [show (0 : Int) + (k : Int) * (n : Int) + (i : Int) = ((k * n + i : Nat) : Int) by push_cast; ring]
  omega

theorem leaf_inner_shift (P : Platform) (trees : List LgTree) (fvals : List F64) (G n s : Int) :
    leafIndicesInner P trees G fvals n s = shift s (leafIndicesInner P trees G fvals n 0) := by
  unfold leafIndicesInner
  simp only [shift_bind, shift_forRange, shift_ofRes, shift_set, Int.zero_add, Int.add_assoc]

end Leaves
