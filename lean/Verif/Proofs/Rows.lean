import Verif.Proofs.Pool
import Verif.Proofs.PredictTop
import Verif.Proofs.F64Arith
import Verif.Spec.Matrix

/-! Predicting many rows: row programs, loops over rows, batches. -/

namespace Leaves

open Spec GoM

/-! ### number of batches -/

theorem unit_sixteen : ∃ k, unit = 2 ^ k * 16 := by
  obtain ⟨k, hk⟩ : ∃ k, 1074 = k + 4 := ⟨1070, rfl⟩
  refine ⟨k, ?_⟩
  have h := unit_eq
  rw [hk] at h
  rw [h, Nat.pow_add]

theorem F64.div_fin {s t : Bool} {m n : Nat} {hm : Rep m} {hn : Rep n} (h : n ≠ 0) :
    F64.div (.fin s m hm) (.fin t n hn) = F64.ofRatio (xor s t) (m * unit) n := by
  unfold F64.div
  simp only
  rw [if_neg h]

theorem F64.ofRatio_eq {s : Bool} {n d m : Nat} (hr : Rep m) (h : roundMag n d = m) : F64.ofRatio s n d = .fin s m hr := by
  unfold F64.ofRatio
  rw [dif_pos (by rw [h]; exact hr.1)]
  exact F64.fin_congr h

theorem div_batch {n K : Nat} (h : n ≤ 2 ^ 53) (hk : unit = K * 16) (hr : Rep (n * K)) :
    F64.div (F64.ofInt n) (F64.ofNat batchSize) = F64.fin false (n * K) hr := by
  have hu := unit_pos
  have h2 := F64.ofNat_eq (n := batchSize) (by decide)
  rw [show F64.ofInt (n : Int) = F64.ofNat n from rfl, F64.ofNat_eq h, h2, F64.div_fin (by unfold batchSize; omega)]
  refine F64.ofRatio_eq hr ?_
  unfold batchSize
  rw [F64.roundMag_scale _ (by norm_num) hu, hk, ← Nat.mul_assoc]
  exact roundMag_exact (by norm_num) hr.2

theorem ceil_batch {n K : Nat} (hk : unit = K * 16) (hpos : 0 < K) : F64.ceilNat (n * K) = (n + 15) / 16 := by
  unfold F64.ceilNat
  rw [hk]
  generalize hq : (n + 15) / 16 = q
  have h0 : q * 16 ≤ n + 15 := by omega
  have h0' : n + 16 ≤ (q + 1) * 16 := by omega
  clear hq hk
  apply Nat.div_eq_of_lt_le
  · have h2 := Nat.mul_le_mul_right K h0
    have h3 : q * (K * 16) = q * 16 * K := by ring
    have h4 : (n + 15) * K = n * K + 15 * K := by ring
    omega
  · have h2 := Nat.mul_le_mul_right K h0'
    have h3 : (q + 1) * (K * 16) = (q + 1) * 16 * K := by ring
    have h4 : (n + 16) * K = n * K + 16 * K := by ring
    omega

theorem nBatches_of (P : Platform) {n : Int} {q : F64} (hq : F64.div (F64.ofInt n) (F64.ofNat batchSize) = q) {c : Int}
    (hc : q.ceilToInt = some c) : nBatchesOf P n = c := by
  subst hq
  show (match F64.ceilToInt _ with | some n => n | none => _) = _
  rw [hc]

theorem nBatchesOf_eq (P : Platform) {n : Nat} (h : n ≤ 2 ^ 53) : nBatchesOf P n = ((n + 15) / 16 : Nat) := by
  obtain ⟨k, hk⟩ := unit_sixteen
  have hpos : 0 < 2 ^ k := Nat.two_pow_pos k
  have hr : Rep (n * 2 ^ k) := by
    have h1 := (F64.rep_unit_mul h).1
    refine rep_of_mul_pow h (lt_of_le_of_lt ?_ h1)
    rw [hk]
    exact Nat.mul_le_mul_left _ (Nat.le_mul_of_pos_right _ (by norm_num))
  have hc := ceil_batch (n := n) hk hpos
  have hcl : F64.ceilToInt (.fin false (n * 2 ^ k) hr) = some (((n + 15) / 16 : Nat) : Int) := by
    rw [F64.ceilToInt, hc, if_pos (by omega)]
  exact nBatches_of P (div_batch h hk hr) hcl

/-! ### loops over programs with disjoint windows -/

section
variable {lo hi : Nat → Int} {body : Nat → GoM Unit}

theorem windows_run : ∀ {c s : Nat} {m m' : List F64}, (∀ i, s ≤ i → i < s + c → Within (lo i) (hi i) (body i)) →
    (∀ i j, i < j → j < s + c → hi i ≤ lo j) →
    ((forRange body s c).run m = (.ok ⟨⟩, m') ↔
      (∀ i, s ≤ i → i < s + c → ((body i).run m).1 = .ok ⟨⟩ ∧ Agree (lo i) (hi i) m' ((body i).run m).2) ∧
      m'.length = m.length ∧
      ∀ j : Nat, (∀ i, s ≤ i → i < s + c → ¬ (lo i ≤ (j : Int) ∧ (j : Int) < hi i)) → m'[j]? = m[j]?) := by
  intro c
  induction c with
  | zero =>
    intro s m m' _ _
    rw [forRange, run_ret]
    constructor
    · intro h
      cases h
      exact ⟨fun i h1 h2 => by omega, rfl, fun _ _ => rfl⟩
    · rintro ⟨_, h2, h3⟩
      rw [List.ext_getElem? (fun j => (h3 j (fun i h1 h2 => by omega)))]
  | succ c ih =>
    intro s m m' hw hd
    have hws := hw s (Nat.le_refl _) (by omega)
    have ih' := @ih (s + 1)
    -- the other windows do not see what the first iteration does
    have hag : ∀ i, s + 1 ≤ i → i < s + (c + 1) → Agree (lo i) (hi i) ((body s).run m).2 m := by
      intro i h1 h2
      refine ⟨run_length _ _, fun j g1 g2 => ?_⟩
      exact run_out _ hws m j (by have := hd s i (by omega) h2; omega)
    have hfr : ∀ i, s + 1 ≤ i → i < s + (c + 1) → _ := fun i h1 h2 => run_frame (body i) (hw i (by omega) h2) (hag i h1 h2)
    rw [forRange, run_bind_ok]
    constructor
    · rintro ⟨_, m1, h1, h2⟩
      have hm1 : ((body s).run m).2 = m1 := by rw [h1]
      rw [ih' (fun i g1 g2 => hw i (by omega) (by omega)) (fun i j g1 g2 => hd i j g1 (by omega))] at h2
      obtain ⟨k1, k2, k3⟩ := h2
      refine ⟨fun i g1 g2 => ?_, by rw [k2, ← hm1, run_length], fun j hj => ?_⟩
      · by_cases he : i = s
        · subst he
          refine ⟨by rw [h1], by rw [k2, hm1], fun j a1 a2 => ?_⟩
          rw [k3 j (fun i' b1 b2 => by have := hd i i' (by omega) (by omega); omega), hm1]
        · obtain ⟨e1, e2⟩ := k1 i (by omega) (by omega)
          obtain ⟨f1, f2⟩ := hfr i (by omega) (by omega)
          rw [hm1] at f1 f2
          exact ⟨by rw [← f1]; exact e1, e2.trans f2⟩
      · rw [k3 j (fun i g1 g2 => hj i (by omega) (by omega)), ← hm1]
        exact run_out _ hws m j (by have := hj s (Nat.le_refl _) (by omega); omega)
    · rintro ⟨h1, h2, h3⟩
      obtain ⟨g1, g2⟩ := h1 s (Nat.le_refl _) (by omega)
      refine ⟨⟨⟩, ((body s).run m).2, by rw [← g1], ?_⟩
      rw [ih' (fun i k1 k2 => hw i (by omega) (by omega)) (fun i j k1 k2 => hd i j k1 (by omega))]
      refine ⟨fun i k1 k2 => ?_, by rw [h2, run_length], fun j hj => ?_⟩
      · obtain ⟨e1, e2⟩ := h1 i (by omega) (by omega)
        obtain ⟨f1, f2⟩ := hfr i k1 (by omega)
        exact ⟨f1.trans e1, e2.trans f2.symm⟩
      · by_cases hin : lo s ≤ (j : Int) ∧ (j : Int) < hi s
        · exact g2.2 j hin.1 hin.2
        · rw [h3 j (fun i k1 k2 => ?_)]
          · exact (run_out _ hws m j (by omega)).symm
          · by_cases he : i = s
            · subst he; exact hin
            · exact hj i (by omega) (by omega)

end

/-- programs that continue alike on all values they can return -/
theorem bind_congr_rets {α β : Type} {p : GoM α} {f g : α → GoM β} (h : Rets (fun a => f a = g a) p) : p >>= f = p >>= g := by
  induction p with
  | ret a => exact h
  | load i k ih => simp only [load_bind]; congr 1; funext v; exact ih v (h v)
  | store i v k ih => simp only [store_bind]; congr 1; exact ih h
  | stop s => rfl

theorem forState_const {σ : Type} {body : Nat → σ → GoM σ} {s0 : σ} : ∀ {c s : Nat},
    (∀ i, s ≤ i → i < s + c → Rets (fun st => st = s0) (body i s0)) →
    forState body s c s0 = forRange (fun i => body i s0 >>= fun _ => .ret ⟨⟩) s c >>= fun _ => .ret s0 := by
  intro c
  induction c with
  | zero => intro s _; rfl
  | succ c ih =>
    intro s h
    rw [forState, forRange, GoM.bind_assoc, GoM.bind_assoc]
    refine bind_congr_rets (Rets.mono ?_ (h s (Nat.le_refl _) (by omega)))
    rintro a rfl
    rw [ret_bind]
    exact ih fun i h1 h2 => h i (by omega) (by omega)

/-! ### rows -/

/-- predict one row obtained from the input and store the result in the row's window -/
def rowProg (P : Platform) (e : Ensemble) (n : Int) (rowOf : Nat → Res (List F64)) (i : Nat) : GoM Unit := do
  let fvals ← ofRes (rowOf i)
  e.predictInnerAndTransform P fvals n (i * e.nOutputGroups)

/-- what the batch loops share: the width of a row's window -/
theorem row_within (P : Platform) {e : Ensemble} (hf : Fits e) {G total n : Nat} (hG : e.base.nRawOutputGroups = G)
    (ht : IsTotal e.base total) (hn : n ≤ total) (rowOf : Nat → Res (List F64)) (i : Nat) :
    Within (i * e.nOutputGroups) ((i + 1) * e.nOutputGroups) (rowProg P e n rowOf i) := by
  unfold rowProg
  refine Within.ofRes_bind fun fvals _ => ?_
  rw [pit_shift]
  have h1 := pit_within P (e := e) fvals n hG
  have h2 := width_eq hf hG ht
  have h3 := width_mono (e := e) (G := G) hn
  have hs : ∀ {α : Type} {lo hi d : Int} {p : GoM α}, Within lo hi p → Within (d + lo) (d + hi) (shift d p) := by
    intro α lo hi d p hp
    induction p with
    | ret a => trivial
    | load j k ih => exact ⟨by have := hp.1; omega, by have := hp.2.1; omega, fun v => ih v (hp.2.2 v)⟩
    | store j v k ih => exact ⟨by have := hp.1; omega, by have := hp.2.1; omega, ih hp.2.2⟩
    | stop s => trivial
  refine Within.mono (by omega) ?_ (hs h1)
  rw [Int.add_mul]
  omega

theorem row_disj {e : Ensemble} (hw : 0 ≤ e.nOutputGroups) {i j : Nat} (h : i < j) :
    ((i : Int) + 1) * e.nOutputGroups ≤ (j : Int) * e.nOutputGroups :=
  Int.mul_le_mul_of_nonneg_right (by omega) hw

/-- one row: the program and its specification -/
theorem row_spec {P : Platform} {e : Ensemble} (hf : Fits e) {G total n : Nat} (hG : e.base.nRawOutputGroups = G)
    (ht : IsTotal e.base total) (hn : n ≤ total) {rowOf : Nat → Res (List F64)} {i w : Nat} (hw : e.nOutputGroups = w)
    {m m' : List F64} (hm : (i + 1) * w ≤ m.length) :
    (rowProg P e n rowOf i).run m = (.ok ⟨⟩, m') ↔ ∃ fvals out, rowOf i = .ok fvals ∧ IsOutput P e fvals n out ∧ Stored m (i * w) out m' := by
  unfold rowProg
  rw [run_bind_ok]
  have h2 := width_eq hf hG ht
  have h3 := width_mono (e := e) (G := G) hn
  have hle : i * w + width e G n ≤ m.length := by
    rw [Nat.add_mul, Nat.one_mul] at hm; omega
  have hcast : ((i : Int) * e.nOutputGroups) = ((i * w : Nat) : Int) := by rw [hw]; push_cast; rfl
  rw [hcast]
  constructor
  · rintro ⟨fvals, m1, h4, h5⟩
    rw [run_ofRes] at h4
    obtain ⟨h6, h7⟩ := Prod.mk.inj h4
    subst h7
    obtain ⟨out, ho, hs⟩ := (pit_spec hf hG hle).1 h5
    exact ⟨fvals, out, h6, ho, hs⟩
  · rintro ⟨fvals, out, h4, ho, hs⟩
    exact ⟨fvals, m, by rw [run_ofRes, h4], (pit_spec hf hG hle).2 ⟨out, ho, hs⟩⟩

theorem stored_agree {m m1 out : List F64} {s w : Nat} (h : Stored m s out m1) (hl : out.length = w) {m' : List F64}
    (hlen : m'.length = m.length) : Agree (s : Int) ((s + w : Nat) : Int) m' m1 ↔ ∀ k < w, m'[s + k]? = out[k]? := by
  constructor
  · intro ha k hk
    rw [ha.2 (s + k) (by omega) (by omega), h.2.2, if_pos (by omega), Nat.add_sub_cancel_left]
  · intro hh
    refine ⟨by rw [hlen, h.2.1], fun j h1 h2 => ?_⟩
    have := hh (j - s) (by omega)
    rw [show s + (j - s) = j by omega] at this
    rw [h.2.2, if_pos (by omega), this]

theorem exists_stored {m out : List F64} {s : Nat} (h : s + out.length ≤ m.length) : ∃ m', Stored m s out m' := by
  obtain ⟨pre, w, post, rfl, rfl, hw⟩ := cut h
  exact ⟨_, (stored_iff hw.symm).2 rfl⟩

theorem width_full {e : Ensemble} (hf : Fits e) {G total n : Nat} (hG : e.base.nRawOutputGroups = G) (ht : IsTotal e.base total)
    (hl : e.isLeaf → n = total) : (width e G n : Int) = e.nOutputGroups := by
  rw [← width_eq hf hG ht]
  obtain ⟨b, t⟩ := e
  cases t with
  | leafIndex k => rw [hl (isLeaf_iff.2 ⟨k, rfl⟩)]
  | _ => rfl

/-- the loop over all rows, specified -/
theorem rows_spec {P : Platform} {e : Ensemble} (hf : Fits e) {G total n : Nat} (hG : e.base.nRawOutputGroups = G)
    (ht : IsTotal e.base total) (hn : n ≤ total) (hleaf : e.isLeaf → n = total) {rowOf : Nat → Res (List F64)} {w r : Nat}
    (hw : e.nOutputGroups = w) {m m' : List F64} (hm : r * w ≤ m.length) :
    (forRange (rowProg P e n rowOf) 0 r).run m = (.ok ⟨⟩, m') ↔
      ∃ outs, (∀ i < r, ∃ fvals, rowOf i = .ok fvals ∧ IsOutput P e fvals n (outs i)) ∧ StoredRows m w r outs m' := by
  rw [windows_run (lo := fun i => i * e.nOutputGroups) (hi := fun i => (i + 1) * e.nOutputGroups)
    (fun i _ _ => row_within P hf hG ht hn rowOf i) (fun i j h1 _ => row_disj (by omega) h1)]
  have hlo : ∀ i : Nat, ((i : Int) * e.nOutputGroups) = ((i * w : Nat) : Int) := by intro i; rw [hw]; push_cast; rfl
  have hhi : ∀ i : Nat, (((i : Int) + 1) * e.nOutputGroups) = ((i * w + w : Nat) : Int) := by
    intro i; rw [hw]; push_cast; ring
  have hrow : ∀ i < r, (i + 1) * w ≤ m.length := fun i hi => le_trans (Nat.mul_le_mul_right w hi) hm
  have hwid := width_full hf hG ht hleaf
  have hlen : ∀ {fvals out}, IsOutput P e fvals n out → out.length = w := by
    intro fvals out ho
    have := output_length hG ho
    omega
  simp only [hlo, hhi, Nat.zero_le, forall_const, Nat.zero_add]
  constructor
  · rintro ⟨h1, h2, h3⟩
    have hex : ∀ i, ∃ out, i < r → (∃ fvals, rowOf i = .ok fvals ∧ IsOutput P e fvals n out) ∧
        ∀ k < w, m'[i * w + k]? = out[k]? := by
      intro i
      by_cases hi : i < r
      · obtain ⟨g1, g2⟩ := h1 i hi
        obtain ⟨fvals, out, k1, k2, k3⟩ := (row_spec hf hG ht hn hw (hrow i hi)).1 (show (rowProg P e n rowOf i).run m = (.ok ⟨⟩, _) by rw [← g1])
        exact ⟨out, fun _ => ⟨⟨fvals, k1, k2⟩, (stored_agree k3 (hlen k2) h2).1 g2⟩⟩
      · exact ⟨[], fun h => absurd h hi⟩
    choose outs houts using hex
    refine ⟨outs, fun i hi => (houts i hi).1, hm, h2, fun i hi => ?_, fun i hi => (houts i hi).2, fun j hj => h3 j fun i hi hh => ?_⟩
    · obtain ⟨⟨fvals, _, ho⟩, _⟩ := houts i hi
      exact hlen ho
    · have hmul := Nat.mul_le_mul_right w (show i + 1 ≤ r from hi)
      rw [Nat.add_mul, Nat.one_mul] at hmul
      omega
  · rintro ⟨outs, h1, h2, h3, h4, h5, h6⟩
    refine ⟨fun i hi => ?_, h3, fun j hj => ?_⟩
    · obtain ⟨fvals, k1, k2⟩ := h1 i hi
      have hlei := hrow i hi
      rw [Nat.add_mul, Nat.one_mul] at hlei
      obtain ⟨m1, hs⟩ := exists_stored (m := m) (out := outs i) (s := i * w) (by rw [hlen k2]; omega)
      have hr := (row_spec hf hG ht hn hw (hrow i hi)).2 ⟨fvals, outs i, k1, k2, hs⟩
      rw [hr]
      exact ⟨rfl, (stored_agree hs (hlen k2) h3).2 (h5 i hi)⟩
    · apply h6
      by_contra hlt
      have hw0 : 0 < w := by
        rcases Nat.eq_zero_or_pos w with h0 | h0
        · subst h0; simp at hlt
        · exact h0
      have hd : j / w < r := by rw [Nat.div_lt_iff_lt_mul hw0]; omega
      have h7 := Nat.div_add_mod j w
      have h8 := Nat.mod_lt j hw0
      rw [Nat.mul_comm] at h7
      exact hj (j / w) hd (by omega)

/-! ### batches -/

/-- the rows of batch `b` -/
theorem batch_rows (r b : Nat) :
    (if b * batchSize + batchSize > r then r else b * batchSize + batchSize) - b * batchSize = min 16 (r - b * 16) := by
  unfold batchSize
  split <;> omega

/-- a pool over rows -/
structure RowPool {σ : Type} (J : Job σ) (s0 : σ) (rows : Nat → GoM Unit) (r : Nat) : Prop where
  init : ∀ s, J.init = .ok s → s = s0
  task : ∀ b, J.task (b * batchSize) s0 = forRange rows (b * 16) (min 16 (r - b * 16)) >>= fun _ => .ret s0

theorem RowPool.ok {σ : Type} {J : Job σ} {s0 : σ} {rows : Nat → GoM Unit} {r : Nat} (h : RowPool J s0 rows r)
    {W : Int} (hW : 0 ≤ W) (hw : ∀ i : Nat, GoM.Within (i * W) ((i + 1) * W) (rows i)) :
    PoolOK J s0 (fun b => (b * 16 : Nat) * W) (fun b => (min (b * 16 + 16) r : Nat) * W) where
  init := h.init
  within := by
    intro b _
    rw [h.task]
    refine Within.bind (Within.forRange fun k h1 h2 => Within.mono ?_ ?_ (hw k)) fun _ => trivial
    · exact Int.mul_le_mul_of_nonneg_right (by omega) hW
    · exact Int.mul_le_mul_of_nonneg_right (by omega) hW
  rets := by
    intro b _
    rw [h.task]
    exact Rets.bind (Q := fun _ => True) (Rets.triv _) fun _ _ => rfl
  disj := by
    intro b b' h1 _
    exact Int.mul_le_mul_of_nonneg_right (by omega) hW

theorem RowPool.batch {σ : Type} {J : Job σ} {s0 : σ} {rows : Nat → GoM Unit} {r : Nat} (h : RowPool J s0 rows r)
    {m0 : List F64} (b : Nat) :
    ((forRange rows (b * 16) (min 16 (r - b * 16))).run m0).2 = (batchRun J s0 m0 b).2 ∧
    ((batchRun J s0 m0 b).1 = .ok s0 ↔ ((forRange rows (b * 16) (min 16 (r - b * 16))).run m0).1 = .ok ⟨⟩) ∧
    ((batchRun J s0 m0 b).1 = .panic ↔ ((forRange rows (b * 16) (min 16 (r - b * 16))).run m0).1 = .panic) := by
  unfold batchRun
  rw [h.task, run_bind]
  rcases (forRange rows (b * 16) (min 16 (r - b * 16))).run m0 with ⟨x, m⟩
  cases x <;> simp

/-- the results of the pool are the results of the sequential loop over the rows -/
theorem RowPool.result {σ : Type} {J : Job σ} {s0 : σ} {rows : Nat → GoM Unit} {r : Nat} (h : RowPool J s0 rows r)
    {W : Int} (hW : 0 ≤ W) (hw : ∀ i : Nat, GoM.Within (i * W) ((i + 1) * W) (rows i)) (hcover : r ≤ J.nBatches * 16)
    {m0 m' : List F64} (hr : ParResult J m0 (.ok ⟨⟩, m')) : (forRange rows 0 r).run m0 = (.ok ⟨⟩, m') := by
  generalize ho : ((Res.ok ⟨⟩ : Res Unit), m') = o at hr
  cases hr with
  | panic _ _ => cases (Prod.mk.inj ho).1
  | @ok n s hs hret =>
    obtain ⟨_, rfl⟩ := Prod.mk.inj ho
    obtain ⟨h1, h2, h3⟩ := pool_returned (h.ok hW hw) hs hret
    have hdisj : ∀ i j : Nat, i < j → ((i : Int) + 1) * W ≤ (j : Int) * W := fun i j hij =>
      Int.mul_le_mul_of_nonneg_right (by omega) hW
    rw [windows_run (lo := fun i => i * W) (hi := fun i => (i + 1) * W) (fun i _ _ => hw i) (fun i j hij _ => hdisj i j hij)]
    refine ⟨fun i _ hi => ?_, h1, fun j hj => h3 j fun b hb hh => ?_⟩
    · obtain ⟨g1, g2⟩ := h2 (i / 16) (by omega)
      obtain ⟨k1, k2, _⟩ := h.batch (m0 := m0) (i / 16)
      have k3 := k2.1 g1
      have k4 := (windows_run (lo := fun i => i * W) (hi := fun i => (i + 1) * W) (fun i _ _ => hw i) (fun i j hij _ => hdisj i j hij)
        (m := m0) (m' := (batchRun J s0 m0 (i / 16)).2) (body := rows)
        (s := i / 16 * 16) (c := min 16 (r - i / 16 * 16))).1 (by rw [← k1, ← k3])
      obtain ⟨e1, e2⟩ := k4.1 i (by omega) (by omega)
      refine ⟨e1, Agree.trans (Agree.mono ?_ ?_ g2) e2⟩
      · exact Int.mul_le_mul_of_nonneg_right (by omega) hW
      · exact Int.mul_le_mul_of_nonneg_right (by omega) hW
    · have hW0 : 0 < W := by
        rcases Int.lt_or_eq_of_le hW with h0 | h0
        · exact h0
        · rw [← h0] at hh; omega
      have e1 := Int.mul_ediv_add_emod (j : Int) W
      have e2 := Int.emod_nonneg (j : Int) (show W ≠ 0 by omega)
      have e3 := Int.emod_lt_of_pos (j : Int) hW0
      have e4 : 0 ≤ (j : Int) / W := Int.ediv_nonneg (by omega) hW
      have e5 : (j : Int) / W < (min (b * 16 + 16) r : Nat) := by
        rw [Int.ediv_lt_iff_lt_mul hW0]; exact hh.2
      refine hj ((j : Int) / W).toNat (by omega) (by omega) ?_
      rw [Int.toNat_of_nonneg e4, Int.add_mul, Int.one_mul, Int.mul_comm]
      omega

/-- a successful sequential loop means that every batch succeeds -/
theorem RowPool.batches_ok {σ : Type} {J : Job σ} {s0 : σ} {rows : Nat → GoM Unit} {r : Nat} (h : RowPool J s0 rows r)
    {W : Int} (hW : 0 ≤ W) (hw : ∀ i : Nat, GoM.Within (i * W) ((i + 1) * W) (rows i)) {m0 m' : List F64}
    (hr : (forRange rows 0 r).run m0 = (.ok ⟨⟩, m')) (b : Nat) : (batchRun J s0 m0 b).1 = .ok s0 := by
  have hdisj : ∀ i j : Nat, i < j → ((i : Int) + 1) * W ≤ (j : Int) * W := fun i j hij =>
    Int.mul_le_mul_of_nonneg_right (by omega) hW
  rw [windows_run (lo := fun i => i * W) (hi := fun i => (i + 1) * W) (fun i _ _ => hw i) (fun i j hij _ => hdisj i j hij)] at hr
  obtain ⟨h1, _⟩ := hr
  rw [(h.batch b).2.1]
  -- a loop all of whose rows succeed on the original memory succeeds
  have key : ∀ c s : Nat, s + c ≤ r → ∀ m : List F64, m.length = m0.length →
      (∀ j : Nat, (s : Int) * W ≤ j → m[j]? = m0[j]?) → ((forRange rows s c).run m).1 = .ok ⟨⟩ := by
    intro c
    induction c with
    | zero => intro s _ m _ _; rfl
    | succ c ih =>
      intro s hs m hl hm
      have hfr := run_frame (rows s) (hw s) (m := m) (m' := m0) ⟨hl, fun j g1 _ => hm j g1⟩
      rw [(h1 s (by omega) (by omega)).1] at hfr
      rw [forRange, run_bind]
      have hlen := run_length (rows s) m
      have hout := run_out (rows s) (hw s) m
      rcases hx : (rows s).run m with ⟨x, m1⟩
      rw [hx] at hfr hlen hout
      simp only at hfr hlen hout
      rw [hfr.1, andThen_ok]
      refine ih (s + 1) (by omega) m1 (by omega) fun j hj => ?_
      push_cast at hj
      rw [hout j (Or.inr hj), hm j]
      have := hdisj s (s + 1) (by omega)
      have h2 : (s : Int) * W ≤ ((s : Int) + 1) * W := Int.mul_le_mul_of_nonneg_right (by omega) hW
      omega
  by_cases hb : b * 16 ≤ r
  · exact key _ _ (by omega) m0 rfl fun _ _ => rfl
  · rw [show min 16 (r - b * 16) = 0 by omega]; rfl

/-- the pool returns exactly when, and with what, the sequential loop does -/
theorem RowPool.iff {σ : Type} {J : Job σ} {s0 : σ} {rows : Nat → GoM Unit} {r : Nat} (h : RowPool J s0 rows r)
    {W : Int} (hW : 0 ≤ W) (hw : ∀ i : Nat, GoM.Within (i * W) ((i + 1) * W) (rows i)) (hcover : r ≤ J.nBatches * 16)
    (hinit : J.init = .ok s0) (hth : 0 < J.nThreads) {m0 m' : List F64} :
    ParResult J m0 (.ok ⟨⟩, m') ↔ (forRange rows 0 r).run m0 = (.ok ⟨⟩, m') := by
  refine ⟨h.result hW hw hcover, fun hr => ?_⟩
  obtain ⟨n, s, hs, hret⟩ := pool_returns (m0 := m0) (h.ok hW hw) hinit hth (fun b _ => h.batches_ok hW hw hr b)
  have h1 := ParResult.ok hs hret
  have h2 := h.result hW hw hcover h1
  rw [hr] at h2
  rw [(Prod.mk.inj h2).2]
  exact h1

/-- the pool does not crash when the sequential loop succeeds -/
theorem RowPool.no_panic {σ : Type} {J : Job σ} {s0 : σ} {rows : Nat → GoM Unit} {r : Nat} (h : RowPool J s0 rows r)
    {W : Int} (hW : 0 ≤ W) (hw : ∀ i : Nat, GoM.Within (i * W) ((i + 1) * W) (rows i)) (hinit : J.init = .ok s0) {m0 m' m'' : List F64}
    (hr : (forRange rows 0 r).run m0 = (.ok ⟨⟩, m')) : ¬ ParResult J m0 (.panic, m'') := by
  intro hp
  generalize ho : ((Res.panic : Res Unit), m'') = o at hp
  cases hp with
  | ok _ _ => cases (Prod.mk.inj ho).1
  | @panic n s hs hret =>
    rcases pool_crashed (h.ok hW hw) hs hret with h1 | ⟨b, _, h1⟩
    · rw [hinit] at h1; cases h1
    · rw [h.batches_ok hW hw hr b] at h1; cases h1

end Leaves
