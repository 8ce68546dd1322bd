import Verif.Proofs.F64Error
import Verif.Props.Predict

/-! # C25, C26: the logistic and softmax transformations -/

namespace Leaves

open Spec

/-- `math.Exp` is never negative -/
def Spec.ExpNonneg (P : Platform) : Prop := ∀ x, x ≠ F64.nan → Le F64.zero (P.exp x)

/-- `math.Exp` does not reverse the order -/
def Spec.ExpMono (P : Platform) : Prop := ∀ x y, Le x y → Le (P.exp x) (P.exp y)

/-- between 0 and 1 -/
def Spec.IsProbability (z : F64) : Prop := Le F64.zero z ∧ Le z F64.one

theorem logistic_denominator {P : Platform} (hexp : ExpNonneg P) {x : F64} (hx : x ≠ F64.nan) :
    F64.le F64.one (F64.add F64.one (P.exp x.neg)) = true :=
  F64.le_add_left F64.zero_le_one ((F64.le_iff _ _).2 (hexp _ (F64.neg_ne_nan hx)))

/-- C25: the logistic transformation of a number is between 0 and 1 (infinities included). -/
theorem C25_range (P : Platform) (hexp : ExpNonneg P) (x : F64) (hx : x ≠ F64.nan) (out : List F64)
    (h : IsTransformed P .logistic [x] out) : ∃ z, out = [z] ∧ IsProbability z := by
  obtain ⟨y, hy, rfl⟩ := h
  cases hy
  have h1 := logistic_denominator hexp hx
  refine ⟨_, rfl, (F64.le_iff _ _).1 (F64.zero_le_div_one (F64.pos_of_one_le h1)), (F64.le_iff _ _).1 ?_⟩
  have := F64.div_one_anti (F64.pos_of_one_le (F64.le_refl (x := F64.one) (by simp [F64.one]))) h1
  rwa [F64.div_one_one] at this

/-- C25: the logistic transformation does not reverse the order of two raw scores. -/
theorem C25_order (P : Platform) (hexp : ExpNonneg P) (hmono : ExpMono P) (x y zx zy : F64) (hxy : Le x y)
    (hx : IsTransformed P .logistic [x] [zx]) (hy : IsTransformed P .logistic [y] [zy]) : Le zx zy := by
  obtain ⟨x', h1, h2⟩ := hx
  obtain ⟨y', h3, h4⟩ := hy
  cases h1; cases h2; cases h3; cases h4
  have hle := (F64.le_iff _ _).2 hxy
  have hxn := F64.neg_ne_nan (F64.ne_nan_of_le_left hle)
  have hyn := F64.neg_ne_nan (F64.ne_nan_of_le_right hle)
  have he := (F64.le_iff _ _).2 (hmono _ _ ((F64.le_iff _ _).1 (F64.neg_le_neg hle)))
  have ex := (F64.le_iff _ _).2 (hexp _ hxn)
  have ey := (F64.le_iff _ _).2 (hexp _ hyn)
  have hd := F64.add_mono (F64.le_refl (x := F64.one) (by simp [F64.one])) he (F64.add_nonneg_ne_nan F64.zero_le_one ey)
    (F64.add_nonneg_ne_nan F64.zero_le_one ex)
  exact (F64.le_iff _ _).1 (F64.div_one_anti (F64.pos_of_one_le (logistic_denominator hexp (F64.ne_nan_of_le_right hle))) hd)

/-- C25 for models: a successful Predict of a model with the logistic transformation stores a number between 0 and 1 unless
the raw score is NaN. -/
theorem C25_predict (P : Platform) (hexp : ExpNonneg P) (e : Ensemble) (hf : Fits e) (ht : e.transform = .logistic) (fvals : List F64)
    (req : Int) (m m' : List F64) (h : (e.predict P fvals req m.length).run m = (.ok ⟨⟩, m')) :
    ∃ n x z, IsRaw P e.base fvals n [x] ∧ m'[0]? = some z ∧ (x ≠ F64.nan → IsProbability z) := by
  have hw : e.nOutputGroups < 2 ^ 63 := by
    show e.transform.nOutputGroups < 2 ^ 63
    rw [ht]; show (1 : Int) < 2 ^ 63; norm_num
  obtain ⟨-, -, total, n, -, -, -, out, ho, hs⟩ := (C12_predict_iff P e hf hw fvals req m m').1 h
  unfold IsOutput at ho
  rw [ht] at ho
  obtain ⟨w, h1, h2⟩ := ho
  obtain ⟨x, rfl, rfl⟩ := id h2
  refine ⟨n, x, _, h1, by have := hs.2.2 0; simpa using this, fun hx => ?_⟩
  obtain ⟨z, hz, hp⟩ := C25_range P hexp x hx _ h2
  cases hz
  exact hp

/-! ### softmax -/

/-- 2^-1000 -/
def Spec.lowest : F64 := F64.ofBits 0x0170000000000000
/-- 2^1000 -/
def Spec.highest : F64 := F64.ofBits 0x7e70000000000000

theorem lowest_eq : lowest = F64.fin false (2 ^ 74) (by decide +kernel) := by decide +kernel
theorem highest_eq : highest = F64.fin false (2 ^ 2074) (by decide +kernel) := by decide +kernel

theorem fin_between {x : F64} {n : Nat} {hn : Rep n} (h0 : F64.le F64.zero x = true) (h : F64.le x (F64.fin false n hn) = true) :
    ∃ s m hm, x = F64.fin s m hm ∧ m ≤ n ∧ (F64.fin s m hm).toInt = m := by
  rcases F64.nonneg_cases h0 with rfl | ⟨s, m, hm, rfl, e⟩
  · cases h
  · refine ⟨s, m, hm, rfl, ?_, e⟩
    have := F64.le_fin.1 h
    rw [e] at this
    have : (m : Int) ≤ n := this
    omega

/-- the sum of the exponentials is an ordinary number -/
theorem softmax_sum {es : List F64} (h1 : 1 ≤ es.length) (h2 : es.length ≤ 2 ^ 20)
    (he : ∀ e ∈ es, F64.le lowest e = true ∧ F64.le e highest = true) :
    ∃ n hn k hk, es.foldl F64.add F64.zero = F64.fin false n hn ∧ 0 < n ∧ F64.div F64.one (F64.fin false n hn) = F64.fin false k hk ∧
      n * k * 2 ^ 53 ≤ (2 ^ 53 + 1) * unit * unit ∧ (∀ e ∈ es, F64.le e (F64.fin false n hn) = true) ∧ n ≤ 2 ^ 2096 := by
  have hl0 : F64.le F64.zero lowest = true := by decide +kernel
  have hE : 2 ^ 20 * 2 ^ 2074 < magLimit := by
    rw [magLimit_eq, ← Nat.pow_add]; exact Nat.pow_lt_pow_right (by norm_num) (by norm_num)
  have he0 : ∀ e ∈ es, F64.le F64.zero e = true := fun e h => F64.le_trans hl0 (he e h).1
  obtain ⟨g1, g2⟩ := F64.foldl_add_nonneg es F64.zero he0 F64.zero_le_zero
  have hrep : Rep ((0 + es.length) * 2 ^ 2074) :=
    rep_of_mul_pow (Nat.le_trans (by omega) (show 2 ^ 20 ≤ 2 ^ 53 by norm_num)) (lt_of_le_of_lt (Nat.mul_le_mul_right _ (by omega)) hE)
  have hub := F64.foldl_add_le hE es 0 F64.zero (by omega) (fun e h => ⟨he0 e h, fun hr => by have := (he e h).2; rw [highest_eq] at this; exact this⟩)
    F64.zero_le_zero (by intro hr; unfold F64.zero; rw [F64.le_fin]; simp [F64.toInt]) hrep
  obtain ⟨s, n, hn, hS, hle, hti⟩ := fin_between g1 hub
  obtain ⟨e, hmem⟩ := List.exists_mem_of_length_pos h1
  have hlow := F64.le_trans (he e hmem).1 (g2 e hmem)
  rw [hS, lowest_eq, F64.le_fin, hti] at hlow
  have hlow : (2 ^ 74 : Nat) ≤ n := by
    have : ((2 ^ 74 : Nat) : Int) ≤ n := hlow
    omega
  have hs : s = false := by
    cases s
    · rfl
    · simp only [F64.toInt] at hti
      omega
  subst hs
  have hup : n ≤ 2 ^ 2096 := by
    refine Nat.le_trans hle ?_
    calc (0 + es.length) * 2 ^ 2074 ≤ 2 ^ 20 * 2 ^ 2074 := Nat.mul_le_mul_right _ (by omega)
      _ = 2 ^ 2094 := by rw [← Nat.pow_add]
      _ ≤ 2 ^ 2096 := Nat.pow_le_pow_right (by norm_num) (by norm_num)
  obtain ⟨k, hk, hd, hb⟩ := F64.recip_fin hn (by omega) hup
  exact ⟨n, hn, k, hk, hS, by omega, hd, hb, fun e h => by rw [← hS]; exact g2 e h, hup⟩

theorem forall₂_vals : ∀ (l : List F64), (∀ z ∈ l, F64.IsFin z) → List.Forall₂ IsVal l (l.map fun z => F64.magQ z / unit)
  | [], _ => .nil
  | z :: l, h => by
    refine .cons ?_ (forall₂_vals l fun x hx => h x (by simp [hx]))
    obtain ⟨s, m, hm, rfl⟩ := h z (by simp)
    cases s
    · show some _ = _
      simp [F64.magQ, F64.toInt]
    · show some _ = _
      simp [F64.magQ, F64.toInt, neg_div]

theorem sum_div_unit {α : Type} (f : α → ℚ) (u : ℚ) : ∀ l : List α, (l.map fun x => f x / u).sum = (l.map f).sum / u
  | [] => by simp
  | x :: l => by
    rw [List.map_cons, List.map_cons, List.sum_cons, List.sum_cons, sum_div_unit f u l, add_div]

theorem softmax_sum_err {es : List F64} (h2 : es.length ≤ 2 ^ 20) (he0 : ∀ e ∈ es, F64.le F64.zero e = true)
    (hfin : ∀ e ∈ es, F64.IsFin e) {n k : Nat} {hn : Rep n} {hk : Rep k} (hS : es.foldl F64.add F64.zero = F64.fin false n hn)
    (hpos : 0 < n) (hup : n ≤ 2 ^ 2096) (hd : F64.div F64.one (F64.fin false n hn) = F64.fin false k hk)
    (hpf : ∀ z ∈ es.map (fun y => F64.mul y (F64.fin false k hk)), F64.IsFin z) :
    |(es.map fun e => F64.magQ (F64.mul e (F64.fin false k hk))).sum / unit - 1| ≤ (es.length + 4) / 2 ^ 52 := by
  have hkk : k = roundMag (unit * unit) n := by
    rw [F64.div_one_fin hn hpos] at hd
    unfold F64.ofRatio at hd
    split at hd
    · cases hd; rfl
    · cases hd
  obtain ⟨s1, s2⟩ := F64.foldl_err es F64.zero he0 F64.zero_le_zero (by rw [hS]; exact ⟨_, _, _, rfl⟩)
  have hr := F64.recip_err hpos hup
  rw [← hkk] at hr
  have hp := F64.products_err (k := k) (hk := hk) es fun e hm => ⟨he0 e hm, hfin e hm, hpf _ (List.mem_map_of_mem hm)⟩
  have ht := F64.tiny_err h2
  rw [hS] at s1 s2
  have hz : F64.magQ F64.zero = 0 := by simp [F64.magQ, F64.toInt, F64.zero]
  have hnn : F64.magQ (F64.fin false n hn) = n := by simp [F64.magQ, F64.toInt]
  rw [hz, zero_add, hnn] at s1 s2
  have hM : 0 ≤ (es.map F64.magQ).sum := List.sum_nonneg fun x hx => by
    obtain ⟨y, hy, rfl⟩ := List.mem_map.1 hx
    exact F64.magQ_nonneg (he0 y hy)
  have hn0 : (0 : ℚ) < n := by exact_mod_cast hpos
  have hU : (0 : ℚ) < unit := by exact_mod_cast unit_pos
  refine F64.shares_err h2 hM hn0 s1 s2 hr ?_
  generalize (es.map F64.magQ).sum = M at *
  generalize (es.map fun e => F64.magQ (F64.mul e (F64.fin false k hk))).sum = R at *
  have e1 : (k : ℚ) * n / (unit * unit) * (M / n) = M * k / unit / unit := by field_simp
  rw [e1, ← sub_div, abs_div, abs_of_pos hU, div_le_iff₀ hU]
  refine le_trans hp ?_
  have : (es.length : ℚ) / 2 ≤ 1 / 2 ^ 53 * unit := by rwa [div_le_iff₀ hU] at ht
  have e2 : (M * k / unit / unit / 2 ^ 53 + 1 / 2 ^ 53) * unit = M * k / unit / 2 ^ 53 + 1 / 2 ^ 53 * unit := by field_simp
  rw [e2]
  linarith

/-- C26, when the exponentials of the raw scores are between 2^-1000 and 2^1000 (raw scores between -693 and 693) and there are at
most 2^20 classes: one number between 0 and 1 for each class, in the order of the raw scores, and the exact sum of the N numbers
differs from 1 by at most (N + 4) * 2^-52. What is missing: larger and smaller
raw scores, for which it is false (`C26_overflow`, `C26_underflow`, `C26_all_zero`). -/
theorem C26_softmax_partial (P : Platform) (hmono : ExpMono P) (w out : List F64) (h1 : 1 ≤ w.length) (h2 : w.length ≤ 2 ^ 20)
    (he : ∀ x ∈ w, Le lowest (P.exp x) ∧ Le (P.exp x) highest) (h : IsTransformed P (.softmax w.length) w out) :
    out.length = w.length ∧ (∀ z ∈ out, IsProbability z) ∧
      (∃ ps, List.Forall₂ IsVal out ps ∧ |ps.sum - 1| ≤ (w.length + 4) / 2 ^ 52) ∧
      ∀ (i j : Nat) (x y zx zy : F64), w[i]? = some x → w[j]? = some y → out[i]? = some zx → out[j]? = some zy → Le x y → Le zx zy := by
  obtain ⟨-, rfl⟩ := h
  have hes : ∀ e ∈ w.map P.exp, F64.le lowest e = true ∧ F64.le e highest = true := by
    intro e hm
    obtain ⟨x, hx, rfl⟩ := List.mem_map.1 hm
    exact ⟨(F64.le_iff _ _).2 (he x hx).1, (F64.le_iff _ _).2 (he x hx).2⟩
  obtain ⟨n, hn, k, hk, hS, hpos, hd, hb, hle, hup⟩ := softmax_sum (es := w.map P.exp) (by simpa using h1) (by simpa using h2) hes
  have hl0 : F64.le F64.zero lowest = true := by decide +kernel
  have hfeq : F64.feq (F64.fin false n hn) F64.zero = false := by
    have : F64.le (F64.fin false n hn) F64.zero = false := by
      rw [← Bool.not_eq_true]
      unfold F64.zero
      rw [F64.le_fin]
      show ¬ (n : Int) ≤ ((0 : Nat) : Int)
      omega
    unfold F64.feq
    rw [this]; rfl
  have hout : softmaxOf P w = (w.map P.exp).map fun y => F64.mul y (F64.fin false k hk) := by
    unfold softmaxOf
    simp only
    rw [hS, hfeq, hd]
    rfl
  rw [hout]
  have hfin : ∀ e ∈ w.map P.exp, ∃ s m hm, e = F64.fin s m hm := by
    intro e hm
    have h0 := F64.le_trans hl0 (hes e hm).1
    have h3 := (hes e hm).2
    rw [highest_eq] at h3
    obtain ⟨s, m, hr, he, -⟩ := fin_between h0 h3
    exact ⟨s, m, hr, he⟩
  have hprob : ∀ z ∈ (w.map P.exp).map (fun y => F64.mul y (F64.fin false k hk)), IsProbability z := by
    intro z hz
    obtain ⟨e, hm, rfl⟩ := List.mem_map.1 hz
    obtain ⟨s, m, hm', rfl⟩ := hfin e hm
    have h0 := F64.le_trans hl0 (hes _ hm).1
    exact ⟨(F64.le_iff _ _).1 (F64.zero_le_mul h0), (F64.le_iff _ _).1 (F64.le_trans (F64.mul_mono h0 (hle _ hm)) (F64.share_le_one hb))⟩
  refine ⟨by simp, hprob, ?_, fun i j x y zx zy hx hy hzx hzy hxy => ?_⟩
  · have hpf : ∀ z ∈ (w.map P.exp).map (fun y => F64.mul y (F64.fin false k hk)), F64.IsFin z := fun z hz =>
      F64.isFin_of_le ((F64.le_iff _ _).2 (hprob z hz).1) ((F64.le_iff _ _).2 (hprob z hz).2) ⟨_, _, _, rfl⟩
    refine ⟨_, forall₂_vals _ hpf, ?_⟩
    rw [sum_div_unit, List.map_map]
    have := softmax_sum_err (es := w.map P.exp) (by simpa using h2) (fun e hm => F64.le_trans hl0 (hes e hm).1) hfin hS hpos hup hd hpf
    rwa [List.length_map] at this
  · rw [List.getElem?_map, List.getElem?_map, hx] at hzx
    rw [List.getElem?_map, List.getElem?_map, hy] at hzy
    cases hzx; cases hzy
    have hmx : P.exp x ∈ w.map P.exp := List.mem_map_of_mem (List.mem_of_getElem? hx)
    have hmy : P.exp y ∈ w.map P.exp := List.mem_map_of_mem (List.mem_of_getElem? hy)
    have hm := (F64.le_iff _ _).2 (hmono _ _ hxy)
    have h0 := F64.le_trans hl0 (hes _ hmx).1
    obtain ⟨s, a, ha, ex⟩ := hfin _ hmx
    obtain ⟨t, b, hb', ey⟩ := hfin _ hmy
    rw [ex, ey] at hm
    rw [ex] at h0
    rw [ex, ey]
    exact (F64.le_iff _ _).1 (F64.mul_mono h0 hm)

/-- C26 for models: what a successful Predict of a model with the softmax transformation stores is a distribution, in the order of
the raw scores, with the restrictions of `C26_softmax_partial`. -/
theorem C26_predict_partial (P : Platform) (hmono : ExpMono P) (e : Ensemble) (hf : Fits e) (hw : e.nOutputGroups < 2 ^ 63) (N : Int)
    (ht : e.transform = .softmax N) (fvals : List F64) (req : Int) (m m' : List F64)
    (h : (e.predict P fvals req m.length).run m = (.ok ⟨⟩, m')) :
    ∃ n w, IsRaw P e.base fvals n w ∧ (w.length : Int) = e.nOutputGroups ∧
      (w.length ≤ 2 ^ 20 → (∀ x ∈ w, Le lowest (P.exp x) ∧ Le (P.exp x) highest) →
        (∀ z ∈ m'.take w.length, IsProbability z) ∧
        (∃ ps, List.Forall₂ IsVal (m'.take w.length) ps ∧ |ps.sum - 1| ≤ (w.length + 4) / 2 ^ 52) ∧
        ∀ (i j : Nat) (x y zx zy : F64), w[i]? = some x → w[j]? = some y → m'[i]? = some zx → m'[j]? = some zy → Le x y → Le zx zy) := by
  obtain ⟨-, -, total, n, -, -, -, out, ho, hs⟩ := (C12_predict_iff P e hf hw fvals req m m').1 h
  unfold IsOutput at ho
  rw [ht] at ho
  obtain ⟨w, h1, h2⟩ := ho
  have hlen : (w.length : Int) = N := h2.1
  have hN : e.nOutputGroups = N := by show e.transform.nOutputGroups = N; rw [ht]; rfl
  refine ⟨n, w, h1, hlen.trans hN.symm, fun h20 hr => ?_⟩
  have hpos : 1 ≤ w.length := by
    obtain ⟨G, _, -, hG, -, hm⟩ := hf
    rw [ht] at hm
    have hm : N = G := hm
    omega
  rw [← hlen] at h2
  obtain ⟨g1, g2, g3, g4⟩ := C26_softmax_partial P hmono w out hpos h20 hr h2
  have hget : ∀ i < w.length, m'[i]? = out[i]? := by
    intro i hi
    have := hs.2.2 i
    rwa [if_pos ⟨Nat.zero_le _, by omega⟩, Nat.sub_zero] at this
  have htake : m'.take w.length = out := by
    refine List.ext_getElem? fun i => ?_
    rcases Nat.lt_or_ge i w.length with hi | hi
    · rw [List.getElem?_take, if_pos hi, hget i hi]
    · rw [List.getElem?_take, if_neg (by omega), List.getElem?_eq_none (by omega)]
  rw [htake]
  refine ⟨g2, g3, fun i j x y zx zy hx hy hzx hzy hxy => g4 i j x y zx zy hx hy ?_ ?_ hxy⟩
  · rwa [← hget i (List.getElem?_eq_some_iff.1 hx).1]
  · rwa [← hget j (List.getElem?_eq_some_iff.1 hy).1]

/-- C26 is false for a raw score whose exponential overflows (above 709.78): the class gets NaN instead of 1, alone or with others. -/
theorem C26_overflow (P : Platform) (x : F64) (hx : P.exp x = .inf false) (w out : List F64) (hw : ∀ y ∈ w, Le F64.zero (P.exp y))
    (h : IsTransformed P (.softmax (x :: w).length) (x :: w) out) : out[0]? = some F64.nan := by
  obtain ⟨-, rfl⟩ := h
  have hS : ∀ (es : List F64), (∀ e ∈ es, F64.le F64.zero e = true) → es.foldl F64.add (.inf false) = .inf false := by
    intro es
    induction es with
    | nil => intro _; rfl
    | cons e es ih =>
      intro he
      rw [List.foldl_cons]
      have : F64.add (.inf false) e = .inf false := by
        rcases F64.nonneg_cases (he e (by simp)) with rfl | ⟨s, m, hm, rfl, -⟩ <;> rfl
      rw [this]
      exact ih fun y hy => he y (by simp [hy])
  have hsum : ((x :: w).map P.exp).foldl F64.add F64.zero = .inf false := by
    rw [List.map_cons, List.foldl_cons, hx]
    exact hS _ fun e he => by
      obtain ⟨y, hy, rfl⟩ := List.mem_map.1 he
      exact (F64.le_iff _ _).2 (hw y hy)
  unfold softmaxOf
  simp only
  rw [hsum]
  show (((x :: w).map P.exp).map fun y => F64.mul y (F64.div F64.one (.inf false)))[0]? = _
  rw [List.map_cons, List.map_cons, hx]
  rfl

/-- C26 is false for raw scores whose exponentials are tiny (2^-1074 here, a raw score about -744.4): the only class gets infinity
instead of 1. -/
theorem C26_underflow (P : Platform) (x : F64) (hx : P.exp x = F64.ofBits 1) (out : List F64)
    (h : IsTransformed P (.softmax 1) [x] out) : out = [.inf false] := by
  obtain ⟨-, rfl⟩ := h
  unfold softmaxOf
  simp only [List.map_cons, List.map_nil, hx]
  decide +kernel

/-- C26: when all exponentials are 0 (raw scores below -745.2), every class gets 0: the numbers are not a distribution. -/
theorem C26_all_zero (P : Platform) (w out : List F64) (hw : ∀ x ∈ w, P.exp x = F64.zero)
    (h : IsTransformed P (.softmax w.length) w out) : out = w.map fun _ => F64.zero := by
  obtain ⟨-, rfl⟩ := h
  have he : w.map P.exp = w.map fun _ => F64.zero := List.map_congr_left hw
  have hs : ∀ w : List F64, (w.map fun _ => F64.zero).foldl F64.add F64.zero = F64.zero := by
    intro w
    induction w with
    | nil => rfl
    | cons x w ih =>
      rw [List.map_cons, List.foldl_cons, show F64.add F64.zero F64.zero = F64.zero by decide +kernel]
      exact ih
  unfold softmaxOf
  simp only
  rw [he, hs, show F64.feq F64.zero F64.zero = true by decide +kernel, if_pos rfl]

/-! ### examples -/

namespace TransformExample

theorem demo_nonneg : ExpNonneg Platform.demo := by
  intro x hx
  rw [← F64.le_iff]
  show F64.le F64.zero (if x.isNaN then _ else _) = true
  rw [if_neg (by rw [F64.isNaN_iff]; exact hx)]
  split
  · exact F64.zero_le_zero
  · split
    · exact F64.zero_le_one
    · rfl

theorem demo_mono : ExpMono Platform.demo := by
  intro x y h
  rw [← F64.le_iff] at h ⊢
  have hx := F64.ne_nan_of_le_left h
  have hy := F64.ne_nan_of_le_right h
  show F64.le (if x.isNaN then _ else _) (if y.isNaN then _ else _) = true
  rw [if_neg (fun h => hx (F64.isNaN_iff.1 h) : ¬ x.isNaN = true), if_neg (fun h => hy (F64.isNaN_iff.1 h) : ¬ y.isNaN = true)]
  by_cases h1 : F64.le y (F64.neg (F64.ofNat 1000)) = true
  · rw [if_pos h1, if_pos (F64.le_trans h h1)]
    exact F64.zero_le_zero
  · rw [if_neg h1]
    by_cases h2 : F64.le y (F64.ofNat 700) = true
    · rw [if_pos h2, if_pos (F64.le_trans h h2)]
      split
      · exact F64.zero_le_one
      · exact F64.le_refl (by simp [F64.one])
    · rw [if_neg h2]
      split
      · rfl
      · split <;> rfl

/-- a case of C25: scores 3 and 2000 -/
example : ∃ a b, IsTransformed Platform.demo .logistic [F64.ofNat 3] [a] ∧ IsTransformed Platform.demo .logistic [F64.ofNat 2000] [b] ∧
    IsProbability a ∧ IsProbability b ∧ Le a b := by
  have h1 : IsTransformed Platform.demo .logistic [F64.ofNat 3] [F64.const 1 2] :=
    ⟨_, rfl, congrArg (fun x => [x]) (by decide +kernel)⟩
  have h2 : IsTransformed Platform.demo .logistic [F64.ofNat 2000] [F64.one] :=
    ⟨_, rfl, congrArg (fun x => [x]) (by decide +kernel)⟩
  obtain ⟨a, ha, pa⟩ := C25_range _ demo_nonneg _ (by decide +kernel) _ h1
  obtain ⟨b, hb, pb⟩ := C25_range _ demo_nonneg _ (by decide +kernel) _ h2
  cases ha; cases hb
  exact ⟨_, _, h1, h2, pa, pb, C25_order _ demo_nonneg demo_mono _ _ _ _ ((F64.le_iff _ _).1 (by decide +kernel)) h1 h2⟩

/-- a case of C26: two classes with the same score -/
example : ∃ out, IsTransformed Platform.demo (.softmax 2) [F64.ofNat 3, F64.ofNat 3] out ∧ out = [F64.const 1 2, F64.const 1 2] ∧
    ∀ z ∈ out, IsProbability z := by
  have h : IsTransformed Platform.demo (.softmax 2) [F64.ofNat 3, F64.ofNat 3] [F64.const 1 2, F64.const 1 2] := ⟨rfl, by decide +kernel⟩
  have he : Le lowest (Platform.demo.exp (F64.ofNat 3)) ∧ Le (Platform.demo.exp (F64.ofNat 3)) highest :=
    ⟨(F64.le_iff _ _).1 (by decide +kernel), (F64.le_iff _ _).1 (by decide +kernel)⟩
  refine ⟨_, h, rfl, (C26_softmax_partial _ demo_mono [F64.ofNat 3, F64.ofNat 3] _ (by decide) (by decide) ?_ h).2.1⟩
  intro x hx
  have : x = F64.ofNat 3 := by simpa using hx
  subst this
  exact he

/-- a model without trees and with two classes -/
def emptyModel : Ensemble where
  base := .lg { trees := [], maxFeatureIdx := 0, nRawOutputGroups := 2, name := "lightgbm.gbdt" }
  transform := .softmax 2

/-- a case of `C26_predict_partial` -/
example : Fits emptyModel ∧ (emptyModel.predict Platform.demo [F64.one] 0 3).run [F64.nan, F64.nan, F64.nan] =
    (.ok ⟨⟩, [F64.const 1 2, F64.const 1 2, F64.nan]) :=
  ⟨⟨2, 0, rfl, by decide, ⟨2, rfl, by decide, rfl⟩, rfl⟩, by decide +kernel⟩

/-- a case of `C26_overflow` -/
example : IsTransformed Platform.demo (.softmax 1) [F64.ofNat 1000] [F64.nan] := ⟨rfl, by decide +kernel⟩

end TransformExample
end Leaves
