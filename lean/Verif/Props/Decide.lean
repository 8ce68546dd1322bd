import Verif.Proofs.F64Mono
import Verif.Props.RawView
import Verif.Props.Transform

/-!
# C116: decisions taken from probabilities agree with the raw scores

A classifier's answer is usually taken from the probabilities: above one half or below, or the class with the largest one. The raw scores
never contradict it, in whatever way the arithmetic rounds and overflows. (They may know more: different raw scores may have equal
probabilities.)
-/

namespace Leaves
open Spec GoM

/-- what C116 needs of `math.Exp`: it is not negative, does not reverse the order, `Exp(NaN) = NaN` and `Exp(0) = 1` -/
structure Spec.ExpDecides (P : Platform) : Prop where
  nonneg : ExpNonneg P
  mono : ExpMono P
  nan : P.exp F64.nan = F64.nan
  zero : P.exp F64.zero = F64.one

theorem lt_not_nan {x y : F64} (h : Lt x y) : x ≠ F64.nan ∧ y ≠ F64.nan := by
  obtain ⟨a, b, h1, h2, -⟩ := h
  exact ⟨fun h => (by rw [h] at h1; cases h1), fun h => (by rw [h] at h2; cases h2)⟩

theorem not_lt_of_le {x y : F64} (h : Le x y) : ¬ Lt y x := by
  rintro ⟨a, b, h1, h2, h3⟩
  obtain ⟨c, d, h4, h5, h6⟩ := h
  rw [h1] at h5
  rw [h2] at h4
  cases h4
  cases h5
  exact absurd h6 (not_le_of_gt h3)

theorem le_of_not_lt {x y : F64} (hx : x ≠ F64.nan) (hy : y ≠ F64.nan) (h : ¬ Lt x y) : Le y x := by
  have h' := mt (F64.lt_iff x y).1 h
  unfold F64.lt at h'
  rw [← F64.le_iff]
  cases x <;> cases y <;> simp_all [F64.isNaN]

/-- one half -/
def half : F64 := F64.div F64.one (F64.ofNat 2)

/-- it is one half -/
example : IsVal half (1 / 2) := by
  obtain ⟨m, hm, h, hu⟩ : ∃ m hm, half = F64.fin false m hm ∧ unit = m * 2 := ⟨unit / 2, by decide +kernel, by decide +kernel, by decide +kernel⟩
  have h0 : (m : ℚ) ≠ 0 := by
    rintro h
    have h' : m = 0 := by exact_mod_cast h
    have := unit_pos
    omega
  unfold IsVal
  rw [h, F64.value_fin, hu]
  refine congrArg (fun q => some (pt q)) ?_
  simp only [F64.toInt, Int.cast_natCast, Nat.cast_mul]
  field_simp
  norm_num

/-- a logistic output against one half -/
theorem logistic_half {P : Platform} (h : ExpDecides P) {x z : F64} (ht : IsTransformed P .logistic [x] [z]) :
    (Le F64.zero x → Le half z) ∧ (Le x F64.zero → Le z half) := by
  obtain ⟨x', h1, h2⟩ := ht
  cases h1
  cases h2
  have h1e : F64.le F64.zero F64.one = true := F64.zero_le_one
  have h2e : half = F64.div F64.one (F64.add F64.one F64.one) := by decide +kernel
  have z0 : F64.neg F64.zero ≠ F64.nan := by decide
  refine ⟨fun hx => ?_, fun hx => ?_⟩
  · have hx' := (F64.le_iff _ _).2 hx
    have hxn := F64.ne_nan_of_le_right hx'
    have hle : F64.le x.neg F64.zero = true := F64.le_trans (F64.neg_le_neg hx') (by decide +kernel)
    have he := (F64.le_iff _ _).2 (h.mono _ _ ((F64.le_iff _ _).1 hle))
    have hp := (F64.le_iff _ _).2 (h.nonneg _ (F64.neg_ne_nan hxn))
    rw [h.zero] at he
    rw [h2e, ← F64.le_iff]
    refine F64.div_one_anti (F64.pos_of_one_le (logistic_denominator h.nonneg hxn)) (F64.add_mono (F64.le_refl (by decide)) he ?_ ?_)
    · exact F64.add_nonneg_ne_nan h1e hp
    · exact F64.add_nonneg_ne_nan h1e h1e
  · have hx' := (F64.le_iff _ _).2 hx
    have hxn := F64.ne_nan_of_le_left hx'
    have hle : F64.le F64.zero x.neg = true := F64.le_trans (by decide +kernel) (F64.neg_le_neg hx')
    have he := (F64.le_iff _ _).2 (h.mono _ _ ((F64.le_iff _ _).1 hle))
    have hp := (F64.le_iff _ _).2 (h.nonneg _ (F64.neg_ne_nan hxn))
    rw [h.zero] at he
    rw [h2e, ← F64.le_iff]
    refine F64.div_one_anti (by decide +kernel) (F64.add_mono (F64.le_refl (by decide)) he ?_ ?_)
    · exact F64.add_nonneg_ne_nan h1e h1e
    · exact F64.add_nonneg_ne_nan h1e hp

theorem logistic_nan {P : Platform} (h : ExpDecides P) {z : F64} (ht : IsTransformed P .logistic [F64.nan] [z]) : z = F64.nan := by
  obtain ⟨x', h1, h2⟩ := ht
  cases h1
  rw [show F64.neg F64.nan = F64.nan from rfl, h.nan] at h2
  cases h2
  rfl

/-- **C116, two classes.** Wherever Predict of a model with the logistic transformation stores a probability `z`, and Predict of its raw
view the score `x`: a probability above one half means a positive score, one below it a negative score; a score that is not negative
has at least one half, a score that is not positive at most. -/
theorem C116_logistic (P : Platform) (h : ExpDecides P) (e : Ensemble) (hf : Fits e) (ht : e.transform = .logistic) (row : List F64)
    (req : Int) (a b x z : F64) (hz : (e.predict P row req 1).run [a] = (.ok ⟨⟩, [z]))
    (hx : (e.withRawPredictions.predict P row req 1).run [b] = (.ok ⟨⟩, [x])) :
    (Lt half z → Lt F64.zero x) ∧ (Lt z half → Lt x F64.zero) ∧ (Le F64.zero x → Le half z) ∧ (Le x F64.zero → Le z half) := by
  have hw : e.nOutputGroups = (1 : Nat) := by show e.transform.nOutputGroups = _; rw [ht]; rfl
  obtain ⟨raw, h1, h2⟩ := (C108_row P e hf (fun k hk => by rw [ht] at hk; cases hk) 1 hw (by norm_num) row req [a] [b] [z] rfl rfl).1 hz
  rw [hx] at h1
  cases h1
  rw [ht] at h2
  obtain ⟨k1, k2⟩ := logistic_half h h2
  have hn : z ≠ F64.nan → x ≠ F64.nan := fun hz' hx' => hz' (logistic_nan h (hx' ▸ h2))
  refine ⟨fun hl => ?_, fun hl => ?_, k1, k2⟩
  · by_contra hc
    exact not_lt_of_le (k2 (le_of_not_lt (by decide) (hn (lt_not_nan hl).2) hc)) hl
  · by_contra hc
    exact not_lt_of_le (k1 (le_of_not_lt (hn (lt_not_nan hl).1) (by decide) hc)) hl

/-- **C116, ranking.** Of two rows the one with the larger output of a logistic or exponential model has the larger raw score. -/
theorem C116_ranking (P : Platform) (h : ExpDecides P) (e : Ensemble) (hf : Fits e) (ht : e.transform = .logistic ∨ e.transform = .exponential)
    (row row' : List F64) (req : Int) (a b x z x' z' : F64) (hz : (e.predict P row req 1).run [a] = (.ok ⟨⟩, [z]))
    (hx : (e.withRawPredictions.predict P row req 1).run [b] = (.ok ⟨⟩, [x])) (hz' : (e.predict P row' req 1).run [a] = (.ok ⟨⟩, [z']))
    (hx' : (e.withRawPredictions.predict P row' req 1).run [b] = (.ok ⟨⟩, [x'])) (hl : Lt z z') : Lt x x' := by
  have hw : e.nOutputGroups = (1 : Nat) := by show e.transform.nOutputGroups = _; rcases ht with ht | ht <;> rw [ht] <;> rfl
  have hnl : ∀ k, e.transform ≠ .leafIndex k := fun k hk => by rcases ht with ht | ht <;> rw [ht] at hk <;> cases hk
  obtain ⟨raw, h1, h2⟩ := (C108_row P e hf hnl 1 hw (by norm_num) row req [a] [b] [z] rfl rfl).1 hz
  obtain ⟨raw', h1', h2'⟩ := (C108_row P e hf hnl 1 hw (by norm_num) row' req [a] [b] [z'] rfl rfl).1 hz'
  rw [hx] at h1
  rw [hx'] at h1'
  cases h1
  cases h1'
  rcases ht with ht | ht
  · rw [ht] at h2 h2'
    by_contra hc
    exact not_lt_of_le (C25_order P h.nonneg h.mono x' x z' z (le_of_not_lt (fun hh => (lt_not_nan hl).1 (logistic_nan h (hh ▸ h2)))
      (fun hh => (lt_not_nan hl).2 (logistic_nan h (hh ▸ h2'))) hc) h2' h2) hl
  · rw [ht] at h2 h2'
    obtain ⟨_, e1, e2⟩ := h2
    obtain ⟨_, e1', e2'⟩ := h2'
    cases e1; cases e2; cases e1'; cases e2'
    by_contra hc
    exact not_lt_of_le (h.mono _ _ (le_of_not_lt (fun hh => (lt_not_nan hl).1 (by rw [hh, h.nan]))
      (fun hh => (lt_not_nan hl).2 (by rw [hh, h.nan])) hc)) hl

/-- a sum of exponentials is NaN or not negative -/
theorem foldl_nonneg : ∀ (es : List F64) (acc : F64), (acc = F64.nan ∨ F64.le F64.zero acc = true) →
    (∀ e ∈ es, e = F64.nan ∨ F64.le F64.zero e = true) → es.foldl F64.add acc = F64.nan ∨ F64.le F64.zero (es.foldl F64.add acc) = true
  | [], _, h, _ => h
  | e :: es, acc, h, he => by
    refine foldl_nonneg es _ ?_ fun e' h' => he e' (List.mem_cons_of_mem _ h')
    rcases h with rfl | h
    · exact .inl rfl
    · rcases he e (List.mem_cons_self ..) with rfl | h'
      · left
        cases acc <;> rfl
      · exact .inr (F64.le_trans h (F64.le_add_left h h'))

/-- the softmax of any scores never reverses the order of two of them -/
theorem softmax_lt {P : Platform} (h : ExpDecides P) {w out : List F64} (hs : out = softmaxOf P w) {i j : Nat} {x y zx zy : F64}
    (hx : w[i]? = some x) (hy : w[j]? = some y) (hzx : out[i]? = some zx) (hzy : out[j]? = some zy) (hl : Lt zx zy) : Lt x y := by
  subst hs
  by_contra hc
  have hes : ∀ e ∈ w.map P.exp, e = F64.nan ∨ F64.le F64.zero e = true := by
    intro e he
    obtain ⟨v, -, rfl⟩ := List.mem_map.1 he
    by_cases hv : v = F64.nan
    · exact .inl (by rw [hv, h.nan])
    · exact .inr ((F64.le_iff _ _).2 (h.nonneg _ hv))
  unfold softmaxOf at hzx hzy
  simp only at hzx hzy
  generalize hS : (w.map P.exp).foldl F64.add F64.zero = S at hzx hzy
  have hS0 : S = F64.nan ∨ F64.le F64.zero S = true := hS ▸ foldl_nonneg _ _ (.inr F64.zero_le_zero) hes
  have finish : ∀ (hxe : P.exp x ≠ F64.nan) (hye : P.exp y ≠ F64.nan), Le (P.exp y) (P.exp x) := fun hxe hye =>
    h.mono _ _ (le_of_not_lt (fun hh => hxe (by rw [hh, h.nan])) (fun hh => hye (by rw [hh, h.nan])) hc)
  by_cases hz : F64.feq S F64.zero = true
  · rw [if_pos hz, List.getElem?_map, hx] at hzx
    rw [if_pos hz, List.getElem?_map, hy] at hzy
    cases hzx
    cases hzy
    exact not_lt_of_le (finish (lt_not_nan hl).1 (lt_not_nan hl).2) hl
  · rw [if_neg hz, List.getElem?_map, List.getElem?_map, hx] at hzx
    rw [if_neg hz, List.getElem?_map, List.getElem?_map, hy] at hzy
    cases hzx
    cases hzy
    obtain ⟨n1, n2⟩ := lt_not_nan hl
    have m1 : P.exp x ≠ F64.nan := fun hh => n1 (by rw [hh]; rfl)
    have m2 : P.exp y ≠ F64.nan := fun hh => n2 (by rw [hh]; rfl)
    have m3 : S ≠ F64.nan := fun hh => n1 (by rw [hh]; generalize P.exp x = v; cases v <;> rfl)
    have hpos : F64.lt F64.zero S = true := by
      rcases hS0 with hS0 | hS0
      · exact absurd hS0 m3
      · unfold F64.lt
        unfold F64.feq at hz
        rw [hS0, Bool.and_true] at hz
        cases S <;> simp_all [F64.isNaN, F64.zero]
    exact not_lt_of_le ((F64.le_iff _ _).1 (F64.mul_mono_left ((F64.le_iff _ _).2 (finish m1 m2)) (F64.zero_le_div_one hpos) n2 n1)) hl

/-- **C116, several classes.** If Predict of a softmax model stores a larger probability for class `j` than for class `i`, Predict of its raw
view stores a larger score for `j` than for `i`, whatever the scores are: very large, very small, infinite or NaN. -/
theorem C116_softmax (P : Platform) (h : ExpDecides P) (e : Ensemble) (hf : Fits e) (n : Int) (ht : e.transform = .softmax n) (w : Nat)
    (hw : e.nOutputGroups = w) (hlt : w < 2 ^ 63) (row : List F64) (req : Int) (buf rbuf out raw : List F64) (hb : buf.length = w)
    (hrb : rbuf.length = w) (hz : (e.predict P row req w).run buf = (.ok ⟨⟩, out))
    (hx : (e.withRawPredictions.predict P row req w).run rbuf = (.ok ⟨⟩, raw)) :
    out.length = raw.length ∧ ∀ (i j : Nat) (x y zx zy : F64), raw[i]? = some x → raw[j]? = some y → out[i]? = some zx → out[j]? = some zy →
      Lt zx zy → Lt x y := by
  obtain ⟨raw', h1, h2⟩ := (C108_row P e hf (fun k hk => by rw [ht] at hk; cases hk) w hw hlt row req buf rbuf out hb hrb).1 hz
  rw [hx] at h1
  cases h1
  rw [ht] at h2
  obtain ⟨-, h2⟩ := h2
  refine ⟨?_, fun i j x y zx zy k1 k2 k3 k4 hl => softmax_lt h h2 k1 k2 k3 k4 hl⟩
  rw [h2]
  unfold softmaxOf
  simp only
  split <;> simp

/-- **C116, what the probabilities do not tell.** With a `math.Exp` that rounds `exp(2^-60)` to 1, as a correctly rounded one does, the score
`-2^-60` has the probability one half exactly, and two classes with the scores 0 and `2^-60` have the same probability: `p >= 0.5` and the
first largest probability answer otherwise than the raw scores. -/
theorem C116_ties (P : Platform) (h0 : P.exp F64.zero = F64.one) (h : P.exp (F64.const 1 (2 ^ 60)) = F64.one) :
    Lt (F64.const 1 (2 ^ 60)).neg F64.zero ∧ IsTransformed P .logistic [(F64.const 1 (2 ^ 60)).neg] [half] ∧
    Lt F64.zero (F64.const 1 (2 ^ 60)) ∧ IsTransformed P (.softmax 2) [F64.zero, F64.const 1 (2 ^ 60)] [half, half] := by
  refine ⟨(F64.lt_iff _ _).1 (by decide +kernel), ⟨_, rfl, ?_⟩, (F64.lt_iff _ _).1 (by decide +kernel), rfl, ?_⟩
  · rw [show (F64.const 1 (2 ^ 60)).neg.neg = F64.const 1 (2 ^ 60) by decide +kernel, h]
    decide +kernel
  · unfold softmaxOf
    simp only [List.map_cons, List.map_nil, h0, h]
    decide +kernel

/-! ## Examples -/

namespace DecideExample

open PredictExample TransformExample

theorem demo_decides : ExpDecides Platform.demo :=
  ⟨demo_nonneg, demo_mono, by decide +kernel, by decide +kernel⟩

/-- the model gives the probability 1, above one half; its raw view gives 2222 -/
example : Lt F64.zero (F64.ofNat 2222) :=
  (C116_logistic Platform.demo demo_decides lg1 lg1_fits rfl [F64.ofNat 7, F64.zero] 0 F64.zero F64.nan (F64.ofNat 2222) F64.one
    (by decide +kernel) (by decide +kernel)).1 ((F64.lt_iff _ _).1 (by decide +kernel))

/-- one tree with the values -2000 and 5 -/
def one2 : Ensemble where
  base := .lg { trees := [stump (F64.ofNat 2000).neg (F64.ofNat 5)], maxFeatureIdx := 0, nRawOutputGroups := 1, name := "lightgbm.gbdt" }
  transform := .logistic

theorem one2_fits : Fits one2 := ⟨1, 1, rfl, by decide, ⟨1, rfl, by decide, by decide⟩, rfl⟩

/-- the rows (0) and (7) get the probabilities 0 and 1/2, and have the scores -2000 and 5 -/
example : Lt (F64.ofNat 2000).neg (F64.ofNat 5) :=
  C116_ranking Platform.demo demo_decides one2 one2_fits (.inl rfl) [F64.zero] [F64.ofNat 7] 0 F64.nan F64.zero _ F64.zero _ half
    (by decide +kernel) (by decide +kernel) (by decide +kernel) (by decide +kernel) ((F64.lt_iff _ _).1 (by decide +kernel))

/-- two classes, with -2000 and 5 -/
def two : Ensemble where
  base := .lg { trees := [stump (F64.ofNat 2000).neg F64.one, stump (F64.ofNat 5) F64.one], maxFeatureIdx := 0, nRawOutputGroups := 2, name := "lightgbm.gbdt" }
  transform := .softmax 2

theorem two_fits : Fits two := ⟨2, 1, rfl, by decide, ⟨2, rfl, by decide, by decide⟩, rfl⟩

/-- the probabilities of the row (0) are 0 and 1 -/
example : (two.predict Platform.demo [F64.zero] 0 2).run [F64.nan, F64.nan] = (.ok ⟨⟩, [F64.zero, F64.one]) ∧
    Lt (F64.ofNat 2000).neg (F64.ofNat 5) := by
  have h : (two.predict Platform.demo [F64.zero] 0 2).run [F64.nan, F64.nan] = (.ok ⟨⟩, [F64.zero, F64.one]) := by decide +kernel
  exact ⟨h, (C116_softmax Platform.demo demo_decides two two_fits 2 rfl 2 rfl (by norm_num) [F64.zero] 0 _ [F64.one, F64.one] _
    [(F64.ofNat 2000).neg, F64.ofNat 5] rfl rfl h (by decide +kernel)).2 0 1 _ _ _ _ rfl rfl rfl rfl ((F64.lt_iff _ _).1 (by decide +kernel))⟩

end DecideExample

end Leaves
