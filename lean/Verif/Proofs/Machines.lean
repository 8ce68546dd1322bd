import Verif.Proofs.F64Arith
import Verif.Proofs.Split
import Verif.Props.Batch
import Verif.Spec.Machines

/-! Lemmas for C100. -/

namespace Leaves

open Spec

namespace F64

/-- a float32 is NaN, infinite, or 24 bits times a power of two -/
theorem ofBits32_shape (b : BitVec 32) : ofBits32 b = nan ∨ (∃ s, ofBits32 b = inf s) ∨
    ∃ s a i h, a < 2 ^ 24 ∧ 925 ≤ i ∧ i ≤ 1178 ∧ ofBits32 b = fin s (a * 2 ^ i) h := by
  unfold ofBits32
  dsimp only
  generalize he : b.toNat / 2 ^ 23 % 2 ^ 8 = e
  generalize hf : b.toNat % 2 ^ 23 = f
  have he' : e < 256 := by omega
  have hf' : f < 2 ^ 23 := by omega
  have key : ∀ a i s, a < 2 ^ 24 → 925 ≤ i → i ≤ 1178 → ∃ h, ofRatio s (a * 2 ^ i) 1 = fin s (a * 2 ^ i) h := by
    intro a i s ha h1 h2
    have hr : Rep (a * 2 ^ i) := by
      refine rep_of_mul_pow (by omega) ?_
      rw [magLimit_eq]
      calc a * 2 ^ i < 2 ^ 24 * 2 ^ i := Nat.mul_lt_mul_of_pos_right ha (Nat.two_pow_pos _)
        _ = 2 ^ (24 + i) := (Nat.pow_add ..).symm
        _ ≤ 2 ^ 2098 := Nat.pow_le_pow_right (by omega) (by omega)
    exact ⟨hr, ofRatio_rep hr⟩
  by_cases h1 : e = 255
  · rw [if_pos h1]
    by_cases h2 : f = 0
    · rw [if_pos h2]; exact .inr (.inl ⟨_, rfl⟩)
    · rw [if_neg h2]; exact .inl rfl
  · rw [if_neg h1]
    refine .inr (.inr ?_)
    by_cases h2 : e = 0
    · rw [if_pos h2]
      obtain ⟨h, hk⟩ := key f 925 (b.getLsbD 31) (by omega) (by omega) (by omega)
      exact ⟨_, _, _, h, by omega, by omega, by omega, hk⟩
    · rw [if_neg h2]
      obtain ⟨h, hk⟩ := key (2 ^ 23 + f) (e - 1 + 925) (b.getLsbD 31) (by omega) (by omega) (by omega)
      exact ⟨_, _, _, h, by omega, by omega, by omega, hk⟩

theorem toInt_fin (s : Bool) (m : Nat) (h : Rep m) : (fin s m h).toInt = if s then -(m : Int) else m := by cases s <;> rfl

/-- when the product is a float64, rounding it first changes nothing -/
theorem fma_exact {s t : Bool} {m n q : Nat} (hm : Rep m) (hn : Rep n) (hq : Rep q) (e : m * n = q * unit) (z : F64) :
    fma (fin s m hm) (fin t n hn) z = add (mul (fin s m hm) (fin t n hn)) z := by
  have hmul : mul (fin s m hm) (fin t n hn) = fin (xor s t) q hq := by
    unfold mul
    dsimp only
    rw [e, ofRatio_unit, ofRatio_rep hq]
  rw [hmul]
  cases z with
  | nan => rfl
  | inf u => rfl
  | fin u k hk =>
    have hi : (fin s m hm).toInt * (fin t n hn).toInt = (fin (xor s t) q hq).toInt * unit := by
      have e' : (m : Int) * n = q * unit := by exact_mod_cast e
      rw [toInt_fin, toInt_fin, toInt_fin]
      cases s <;> cases t <;> simp only [Bool.xor_false, Bool.xor_true, Bool.not_false, Bool.not_true, Bool.false_eq_true, if_true, if_false]
        <;> nlinarith
    unfold fma add
    dsimp only
    rw [hi, ← Int.add_mul]
    generalize hv : (fin (xor s t) q hq).toInt + (fin u k hk).toInt = v
    unfold ofScaled
    by_cases h0 : v = 0
    · subst h0; simp
    · have hu := unit_pos
      rw [if_neg h0, if_neg (by intro h; rcases Int.mul_eq_zero.1 h with h | h <;> omega), Int.natAbs_mul, Int.natAbs_natCast, ofRatio_unit]
      congr 1
      rw [decide_eq_decide]
      constructor
      · intro h
        by_contra hc
        have := Int.mul_nonneg (a := v) (b := unit) (by omega) (by omega)
        omega
      · intro h; exact Int.mul_neg_of_neg_of_pos h (by omega)

/-- the product of two float32 is a float64 -/
theorem fma_float32 (a b : BitVec 32) (z : F64) : fma (ofBits32 a) (ofBits32 b) z = add (mul (ofBits32 a) (ofBits32 b)) z := by
  rcases ofBits32_shape a with h | ⟨s, h⟩ | ⟨s, x, i, hx, x1, x2, x3, h⟩
  · rw [h]; rfl
  · rw [h]; rfl
  rcases ofBits32_shape b with g | ⟨t, g⟩ | ⟨t, y, j, hy, y1, y2, y3, g⟩
  · rw [h, g]; rfl
  · rw [h, g]; rfl
  rw [h, g]
  refine fma_exact hx hy (q := x * y * 2 ^ (i + j - 1074)) (rep_of_mul_pow ?_ ?_) ?_ z
  · calc x * y ≤ 2 ^ 24 * 2 ^ 24 := Nat.mul_le_mul x1.le y1.le
      _ ≤ 2 ^ 53 := by norm_num
  · rw [magLimit_eq]
    calc x * y * 2 ^ (i + j - 1074) ≤ 2 ^ 48 * 2 ^ (i + j - 1074) :=
          Nat.mul_le_mul_right _ ((Nat.mul_le_mul x1.le y1.le).trans (by norm_num))
      _ = 2 ^ (48 + (i + j - 1074)) := (Nat.pow_add ..).symm
      _ < 2 ^ 2098 := Nat.pow_lt_pow_right (by omega) (by omega)
  · rw [unit_eq, Nat.mul_assoc (x * y), ← Nat.pow_add, show i + j - 1074 + 1074 = i + j by omega, Nat.pow_add]
    ring

end F64

/-- adding a float32 times a float32 is the same on every machine -/
theorem Platform.MulAddOK.float32 {P : Platform} (h : P.MulAddOK) (a b : BitVec 32) (z : F64) :
    P.mulAdd (F64.ofBits32 a) (F64.ofBits32 b) z = F64.add (F64.mul (F64.ofBits32 a) (F64.ofBits32 b)) z := by
  rcases h (F64.ofBits32 a) (F64.ofBits32 b) z with h | h
  · exact h
  · rw [h, F64.fma_float32]

theorem accumulate_steps {f g : Nat → F64 → F64} {n : Nat} (h : ∀ i < n, ∀ a, f i a = g i a) (z : F64) :
    accumulate f n z = accumulate g n z := by
  unfold accumulate
  have : ∀ l : List Nat, (∀ i ∈ l, i < n) → ∀ z, l.foldl (fun acc i => f i acc) z = l.foldl (fun acc i => g i acc) z := by
    intro l
    induction l with
    | nil => intros; rfl
    | cons i l ih =>
      intro hl z
      rw [List.foldl_cons, List.foldl_cons, h i (hl i (by simp))]
      exact ih (fun j hj => hl j (by simp [hj])) _
  exact this _ (fun i hi => List.mem_range.1 hi) z

theorem catLeft_definite {m : Missing} {x : F64} (h : Definite m x) (o o' : F64 → Int) (set : Nat → Prop) :
    CatLeft o m set x → CatLeft o' m set x := by
  rintro ⟨c, h1, h2, h3, h4⟩
  rcases h with ⟨h, h'⟩ | ⟨q, hq, q1, q2⟩
  · exact absurd h' (h3 h)
  · refine ⟨c, .inl ?_, h2, h3, h4⟩
    rcases h1 with h1 | ⟨h1, -⟩
    · exact h1
    · exact absurd ⟨q, hq, q1, q2⟩ h1

theorem left_definite {rule : Rule} {x : F64} (h : ∀ m set, rule = .cat m set → Definite m x) (o o' : F64 → Int) :
    rule.Left o x → rule.Left o' x := by
  cases rule with
  | num r => exact id
  | cat m set => exact catLeft_definite (h m set rfl) o o' set

theorem walk_congr {goes goes' : Nat → Bool → Prop} {T : BTree} (h : ∀ i ∈ T.inner, ∀ b, goes i b → goes' i b) {k : Nat}
    (w : Walk goes T k) : Walk goes' T k := by
  induction w with
  | leaf k => exact .leaf k
  | left hi w ih => exact .left (h _ (by simp [BTree.inner]) _ hi) (ih fun i hi => h i (by simp [BTree.inner, hi]))
  | right hi w ih => exact .right (h _ (by simp [BTree.inner]) _ hi) (ih fun i hi => h i (by simp [BTree.inner, hi]))

theorem value_definite {d : TreeDesc} {row : List F64} (h : d.DefiniteOn row) (o o' : F64 → Int) {w : F64} (hv : d.Value o row w) :
    d.Value o' row w := by
  unfold TreeDesc.Value at hv ⊢
  by_cases h0 : d.inner = 0
  · rwa [if_pos h0] at hv ⊢
  · rw [if_neg h0] at hv ⊢
    obtain ⟨k, hw, hk⟩ := hv
    refine ⟨k, walk_congr (fun i hi b => ?_) hw, hk⟩
    rintro ⟨f, rule, x, h1, h2, h3⟩
    have hd : ∀ m set, rule = .cat m set → Definite m x := fun m set e => h h0 i hi f m set x (e ▸ h1) h2
    exact ⟨f, rule, x, h1, h2, h3.trans ⟨left_definite hd _ _, left_definite hd _ _⟩⟩

theorem jWalk_definite {row : List F64} {o o' : F64 → Int} {t : JRaw} {p : List Bool} {v : F64} (w : JWalk o row t p v)
    (h : JDefiniteOn row t) : JWalk o' row t p v := by
  induction w with
  | leaf v => exact .leaf v
  | left hs hx hl w ih =>
    exact .left hs hx (left_definite (fun m set e => h.1 m set _ (e ▸ hs) hx) _ _ hl) (ih h.2.1)
  | right hs hx hl w ih =>
    exact .right hs hx (fun hn => hl (left_definite (fun m set e => h.1 m set _ (e ▸ hs) hx) _ _ hn)) (ih h.2.2)

theorem transformed_exp {P Q : Platform} (h : P.exp = Q.exp) {t : Transform} {w out : List F64} (ht : IsTransformed P t w out) :
    IsTransformed Q t w out := by
  cases t with
  | raw n => exact ht
  | leafIndex n => exact ht
  | logistic => obtain ⟨x, h1, h2⟩ := ht; exact ⟨x, h1, h ▸ h2⟩
  | exponential => obtain ⟨x, h1, h2⟩ := ht; exact ⟨x, h1, h ▸ h2⟩
  | softmax n => exact ⟨ht.1, by rw [ht.2]; unfold softmaxOf; rw [h]⟩

/-- models whose rows are predicted alike are interchangeable for matrices too -/
theorem Transfers.of_rows {P Q : Platform} {e e' : Ensemble} {ok : List F64 → Prop} (hf : Fits e) (hf' : Fits e')
    (hw : e.nOutputGroups = e'.nOutputGroups) (hn : e.nFeatures = e'.nFeatures) (hd : dflt e.base = dflt e'.base)
    (h0 : 0 ≤ e.nOutputGroups)
    (h : ∀ row req m m', ok row → (e.predict P row req m.length).run m = (.ok ⟨⟩, m') →
      (e'.predict Q row req m.length).run m = (.ok ⟨⟩, m')) : Transfers P e Q e' ok := by
  obtain ⟨w, hw1⟩ := Int.eq_ofNat_of_zero_le h0
  have hw2 : e'.nOutputGroups = w := by rw [← hw, hw1]
  refine ⟨h, ?_, ?_⟩
  · intro vals m m' r ncols req nt nt' hr hwr hr2 hok hp
    have hwr' : w * r < 2 ^ 63 := by rw [hw1] at hwr; exact_mod_cast hwr
    obtain ⟨outs, s, g⟩ := C14_dense_is_rowwise P e hf w r ncols hw1 hwr' hr2 vals m m' req nt hp
    have hc : 0 < ncols := ((dense_iff hf hw1 hwr' hr2).1 hp).1
    have hq := C14_rowwise_is_dense Q e' hf' w r ncols hw2 hwr' hr2 hr hc vals m m' req 1 outs s (by
      intro i hi
      obtain ⟨row, g1, g2⟩ := g i hi
      refine ⟨row, List.replicate w F64.zero, g1, by simp, ?_⟩
      have := h row req (List.replicate w F64.zero) (outs i) (hok i hi row g1) (by simpa using g2 (List.replicate w F64.zero) (by simp))
      simpa using this)
    exact fun out => C16_dense_deterministic Q e' hf' w r ncols hw2 hwr' hr2 vals m m' req nt' hq out
  · intro indptr cols vals m m' r nf req nt nt' hr hwr hr2 hip hnf hnP hnQ hok hp
    have hwr' : w * r < 2 ^ 63 := by rw [hw1] at hwr; exact_mod_cast hwr
    obtain ⟨outs, s, g⟩ := C15_csr_is_rowwise P e hf w r nf hw1 ⟨hnf, hnP⟩ hwr' hr2 indptr cols hip vals m m' req nt hp
    have hq := C15_rowwise_is_csr Q e' hf' w r nf hw2 ⟨hn ▸ hnf, hnQ⟩ hwr' hr2 hr indptr cols hip vals m m' req 1 outs s (by
      intro i hi
      obtain ⟨row, g1, g2⟩ := g i hi
      refine ⟨row, List.replicate w F64.zero, hd ▸ g1, by simp, ?_⟩
      have := h row req (List.replicate w F64.zero) (outs i) (hok i hi row g1) (by simpa using g2 (List.replicate w F64.zero) (by simp))
      simpa using this)
    exact fun out => C17_csr_deterministic Q e' hf' w r nf hw2 ⟨hn ▸ hnf, hnQ⟩ hwr' hr2 indptr cols hip vals m m' req nt' hq out

end Leaves
