import Verif.Model.Util
import Verif.Spec.Bitset
import Mathlib.Data.Fintype.BigOperators
import Mathlib.Tactic.IntervalCases

/-! Lemmas about the bit tricks of util.go. -/

namespace Leaves

open Spec

/-- byte `k` of a word -/
def byteOf (e : BitVec 32) (k : Nat) : Nat := e.toNat / 256 ^ k % 256

theorem toNat_bytes (e : BitVec 32) :
    e.toNat = byteOf e 0 + 256 * byteOf e 1 + 65536 * byteOf e 2 + 16777216 * byteOf e 3 := by
  unfold byteOf
  have := e.isLt
  omega

theorem byteOf_lt (e : BitVec 32) (k : Nat) : byteOf e k < 256 := Nat.mod_lt _ (by norm_num)

theorem byteOf_testBit (e : BitVec 32) (k i : Nat) :
    (byteOf e k).testBit i = (decide (i < 8) && e.getLsbD (8 * k + i)) := by
  unfold byteOf
  have h1 : 256 ^ k = 2 ^ (8 * k) := by rw [Nat.pow_mul]
  rw [h1, show (256 : Nat) = 2 ^ 8 from rfl, Nat.testBit_mod_two_pow, Nat.testBit_div_two_pow]
  rw [BitVec.getLsbD, Nat.add_comm]

/-- two words with equal bytes are equal -/
theorem eq_of_bytes {a b : BitVec 32} (h : ∀ k < 4, byteOf a k = byteOf b k) : a = b := by
  apply BitVec.eq_of_toNat_eq
  rw [toNat_bytes a, toNat_bytes b, h 0 (by norm_num), h 1 (by norm_num), h 2 (by norm_num), h 3 (by norm_num)]

theorem byteOf_and (a b : BitVec 32) (k : Nat) : byteOf (a &&& b) k = byteOf a k &&& byteOf b k := by
  apply Nat.eq_of_testBit_eq
  intro i
  rw [Nat.testBit_and, byteOf_testBit, byteOf_testBit, byteOf_testBit, BitVec.getLsbD_and]
  by_cases h : i < 8 <;> simp [h]

/-- byte of a masked shift, when the mask hides the bits coming from the next byte -/
theorem byteOf_shift_and (a m : BitVec 32) (s k : Nat) (hm : ∀ i, i < 8 → 8 ≤ s + i → (byteOf m k).testBit i = false) :
    byteOf ((a >>> s) &&& m) k = (byteOf a k >>> s) &&& byteOf m k := by
  apply Nat.eq_of_testBit_eq
  intro i
  rw [byteOf_and, Nat.testBit_and, Nat.testBit_and, Nat.testBit_shiftRight, byteOf_testBit, byteOf_testBit a]
  rw [BitVec.getLsbD_ushiftRight]
  by_cases h : i < 8
  · by_cases h2 : 8 ≤ s + i
    · rw [hm i h h2]; simp
    · have h3 : s + i < 8 := by omega
      simp only [h, h3, decide_true, Bool.true_and]
      rw [show s + (8 * k + i) = 8 * k + (s + i) by omega]
  · rw [byteOf_testBit m]; simp [h]

theorem byteOf_of_toNat {x : BitVec 32} {c0 c1 c2 c3 : Nat} (h0 : c0 < 256) (h1 : c1 < 256) (h2 : c2 < 256)
    (h3 : c3 < 256) (h : x.toNat = c0 + 256 * c1 + 65536 * c2 + 16777216 * c3) :
    byteOf x 0 = c0 ∧ byteOf x 1 = c1 ∧ byteOf x 2 = c2 ∧ byteOf x 3 = c3 := by
  unfold byteOf
  rw [h]
  omega

/-- number of one bits of a byte -/
def pop8 (b : Nat) : Nat := (List.range 8).countP fun i => b.testBit i

/-- number of one bits of a word -/
def ones (e : BitVec 32) : Nat := (List.range 32).countP fun i => e.getLsbD i

theorem ones_bytes (e : BitVec 32) :
    ones e = pop8 (byteOf e 0) + pop8 (byteOf e 1) + pop8 (byteOf e 2) + pop8 (byteOf e 3) := by
  have hb : ∀ k, pop8 (byteOf e k) = ((List.range 8).map (8 * k + ·)).countP fun i => e.getLsbD i := by
    intro k
    unfold pop8
    rw [List.countP_map]
    apply List.countP_congr
    intro i hi
    rw [byteOf_testBit]
    simp [List.mem_range.1 hi]
  rw [hb, hb, hb, hb, ← List.countP_append, ← List.countP_append, ← List.countP_append]
  rfl

/-- step 1 and 2 of the bit count on one byte -/
def swar1 (a : Nat) : Nat := a - ((a >>> 1) &&& 0x55)
def swar2 (c : Nat) : Nat := (c &&& 0x33) + ((c >>> 2) &&& 0x33)

theorem swar_byte : ∀ a < 256,
    ((a >>> 1) &&& 0x55) ≤ a ∧ swar1 a < 256 ∧
    swar2 (swar1 a) % 16 ≤ 4 ∧ swar2 (swar1 a) / 16 ≤ 4 ∧
    swar2 (swar1 a) % 16 + swar2 (swar1 a) / 16 = pop8 a := by
  decide +kernel

theorem swar2_lt : ∀ a < 256, swar2 a < 256 := by decide +kernel

theorem maskBytes (n c : Nat) (hn : n < 2 ^ 32)
    (h : n = c + 256 * c + 65536 * c + 16777216 * c) (hc : c < 256) :
    ∀ k < 4, byteOf (BitVec.ofNat 32 n) k = c := by
  have := byteOf_of_toNat (x := BitVec.ofNat 32 n) hc hc hc hc
    (by rw [BitVec.toNat_ofNat, Nat.mod_eq_of_lt hn]; exact h)
  intro k hk
  interval_cases k <;> tauto

theorem and15 (x y : Nat) : (x % 16 + 16 * y) &&& 15 = x % 16 := by
  rw [show (15 : Nat) = 2 ^ 4 - 1 from rfl, Nat.and_two_pow_sub_one_eq_mod]
  omega

theorem sub_bytes {a b : BitVec 32} {a0 a1 a2 a3 b0 b1 b2 b3 : Nat}
    (ha : a.toNat = a0 + 256 * a1 + 65536 * a2 + 16777216 * a3)
    (hb : b.toNat = b0 + 256 * b1 + 65536 * b2 + 16777216 * b3)
    (h0 : b0 ≤ a0) (h1 : b1 ≤ a1) (h2 : b2 ≤ a2) (h3 : b3 ≤ a3) :
    (a - b).toNat = (a0 - b0) + 256 * (a1 - b1) + 65536 * (a2 - b2) + 16777216 * (a3 - b3) := by
  have : b ≤ a := by rw [BitVec.le_def]; omega
  rw [BitVec.toNat_sub_of_le this]
  omega

theorem add_bytes {a b : BitVec 32} {a0 a1 a2 a3 b0 b1 b2 b3 : Nat}
    (ha : a.toNat = a0 + 256 * a1 + 65536 * a2 + 16777216 * a3)
    (hb : b.toNat = b0 + 256 * b1 + 65536 * b2 + 16777216 * b3)
    (h0 : a0 + b0 < 256) (h1 : a1 + b1 < 256) (h2 : a2 + b2 < 256) (h3 : a3 + b3 < 256) :
    (a + b).toNat = (a0 + b0) + 256 * (a1 + b1) + 65536 * (a2 + b2) + 16777216 * (a3 + b3) := by
  rw [BitVec.toNat_add, ha, hb, Nat.mod_eq_of_lt (by omega)]
  ring

theorem gather {r0 r1 r2 r3 : Nat} (b0 : r0 ≤ 8) (b1 : r1 ≤ 8) (b2 : r2 ≤ 8) (b3 : r3 ≤ 8) :
    (r0 + 256 * r1 + 65536 * r2 + 16777216 * r3) * 16843009 % 2 ^ 32 / 2 ^ 24 = r0 + r1 + r2 + r3 := by
  have h1 : (r0 + 256 * r1 + 65536 * r2 + 16777216 * r3) * 16843009
      = (2 ^ 24 * (r0 + r1 + r2 + r3) + (r0 + 256 * (r0 + r1) + 65536 * (r0 + r1 + r2)))
        + 2 ^ 32 * (r1 + r2 + r3 + 256 * (r2 + r3) + 65536 * r3) := by ring
  rw [h1, Nat.add_mul_mod_self_left, Nat.mod_eq_of_lt (by omega), Nat.mul_add_div (by norm_num),
    Nat.div_eq_of_lt (by omega), Nat.add_zero]

theorem numberOfSetBits_elem (e : BitVec 32) :
    (Util.numberOfSetBitsInBitsetElement e).toNat = ones e := by
  have a0 := swar_byte _ (byteOf_lt e 0)
  have a1 := swar_byte _ (byteOf_lt e 1)
  have a2 := swar_byte _ (byteOf_lt e 2)
  have a3 := swar_byte _ (byteOf_lt e 3)
  rw [ones_bytes]
  unfold Util.numberOfSetBitsInBitsetElement
  dsimp only
  -- step 1
  have hm5 := maskBytes 0x55555555 0x55 (by norm_num) (by norm_num) (by norm_num)
  have hm1 : ∀ k < 4, byteOf ((e >>> 1) &&& 0x55555555#32) k = (byteOf e k >>> 1) &&& 0x55 := by
    intro k hk
    rw [byteOf_shift_and, hm5 k hk]
    intro i hi h8
    rw [hm5 k hk]
    have : i = 7 := by omega
    subst this; decide
  have e1 : ∀ k < 4, byteOf (e - ((e >>> 1) &&& 0x55555555#32)) k = swar1 (byteOf e k) := by
    have hs : (e - ((e >>> 1) &&& 0x55555555#32)).toNat
        = swar1 (byteOf e 0) + 256 * swar1 (byteOf e 1) + 65536 * swar1 (byteOf e 2)
          + 16777216 * swar1 (byteOf e 3) := by
      have hb := toNat_bytes ((e >>> 1) &&& 0x55555555#32)
      rw [hm1 0 (by norm_num), hm1 1 (by norm_num), hm1 2 (by norm_num), hm1 3 (by norm_num)] at hb
      exact sub_bytes (toNat_bytes e) hb a0.1 a1.1 a2.1 a3.1
    obtain ⟨h0, h1, h2, h3⟩ := byteOf_of_toNat a0.2.1 a1.2.1 a2.2.1 a3.2.1 hs
    intro k hk
    interval_cases k <;> assumption
  generalize e - ((e >>> 1) &&& 0x55555555#32) = x at *
  -- step 2
  have hm3 := maskBytes 0x33333333 0x33 (by norm_num) (by norm_num) (by norm_num)
  have hx1 : ∀ k < 4, byteOf (x &&& 0x33333333#32) k = swar1 (byteOf e k) &&& 0x33 := by
    intro k hk; rw [byteOf_and, hm3 k hk, e1 k hk]
  have hx2 : ∀ k < 4, byteOf ((x >>> 2) &&& 0x33333333#32) k = (swar1 (byteOf e k) >>> 2) &&& 0x33 := by
    intro k hk
    rw [byteOf_shift_and, hm3 k hk, e1 k hk]
    intro i hi h8
    rw [hm3 k hk]
    have : i = 6 ∨ i = 7 := by omega
    rcases this with rfl | rfl <;> decide
  have hy : ((x &&& 0x33333333#32) + ((x >>> 2) &&& 0x33333333#32)).toNat
      = swar2 (swar1 (byteOf e 0)) + 256 * swar2 (swar1 (byteOf e 1)) + 65536 * swar2 (swar1 (byteOf e 2))
        + 16777216 * swar2 (swar1 (byteOf e 3)) := by
    have b1 := toNat_bytes (x &&& 0x33333333#32)
    have b2 := toNat_bytes ((x >>> 2) &&& 0x33333333#32)
    rw [hx1 0 (by norm_num), hx1 1 (by norm_num), hx1 2 (by norm_num), hx1 3 (by norm_num)] at b1
    rw [hx2 0 (by norm_num), hx2 1 (by norm_num), hx2 2 (by norm_num), hx2 3 (by norm_num)] at b2
    have lt : ∀ k, swar1 (byteOf e k) < 256 → swar2 (swar1 (byteOf e k)) < 256 := fun k h => swar2_lt _ h
    exact add_bytes b1 b2 (lt 0 a0.2.1) (lt 1 a1.2.1) (lt 2 a2.2.1) (lt 3 a3.2.1)
  generalize (x &&& 0x33333333#32) + ((x >>> 2) &&& 0x33333333#32) = y at *
  -- step 3
  obtain ⟨_, _, l0, u0, s0⟩ := a0
  obtain ⟨_, _, l1, u1, s1⟩ := a1
  obtain ⟨_, _, l2, u2, s2⟩ := a2
  obtain ⟨_, _, l3, u3, s3⟩ := a3
  generalize swar2 (swar1 (byteOf e 0)) = d0 at *
  generalize swar2 (swar1 (byteOf e 1)) = d1 at *
  generalize swar2 (swar1 (byteOf e 2)) = d2 at *
  generalize swar2 (swar1 (byteOf e 3)) = d3 at *
  have hz : (y + (y >>> 4)).toNat = ((d0 % 16 + d0 / 16) + 16 * (d0 / 16 + d1 % 16))
      + 256 * ((d1 % 16 + d1 / 16) + 16 * (d1 / 16 + d2 % 16))
      + 65536 * ((d2 % 16 + d2 / 16) + 16 * (d2 / 16 + d3 % 16))
      + 16777216 * ((d3 % 16 + d3 / 16) + 16 * (d3 / 16)) := by
    rw [BitVec.toNat_add, BitVec.toNat_ushiftRight, hy, Nat.shiftRight_eq_div_pow]
    have e0 := Nat.mod_add_div d0 16
    have e1 := Nat.mod_add_div d1 16
    have e2 := Nat.mod_add_div d2 16
    have e3 := Nat.mod_add_div d3 16
    clear hy hx1 hx2 hm1 hm3 hm5 s0 s1 s2 s3
    generalize d0 % 16 = p0 at *; generalize d1 % 16 = p1 at *
    generalize d2 % 16 = p2 at *; generalize d3 % 16 = p3 at *
    generalize d0 / 16 = q0 at *; generalize d1 / 16 = q1 at *
    generalize d2 / 16 = q2 at *; generalize d3 / 16 = q3 at *
    subst e0 e1 e2 e3
    have hd : (p0 + 16 * q0 + 256 * (p1 + 16 * q1) + 65536 * (p2 + 16 * q2) + 16777216 * (p3 + 16 * q3)) / 2 ^ 4
        = q0 + 16 * (p1 + 16 * q1) + 4096 * (p2 + 16 * q2) + 1048576 * (p3 + 16 * q3) := by
      rw [show p0 + 16 * q0 + 256 * (p1 + 16 * q1) + 65536 * (p2 + 16 * q2) + 16777216 * (p3 + 16 * q3)
        = p0 + 2 ^ 4 * (q0 + 16 * (p1 + 16 * q1) + 4096 * (p2 + 16 * q2) + 1048576 * (p3 + 16 * q3)) by ring,
        Nat.add_mul_div_left _ _ (by norm_num), Nat.div_eq_of_lt (by omega), Nat.zero_add]
    rw [hd, Nat.mod_eq_of_lt (by omega)]
    ring
  obtain ⟨z0, z1, z2, z3⟩ := byteOf_of_toNat (x := y + (y >>> 4)) (by omega) (by omega) (by omega) (by omega) hz
  have hmF := maskBytes 0x0F0F0F0F 0x0F (by norm_num) (by norm_num) (by norm_num)
  have hw := toNat_bytes ((y + (y >>> 4)) &&& 0x0F0F0F0F#32)
  have m15 : ∀ p q : Nat, p ≤ 8 → (p + 16 * q) &&& 15 = p := by
    intro p q hp
    have := and15 p q
    rwa [Nat.mod_eq_of_lt (by omega)] at this
  have b0 : d0 % 16 + d0 / 16 ≤ 8 := add_le_add l0 u0
  have b1 : d1 % 16 + d1 / 16 ≤ 8 := add_le_add l1 u1
  have b2 : d2 % 16 + d2 / 16 ≤ 8 := add_le_add l2 u2
  have b3 : d3 % 16 + d3 / 16 ≤ 8 := add_le_add l3 u3
  rw [byteOf_and, byteOf_and, byteOf_and, byteOf_and, hmF 0 (by norm_num), hmF 1 (by norm_num),
    hmF 2 (by norm_num), hmF 3 (by norm_num), z0, z1, z2, z3, m15 _ _ b0, m15 _ _ b1, m15 _ _ b2, m15 _ _ b3] at hw
  rw [BitVec.toNat_ushiftRight, BitVec.toNat_mul, hw, Nat.shiftRight_eq_div_pow, ← s0, ← s1, ← s2, ← s3]
  have hc : (0x01010101#32).toNat = 16843009 := rfl
  rw [hc]
  exact gather b0 b1 b2 b3

/-! ### Whole bitsets -/

theorem memberB_cons_lt (w : BitVec 32) (ws : List (BitVec 32)) {i : Nat} (h : i < 32) :
    memberB (w :: ws) i = w.getLsbD i := by
  unfold memberB
  rw [Nat.div_eq_of_lt h, Nat.mod_eq_of_lt h]; rfl

theorem memberB_cons_add (w : BitVec 32) (ws : List (BitVec 32)) (i : Nat) :
    memberB (w :: ws) (32 + i) = memberB ws i := by
  unfold memberB
  rw [show (32 + i) / 32 = i / 32 + 1 by omega, show (32 + i) % 32 = i % 32 by omega]
  rfl

theorem card_nil : card [] = 0 := rfl

theorem card_cons (w : BitVec 32) (ws : List (BitVec 32)) : card (w :: ws) = ones w + card ws := by
  unfold card ones
  rw [List.length_cons, show 32 * (ws.length + 1) = 32 + 32 * ws.length by ring, List.range_add,
    List.countP_append, List.countP_map]
  refine congrArg₂ (· + ·) (List.countP_congr ?_) (List.countP_congr ?_)
  · intro i hi
    rw [memberB_cons_lt _ _ (List.mem_range.1 hi)]
  · intro i _
    simp only [Function.comp]
    rw [memberB_cons_add]

theorem numberOfSetBits_toNat (ws : List (BitVec 32)) :
    Util.numberOfSetBits ws = BitVec.ofNat 32 (card ws) := by
  have key : ∀ (ws : List (BitVec 32)) (c : Nat),
      ws.foldl (fun count e => count + Util.numberOfSetBitsInBitsetElement e) (BitVec.ofNat 32 c)
        = BitVec.ofNat 32 (c + card ws) := by
    intro ws
    induction ws with
    | nil => intro c; simp [card_nil]
    | cons w ws ih =>
      intro c
      rw [List.foldl_cons]
      have : BitVec.ofNat 32 c + Util.numberOfSetBitsInBitsetElement w = BitVec.ofNat 32 (c + ones w) := by
        apply BitVec.eq_of_toNat_eq
        rw [BitVec.toNat_add, numberOfSetBits_elem, BitVec.toNat_ofNat, BitVec.toNat_ofNat]
        omega
      rw [this, ih, card_cons, Nat.add_assoc]
  have := key ws 0
  simpa [Util.numberOfSetBits] using this

theorem card_le (ws : List (BitVec 32)) : card ws ≤ 32 * ws.length := by
  unfold card
  exact le_trans List.countP_le_length (by simp)

end Leaves
