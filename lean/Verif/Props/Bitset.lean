import Verif.Proofs.Bits2

/-! # Properties of the bitset helpers (C31, C32, C33) -/

namespace Leaves

open Spec

/-- C31: the bit count is the number of positions in the represented set, as long as that number fits in
the returned uint32. -/
theorem C31_number_of_set_bits (ws : List (BitVec 32)) (h : ws.length < 2 ^ 27) :
    (Util.numberOfSetBits ws).toNat = card ws := by
  rw [numberOfSetBits_toNat, BitVec.toNat_ofNat, Nat.mod_eq_of_lt]
  have := card_le ws
  omega

/-- C31, without the length bound: the count is exact modulo 2^32. -/
theorem C31_number_of_set_bits_mod (ws : List (BitVec 32)) :
    (Util.numberOfSetBits ws).toNat = card ws % 2 ^ 32 := by
  rw [numberOfSetBits_toNat, BitVec.toNat_ofNat]

/-- a concrete case: three words, 38 bits set -/
example : (Util.numberOfSetBits [0xFFFFFFFF#32, 0#32, 0x8000F001#32]).toNat = 38 ∧
    card [0xFFFFFFFF#32, 0#32, 0x8000F001#32] = 38 := by decide +kernel

/-- C32: the call returns the least position of the represented set (positions of more than 2^27 words do
not fit in the returned uint32) … -/
theorem C32_first_non_zero_bit (ws : List (BitVec 32)) (h : ws.length ≤ 2 ^ 27) (i : Nat) :
    Util.firstNonZeroBit ws = .ok i ↔ (Member ws i ∧ ∀ j < i, ¬ Member ws j) := by
  unfold Util.firstNonZeroBit
  rcases firstNonZeroBitFrom_spec ws 0 (by omega) with ⟨k, hk, hmin, hres⟩ | ⟨hno, t, hres⟩
  · rw [hres]
    simp only [Nat.zero_add, Res.ok.injEq]
    constructor
    · rintro rfl; exact ⟨hk, hmin⟩
    · rintro ⟨h1, h2⟩
      rcases Nat.lt_trichotomy k i with hlt | rfl | hlt
      · exact absurd hk (h2 k hlt)
      · rfl
      · exact absurd h1 (hmin i hlt)
  · rw [hres]
    simp only [reduceCtorEq, false_iff, not_and]
    intro h1; exact absurd h1 (hno i)

/-- … and reports an error exactly when the set is empty; it never panics. -/
theorem C32_first_non_zero_bit_error (ws : List (BitVec 32)) (h : ws.length ≤ 2 ^ 27) :
    ((∃ t, Util.firstNonZeroBit ws = .err t) ↔ ∀ i, ¬ Member ws i) ∧
    ((∃ i, Util.firstNonZeroBit ws = .ok i) ∨ (∃ t, Util.firstNonZeroBit ws = .err t)) := by
  unfold Util.firstNonZeroBit
  rcases firstNonZeroBitFrom_spec ws 0 (by omega) with ⟨k, hk, hmin, hres⟩ | ⟨hno, t, hres⟩
  · refine ⟨?_, .inl ⟨_, hres⟩⟩
    rw [hres]
    simp only [reduceCtorEq, exists_false, false_iff]
    intro h1; exact h1 k hk
  · exact ⟨⟨fun _ => hno, fun _ => ⟨t, hres⟩⟩, .inr ⟨t, hres⟩⟩

example : Util.firstNonZeroBit [0#32, 0#32, 0x80100000#32] = .ok 84 := by decide +kernel
example : Member [0#32, 0#32, 0x80100000#32] 84 ∧ ∀ j < 84, ¬ Member [0#32, 0#32, 0x80100000#32] j := by
  decide +kernel

/-- C33: the constructed bitset contains exactly the given positions and is the shortest one that can
(its length is the word of the largest position, plus one). -/
theorem C33_construct_bitset (P : Platform) (vs : List Nat)
    (hint : ∀ v ∈ vs, v < 2 ^ 63 - 1) (hmem : ∀ v ∈ vs, 4 * (v / 32 + 1) ≤ P.maxAlloc) :
    ∃ ws, Util.constructBitset P (vs.map Int.ofNat) = .ok ws ∧ (∀ i, Member ws i ↔ i ∈ vs) ∧
      ∀ ws' : List (BitVec 32), (∀ i, Member ws' i ↔ i ∈ vs) → ws.length ≤ ws'.length := by
  obtain ⟨ws, h1, h2, _, h4⟩ := constructBitset_spec P vs hint hmem
  refine ⟨ws, h1, h2, ?_⟩
  intro ws' hw
  by_cases hne : ws = []
  · subst hne; simp
  obtain ⟨v, hv, hl⟩ := h4 hne
  obtain ⟨w, hw1, _⟩ := (hw v).2 hv
  have := List.getElem?_eq_some_iff.1 hw1
  obtain ⟨hlt, _⟩ := this
  omega

example : Util.constructBitset Platform.demo [64, 3, 35, 3] = .ok [8#32, 8#32, 1#32] := by decide +kernel
example : (∀ v ∈ [64, 3, 35, 3], v < 2 ^ 63 - 1) ∧
    ∀ v ∈ [64, 3, 35, 3], 4 * (v / 32 + 1) ≤ Platform.demo.maxAlloc := by decide +kernel

/-- Outside C33's domain: negative values between -31 and -1 are accepted and silently ignored, so the
restriction to non-negative values is needed. -/
theorem C33_negative_ignored :
    Util.constructBitset Platform.demo [-1, 5] = .ok [32#32] ∧
    Util.constructBitset Platform.demo [-32, 5] = .panic := by decide +kernel

end Leaves
