import Verif.Proofs.Bits

/-! Lowest set bit, and building a bitset from values. -/

namespace Leaves

open Spec

/-- a non-zero number is `2^k * odd` -/
theorem exists_lowest {n : Nat} (h : n ≠ 0) : ∃ k x, n = x * 2 ^ (k + 1) + 2 ^ k := by
  induction n using Nat.strongRecOn with
  | ind n ih =>
    rcases Nat.even_or_odd n with ⟨m, hm⟩ | ⟨m, hm⟩
    · obtain ⟨k, x, hx⟩ := ih m (by omega) (by omega)
      exact ⟨k + 1, x, by rw [hm, hx]; ring⟩
    · exact ⟨0, m, by rw [hm]; ring⟩

theorem testBit_lowest (k x i : Nat) :
    (x * 2 ^ (k + 1) + 2 ^ k).testBit i = if i < k then false else if i = k then true else x.testBit (i - (k + 1)) := by
  rw [Nat.mul_comm, Nat.testBit_two_pow_mul_add _ (Nat.pow_lt_pow_right (by norm_num) (Nat.lt_succ_self k))]
  by_cases h : i < k + 1
  · rw [if_pos h, Nat.testBit_two_pow]
    by_cases h2 : i < k
    · simp [h2]; omega
    · have : i = k := by omega
      simp [this]
  · rw [if_neg h, if_neg (by omega), if_neg (by omega)]

theorem testBit_lowest_pred (k x i : Nat) :
    (x * 2 ^ (k + 1) + 2 ^ k - 1).testBit i = if i < k then true else if i = k then false else x.testBit (i - (k + 1)) := by
  have hp : 0 < 2 ^ k := Nat.two_pow_pos k
  have hl : 2 ^ k - 1 < 2 ^ (k + 1) := by
    have : 2 ^ (k + 1) = 2 * 2 ^ k := by ring
    omega
  rw [Nat.add_sub_assoc hp, Nat.mul_comm, Nat.testBit_two_pow_mul_add _ hl, Nat.testBit_two_pow_sub_one]
  by_cases h : i < k + 1
  · rw [if_pos h]
    by_cases h2 : i < k
    · simp [h2]
    · have : i = k := by omega
      simp [this]
  · rw [if_neg h, if_neg (by omega), if_neg (by omega)]

/-- isolating the lowest set bit -/
theorem and_neg_self {e : BitVec 32} {k x : Nat} (h : e.toNat = x * 2 ^ (k + 1) + 2 ^ k) :
    k < 32 ∧ e &&& -e = BitVec.ofNat 32 (2 ^ k) := by
  have hp : 0 < 2 ^ k := Nat.two_pow_pos k
  have he := e.isLt
  have hk : k < 32 := by
    by_contra hk
    have : 2 ^ 32 ≤ 2 ^ k := Nat.pow_le_pow_right (by norm_num) (by omega)
    omega
  refine ⟨hk, ?_⟩
  apply BitVec.eq_of_getLsbD_eq
  intro i hi
  rw [BitVec.getLsbD_and, BitVec.getLsbD_ofNat]
  have hn : (-e).getLsbD i = !(e.toNat - 1).testBit i := by
    rw [BitVec.getLsbD, BitVec.toNat_neg, Nat.mod_eq_of_lt (by omega)]
    have : 2 ^ 32 - e.toNat = 2 ^ 32 - ((e.toNat - 1) + 1) := by omega
    rw [this, Nat.testBit_two_pow_sub_succ (by omega)]
    simp [hi]
  rw [hn, BitVec.getLsbD, h, testBit_lowest, testBit_lowest_pred, Nat.testBit_two_pow]
  by_cases h1 : i < k
  · have : ¬ k = i := by omega
    simp [h1, this]
  · by_cases h2 : i = k
    · subst h2; simp [hi]
    · have : ¬ k = i := by omega
      simp [h1, h2, this]

/-- the de Bruijn table -/
theorem deBruijn : ∀ k < 32,
    Res.idx Util.multiplyDeBruijnBitPosition ((BitVec.ofNat 32 (2 ^ k) * 0x077CB531#32) >>> 27).toNat = .ok k := by
  decide +kernel

theorem firstNonZeroBitFrom_spec (ws : List (BitVec 32)) :
    ∀ pos, pos + 32 * ws.length ≤ 2 ^ 32 →
      (∃ i, Member ws i ∧ (∀ j < i, ¬ Member ws j) ∧ Util.firstNonZeroBitFrom pos ws = .ok (pos + i)) ∨
      ((∀ j, ¬ Member ws j) ∧ ∃ t, Util.firstNonZeroBitFrom pos ws = .err t) := by
  induction ws with
  | nil =>
    intro pos _
    exact .inr ⟨by rintro j ⟨w, h, _⟩; simp at h, _, rfl⟩
  | cons w ws ih =>
    intro pos hpos
    rw [List.length_cons] at hpos
    unfold Util.firstNonZeroBitFrom
    split
    · rename_i hw
      obtain ⟨k, x, hx⟩ := exists_lowest (n := w.toNat) (by omega)
      obtain ⟨hk, hand⟩ := and_neg_self hx
      left
      refine ⟨k, ?_, ?_, ?_⟩
      · rw [← memberB_iff, memberB_cons_lt _ _ hk, BitVec.getLsbD, hx, testBit_lowest]; simp
      · intro j hj
        rw [← memberB_iff, memberB_cons_lt _ _ (by omega), BitVec.getLsbD, hx, testBit_lowest]; simp [hj]
      · rw [hand, deBruijn k hk]
        simp only [Res.ok_bind, Res.pure_eq, Res.ok.injEq]
        unfold u32
        rw [Nat.mod_eq_of_lt]; omega
    · rename_i hw
      have hw0 : w = 0#32 := BitVec.eq_of_toNat_eq (by simp; omega)
      have hlow : ∀ j < 32, ¬ Member (w :: ws) j := by
        intro j hj
        rw [← memberB_iff, memberB_cons_lt _ _ hj, hw0]; simp
      have hshift : ∀ j, Member (w :: ws) (32 + j) ↔ Member ws j := by
        intro j; rw [← memberB_iff, ← memberB_iff, memberB_cons_add]
      by_cases hws : ws = []
      · subst hws
        right
        refine ⟨?_, _, rfl⟩
        intro j
        rcases Nat.lt_or_ge j 32 with h | h
        · exact hlow j h
        · obtain ⟨j', rfl⟩ := Nat.exists_eq_add_of_le h
          rw [hshift]
          rintro ⟨w, h, _⟩; simp at h
      have hlen : 0 < ws.length := List.length_pos_of_ne_nil hws
      have hu : u32 (pos + 32) = pos + 32 := by unfold u32; rw [Nat.mod_eq_of_lt]; omega
      rw [hu]
      rcases ih (pos + 32) (by omega) with ⟨i, hi, hmin, hres⟩ | ⟨hno, t, hres⟩
      · left
        refine ⟨32 + i, (hshift i).2 hi, ?_, ?_⟩
        · intro j hj
          rcases Nat.lt_or_ge j 32 with h | h
          · exact hlow j h
          · obtain ⟨j', rfl⟩ := Nat.exists_eq_add_of_le h
            rw [hshift]; exact hmin j' (by omega)
        · rw [hres]; congr 1; omega
      · right
        refine ⟨?_, t, hres⟩
        intro j
        rcases Nat.lt_or_ge j 32 with h | h
        · exact hlow j h
        · obtain ⟨j', rfl⟩ := Nat.exists_eq_add_of_le h
          rw [hshift]; exact hno j'

/-- the error outcome does not depend on the length bound -/
theorem firstNonZeroBitFrom_err (ws : List (BitVec 32)) (h : ∀ j, ¬ Member ws j) :
    ∀ pos, ∃ t, Util.firstNonZeroBitFrom pos ws = .err t := by
  induction ws with
  | nil => intro pos; exact ⟨_, rfl⟩
  | cons w ws ih =>
    intro pos
    unfold Util.firstNonZeroBitFrom
    have hw : w = 0#32 := by
      apply BitVec.eq_of_getLsbD_eq
      intro i hi
      have := h i
      rw [← memberB_iff, memberB_cons_lt _ _ hi] at this
      simpa using this
    subst hw
    simp only [BitVec.toNat_ofNat, Nat.zero_mod, gt_iff_lt, Nat.lt_irrefl, if_false]
    apply ih
    intro j
    have := h (32 + j)
    rwa [← memberB_iff, memberB_cons_add, memberB_iff] at this

/-! ### constructBitset -/

theorem shl1_getLsbD (k i : Nat) (hk : k < 32) : (Util.shl1 k).getLsbD i = decide (i = k) := by
  unfold Util.shl1
  rw [BitVec.getLsbD_shiftLeft, BitVec.getLsbD_one]
  by_cases h : i = k
  · subst h; simp [hk]
  · by_cases h2 : i < k
    · simp [h2, h]
    · have : ¬ (i - k = 0) := by omega
      simp [this, h]

theorem setBit_spec {ws : List (BitVec 32)} {v : Nat} (h : v / 32 < ws.length) :
    ∃ ws', Util.setBit ws (v : Int) = .ok ws' ∧ ws'.length = ws.length ∧
      ∀ i, Member ws' i ↔ (Member ws i ∨ i = v) := by
  have h1 : (v : Int).tdiv 32 = ((v / 32 : Nat) : Int) := by
    rw [Int.tdiv_eq_ediv_of_nonneg (by omega)]; norm_cast
  have h2 : (v : Int).tmod 32 = ((v % 32 : Nat) : Int) := by
    rw [Int.tmod_eq_emod_of_nonneg (by omega)]; norm_cast
  have h3 : u32I ((v % 32 : Nat) : Int) = v % 32 := by
    unfold u32I; omega
  unfold Util.setBit
  rw [h1, h2]
  dsimp only
  rw [Res.idxI_ofNat, Res.idx_of_lt h, h3]
  refine ⟨_, rfl, by simp, ?_⟩
  intro i
  rw [← memberB_iff, ← memberB_iff]
  unfold memberB
  simp only [Int.toNat_natCast]
  by_cases hi : i / 32 = v / 32
  · rw [hi, List.getElem?_set_self h, List.getElem?_eq_getElem h]
    simp only [BitVec.getLsbD_or, shl1_getLsbD _ _ (Nat.mod_lt v (by norm_num)), Bool.or_eq_true, decide_eq_true_eq]
    constructor
    · rintro (h | h)
      · exact .inl h
      · exact .inr (by omega)
    · rintro (h | rfl)
      · exact .inl h
      · exact .inr rfl
  · rw [List.getElem?_set_ne (by omega)]
    constructor
    · exact fun h => .inl h
    · rintro (h | rfl)
      · exact h
      · exact absurd rfl hi

theorem setBits_spec (vs : List Nat) : ∀ ws : List (BitVec 32), (∀ v ∈ vs, v / 32 < ws.length) →
    ∃ ws', Util.setBits ws (vs.map Int.ofNat) = .ok ws' ∧ ws'.length = ws.length ∧
      ∀ i, Member ws' i ↔ (Member ws i ∨ i ∈ vs) := by
  induction vs with
  | nil => intro ws _; exact ⟨ws, rfl, rfl, by simp⟩
  | cons v vs ih =>
    intro ws h
    obtain ⟨ws1, h1, l1, m1⟩ := setBit_spec (ws := ws) (v := v) (h v (by simp))
    obtain ⟨ws2, h2, l2, m2⟩ := ih ws1 (by rw [l1]; intro u hu; exact h u (by simp [hu]))
    refine ⟨ws2, ?_, l2.trans l1, ?_⟩
    · simp only [List.map_cons, Util.setBits]
      have : Util.setBit ws (Int.ofNat v) = .ok ws1 := h1
      rw [this]; exact h2
    · intro i; rw [m2, m1]; simp [or_assoc]

/-- the maximum computed by the loop -/
theorem foldl_max (vs : List Int) : ∀ a : Int,
    let m := vs.foldl (fun max v => if v > max then v else max) a
    (m = a ∨ m ∈ vs) ∧ a ≤ m ∧ ∀ v ∈ vs, v ≤ m := by
  induction vs with
  | nil => intro a; simp
  | cons v vs ih =>
    intro a
    obtain ⟨h1, h2, h3⟩ := ih (if v > a then v else a)
    dsimp only [List.foldl_cons] at *
    generalize vs.foldl (fun max v => if v > max then v else max) (if v > a then v else a) = m at *
    refine ⟨?_, ?_, ?_⟩
    · rcases h1 with h | h
      · split at h <;> simp [h]
      · simp [h]
    · split at h2 <;> omega
    · intro u hu
      rcases List.mem_cons.1 hu with rfl | hu
      · split at h2 <;> omega
      · exact h3 u hu

theorem constructBitset_spec (P : Platform) (vs : List Nat)
    (h1 : ∀ v ∈ vs, v < 2 ^ 63 - 1) (h2 : ∀ v ∈ vs, 4 * (v / 32 + 1) ≤ P.maxAlloc) :
    ∃ ws, Util.constructBitset P (vs.map Int.ofNat) = .ok ws ∧ (∀ i, Member ws i ↔ i ∈ vs) ∧
      (∀ v ∈ vs, v / 32 < ws.length) ∧ (ws ≠ [] → ∃ v ∈ vs, ws.length = v / 32 + 1) := by
  cases vs with
  | nil => exact ⟨[], rfl, by intro i; simp [Member], by simp, by simp⟩
  | cons v0 vs =>
    obtain ⟨m1, m2, m3⟩ := foldl_max ((v0 :: vs).map Int.ofNat) (Int.ofNat v0)
    simp only [Util.constructBitset, List.map_cons]
    simp only [List.map_cons] at m1 m2 m3
    generalize List.foldl (fun max v => if v > max then v else max) (Int.ofNat v0)
      (Int.ofNat v0 :: vs.map Int.ofNat) = M at *
    obtain ⟨u, hu, rfl⟩ : ∃ u ∈ v0 :: vs, M = Int.ofNat u := by
      rcases m1 with h | h
      · exact ⟨v0, by simp, h⟩
      · rw [← List.map_cons (f := Int.ofNat), List.mem_map] at h
        obtain ⟨u, hu, rfl⟩ := h
        exact ⟨u, hu, rfl⟩
    have hw : wrap64 (Int.ofNat u + 1) = ((u + 1 : Nat) : Int) := by
      have := h1 u hu
      unfold wrap64
      rw [Int.bmod_eq_of_le] <;> simp <;> omega
    have ht : ((u + 1 : Nat) : Int).tdiv 32 = (((u + 1) / 32 : Nat) : Int) := by
      rw [Int.tdiv_eq_ediv_of_nonneg (by omega)]; omega
    have hm : ((u + 1 : Nat) : Int).tmod 32 = (((u + 1) % 32 : Nat) : Int) := by
      rw [Int.tmod_eq_emod_of_nonneg (by omega)]; omega
    have hn : (if ((u + 1 : Nat) : Int).tmod 32 ≠ 0 then ((u + 1 : Nat) : Int).tdiv 32 + 1
        else ((u + 1 : Nat) : Int).tdiv 32) = ((u / 32 + 1 : Nat) : Int) := by
      rw [ht, hm]; split <;> omega
    rw [hw, hn]
    have ha : allocCheck P ((u / 32 + 1 : Nat) : Int) 4 = .ok () := by
      have := h2 u hu
      unfold allocCheck
      rw [if_neg]
      push_cast
      omega
    rw [ha]
    have hle : ∀ v ∈ v0 :: vs, v / 32 < (List.replicate (u / 32 + 1) 0#32).length := by
      intro v hv
      have : Int.ofNat v ≤ Int.ofNat u := m3 _ (by
        rw [← List.map_cons (f := Int.ofNat)]; exact List.mem_map_of_mem hv)
      have : v ≤ u := Int.ofNat_le.1 this
      simp only [List.length_replicate]
      omega
    obtain ⟨ws, e1, e2, e3⟩ := setBits_spec (v0 :: vs) (List.replicate (u / 32 + 1) 0#32) hle
    refine ⟨ws, e1, ?_, ?_, ?_⟩
    · intro i
      rw [e3]
      have : ¬ Member (List.replicate (u / 32 + 1) 0#32) i := by
        rintro ⟨w, hw1, hw2⟩
        rw [List.getElem?_replicate] at hw1
        split at hw1
        · cases hw1; simp at hw2
        · cases hw1
      simp [this]
    · rw [e2]; exact hle
    · intro _; exact ⟨u, hu, by rw [e2]; simp⟩

end Leaves
