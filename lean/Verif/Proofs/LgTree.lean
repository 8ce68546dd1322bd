import Verif.Proofs.NodeRep
import Verif.Proofs.Adequate
import Verif.Proofs.Bits2
import Verif.Spec.LgFile

/-! LightGBM text trees: the loader's arrays form a source of the conversion loop. -/

namespace Leaves

open Spec

/-! ### the file's reading is a function -/

theorem MissingOf.unique {d : Nat} {m m' : Missing} (h : MissingOf d m) (h' : MissingOf d m') : m = m' := by
  unfold MissingOf at *
  rcases h with ⟨h1, rfl⟩ | ⟨h1, rfl⟩ | ⟨h1, rfl⟩ <;> rcases h' with ⟨h2, rfl⟩ | ⟨h2, rfl⟩ | ⟨h2, rfl⟩ <;>
    first | rfl | omega

theorem IsVal.unique {x : F64} {p q : ℚ} (h : IsVal x p) (h' : IsVal x q) : p = q := by
  unfold IsVal at *
  rw [h] at h'
  simpa [F64.pt_inj] using h'

theorem Words.unique {a : LgArrays} {c : Nat} {ws ws' : List (BitVec 32)} (h : Words a c ws) (h' : Words a c ws') :
    ws = ws' := by
  obtain ⟨s, e, h1, h2, _, _, rfl⟩ := h
  obtain ⟨s', e', h1', h2', _, _, rfl⟩ := h'
  rw [h1] at h1'; cases h1'
  rw [h2] at h2'; cases h2'
  rfl

theorem LgSplit.unique {a : LgArrays} (i f f' : Nat) (r r' : Rule) (h : LgSplit a i f r) (h' : LgSplit a i f' r') :
    f = f' ∧ r = r' := by
  obtain ⟨d, thr, m, h1, h2, h3, h4, h5⟩ := h
  obtain ⟨d', thr', m', h1', h2', h3', h4', h5'⟩ := h'
  rw [h1] at h1'; cases h1'
  rw [h2] at h2'; cases h2'
  rw [h3] at h3'; cases h3'
  obtain rfl := MissingOf.unique h4 h4'
  refine ⟨rfl, ?_⟩
  rcases h5 with ⟨h5, rfl⟩ | ⟨h5, c, ws, hc, hw, rfl⟩ <;> rcases h5' with ⟨h6, rfl⟩ | ⟨h6, c', ws', hc', hw', rfl⟩
  · rfl
  · omega
  · omega
  · have : c = c' := by exact_mod_cast IsVal.unique hc hc'
    subst this
    rw [Words.unique hw hw']

/-! ### pieces of `createNode` -/

theorem convertMissingType_of {d : Nat} {m : Missing} (h : MissingOf d m) : convertMissingType d = .ok (missingFlag m) := by
  unfold convertMissingType
  have : (d >>> 2) &&& 3 = d / 4 % 4 := by
    rw [Nat.shiftRight_eq_div_pow]
    exact Nat.and_two_pow_sub_one_eq_mod _ 2
  dsimp only
  rw [this]
  rcases h with ⟨h1, rfl⟩ | ⟨h1, rfl⟩ | ⟨h1, rfl⟩ <;> simp [h1, missingFlag]

theorem and_one_pos (d : Nat) : (d &&& 1 > 0) ↔ d % 2 = 1 := by
  rw [Nat.and_one_is_mod]; omega

theorem and_two_pos (d : Nat) : (d &&& (1 <<< 1) > 0) ↔ d / 2 % 2 = 1 := by
  have h : (d &&& 2).testBit 1 = d.testBit 1 := by
    rw [Nat.testBit_and]; simp [show Nat.testBit 2 1 = true from rfl]
  have h2 : d.testBit 1 = decide (d / 2 % 2 = 1) := by
    rw [Nat.testBit_eq_decide_div_mod_eq]
  have h3 : d &&& 2 = if d.testBit 1 then 2 else 0 := by
    apply Nat.eq_of_testBit_eq
    intro i
    rw [Nat.testBit_and]
    have : Nat.testBit 2 i = decide (1 = i) := Nat.testBit_two_pow (n := 1) (m := i)
    rw [this]
    by_cases hi : 1 = i
    · subst hi; by_cases hd : d.testBit 1 <;> simp [hd, this]
    · by_cases hd : d.testBit 1 <;> simp [hd, hi, this]
  show d &&& 2 > 0 ↔ _
  rw [h3, h2]
  by_cases hd : d / 2 % 2 = 1 <;> simp [hd]

theorem u32I_neg_leaf {k : Nat} (h : k < 2 ^ 32) : u32I (-(-(k : Int) - 1) - 1) = k := by
  rw [show (-(-(k : Int) - 1) - 1) = (k : Int) by ring]
  exact u32I_natCast h

theorem getLsbD_leafBit (x : Flags) (k : Nat) (h2 : k ≠ 2) (h3 : k ≠ 3) (b c : Bool) :
    ((x ||| (if b then Flag.leftLeaf else 0)) ||| (if c then Flag.rightLeaf else 0)).getLsbD k = x.getLsbD k := by
  cases b <;> cases c <;>
    simp [-BitVec.getLsbD_eq_getElem, BitVec.getLsbD_or, flags_leftLeaf, flags_rightLeaf, h2, h3]

/-- attaching the leaf children -/
theorem withLeaves_ok {a : LgArrays} {i : Nat} {li ri : Int} {l r : BTree} (hl : a.leftChilds[i]? = some li)
    (hr : a.rightChilds[i]? = some ri) (sl : LgShape a li l) (sr : LgShape a ri r)
    (kl : ∀ k, l = .leaf k → k < 2 ^ 32) (kr : ∀ k, r = .leaf k → k < 2 ^ 32) {nd : LgNode} {b : List Nat}
    {t : List (BitVec 32)} {f : Nat} {rule : Rule} (h2 : nd.flags.getLsbD 2 = false) (h3 : nd.flags.getLsbD 3 = false)
    (hrep : NodeRep b t nd f rule) :
    ∃ nd', a.withLeaves (i : Int) nd = .ok nd' ∧ NodeRep b t nd' f rule ∧
      hasFlag nd'.flags Flag.leftLeaf = l.isLeaf ∧ hasFlag nd'.flags Flag.rightLeaf = r.isLeaf ∧
      (∀ k, l = .leaf k → nd'.left = k) ∧ (∀ k, r = .leaf k → nd'.right = k) := by
  unfold LgArrays.withLeaves
  rw [Res.idxI_ofNat, Res.idxI_ofNat, Res.idx_eq_ok.2 hl, Res.idx_eq_ok.2 hr]
  simp only [Res.ok_bind, Res.pure_eq]
  refine ⟨_, rfl, ?_⟩
  have key : ∀ (x : Flags) (k : Nat), k ≠ 2 → k ≠ 3 → ∀ b c : Bool,
      ((x ||| (if b then Flag.leftLeaf else 0)) ||| (if c then Flag.rightLeaf else 0)).getLsbD k = x.getLsbD k := by
    intro x k a b c d; exact getLsbD_leafBit x k a b c d
  cases sl with
  | leaf k =>
    cases sr with
    | leaf k' =>
      have e1 : (-(k : Int) - 1 < 0) := by omega
      have e2 : (-(k' : Int) - 1 < 0) := by omega
      rw [if_pos e1, if_pos e2]
      refine ⟨?_, ?_, ?_, ?_, ?_⟩
      · exact NodeRep.leafBits (nd := nd) (fun j h h' => key nd.flags j h h' true true) hrep
      · rw [flag_leftLeaf]; simp [-BitVec.getLsbD_eq_getElem, BitVec.getLsbD_or, flags_leftLeaf, BTree.isLeaf]
      · rw [flag_rightLeaf]; simp [-BitVec.getLsbD_eq_getElem, BitVec.getLsbD_or, flags_rightLeaf, BTree.isLeaf]
      · intro j hj; cases hj; exact u32I_neg_leaf (kl k rfl)
      · intro j hj; cases hj; exact u32I_neg_leaf (kr k' rfl)
    | node j li ri l r =>
      have e1 : (-(k : Int) - 1 < 0) := by omega
      have e2 : ¬ ((j : Int) < 0) := by omega
      rw [if_pos e1, if_neg e2]
      refine ⟨?_, ?_, ?_, ?_, ?_⟩
      · exact hrep.leafBits (fun j h h' => by have := key nd.flags j h h' true false; simpa using this)
      · rw [flag_leftLeaf]; simp [-BitVec.getLsbD_eq_getElem, BitVec.getLsbD_or, flags_leftLeaf, BTree.isLeaf]
      · rw [flag_rightLeaf]; simp [-BitVec.getLsbD_eq_getElem, BitVec.getLsbD_or, flags_leftLeaf, BTree.isLeaf, h3]
      · intro j hj; cases hj; exact u32I_neg_leaf (kl k rfl)
      · intro j hj; cases hj
  | node j li ri l r =>
    have e1 : ¬ ((j : Int) < 0) := by omega
    cases sr with
    | leaf k' =>
      have e2 : (-(k' : Int) - 1 < 0) := by omega
      rw [if_neg e1, if_pos e2]
      refine ⟨?_, ?_, ?_, ?_, ?_⟩
      · exact hrep.leafBits (fun j h h' => by have := key nd.flags j h h' false true; simpa using this)
      · rw [flag_leftLeaf]; simp [-BitVec.getLsbD_eq_getElem, BitVec.getLsbD_or, flags_rightLeaf, BTree.isLeaf, h2]
      · rw [flag_rightLeaf]; simp [-BitVec.getLsbD_eq_getElem, BitVec.getLsbD_or, flags_rightLeaf, BTree.isLeaf]
      · intro j hj; cases hj
      · intro j hj; cases hj; exact u32I_neg_leaf (kr k' rfl)
    | node j' li' ri' l' r' =>
      have e2 : ¬ ((j' : Int) < 0) := by omega
      rw [if_neg e1, if_neg e2]
      refine ⟨hrep, ?_, ?_, ?_, ?_⟩
      · rw [flag_leftLeaf, h2]; rfl
      · rw [flag_rightLeaf, h3]; rfl
      · intro j hj; cases hj
      · intro j hj; cases hj

/-- one member: the set is a singleton -/
theorem member_of_card_one {ws : List (BitVec 32)} (h : card ws = 1) {c : Nat} (hc : Member ws c) :
    (fun n => Member ws n) = fun n => n = c := by
  funext n
  refine propext ⟨fun hn => ?_, fun hn => hn ▸ hc⟩
  by_contra hne
  have hlt : ∀ {j}, Member ws j → j < 32 * ws.length := by
    rintro j ⟨w, hw, _⟩
    have := (List.getElem?_eq_some_iff.1 hw).1
    omega
  unfold card at h
  rw [List.countP_eq_length_filter, List.length_eq_one_iff] at h
  obtain ⟨x, hx⟩ := h
  have hm : ∀ {j}, Member ws j → j = x := by
    intro j hj
    have : j ∈ (List.range (32 * ws.length)).filter fun i => memberB ws i := by
      rw [List.mem_filter]; exact ⟨List.mem_range.2 (hlt hj), (memberB_iff ws j).2 hj⟩
    rw [hx] at this; simpa using this
  exact hne ((hm hn).trans (hm hc).symm)

theorem card_pos_iff {ws : List (BitVec 32)} : 0 < card ws ↔ ∃ n, Member ws n := by
  unfold card
  rw [List.countP_pos_iff]
  constructor
  · rintro ⟨n, _, h⟩; exact ⟨n, (memberB_iff ws n).1 h⟩
  · rintro ⟨n, h⟩
    refine ⟨n, ?_, (memberB_iff ws n).2 h⟩
    obtain ⟨w, hw, _⟩ := h
    have := (List.getElem?_eq_some_iff.1 hw).1
    rw [List.mem_range]; omega

/-! ### the source -/

/-- meaning of the nodes of a LightGBM text tree -/
def lgMeaning (a : LgArrays) : Meaning CatTables where
  R i nd aux := ∃ f rule, LgSplit a i f rule ∧ NodeRep aux.boundaries aux.thresholds nd f rule
  Q k j _ := j = k

/-- tables only grow -/
def tablesLe (x y : CatTables) : Prop := x.boundaries <+: y.boundaries ∧ x.thresholds <+: y.thresholds

/-- tables are consistent -/
def tablesInv (a : LgArrays) (b : Nat) (t : CatTables) : Prop :=
  t.thresholds.length ≤ b ∧ t.boundaries.length ≤ t.thresholds.length + 1 ∧
  (a.catBoundaries ≠ [] → t.boundaries.getLast? = some t.thresholds.length)

theorem lgSource_ok (P : Platform) (a : LgArrays) (W : Nat → Nat) (lim : Nat) :
    SourceOK (a.source P) (lgMeaning a) tablesLe (tablesInv a) W lim where
  le_refl _ := ⟨List.prefix_rfl, List.prefix_rfl⟩
  le_trans _ _ _ h1 h2 := ⟨h1.1.trans h2.1, h1.2.trans h2.2⟩
  R_mono i n x y hle h := by
    obtain ⟨f, rule, h1, h2⟩ := h
    exact ⟨f, rule, h1, h2.mono hle.1 hle.2⟩
  Q_mono _ _ _ _ _ h := h
  R_child i n n' x h1 h2 h3 h := by
    obtain ⟨f, rule, hs, hr⟩ := h
    exact ⟨f, rule, hs, hr.congr h1 h2 h3⟩

theorem tablesInv_mono {a : LgArrays} {b b' : Nat} {t : CatTables} (h : tablesInv a b t) (hb : b ≤ b') :
    tablesInv a b' t := ⟨h.1.trans hb, h.2⟩

/-- the three encodings of a category set -/
theorem catEncoding {a : LgArrays} {s e : Nat} {ws : List (BitVec 32)} {t : CatTables} {b W : Nat}
    (hws : ws = (a.catThresholds.drop s).take (e - s)) (hse : s ≤ e) (he : e ≤ a.catThresholds.length)
    (hne : ∃ n, Member ws n) (hsmall : ws.length ≤ 2 ^ 26) (hcb : a.catBoundaries ≠ [])
    (hinv : tablesInv a b t) (hW : ws.length ≤ W) (hb : b + W < 2 ^ 32) (f : Nat) (m : Missing) :
    ∃ c ct t', a.catSlot (Util.numberOfSetBits ws).toNat (u32 (e + 2 ^ 32 - s)) s ws t
        = Res.ok (c, ct, t') ∧ tablesInv a (b + W) t' ∧ tablesLe t t' ∧
      NodeRep t'.boundaries t'.thresholds (categoricalNode f (missingFlag m) c ct) f (.cat m (Member ws)) ∧
      (categoricalNode f (missingFlag m) c ct).flags.getLsbD 2 = false ∧
      (categoricalNode f (missingFlag m) c ct).flags.getLsbD 3 = false := by
  have hcard : (Util.numberOfSetBits ws).toNat = card ws := by
    rw [numberOfSetBits_toNat, BitVec.toNat_ofNat, Nat.mod_eq_of_lt]
    have := card_le ws
    omega
  have hlen : ws.length = e - s := by rw [hws, List.length_take, List.length_drop]; omega
  unfold LgArrays.catSlot
  rw [hcard]
  by_cases h1 : card ws = 1
  · rw [if_pos h1]
    rcases firstNonZeroBitFrom_spec ws 0 (by omega) with ⟨c, hc, _, hres⟩ | ⟨hno, _⟩
    swap
    · obtain ⟨n, hn⟩ := hne; exact absurd hn (hno n)
    have hcl : c < 2 ^ 31 := by
      obtain ⟨w, hw, _⟩ := hc
      have := (List.getElem?_eq_some_iff.1 hw).1
      omega
    unfold Util.firstNonZeroBit
    rw [hres]
    simp only [Nat.zero_add, Res.ok_bind, Res.pure_eq]
    obtain ⟨g1, g2, g3, g4, g5, g6, g7, g8⟩ := categoricalNode_flags f m c Flag.catOneHot (by decide)
    refine ⟨c, Flag.catOneHot, t, rfl, tablesInv_mono hinv (by omega), ⟨List.prefix_rfl, List.prefix_rfl⟩, ⟨g1, g2, g3, ?_⟩, g4, g5⟩
    rw [show Member ws = fun n => n = c from member_of_card_one h1 hc]
    refine .oneHot c ?_ hcl ?_
    · rw [g6]; decide
    · rw [g8]; exact F64.isVal_ofNat (by omega)
  · rw [if_neg h1]
    have hu : u32 (e + 2 ^ 32 - s) = ws.length := by
      rw [hlen]; unfold u32; omega
    rw [hu]
    by_cases h2 : ws.length = 1
    · rw [if_pos h2]
      obtain ⟨w, hw⟩ := List.length_eq_one_iff.1 h2
      have hget : a.catThresholds[s]? = some w := by
        have : ws[0]? = some w := by rw [hw]; rfl
        rw [hws, List.getElem?_take_of_lt (by omega), List.getElem?_drop] at this
        simpa using this
      rw [Res.idx_eq_ok.2 hget]
      simp only [Res.ok_bind, Res.pure_eq]
      obtain ⟨g1, g2, g3, g4, g5, g6, g7, g8⟩ := categoricalNode_flags f m w.toNat Flag.catSmall (by decide)
      refine ⟨w.toNat, Flag.catSmall, t, rfl, tablesInv_mono hinv (by omega), ⟨List.prefix_rfl, List.prefix_rfl⟩, ⟨g1, g2, g3, ?_⟩, g4, g5⟩
      rw [hw]
      refine .small w ?_ ?_ ?_
      · rw [g6]; decide
      · rw [g7]; decide
      · rw [g8]; exact F64.isVal_ofNat (by have := w.isLt; omega)
    · rw [if_neg h2]
      have hlen2 : 2 ≤ ws.length := by
        obtain ⟨n, w, hw, _⟩ := hne
        have := (List.getElem?_eq_some_iff.1 hw).1
        omega
      obtain ⟨i1, i2, i3⟩ := hinv
      have hlast := i3 hcb
      have hbne : t.boundaries ≠ [] := by
        intro h0; rw [h0] at hlast; cases hlast
      have hbpos : 0 < t.boundaries.length := List.length_pos_iff.2 hbne
      have hlast' : t.boundaries[t.boundaries.length - 1]? = some t.thresholds.length := by
        rw [← List.getLast?_eq_getElem?]; exact hlast
      have hidx : u32I ((t.boundaries.length : Int) - 1) = t.boundaries.length - 1 := by
        rw [show ((t.boundaries.length : Int) - 1) = ((t.boundaries.length - 1 : Nat) : Int) by omega]
        exact u32I_natCast (by omega)
      have hlen' : (t.thresholds ++ ws).length = t.thresholds.length + ws.length := List.length_append
      have hu2 : u32 (t.thresholds ++ ws).length = t.thresholds.length + ws.length := by
        rw [hlen']; exact u32_of_lt (by omega)
      obtain ⟨g1, g2, g3, g4, g5, g6, g7, g8⟩ := categoricalNode_flags f m (t.boundaries.length - 1) 0 (by decide)
      dsimp only
      rw [hidx, hu2]
      refine ⟨t.boundaries.length - 1, 0, _, rfl, ⟨?_, ?_, ?_⟩, ⟨⟨_, rfl⟩, ⟨_, rfl⟩⟩, ⟨g1, g2, g3, ?_⟩, g4, g5⟩
      · dsimp only; rw [hlen']; omega
      · dsimp only; rw [hlen', List.length_append]; simp; omega
      · intro _; dsimp only; rw [hlen']; simp
      · have hset : Member ws = fun n => Member (((t.thresholds ++ ws).drop t.thresholds.length).take
            (t.thresholds.length + ws.length - t.thresholds.length)) n := by
          rw [List.drop_left, Nat.add_sub_cancel_left, List.take_length]
        rw [hset]
        refine .long (t.boundaries.length - 1) t.thresholds.length (t.thresholds.length + ws.length) ?_ ?_ ?_ ?_ ?_ ?_ ?_ ?_ ?_
        · rw [g6]; decide
        · rw [g7]; decide
        · omega
        · rw [g8]; exact F64.isVal_ofNat (by omega)
        · dsimp only
          rw [List.getElem?_append_left (by omega)]; exact hlast'
        · dsimp only
          rw [show t.boundaries.length - 1 + 1 = t.boundaries.length by omega, List.getElem?_append_right (Nat.le_refl _)]
          simp
        · omega
        · dsimp only; rw [hlen']
        · omega

theorem createNode_ok {P : Platform} {a : LgArrays} {i f : Nat} {rule : Rule} {li ri : Int} {l r : BTree}
    (hs : LgSplit a i f rule) (hl : a.leftChilds[i]? = some li)
    (hr : a.rightChilds[i]? = some ri) (sl : LgShape a li l) (sr : LgShape a ri r)
    (kl : ∀ k, l = .leaf k → k < 2 ^ 32) (kr : ∀ k, r = .leaf k → k < 2 ^ 32)
    (hcat : ∀ d thr c ws, a.decisionTypes[i]? = some d → d % 2 = 1 → a.thresholds[i]? = some thr →
      IsVal thr (c : Nat) → Words a c ws → (∃ n, Member ws n) ∧ ws.length ≤ 2 ^ 26 ∧ c + 1 < 2 ^ 32)
    {w : Nat → Nat} (hw : WordsAtMost a i (w i)) {lim : Nat} (hlim : lim < 2 ^ 32) :
    CreateOK (a.source P) (lgMeaning a) tablesLe (tablesInv a) w lim i l r := by
  intro b t hinv hb
  obtain ⟨d, thr, m, h1, h2, h3, h4, h5⟩ := id hs
  show ∃ n a', a.createNode P (i : Int) t = .ok (n, a') ∧ _
  unfold LgArrays.createNode
  rw [Res.idxI_ofNat, Res.idx_eq_ok.2 h1]
  simp only [Res.ok_bind]
  rcases h5 with ⟨h5, rfl⟩ | ⟨h5, c, ws, hc, hws, rfl⟩
  · rw [if_neg (by rw [and_one_pos]; omega)]
    obtain ⟨q1, q2, q3⟩ := numericalNode_rep t.boundaries t.thresholds f m thr (decide (d / 2 % 2 = 1))
    obtain ⟨nd', e1, e2, e3⟩ := withLeaves_ok hl hr sl sr kl kr q2 q3 q1
    have hcr : a.createNumericalNode (i : Int) = .ok nd' := by
      unfold LgArrays.createNumericalNode
      rw [Res.idxI_ofNat, Res.idxI_ofNat, Res.idxI_ofNat, Res.idx_eq_ok.2 h1]
      simp only [Res.ok_bind]
      rw [convertMissingType_of h4, Res.idx_eq_ok.2 h2, Res.idx_eq_ok.2 h3]
      simp only [Res.ok_bind, and_two_pos]
      rw [← e1]
      simp
    rw [hcr]
    simp only [Res.ok_bind, Res.pure_eq]
    exact ⟨nd', t, rfl, tablesInv_mono hinv (by omega), ⟨List.prefix_rfl, List.prefix_rfl⟩, ⟨f, _, hs, e2⟩, e3.1, e3.2.1,
      e3.2.2.1, e3.2.2.2⟩
  · rw [if_pos ((and_one_pos d).2 h5)]
    obtain ⟨hne, hsm, hcs⟩ := hcat d thr c ws h1 h5 h3 hc hws
    have hwl := hw d thr c ws h1 h5 h3 hc hws
    obtain ⟨s, e, hbs, hbe, hse, hle, hwsq⟩ := hws
    have hcb : a.catBoundaries ≠ [] := by
      intro h0; rw [h0] at hbs; simp at hbs
    obtain ⟨c', ct, t', hce, hinv', hle', hrep, z2, z3⟩ :=
      catEncoding hwsq hse hle hne hsm hcb hinv hwl (by omega) f m
    obtain ⟨nd', e1, e2, e3⟩ := withLeaves_ok hl hr sl sr kl kr z2 z3 hrep
    have hcard : (Util.numberOfSetBits ws).toNat = card ws := by
      rw [numberOfSetBits_toNat, BitVec.toNat_ofNat, Nat.mod_eq_of_lt]
      have := card_le ws
      omega
    have hcr : a.createCategoricalNode P (i : Int) t = .ok (nd', t') := by
      unfold LgArrays.createCategoricalNode
      rw [Res.idxI_ofNat, Res.idxI_ofNat, Res.idxI_ofNat, Res.idx_eq_ok.2 h1]
      simp only [Res.ok_bind]
      rw [convertMissingType_of h4, Res.idx_eq_ok.2 h3]
      simp only [Res.ok_bind]
      rw [toUint32_of_trunc P (by omega) (trunc_of_isVal hc), u32_of_lt hcs, Res.idx_eq_ok.2 hbe, Res.idx_eq_ok.2 hbs]
      simp only [Res.ok_bind]
      have hsl : LgArrays.slice a.catThresholds s e = .ok ws := by
        unfold LgArrays.slice; rw [if_neg (by omega), hwsq]
      rw [hsl]
      simp only [Res.ok_bind]
      have hnz : (Util.numberOfSetBits ws).toNat ≠ 0 := by
        rw [hcard]; have := card_pos_iff.2 hne; omega
      rw [if_neg hnz]
      rw [hce, Res.idx_eq_ok.2 h2]
      simp only [Res.ok_bind]
      rw [e1]
      simp
    rw [hcr]
    exact ⟨nd', t', rfl, hinv', hle', ⟨f, _, hs, e2⟩, e3.1, e3.2.1, e3.2.2.1, e3.2.2.2⟩

/-- the arrays of a block that describes a tree contain that tree -/
theorem lg_contains {P : Platform} {a : LgArrays} {w : Nat → Nat} {lim : Nat} (hlim : lim < 2 ^ 32) :
    ∀ (i : Int) (T : BTree), LgShape a i T → (∀ k ∈ T.leaves, k < 2 ^ 32) →
      (∀ i ∈ T.inner, ∃ f rule, LgSplit a i f rule) →
      (∀ i ∈ T.inner, ∀ d thr c ws, a.decisionTypes[i]? = some d → d % 2 = 1 → a.thresholds[i]? = some thr →
        IsVal thr (c : Nat) → Words a c ws → (∃ n, Member ws n) ∧ ws.length ≤ 2 ^ 26 ∧ c + 1 < 2 ^ 32) →
      (∀ i ∈ T.inner, WordsAtMost a i (w i)) →
      Contains (a.source P) (lgMeaning a) tablesLe (tablesInv a) w lim T := by
  intro i T hsh
  induction hsh with
  | leaf k => intros; exact .leaf k
  | node i li ri l r hl hr sl sr ihl ihr =>
    intro hk hsp hcat hw
    have hmem : i ∈ (BTree.node i l r).inner := by simp [BTree.inner]
    have ml : ∀ j ∈ l.inner, j ∈ (BTree.node i l r).inner := by intro j hj; simp [BTree.inner, hj]
    have mr : ∀ j ∈ r.inner, j ∈ (BTree.node i l r).inner := by intro j hj; simp [BTree.inner, hj]
    have nl : ∀ j ∈ l.leaves, j ∈ (BTree.node i l r).leaves := by intro j hj; simp [BTree.leaves, hj]
    have nr : ∀ j ∈ r.leaves, j ∈ (BTree.node i l r).leaves := by intro j hj; simp [BTree.leaves, hj]
    obtain ⟨f, rule, hs⟩ := hsp i hmem
    refine .node i l r (createNode_ok hs hl hr sl sr ?_ ?_ (hcat i hmem) (hw i hmem) hlim) ?_ ?_ ?_ ?_
    · rintro k rfl; exact hk k (nl k (by simp [BTree.leaves]))
    · rintro k rfl; exact hk k (nr k (by simp [BTree.leaves]))
    · rintro j l1 l2 rfl
      cases sl
      exact Res.idx_eq_ok.2 hl
    · rintro j r1 r2 rfl
      cases sr
      exact Res.idx_eq_ok.2 hr
    · exact ihl (fun k h => hk k (nl k h)) (fun j h => hsp j (ml j h)) (fun j h => hcat j (ml j h)) (fun j h => hw j (ml j h))
    · exact ihr (fun k h => hk k (nr k h)) (fun j h => hsp j (mr j h)) (fun j h => hcat j (mr j h)) (fun j h => hw j (mr j h))

/-- converting the arrays of a block that describes a tree -/
theorem lg_convert (P : Platform) {a : LgArrays} {n : Nat} {T : BTree} (h : LgTreeOK a n T) (ha : n * 24 ≤ P.maxAlloc)
    {b0 : List Nat} (hb0 : (a.catBoundaries ≠ [] → b0 = [0]) ∧ b0.length ≤ 1) :
    ∃ nodes cats, convert P (a.source P) n n { boundaries := b0, thresholds := [] } = .ok (nodes, cats) ∧
      nodes.length = T.size ∧ Emb (lgMeaning a) nodes cats T 0 ∧ T.isLeaf = false ∧ nodes.length < 2 ^ 32 := by
  obtain ⟨w, hw, hsum⟩ := h.words
  have hsh := h.shape
  have hroot : ∃ l r, T = .node 0 l r := by
    generalize hz : (0 : Int) = z at hsh
    cases hsh with
    | leaf k => omega
    | node i li ri l r => 
      have : i = 0 := by omega
      subst this; exact ⟨l, r, rfl⟩
  obtain ⟨l, r, rfl⟩ := hroot
  have hcon := lg_contains (P := P) (w := w) (lim := ((BTree.node 0 l r).inner.map w).sum) hsum 0 _ h.shape h.leaves h.splits h.cats hw
  have hinv : tablesInv a 0 { boundaries := b0, thresholds := [] } := by
    refine ⟨by simp, by simpa using hb0.2, ?_⟩
    intro hc; rw [hb0.1 hc]; rfl
  obtain ⟨nodes, cats, h1, h2, h3, _⟩ := convert_tree P (lgSource_ok P a w _) hcon h.distinct h.bound h.small ha
    (by omega) hinv (le_of_eq (weight_eq w _))
  refine ⟨nodes, cats, h1, h2, h3, rfl, ?_⟩
  have hle : (BTree.node 0 l r).inner.length ≤ n := nodup_length_le h.distinct h.bound
  rw [BTree.inner_length] at hle
  have := h.small
  omega

/-- prediction on the converted tree -/
theorem lg_predict (P : Platform) {a : LgArrays} {T : BTree} {t : LgTree} (hne : T.isLeaf = false)
    (hlen : t.nodes.length = T.size) (h32 : t.nodes.length < 2 ^ 32)
    (hemb : Emb (lgMeaning a) t.nodes { boundaries := t.catBoundaries, thresholds := t.catThresholds } T 0)
    (fvals : List F64) (k : Nat) (v : F64) :
    t.predict P fvals = .ok (v, k) ↔ (Walk (Goes P.out (LgSplit a) fvals) T k ∧ t.leafValues[k]? = some v) := by
  have hpos : t.nodes.length ≠ 0 := by
    rw [hlen]; cases T with
    | leaf => cases hne
    | node i l r => simp [BTree.size]
  unfold LgTree.predict
  rw [if_neg hpos]
  constructor
  · intro h
    obtain ⟨k', h1, h2, h3⟩ := walk_of_predictLoop (M := lgMeaning a) (P := P)
      (aux := { boundaries := t.catBoundaries, thresholds := t.catThresholds }) (t := t) (fvals := fvals)
      (goes := Goes P.out (LgSplit a) fvals)
      (fun i nd hR b x hx hd => (goes_rep P t (LgSplit a) LgSplit.unique hR fvals b).2 ⟨x, hx, hd⟩) h32 T 0 _ v k hne hemb h
    obtain rfl : k = k' := h2
    exact ⟨h1, h3⟩
  · rintro ⟨h1, h2⟩
    obtain ⟨j, hj, hp⟩ := predictLoop_walk (M := lgMeaning a) (P := P)
      (aux := { boundaries := t.catBoundaries, thresholds := t.catThresholds }) (t := t) (fvals := fvals)
      (goes := Goes P.out (LgSplit a) fvals) (V := fun k => Res.idx t.leafValues k)
      (fun i nd hR b hg => (goes_rep P t (LgSplit a) LgSplit.unique hR fvals b).1 hg)
      (fun k j hj => by obtain rfl : j = k := hj; rfl) h32 T k 0 (t.nodes.length + 1) hne hemb h1 (by omega)
    obtain rfl : j = k := hj
    rw [hp, Res.idx_eq_ok.2 h2]
    rfl

end Leaves
