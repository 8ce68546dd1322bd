import Verif.Proofs.Convert

/-! Nodes that represent a split rule. -/

namespace Leaves

open Spec

/-- node `nd`, with category tables `b`/`t`, represents a split on feature `f` by `rule` -/
def NodeRep (b : List Nat) (t : List (BitVec 32)) (nd : LgNode) (f : Nat) (rule : Rule) : Prop :=
  nd.feature = f ∧
  match rule with
  | .num r => nd.flags.getLsbD 0 = false ∧ MissingBits nd.flags r.missing ∧ nd.flags.getLsbD 1 = r.defaultLeft ∧
      nd.threshold = r.threshold
  | .cat m set => nd.flags.getLsbD 0 = true ∧ MissingBits nd.flags m ∧ CatCode b t nd.flags nd.threshold set

theorem NodeRep.congr {b : List Nat} {t : List (BitVec 32)} {nd nd' : LgNode} {f : Nat} {rule : Rule}
    (h1 : nd'.threshold = nd.threshold) (h2 : nd'.feature = nd.feature) (h3 : nd'.flags = nd.flags)
    (h : NodeRep b t nd f rule) : NodeRep b t nd' f rule := by
  unfold NodeRep at *
  rw [h1, h2, h3]; exact h

theorem CatCode.mono {b b' : List Nat} {t t' : List (BitVec 32)} {flags : Flags} {thr : F64} {set : Nat → Prop}
    (hb : b <+: b') (ht : t <+: t') (h : CatCode b t flags thr set) : CatCode b' t' flags thr set := by
  obtain ⟨tb, rfl⟩ := hb
  obtain ⟨tt, rfl⟩ := ht
  cases h with
  | oneHot c h6 hc ht => exact .oneHot c h6 hc ht
  | small w h6 h7 ht => exact .small w h6 h7 ht
  | long k s e h6 h7 hk ht hs he hse hlen hlt =>
    have hb : ∀ {i x : Nat}, b[i]? = some x → (b ++ tb)[i]? = some x := by
      intro i x h
      rw [List.getElem?_append_left (List.getElem?_eq_some_iff.1 h).1]; exact h
    have : (t.drop s).take (e - s) = ((t ++ tt).drop s).take (e - s) := by
      rw [List.drop_append_of_le_length (by omega), List.take_append_of_le_length]
      rw [List.length_drop]; omega
    rw [this]
    exact .long k s e h6 h7 hk ht (hb hs) (hb he) hse (by rw [List.length_append]; omega) hlt

theorem NodeRep.mono {b b' : List Nat} {t t' : List (BitVec 32)} {nd : LgNode} {f : Nat} {rule : Rule}
    (hb : b <+: b') (ht : t <+: t') (h : NodeRep b t nd f rule) : NodeRep b' t' nd f rule := by
  unfold NodeRep at *
  refine ⟨h.1, ?_⟩
  cases rule with
  | num r => exact h.2
  | cat m set => exact ⟨h.2.1, h.2.2.1, h.2.2.2.mono hb ht⟩

/-- the decision on a represented node -/
theorem decision_rep (P : Platform) (t : LgTree) (nd : LgNode) (f : Nat) (rule : Rule) (x : F64)
    (h : NodeRep t.catBoundaries t.catThresholds nd f rule) :
    ∃ b, t.decision P nd x = .ok b ∧ (b = true ↔ rule.Left P.out x) := by
  unfold LgTree.decision
  rw [flag_categorical]
  cases rule with
  | num r =>
    obtain ⟨h1, h2, h3, h4, h5⟩ := h
    rw [h2, if_neg (by simp)]
    exact ⟨_, rfl, numericalDecision_iff nd r x h3 h4 h5⟩
  | cat m set =>
    obtain ⟨h1, h2, h3, h4⟩ := h
    rw [h2, if_pos rfl]
    exact categoricalDecision_spec P t nd m set x h3 h4

/-- the decision and the abstract step agree -/
theorem goes_rep (P : Platform) (t : LgTree) (split : Nat → Nat → Rule → Prop)
    (huniq : ∀ i f f' r r', split i f r → split i f' r' → f = f' ∧ r = r') {i : Nat} {nd : LgNode}
    (h : ∃ f rule, split i f rule ∧ NodeRep t.catBoundaries t.catThresholds nd f rule) (fvals : List F64) (b : Bool) :
    Goes P.out split fvals i b ↔ ∃ x, fvals[nd.feature]? = some x ∧ t.decision P nd x = .ok b := by
  obtain ⟨f, rule, hs, hr⟩ := h
  constructor
  · rintro ⟨f', rule', x, hs', hx, hb⟩
    obtain ⟨rfl, rfl⟩ := huniq i f f' rule rule' hs hs'
    obtain ⟨b', h1, h2⟩ := decision_rep P t nd f rule x hr
    refine ⟨x, by rw [hr.1]; exact hx, ?_⟩
    rw [h1]
    congr 1
    rw [Bool.eq_iff_iff, h2, hb]
  · rintro ⟨x, hx, hd⟩
    obtain ⟨b', h1, h2⟩ := decision_rep P t nd f rule x hr
    rw [h1] at hd
    cases hd
    exact ⟨f, rule, x, hs, by rw [← hr.1]; exact hx, h2⟩

/-! ### flag arithmetic -/

theorem flags_categorical (k : Nat) : Flag.categorical.getLsbD k = decide (k = 0) := by
  rcases Nat.lt_or_ge k 8 with h | h
  · revert k; decide
  · rw [BitVec.getLsbD_of_ge _ _ h]; simp; omega
theorem flags_defaultLeft (k : Nat) : Flag.defaultLeft.getLsbD k = decide (k = 1) := by
  rcases Nat.lt_or_ge k 8 with h | h
  · revert k; decide
  · rw [BitVec.getLsbD_of_ge _ _ h]; simp; omega
theorem flags_leftLeaf (k : Nat) : Flag.leftLeaf.getLsbD k = decide (k = 2) := by
  rcases Nat.lt_or_ge k 8 with h | h
  · revert k; decide
  · rw [BitVec.getLsbD_of_ge _ _ h]; simp; omega
theorem flags_rightLeaf (k : Nat) : Flag.rightLeaf.getLsbD k = decide (k = 3) := by
  rcases Nat.lt_or_ge k 8 with h | h
  · revert k; decide
  · rw [BitVec.getLsbD_of_ge _ _ h]; simp; omega
theorem flags_missingZero (k : Nat) : Flag.missingZero.getLsbD k = decide (k = 4) := by
  rcases Nat.lt_or_ge k 8 with h | h
  · revert k; decide
  · rw [BitVec.getLsbD_of_ge _ _ h]; simp; omega
theorem flags_missingNan (k : Nat) : Flag.missingNan.getLsbD k = decide (k = 5) := by
  rcases Nat.lt_or_ge k 8 with h | h
  · revert k; decide
  · rw [BitVec.getLsbD_of_ge _ _ h]; simp; omega
theorem flags_catOneHot (k : Nat) : Flag.catOneHot.getLsbD k = decide (k = 6) := by
  rcases Nat.lt_or_ge k 8 with h | h
  · revert k; decide
  · rw [BitVec.getLsbD_of_ge _ _ h]; simp; omega
theorem flags_catSmall (k : Nat) : Flag.catSmall.getLsbD k = decide (k = 7) := by
  rcases Nat.lt_or_ge k 8 with h | h
  · revert k; decide
  · rw [BitVec.getLsbD_of_ge _ _ h]; simp; omega

/-- the flag that stands for a missing type -/
def missingFlag : Missing → Flags
  | .none => 0
  | .zero => Flag.missingZero
  | .nan => Flag.missingNan

theorem missingFlag_bits (m : Missing) (k : Nat) :
    (missingFlag m).getLsbD k = decide ((k = 4 ∧ m = .zero) ∨ (k = 5 ∧ m = .nan)) := by
  cases m <;> simp [missingFlag, flags_missingZero, flags_missingNan]

/-- a fresh numerical node represents its rule; its leaf bits are clear -/
theorem numericalNode_rep (b : List Nat) (t : List (BitVec 32)) (f : Nat) (m : Missing) (thr : F64) (dl : Bool) :
    NodeRep b t (numericalNode f (missingFlag m) thr (if dl then Flag.defaultLeft else 0)) f (.num ⟨m, dl, thr⟩) ∧
    (numericalNode f (missingFlag m) thr (if dl then Flag.defaultLeft else 0)).flags.getLsbD 2 = false ∧
    (numericalNode f (missingFlag m) thr (if dl then Flag.defaultLeft else 0)).flags.getLsbD 3 = false := by
  unfold numericalNode NodeRep MissingBits
  cases m <;> cases dl <;>
    simp [-BitVec.getLsbD_eq_getElem, missingFlag, flags_missingZero, flags_missingNan, flags_defaultLeft, BitVec.getLsbD_or]

/-- a fresh categorical node -/
theorem categoricalNode_flags (f : Nat) (m : Missing) (c : Nat) (ct : Flags) (hct : ct.getLsbD 0 = false ∧ ct.getLsbD 2 = false ∧
    ct.getLsbD 3 = false ∧ ct.getLsbD 4 = false ∧ ct.getLsbD 5 = false) :
    let n := categoricalNode f (missingFlag m) c ct
    n.feature = f ∧ n.flags.getLsbD 0 = true ∧ MissingBits n.flags m ∧ n.flags.getLsbD 2 = false ∧ n.flags.getLsbD 3 = false ∧
    n.flags.getLsbD 6 = ct.getLsbD 6 ∧ n.flags.getLsbD 7 = ct.getLsbD 7 ∧ n.threshold = F64.ofNat c := by
  obtain ⟨h0, h2, h3, h4, h5⟩ := hct
  unfold categoricalNode MissingBits
  cases m <;> simp [-BitVec.getLsbD_eq_getElem, missingFlag, flags_missingZero, flags_missingNan, flags_categorical, BitVec.getLsbD_or, h0, h2, h3, h4, h5]

/-- setting leaf bits does not change the represented rule -/
theorem NodeRep.leafBits {b : List Nat} {t : List (BitVec 32)} {nd : LgNode} {f : Nat} {rule : Rule} {fl : Flags}
    {left right : Nat} (hfl : ∀ k, k ≠ 2 → k ≠ 3 → fl.getLsbD k = nd.flags.getLsbD k) (h : NodeRep b t nd f rule) :
    NodeRep b t { nd with flags := fl, left := left, right := right } f rule := by
  obtain ⟨h1, h2⟩ := h
  refine ⟨h1, ?_⟩
  cases rule with
  | num r =>
    obtain ⟨h0, ⟨h4, h5⟩, hd, ht⟩ := h2
    refine ⟨?_, ⟨?_, ?_⟩, ?_, ht⟩ <;> dsimp only <;> rw [hfl _ (by omega) (by omega)] <;> assumption
  | cat m set =>
    obtain ⟨h0, ⟨h4, h5⟩, hc⟩ := h2
    refine ⟨?_, ⟨?_, ?_⟩, ?_⟩
    · dsimp only; rw [hfl _ (by omega) (by omega)]; assumption
    · dsimp only; rw [hfl _ (by omega) (by omega)]; assumption
    · dsimp only; rw [hfl _ (by omega) (by omega)]; assumption
    · cases hc with
      | oneHot c h6 hc ht => exact .oneHot c (by dsimp only; rw [hfl _ (by omega) (by omega)]; exact h6) hc ht
      | small w h6 h7 ht =>
        exact .small w (by dsimp only; rw [hfl _ (by omega) (by omega)]; exact h6)
          (by dsimp only; rw [hfl _ (by omega) (by omega)]; exact h7) ht
      | long k s e h6 h7 hk ht hs he hse hlen hlt =>
        exact .long k s e (by dsimp only; rw [hfl _ (by omega) (by omega)]; exact h6)
          (by dsimp only; rw [hfl _ (by omega) (by omega)]; exact h7) hk ht hs he hse hlen hlt

end Leaves
