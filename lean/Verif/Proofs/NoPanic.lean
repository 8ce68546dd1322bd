import Verif.Proofs.Convert
import Verif.Proofs.LgTree
import Verif.Proofs.Bits
import Verif.Props.Params
import Verif.Spec.JsonFile
import Verif.Proofs.LgLoad
import Verif.Model.XgLoad
import Verif.Model.SkLoad

/-! # Conditions under which the conversion loop does not panic -/

namespace Leaves

theorem ofOption_ne_panic {α : Type} (tag : String) (o : Option α) : Res.ofOption tag o ≠ .panic := by
  cases o <;> simp [Res.ofOption]

theorem ok_ne_panic {α : Type} (a : α) : Res.ok a ≠ .panic := by simp
theorem pure_ne_panic {α : Type} (a : α) : (pure a : Res α) ≠ .panic := by simp
theorem err_ne_panic {α : Type} (t : String) : (Res.err t : Res α) ≠ .panic := by simp

theorem bind_ne_panic {α β : Type} {x : Res α} {f : α → Res β} (hx : x ≠ .panic) (hf : ∀ a, x = .ok a → f a ≠ .panic) :
    (x >>= f) ≠ .panic := by
  cases x with
  | ok a => exact hf a rfl
  | err t => exact err_ne_panic t
  | panic => exact absurd rfl hx
  | hang => intro h; cases h

/-- the flags of a created node lead to children within the array that satisfy `G` -/
def ChildrenIn {σ : Type} (S : Source σ) (n : Nat) (G : Nat → Prop) (i : Nat) (nd : LgNode) : Prop :=
  (hasFlag nd.flags Flag.rightLeaf = false → ∃ r : Nat, S.rightChild i = .ok (r : Int) ∧ r < n ∧ G r) ∧
  (hasFlag nd.flags Flag.leftLeaf = false → ∃ l : Nat, S.leftChild i = .ok (l : Int) ∧ l < n ∧ G l)

/-- creating a node within the array that satisfies `G` does not panic -/
def SafeSource {σ : Type} (S : Source σ) (n : Nat) (G : Nat → Prop) : Prop :=
  ∀ i < n, G i → ∀ a, S.createNode (i : Int) a ≠ .panic ∧ ∀ nd a', S.createNode (i : Int) a = .ok (nd, a') → ChildrenIn S n G i nd

/-- the loop invariant -/
structure SafeConv {σ : Type} (S : Source σ) (n : Nat) (G : Nat → Prop) (s : Conv σ) : Prop where
  vis : s.visited.length = n
  count : s.nodes.length + s.visited.count false ≤ n + 1
  stack : ∀ o c, (o, c) ∈ s.stack → o < n ∧ ∃ nd, s.nodes[c]? = some nd ∧ ChildrenIn S n G o nd

section
variable {σ : Type} {S : Source σ} {n : Nat} {G : Nat → Prop}

theorem visitChild_safe (hS : SafeSource S n G) (hn : n < 2 ^ 32) (f : List LgNode → Nat → Nat → Res (List LgNode))
    (hf : f = setLeft ∨ f = setRight) {s : Conv σ} (hs : SafeConv S n G s) {c i : Nat} (hc : c < s.nodes.length) (hi : i < n) (hG : G i) :
    visitChild S f s c (i : Int) ≠ .panic ∧ ∀ s', visitChild S f s c (i : Int) = .ok (some s') → SafeConv S n G s' := by
  have hg : ∃ v, s.visited[i]? = some v := ⟨_, List.getElem?_eq_getElem (by rw [hs.vis]; exact hi)⟩
  obtain ⟨v, hv⟩ := hg
  unfold visitChild
  rw [Res.idxI_ofNat, Res.idx_eq_ok.2 hv]
  simp only [Res.ok_bind]
  cases v with
  | true => simp
  | false =>
    simp only [Bool.false_eq_true, if_false]
    obtain ⟨hp, hok⟩ := hS i hi hG s.aux
    cases hcr : S.createNode (i : Int) s.aux with
    | panic => exact absurd hcr hp
    | hang => exact ⟨(by intro h; cases h), by intro _ h; cases h⟩
    | err t => exact ⟨(by intro h; cases h), by intro _ h; cases h⟩
    | ok x =>
      obtain ⟨nd, a'⟩ := x
      have hch := hok nd a' hcr
      have hcnt := count_set_true hv
      have hcount := hs.count
      have hlen : s.nodes.length < 2 ^ 32 := by omega
      simp only [Res.ok_bind, List.length_append, List.length_singleton, Nat.add_sub_cancel, Int.toNat_natCast]
      rw [u32_of_lt hlen, u32I_natCast (by omega)]
      have hget : (s.nodes ++ [nd])[c]? = some s.nodes[c] := by
        rw [List.getElem?_append_left hc, List.getElem?_eq_getElem hc]
      have key : ∃ x, f (s.nodes ++ [nd]) c s.nodes.length = .ok ((s.nodes ++ [nd]).set c x) ∧ x.flags = s.nodes[c].flags := by
        rcases hf with rfl | rfl
        · unfold setLeft; rw [Res.idx_eq_ok.2 hget]; exact ⟨_, rfl, rfl⟩
        · unfold setRight; rw [Res.idx_eq_ok.2 hget]; exact ⟨_, rfl, rfl⟩
      obtain ⟨x, hx, hxf⟩ := key
      rw [hx]
      simp only [Res.ok_bind, Res.pure_eq]
      refine ⟨(by intro h; cases h), fun s' h => ?_⟩
      have h := (Option.some.inj (Res.ok.inj h)).symm
      subst h
      refine ⟨by simpa using hs.vis, by simp only [List.length_set, List.length_append, List.length_singleton]; omega, ?_⟩
      intro o c' hmem
      dsimp only at hmem ⊢
      rcases List.mem_cons.1 hmem with heq | hmem
      · cases heq
        refine ⟨hi, nd, ?_, hch⟩
        rw [List.getElem?_set_ne (by omega)]
        simp
      · obtain ⟨ho, nd', hnd', hch'⟩ := hs.stack o c' hmem
        refine ⟨ho, ?_⟩
        have hlt : c' < s.nodes.length := (List.getElem?_eq_some_iff.1 hnd').1
        by_cases hcc : c = c'
        · subst hcc
          refine ⟨x, by rw [List.getElem?_set_self (by simp; omega)], ?_⟩
          have : nd' = s.nodes[c] := by rw [List.getElem?_eq_getElem hc] at hnd'; exact (Option.some.inj hnd').symm
          subst this
          unfold ChildrenIn
          rw [hxf]
          exact hch'
        · exact ⟨nd', by rw [List.getElem?_set_ne hcc, List.getElem?_append_left hlt]; exact hnd', hch'⟩

theorem tryChild_safe (hS : SafeSource S n G) (hn : n < 2 ^ 32) (f : List LgNode → Nat → Nat → Res (List LgNode))
    (hf : f = setLeft ∨ f = setRight) {s : Conv σ} (hs : SafeConv S n G s) {c : Nat} (hc : c < s.nodes.length)
    {isLeaf : Bool} {child : Res Int} (hch : isLeaf = false → ∃ i : Nat, child = .ok (i : Int) ∧ i < n ∧ G i) :
    tryChild S f s c isLeaf child ≠ .panic ∧ ∀ s', tryChild S f s c isLeaf child = .ok (some s') → SafeConv S n G s' := by
  unfold tryChild
  cases isLeaf with
  | true => simp
  | false =>
    obtain ⟨i, rfl, hi, hG⟩ := hch rfl
    simp only [Bool.false_eq_true, if_false, Res.ok_bind]
    exact visitChild_safe hS hn f hf hs hc hi hG

theorem convStep_safe (hS : SafeSource S n G) (hn : n < 2 ^ 32) {s : Conv σ} (hs : SafeConv S n G s) {o c : Nat}
    {below : List (Nat × Nat)} (hst : s.stack = (o, c) :: below) :
    convStep S s o c below ≠ .panic ∧ ∀ s', convStep S s o c below = .ok s' → SafeConv S n G s' := by
  obtain ⟨ho, nd, hnd, hr, hl⟩ := hs.stack o c (by rw [hst]; exact List.mem_cons_self)
  have hc : c < s.nodes.length := (List.getElem?_eq_some_iff.1 hnd).1
  unfold convStep
  rw [Res.idx_eq_ok.2 hnd]
  simp only [Res.ok_bind]
  obtain ⟨h1, h2⟩ := tryChild_safe hS hn setRight (.inr rfl) hs hc hr
  obtain ⟨h3, h4⟩ := tryChild_safe hS hn setLeft (.inl rfl) hs hc hl
  cases e1 : tryChild S setRight s c (hasFlag nd.flags Flag.rightLeaf) (S.rightChild o) with
  | panic => exact absurd e1 h1
  | hang => exact ⟨(by intro h; cases h), by intro _ h; cases h⟩
  | err t => exact ⟨(by intro h; cases h), by intro _ h; cases h⟩
  | ok x =>
    cases x with
    | some s1 =>
      refine ⟨(by intro h; cases h), fun s' h => ?_⟩
      cases h
      exact h2 _ e1
    | none =>
      simp only [Res.ok_bind]
      cases e2 : tryChild S setLeft s c (hasFlag nd.flags Flag.leftLeaf) (S.leftChild o) with
      | panic => exact absurd e2 h3
      | hang => exact ⟨(by intro h; cases h), by intro _ h; cases h⟩
      | err t => exact ⟨(by intro h; cases h), by intro _ h; cases h⟩
      | ok x =>
        cases x with
        | some s1 =>
          refine ⟨(by intro h; cases h), fun s' h => ?_⟩
          cases h
          exact h4 _ e2
        | none =>
          refine ⟨(by intro h; cases h), fun s' h => ?_⟩
          cases h
          exact ⟨hs.vis, hs.count, fun o' c' hm => hs.stack o' c' (by rw [hst]; exact List.mem_cons_of_mem _ hm)⟩

theorem convLoop_safe (hS : SafeSource S n G) (hn : n < 2 ^ 32) : ∀ (fuel : Nat) (s : Conv σ), SafeConv S n G s →
    convLoop S fuel s ≠ .panic
  | 0, _, _ => by intro h; cases h
  | fuel + 1, s, hs => by
    unfold convLoop
    split
    · exact ok_ne_panic _
    · rename_i o c below hst
      obtain ⟨h1, h2⟩ := convStep_safe hS hn hs hst
      exact bind_ne_panic h1 fun s' hs' => convLoop_safe hS hn fuel s' (h2 s' hs')

/-- The conversion of an array-encoded tree does not panic when every created node has its children within the array. -/
theorem convert_safe (P : Platform) (hS : SafeSource S n G) (h0 : 0 < n) (hG0 : G 0) (hn : n < 2 ^ 32) {m : Int} (hm : 0 ≤ m)
    (hfit : m * 24 ≤ P.maxAlloc) (hfit' : (n : Int) ≤ P.maxAlloc) (aux : σ) : convert P S m (n : Int) aux ≠ .panic := by
  unfold convert
  have ha : ∀ (k : Int) (z : Nat), 0 ≤ k → k * z ≤ P.maxAlloc → allocCheck P k z = .ok ⟨⟩ := by
    intro k z h1 h2
    unfold allocCheck
    rw [if_neg (by push Not; exact ⟨h1, h2⟩)]
  rw [ha m 4 hm (by push_cast; omega), ha n 1 (by omega) (by push_cast; omega), ha m 24 hm (by push_cast; omega)]
  simp only [Res.ok_bind]
  obtain ⟨hp, hok⟩ := hS 0 h0 hG0 aux
  refine bind_ne_panic hp fun x hx => ?_
  obtain ⟨nd, a⟩ := x
  refine bind_ne_panic (convLoop_safe hS hn _ _ ⟨by simp, by simp; omega, ?_⟩) fun _ _ => pure_ne_panic _
  intro o c hmem
  have : (o, c) = (0, 0) := by simpa using hmem
  cases this
  exact ⟨h0, nd, rfl, hok nd a hx⟩

end

/-! ## LightGBM text -/

open Spec

theorem hasFlag_or (x y m : Flags) : hasFlag (x ||| y) m = (hasFlag x m || hasFlag y m) := by
  unfold hasFlag
  have h : ∀ z : Flags, decide (z.toNat > 0) = !decide (z = 0#8) := by decide
  rw [h, h, h]
  have e : (x ||| y) &&& m = (x &&& m) ||| (y &&& m) := by
    ext i hi
    simp only [BitVec.getElem_and, BitVec.getElem_or]
    cases x[i] <;> cases y[i] <;> cases m[i] <;> rfl
  rw [e]
  have k : ∀ a b : Flags, (a ||| b = 0#8) ↔ a = 0#8 ∧ b = 0#8 := by
    intro a b
    constructor
    · intro h0
      constructor
      · ext i hi
        have := congrArg (fun z : Flags => z[i]) h0
        simp at this ⊢
        exact this.1
      · ext i hi
        have := congrArg (fun z : Flags => z[i]) h0
        simp at this ⊢
        exact this.2
    · rintro ⟨rfl, rfl⟩; rfl
  by_cases h1 : x &&& m = 0#8 <;> by_cases h2 : y &&& m = 0#8 <;> simp [h1, h2, k]

theorem idxI_lt {α : Type} {l : List α} {i : Nat} (h : i < l.length) : Res.idxI l (i : Int) = .ok l[i] := by
  rw [Res.idxI_ofNat]
  exact Res.idx_eq_ok.2 (List.getElem?_eq_getElem h)

theorem firstNonZeroBitFrom_ne_panic : ∀ (l : List (BitVec 32)) (pos : Nat), Util.firstNonZeroBitFrom pos l ≠ .panic
  | [], pos => by simp [Util.firstNonZeroBitFrom]
  | e :: l, pos => by
    unfold Util.firstNonZeroBitFrom
    split
    · refine bind_ne_panic ?_ fun _ _ => pure_ne_panic _
      have hlt : (((e &&& -e) * 0x077CB531#32) >>> 27).toNat < Util.multiplyDeBruijnBitPosition.length := by
        show _ < 32
        rw [BitVec.toNat_ushiftRight, Nat.shiftRight_eq_div_pow]
        have := ((e &&& -e) * 0x077CB531#32).isLt
        omega
      rw [Res.idx_eq_ok.2 (List.getElem?_eq_getElem hlt)]
      exact ok_ne_panic _
    · exact firstNonZeroBitFrom_ne_panic l _

theorem convertMissingType_ne_panic (d : Nat) : convertMissingType d ≠ .panic := by
  unfold convertMissingType
  dsimp only
  split
  · simp
  · split
    · simp
    · split <;> simp

/-- the flags that `withLeaves` sets -/
theorem withLeaves_fit {a : LgArrays} {n i : Nat} (h : LgArraysFit a n) (hi : i < n) (node : LgNode) :
    ∃ nd, a.withLeaves (i : Int) node = .ok nd ∧
      (hasFlag nd.flags Flag.rightLeaf = false → ∃ r : Nat, a.rightChilds[i]? = some (r : Int) ∧ r < n) ∧
      (hasFlag nd.flags Flag.leftLeaf = false → ∃ l : Nat, a.leftChilds[i]? = some (l : Int) ∧ l < n) := by
  have hl : i < a.leftChilds.length := Nat.lt_of_lt_of_le hi h.left
  have hr : i < a.rightChilds.length := Nat.lt_of_lt_of_le hi h.right
  have hli := h.leftIn i hi _ (List.getElem?_eq_getElem hl)
  have hri := h.rightIn i hi _ (List.getElem?_eq_getElem hr)
  unfold LgArrays.withLeaves
  rw [idxI_lt hl, idxI_lt hr]
  simp only [Res.ok_bind, Res.pure_eq]
  refine ⟨_, rfl, ?_, ?_⟩
  · intro hf
    by_cases h0 : a.rightChilds[i] < 0
    · rw [if_pos h0] at hf
      simp only [hasFlag_or] at hf
      rw [Bool.or_eq_false_iff] at hf
      exact absurd hf.2 (by decide)
    · exact ⟨a.rightChilds[i].toNat, by rw [List.getElem?_eq_getElem hr]; congr 1; omega, by omega⟩
  · intro hf
    by_cases h0 : a.leftChilds[i] < 0
    · exfalso
      by_cases h1 : a.rightChilds[i] < 0
      · rw [if_pos h0, if_pos h1] at hf
        simp only [hasFlag_or, Bool.or_eq_false_iff] at hf
        exact absurd hf.1.2 (by decide)
      · rw [if_pos h0, if_neg h1] at hf
        simp only [hasFlag_or, Bool.or_eq_false_iff] at hf
        exact absurd hf.2 (by decide)
    · exact ⟨a.leftChilds[i].toNat, by rw [List.getElem?_eq_getElem hl]; congr 1; omega, by omega⟩

theorem catSlot_ne_panic {a : LgArrays} {s : Nat} (hs : s < a.catThresholds.length) (n b : Nat) (l : List (BitVec 32)) (t : CatTables) :
    a.catSlot n b s l t ≠ .panic := by
  unfold LgArrays.catSlot
  split
  · exact bind_ne_panic (firstNonZeroBitFrom_ne_panic _ _) fun _ _ => pure_ne_panic _
  · split
    · refine bind_ne_panic ?_ fun _ _ => pure_ne_panic _
      rw [Res.idx_eq_ok.2 (List.getElem?_eq_getElem hs)]
      exact ok_ne_panic _
    · exact ok_ne_panic _

theorem numberOfSetBits_nil : (Util.numberOfSetBits []).toNat = 0 := rfl

theorem lgSource_safe (P : Platform) {a : LgArrays} {n : Nat} (h : LgArraysFit a n) : SafeSource (a.source P) n (fun _ => True) := by
  intro i hi _ t
  have h1 : i < a.decisionTypes.length := Nat.lt_of_lt_of_le hi h.types
  have h2 : i < a.splitFeatures.length := Nat.lt_of_lt_of_le hi h.features
  have h3 : i < a.thresholds.length := Nat.lt_of_lt_of_le hi h.thresholds
  have hch : ∀ nd : LgNode,
      ((hasFlag nd.flags Flag.rightLeaf = false → ∃ r : Nat, a.rightChilds[i]? = some (r : Int) ∧ r < n) ∧
      (hasFlag nd.flags Flag.leftLeaf = false → ∃ l : Nat, a.leftChilds[i]? = some (l : Int) ∧ l < n)) → ChildrenIn (a.source P) n (fun _ => True) i nd := by
    intro nd hnd
    refine ⟨fun hf => ?_, fun hf => ?_⟩
    · obtain ⟨r, hr, hlt⟩ := hnd.1 hf
      exact ⟨r, Res.idx_eq_ok.2 hr, hlt, trivial⟩
    · obtain ⟨l, hl, hlt⟩ := hnd.2 hf
      exact ⟨l, Res.idx_eq_ok.2 hl, hlt, trivial⟩
  show a.createNode P (i : Int) t ≠ .panic ∧ ∀ nd a', a.createNode P (i : Int) t = .ok (nd, a') → _
  unfold LgArrays.createNode
  rw [idxI_lt h1]
  simp only [Res.ok_bind]
  by_cases hc : a.decisionTypes[i] &&& 1 > 0
  · rw [if_pos hc]
    obtain ⟨c, ws, hc32, hv, s, e, hbs, hbe, hse, hle, hws⟩ := h.cats i hi _ _ (List.getElem?_eq_getElem h1) ((and_one_pos _).1 hc)
      (List.getElem?_eq_getElem h3)
    unfold LgArrays.createCategoricalNode
    rw [idxI_lt h1, idxI_lt h2, idxI_lt h3]
    simp only [Res.ok_bind]
    rw [toUint32_of_trunc P (by omega) (trunc_of_isVal hv), u32_of_lt hc32, Res.idx_eq_ok.2 hbe, Res.idx_eq_ok.2 hbs]
    have hsl : LgArrays.slice a.catThresholds s e = .ok ws := by
      unfold LgArrays.slice; rw [if_neg (by omega), hws]
    simp only [Res.ok_bind, hsl]
    cases hm : convertMissingType a.decisionTypes[i] with
    | panic => exact absurd hm (convertMissingType_ne_panic _)
    | hang => exact ⟨(by intro h; cases h), by intro _ _ h; cases h⟩
    | err t => exact ⟨(by intro h; cases h), by intro _ _ h; cases h⟩
    | ok m =>
      simp only [Res.ok_bind]
      split
      · exact ⟨(by intro h; cases h), by intro _ _ h; cases h⟩
      · rename_i hnb
        have hs : s < a.catThresholds.length := by
          by_contra hn
          have : ws = [] := by
            rw [hws, List.drop_eq_nil_of_le (by omega), List.take_nil]
          rw [this] at hnb
          exact hnb numberOfSetBits_nil
        cases hcs : a.catSlot (Util.numberOfSetBits ws).toNat (u32 (e + 2 ^ 32 - s)) s ws t with
        | panic => exact absurd hcs (catSlot_ne_panic hs _ _ _ _)
        | hang => exact ⟨(by intro h; cases h), by intro _ _ h; cases h⟩
        | err t => exact ⟨(by intro h; cases h), by intro _ _ h; cases h⟩
        | ok x =>
          obtain ⟨cat, ct, t'⟩ := x
          simp only [Res.ok_bind]
          obtain ⟨nd, hnd, hfl⟩ := withLeaves_fit h hi (categoricalNode a.splitFeatures[i] m cat ct)
          rw [hnd]
          refine ⟨(by intro h; cases h), fun nd' a' h' => ?_⟩
          cases h'
          exact hch nd hfl
  · rw [if_neg hc]
    unfold LgArrays.createNumericalNode
    rw [idxI_lt h1, idxI_lt h2, idxI_lt h3]
    simp only [Res.ok_bind]
    cases hm : convertMissingType a.decisionTypes[i] with
    | panic => exact absurd hm (convertMissingType_ne_panic _)
    | hang => exact ⟨(by intro h; cases h), by intro _ _ h; cases h⟩
    | err t => exact ⟨(by intro h; cases h), by intro _ _ h; cases h⟩
    | ok m =>
      simp only [Res.ok_bind]
      obtain ⟨nd, hnd, hfl⟩ := withLeaves_fit h hi (numericalNode a.splitFeatures[i] m a.thresholds[i]
        (if a.decisionTypes[i] &&& (1 <<< 1) > 0 then Flag.defaultLeft else 0))
      rw [hnd]
      refine ⟨(by intro h; cases h), fun nd' a' h' => ?_⟩
      cases h'
      exact hch nd hfl

/-- close a goal `r ≠ .panic` by going through binds and branches; `t` closes the calls -/
syntax "no_panic" "[" term,* "]" : tactic
macro_rules
  | `(tactic| no_panic [$ts,*]) => do
    let alts ← ts.getElems.mapM fun t => `(tacticSeq| exact $t)
    `(tactic| repeat' first
      | exact ofOption_ne_panic _ _
      | exact ok_ne_panic _
      | exact pure_ne_panic _
      | exact err_ne_panic _
      $[| $alts]*
      | refine bind_ne_panic ?_ fun _ _ => ?_
      | split
      | dsimp only)

theorem convertAll_ne_panic {α : Type} (f : Str → Option α) : ∀ l, Params.convertAll f l ≠ .panic
  | [] => by simp [Params.convertAll]
  | s :: l => by
    unfold Params.convertAll
    no_panic [convertAll_ne_panic f l]

theorem toInt_ne_panic (p : Params) (k : Str) : p.toInt k ≠ .panic := by
  unfold Params.toInt; no_panic []
theorem toString_ne_panic (p : Params) (k : Str) : p.toString k ≠ .panic := by
  unfold Params.toString; no_panic []
theorem compare_ne_panic (p : Params) (k v : Str) : p.compare k v ≠ .panic := by
  unfold Params.compare; no_panic []
theorem toStrSlice_ne_panic (p : Params) (k : Str) : p.toStrSlice k ≠ .panic := by
  unfold Params.toStrSlice; no_panic []
theorem toFloat64Slice_ne_panic (P : Platform) (p : Params) (k : Str) : p.toFloat64Slice P k ≠ .panic := by
  unfold Params.toFloat64Slice; no_panic [convertAll_ne_panic _ _]
theorem toUint32Slice_ne_panic (p : Params) (k : Str) : p.toUint32Slice k ≠ .panic := by
  unfold Params.toUint32Slice; no_panic [convertAll_ne_panic _ _]
theorem toInt32Slice_ne_panic (p : Params) (k : Str) : p.toInt32Slice k ≠ .panic := by
  unfold Params.toInt32Slice; no_panic [convertAll_ne_panic _ _]

theorem readParams_ne_panic (r : Reader) : readParamsUntilBlank r ≠ .panic := by
  rcases C36_terminates r with ⟨p, r', h⟩ | ⟨m, h⟩ <;> rw [h] <;> simp

theorem lgObjectiveParse_ne_panic (s : Str) : lgObjectiveParse s ≠ .panic := by
  unfold lgObjectiveParse
  no_panic []

theorem lgTransform_ne_panic (p : Params) (n : Int) (a b : Bool) : lgTransform p n a b ≠ .panic := by
  unfold lgTransform
  no_panic [toString_ne_panic _ _, lgObjectiveParse_ne_panic _]

theorem lgCheckVersion_ne_panic (p : Params) : lgCheckVersion p ≠ .panic := by
  unfold lgCheckVersion
  no_panic [compare_ne_panic _ _ _]

/-- The fields of a tree block, read by the accessors: it announces `n` inner nodes, `n` positive, and has the arrays `a`
(the category arrays are only read when `num_cat` is positive). -/
structure TreeBlock (P : Platform) (p : Params) (n : Nat) (a : LgArrays) : Prop where
  leaves : p.toInt "num_leaves".toList = .ok (n + 1)
  pos : 0 < n
  left : p.toInt32Slice "left_child".toList = .ok a.leftChilds
  right : p.toInt32Slice "right_child".toList = .ok a.rightChilds
  types : p.toUint32Slice "decision_type".toList = .ok a.decisionTypes
  features : p.toUint32Slice "split_feature".toList = .ok a.splitFeatures
  thresholds : p.toFloat64Slice P "threshold".toList = .ok a.thresholds
  cats : ∃ c, p.toInt "num_cat".toList = .ok c ∧
    ((0 < c ∧ ∃ ws, p.toUint32Slice "cat_threshold".toList = .ok ws ∧ a.catThresholds = ws.map (BitVec.ofNat 32) ∧
        p.toUint32Slice "cat_boundaries".toList = .ok a.catBoundaries) ∨
     (c ≤ 0 ∧ a.catThresholds = [] ∧ a.catBoundaries = []))

/-- the memory for `n` inner nodes is available -/
def NodesFit (P : Platform) (n : Nat) : Prop := n < 2 ^ 32 ∧ n * 24 ≤ P.maxAlloc

theorem lgTreeFromParams_ne_panic (P : Platform) (p : Params) (h : ∀ n a, TreeBlock P p n a → LgArraysFit a n ∧ NodesFit P n) :
    lgTreeFromParams P p ≠ .panic := by
  unfold lgTreeFromParams
  refine bind_ne_panic (toInt_ne_panic _ _) fun c hc => ?_
  refine bind_ne_panic (toInt_ne_panic _ _) fun nl hnl => ?_
  split
  · simp
  rename_i h1
  refine bind_ne_panic (toFloat64Slice_ne_panic _ _ _) fun lv _ => ?_
  split
  · exact pure_ne_panic _
  rename_i h2
  refine bind_ne_panic (toInt32Slice_ne_panic _ _) fun lc hlc => ?_
  refine bind_ne_panic (toInt32Slice_ne_panic _ _) fun rc hrc => ?_
  refine bind_ne_panic (toUint32Slice_ne_panic _ _) fun dt hdt => ?_
  refine bind_ne_panic (toUint32Slice_ne_panic _ _) fun sf hsf => ?_
  refine bind_ne_panic (toFloat64Slice_ne_panic _ _ _) fun th hth => ?_
  have hnl' : p.toInt "num_leaves".toList = .ok (((nl - 1).toNat : Int) + 1) := by rw [hnl]; congr 1; omega
  have key : ∀ a : LgArrays, TreeBlock P p (nl - 1).toNat a → ∀ b,
      (do
        let x ← convert P (a.source P) (nl - 1) (nl - 1) { boundaries := b, thresholds := [] }
        pure ({ nodes := x.1, leafValues := lv, catBoundaries := x.2.boundaries,
                catThresholds := x.2.thresholds, nCategorical := u32I c } : LgTree)) ≠ Res.panic := by
    intro a ha b
    obtain ⟨hfit, hn, hal⟩ := h _ a ha
    refine bind_ne_panic ?_ fun _ _ => pure_ne_panic _
    have e : nl - 1 = (((nl - 1).toNat : Nat) : Int) := by omega
    have := convert_safe P (lgSource_safe P hfit) ha.pos trivial hn (m := nl - 1) (by omega) (by omega) (by omega) { boundaries := b, thresholds := [] }
    rw [← e] at this
    exact this
  by_cases hc0 : c > 0
  · rw [if_pos hc0]
    refine bind_ne_panic (toUint32Slice_ne_panic _ _) fun ct hct => ?_
    refine bind_ne_panic (toUint32Slice_ne_panic _ _) fun cb hcb => ?_
    exact key _ ⟨hnl', by omega, hlc, hrc, hdt, hsf, hth, c, hc, .inl ⟨hc0, ct, hct, rfl, hcb⟩⟩ _
  · rw [if_neg hc0]
    exact key _ ⟨hnl', by omega, hlc, hrc, hdt, hsf, hth, c, hc, .inr ⟨by omega, rfl, rfl⟩⟩ _

theorem lgReadTrees_panic (P : Platform) : ∀ (n : Nat) (r : Reader), lgReadTrees P n r = .panic →
    ∃ r' r'' p n a, r'.rest <:+ r.rest ∧ readParamsUntilBlank r' = .ok (p, r'') ∧ TreeBlock P p n a ∧ ¬ (LgArraysFit a n ∧ NodesFit P n)
  | 0, r, h => by cases h
  | n + 1, r, h => by
    unfold lgReadTrees at h
    cases ht : lgTreeFromReader P r with
    | ok x =>
      obtain ⟨t, r1⟩ := x
      rw [ht] at h
      simp only [Res.ok_bind] at h
      have hp : lgReadTrees P n r1 = .panic := by
        by_contra hne
        exact bind_ne_panic hne (fun _ _ => pure_ne_panic _) h
      obtain ⟨r', r'', p, m, a, hs, rest⟩ := lgReadTrees_panic P n r1 hp
      refine ⟨r', r'', p, m, a, hs.trans ?_, rest⟩
      unfold lgTreeFromReader at ht
      obtain ⟨⟨p, r2⟩, h1, h2⟩ := Res.bind_eq_ok.1 ht
      obtain ⟨t', h3, h4⟩ := Res.bind_eq_ok.1 h2
      cases h4
      exact (C36_consumes _ _ _ h1).1
    | panic =>
      unfold lgTreeFromReader at ht
      cases hr : readParamsUntilBlank r with
      | ok x =>
        obtain ⟨p, r1⟩ := x
        rw [hr] at ht
        simp only [Res.ok_bind] at ht
        by_contra hne
        push Not at hne
        refine bind_ne_panic (lgTreeFromParams_ne_panic P p fun n a ha => ?_) (fun _ _ => pure_ne_panic _) ht
        exact hne r r1 p n a List.suffix_rfl hr ha
      | panic => exact absurd hr (readParams_ne_panic r)
      | err t => rw [hr] at ht; cases ht
      | hang => rw [hr] at ht; cases ht
    | err t => rw [ht] at h; cases h
    | hang => rw [ht] at h; cases h

theorem lgEnsembleFromReader_panic (P : Platform) (r : Reader) (b : Bool) (h : lgEnsembleFromReader P r b = .panic) :
    ∃ r' r'' p n a, r'.rest <:+ r.rest ∧ readParamsUntilBlank r' = .ok (p, r'') ∧ TreeBlock P p n a ∧
      ¬ (LgArraysFit a n ∧ NodesFit P n) := by
  by_contra hne
  refine absurd h ?_
  unfold lgEnsembleFromReader
  refine bind_ne_panic (readParams_ne_panic r) fun x hx => ?_
  obtain ⟨p, r1⟩ := x
  have hsuf := (C36_consumes _ _ _ hx).1
  have hread : ∀ n, lgReadTrees P n r1 ≠ .panic := by
    intro n hp
    obtain ⟨r', r'', p, m, a, hs, rest⟩ := lgReadTrees_panic P n r1 hp
    exact hne ⟨r', r'', p, m, a, hs.trans hsuf, rest⟩
  dsimp only
  no_panic [lgCheckVersion_ne_panic _, toInt_ne_panic _ _, toStrSlice_ne_panic _ _, lgTransform_ne_panic _ _ _ _, hread _]

/-! ## LightGBM JSON -/

theorem splitGo_infix (sep : Str) : ∀ (s : Str) (k : Nat) (cur : Str), (0 < k → cur = []) → ∀ tok ∈ splitGo sep k cur s, tok <:+: cur.reverse ++ s
  | [], k, cur, _, tok, h => by
    have : tok = cur.reverse := by cases k <;> simpa [splitGo] using h
    subst this
    simp
  | c :: cs, 0, cur, _, tok, h => by
    unfold splitGo at h
    split at h
    · rcases List.mem_cons.1 h with rfl | h
      · exact (List.prefix_append _ _).isInfix
      · have := splitGo_infix sep cs _ [] (fun _ => rfl) tok h
        exact this.trans ((List.suffix_cons c cs).isInfix.trans (List.suffix_append _ _).isInfix)
    · have := splitGo_infix sep cs 0 (c :: cur) (by intro h; omega) tok h
      simpa using this
  | c :: cs, k + 1, cur, hk, tok, h => by
    unfold splitGo at h
    have hc := hk (by omega)
    subst hc
    have := splitGo_infix sep cs k [] (fun _ => rfl) tok h
    exact this.trans (List.suffix_cons c cs).isInfix

theorem setBits_ne_panic : ∀ (vs : List Int) (b : List (BitVec 32)), (∀ v ∈ vs, 0 ≤ v ∧ v.tdiv 32 < b.length) → Util.setBits b vs ≠ .panic
  | [], b, _ => by simp [Util.setBits]
  | v :: vs, b, h => by
    unfold Util.setBits
    obtain ⟨h0, h1⟩ := h v List.mem_cons_self
    have hnn : 0 ≤ v.tdiv 32 := Int.tdiv_nonneg h0 (by omega)
    have e : v.tdiv 32 = ((v.tdiv 32).toNat : Int) := by omega
    have hlt : (v.tdiv 32).toNat < b.length := by omega
    have hb : Util.setBit b v = .ok (b.set (v.tdiv 32).toNat (b[(v.tdiv 32).toNat] ||| Util.shl1 (u32I (v.tmod 32)))) := by
      unfold Util.setBit
      dsimp only
      rw [(congrArg (Res.idxI b) e).trans (idxI_lt hlt)]
      rfl
    rw [hb]
    exact setBits_ne_panic vs _ fun v hv => by simpa using h v (List.mem_cons_of_mem _ hv)

theorem le_foldl_max : ∀ (vs : List Int) (m : Int), m ≤ vs.foldl (fun max v => if v > max then v else max) m ∧
    (∀ v ∈ vs, v ≤ vs.foldl (fun max v => if v > max then v else max) m) ∧
    (vs.foldl (fun max v => if v > max then v else max) m = m ∨ vs.foldl (fun max v => if v > max then v else max) m ∈ vs)
  | [], m => by simp
  | v :: vs, m => by
    rw [List.foldl_cons]
    obtain ⟨h1, h2, h3⟩ := le_foldl_max vs (if v > m then v else m)
    by_cases hv : v > m
    · simp only [if_pos hv] at h1 h2 h3 ⊢
      refine ⟨by omega, ?_, ?_⟩
      · intro w hw
        rcases List.mem_cons.1 hw with rfl | hw
        · exact h1
        · exact h2 w hw
      · rcases h3 with h | h
        · right; rw [h]; exact List.mem_cons_self
        · exact .inr (List.mem_cons_of_mem _ h)
    · simp only [if_neg hv] at h1 h2 h3 ⊢
      refine ⟨h1, ?_, ?_⟩
      · intro w hw
        rcases List.mem_cons.1 hw with rfl | hw
        · omega
        · exact h2 w hw
      · rcases h3 with h | h
        · exact .inl h
        · exact .inr (List.mem_cons_of_mem _ h)

theorem constructBitset_ne_panic (P : Platform) (vs : List Int)
    (h : ∀ v ∈ vs, 0 ≤ v ∧ v < 2 ^ 63 - 1 ∧ (v / 32 + 1) * 4 ≤ P.maxAlloc) : Util.constructBitset P vs ≠ .panic := by
  unfold Util.constructBitset
  cases vs with
  | nil => simp
  | cons v0 vs =>
    dsimp only
    obtain ⟨h1, h2, h3⟩ := le_foldl_max (v0 :: vs) v0
    have hin : (v0 :: vs).foldl (fun max v => if v > max then v else max) v0 ∈ v0 :: vs := by
      rcases h3 with h | h
      · rw [h]; exact List.mem_cons_self
      · exact h
    revert h1 h2 hin
    generalize (v0 :: vs).foldl (fun max v => if v > max then v else max) v0 = M
    intro h1 h2 hin
    obtain ⟨a1, a2, a3⟩ := h M hin
    have hw : wrap64 (M + 1) = M + 1 := by
      unfold wrap64
      rw [Int.bmod_eq_of_le (by omega) (by omega)]
    rw [hw]
    have hd : (M + 1).tdiv 32 = (M + 1) / 32 := Int.tdiv_eq_ediv_of_nonneg (by omega)
    have hm : (M + 1).tmod 32 = (M + 1) % 32 := Int.tmod_eq_emod_of_nonneg (by omega)
    rw [hd, hm]
    have hn : (if (M + 1) % 32 ≠ 0 then (M + 1) / 32 + 1 else (M + 1) / 32) = M / 32 + 1 := by
      split <;> omega
    rw [hn]
    have hal : allocCheck P (M / 32 + 1) 4 = .ok ⟨⟩ := by
      unfold allocCheck
      rw [if_neg (by push Not; push_cast; omega)]
    rw [hal]
    simp only [Res.ok_bind]
    refine setBits_ne_panic _ _ fun v hv => ⟨(h v hv).1, ?_⟩
    have := h2 v hv
    rw [Int.tdiv_eq_ediv_of_nonneg (h v hv).1, List.length_replicate]
    omega

theorem convertAll_mem {α : Type} (f : Str → Option α) : ∀ (l : List Str) (vs : List α), Params.convertAll f l = .ok vs →
    ∀ v ∈ vs, ∃ s ∈ l, f s = some v
  | [], vs, h, v, hv => by cases h; cases hv
  | s :: l, vs, h, v, hv => by
    unfold Params.convertAll at h
    obtain ⟨x, hx, h⟩ := Res.bind_eq_ok.1 h
    obtain ⟨xs, hxs, h⟩ := Res.bind_eq_ok.1 h
    cases h
    rcases List.mem_cons.1 hv with rfl | hv
    · refine ⟨s, List.mem_cons_self, ?_⟩
      cases hs : f s with
      | none => rw [hs] at hx; cases hx
      | some y => rw [hs] at hx; cases hx; rfl
    · obtain ⟨s', h1, h2⟩ := convertAll_mem f l xs hxs v hv
      exact ⟨s', List.mem_cons_of_mem _ h1, h2⟩

theorem jCatSlot_ne_panic (P : Platform) (s : Str) (t : CatTables)
    (h : ∀ tok, tok <:+: s → ∀ v, Numeral tok v → 0 ≤ v ∧ v < 2 ^ 63 - 1 ∧ (v / 32 + 1) * 4 ≤ P.maxAlloc) :
    jCatSlot P (split s "||".toList) t ≠ .panic := by
  have hin : ∀ tok ∈ split s "||".toList, tok <:+: s := by
    intro tok ht
    unfold split at ht
    rw [if_neg (by decide)] at ht
    exact splitGo_infix _ s 0 [] (fun _ => rfl) tok ht
  revert hin
  generalize split s "||".toList = toks
  intro hin
  unfold jCatSlot
  split
  · simp
  · no_panic []
  · refine bind_ne_panic (convertAll_ne_panic _ _) fun vs hvs => bind_ne_panic (constructBitset_ne_panic P vs ?_) fun _ _ => ?_
    · intro v hv
      obtain ⟨tok, ht, hv⟩ := convertAll_mem _ _ _ hvs v hv
      exact h tok (hin tok ht) v ((atoi_iff _ _).1 hv)
    · no_panic []

/-- the category lists of the nodes to be visited fit -/
def JNodeFit (P : Platform) : JNode → Prop
  | .leaf _ => True
  | .node _ thr _ _ _ l r =>
    (∀ s, thr = .str s → ∀ tok, tok <:+: s → ∀ v, Numeral tok v → 0 ≤ v ∧ v < 2 ^ 63 - 1 ∧ (v / 32 + 1) * 4 ≤ P.maxAlloc) ∧
      JNodeFit P l ∧ JNodeFit P r

theorem unmarshalNode_fit (P : Platform) : ∀ (j : JRaw) (n : JNode), JCategoriesFit P j → unmarshalNode j = .ok n → JNodeFit P n
  | .invalid, n, _, h => by cases h
  | .leafLike none, n, _, h => by cases h
  | .leafLike (some v), n, _, h => by cases h; trivial
  | .split f t d dl m ms l r, n, hf, h => by
    unfold unmarshalNode at h
    obtain ⟨l', hl, h⟩ := Res.bind_eq_ok.1 h
    obtain ⟨r', hr, h⟩ := Res.bind_eq_ok.1 h
    cases h
    exact ⟨hf.1, unmarshalNode_fit P l l' hf.2.1 hl, unmarshalNode_fit P r r' hf.2.2 hr⟩

theorem unmarshalNode_ne_panic : ∀ j, unmarshalNode j ≠ .panic
  | .invalid => by simp [unmarshalNode]
  | .leafLike none => by simp [unmarshalNode]
  | .leafLike (some v) => by simp [unmarshalNode]
  | .split f t d dl m ms l r => by
    unfold unmarshalNode
    no_panic [unmarshalNode_ne_panic l, unmarshalNode_ne_panic r]

theorem jCreateNode_ne_panic (P : Platform) (f : Nat) (t : JVal) (d : Str) (dl : Bool) (mt : Str) (l r : JNode) (a : JAux)
    (h : JNodeFit P (.node f t d dl mt l r)) : jCreateNode P f t d dl mt l r a ≠ .panic := by
  unfold jCreateNode jCreateCategoricalNode jCreateNumericalNode
  split
  · refine bind_ne_panic (ofOption_ne_panic _ _) fun _ _ => ?_
    split
    · exact bind_ne_panic (jCatSlot_ne_panic P _ _ (h.1 _ rfl)) fun _ _ => pure_ne_panic _
    · simp
  · no_panic []

theorem jStep_fit {P : Platform} {s : JState} {p : Option JPtr} {n : JNode} (hn : JNodeFit P n) (hl : ∀ v, n ≠ .leaf v) :
    jStep P s p n ≠ .panic ∧ ∀ s', (∀ x ∈ s.stack, JNodeFit P x.2 ∧ ∀ v, x.2 ≠ .leaf v) → jStep P s p n = .ok s' →
      ∀ x ∈ s'.stack, JNodeFit P x.2 ∧ ∀ v, x.2 ≠ .leaf v := by
  cases n with
  | leaf v => exact absurd rfl (hl v)
  | node f t d dl mt l r =>
    unfold jStep
    dsimp only
    refine ⟨bind_ne_panic (jCreateNode_ne_panic P f t d dl mt l r _ hn) fun _ _ => pure_ne_panic _, fun s' hs h => ?_⟩
    obtain ⟨⟨node, aux⟩, -, h⟩ := Res.bind_eq_ok.1 h
    simp only [Res.pure_eq, Res.ok.injEq] at h
    have hst : ∀ (s : JState) (q : Option JPtr) (v : Nat), (s.writePtr q v).stack = s.stack := by
      intro s q v
      unfold JState.writePtr
      cases q with
      | none => rfl
      | some p => dsimp only; split <;> rfl
    have hap : ∀ (s : JState) (n : LgNode), (s.appendNode P n).stack = s.stack := by
      intro s n
      unfold JState.appendNode
      split <;> rfl
    subst h
    intro x hx
    cases l <;> cases r <;> simp only [hst, hap, List.mem_cons] at hx
    · exact hs x hx
    · rcases hx with rfl | hx
      · exact ⟨hn.2.2, by intro v h; cases h⟩
      · exact hs x hx
    · rcases hx with rfl | hx
      · exact ⟨hn.2.1, by intro v h; cases h⟩
      · exact hs x hx
    · rcases hx with rfl | rfl | hx
      · exact ⟨hn.2.2, by intro v h; cases h⟩
      · exact ⟨hn.2.1, by intro v h; cases h⟩
      · exact hs x hx

theorem jLoop_ne_panic (P : Platform) : ∀ (fuel : Nat) (s : JState), (∀ x ∈ s.stack, JNodeFit P x.2 ∧ ∀ v, x.2 ≠ .leaf v) →
    jLoop P fuel s ≠ .panic
  | 0, s, _ => by simp [jLoop]
  | fuel + 1, s, h => by
    rw [jLoop]
    cases hst : s.stack with
    | nil => simp
    | cons q below =>
      obtain ⟨ptr, n⟩ := q
      obtain ⟨hn, hl⟩ := h (ptr, n) (by rw [hst]; exact List.mem_cons_self)
      obtain ⟨h1, h2⟩ := jStep_fit (s := { s with stack := below }) (p := ptr) hn hl
      refine bind_ne_panic h1 fun s' hs' => jLoop_ne_panic P fuel s' (h2 s' ?_ hs')
      intro x hx
      exact h x (by rw [hst]; exact List.mem_cons_of_mem _ hx)

theorem unmarshalTree_ne_panic (P : Platform) (t : JTree) (h : JCategoriesFit P t.root) (hn : (t.numLeaves - 1) * 24 ≤ P.maxAlloc) :
    unmarshalTree P t ≠ .panic := by
  unfold unmarshalTree
  dsimp only
  split
  · simp
  · rename_i h1
    refine bind_ne_panic (unmarshalNode_ne_panic _) fun root hr => ?_
    have ha : ∀ z : Nat, z ≤ 24 → allocCheck P (t.numLeaves - 1) z ≠ .panic := by
      intro z hz
      unfold allocCheck
      have : (t.numLeaves - 1) * z ≤ (t.numLeaves - 1) * 24 := Int.mul_le_mul_of_nonneg_left (by omega) (by omega)
      rw [if_neg (by push Not; omega)]
      simp
    have hfit := unmarshalNode_fit P _ _ h hr
    split
    · simp
    · rename_i hne
      refine bind_ne_panic (ha 16 (by omega)) fun _ _ => bind_ne_panic (ha 24 (by omega)) fun _ _ => ?_
      refine bind_ne_panic (jLoop_ne_panic P _ _ ?_) fun _ _ => pure_ne_panic _
      intro x hx
      have : x = (none, root) := by simpa using hx
      subst this
      exact ⟨hfit, fun v hv => hne v hv⟩

theorem jReadTrees_ne_panic (P : Platform) : ∀ l : List (Option JTree),
    (∀ t, some t ∈ l → JCategoriesFit P t.root ∧ (t.numLeaves - 1) * 24 ≤ P.maxAlloc) → jReadTrees P l ≠ .panic
  | [], _ => by simp [jReadTrees]
  | none :: l, _ => by simp [jReadTrees]
  | some t :: l, h => by
    unfold jReadTrees
    have := h t List.mem_cons_self
    no_panic [unmarshalTree_ne_panic P t this.1 this.2, jReadTrees_ne_panic P l fun t ht => h t (List.mem_cons_of_mem _ ht)]

theorem lgEnsembleFromJSON_ne_panic (P : Platform) (d : JEnsemble)
    (h : ∀ t, some t ∈ d.trees → JCategoriesFit P t.root ∧ (t.numLeaves - 1) * 24 ≤ P.maxAlloc) (b : Bool) :
    lgEnsembleFromJSON P (some d) b ≠ .panic := by
  unfold lgEnsembleFromJSON
  split
  · simp
  dsimp only
  no_panic [jReadTrees_ne_panic P _ h]

end Leaves
