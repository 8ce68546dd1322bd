import Verif.Proofs.ArrTree
import Verif.Proofs.LgTree
import Verif.Proofs.Text
import Verif.Spec.JsonFile

/-! LightGBM JSON trees: the nested objects end up in the node array. -/

namespace Leaves

open Spec

/-! ### the split rule is determined -/

theorem MissingName.unique {s : Str} {m m' : Missing} (h : MissingName s m) (h' : MissingName s m') : m = m' := by
  unfold MissingName at *
  rcases h with ⟨rfl, rfl⟩ | ⟨rfl, rfl⟩ | ⟨rfl, rfl⟩ <;> rcases h' with ⟨h2, rfl⟩ | ⟨h2, rfl⟩ | ⟨h2, rfl⟩ <;>
    first | rfl | (exact absurd h2 (by decide))

theorem bars_clean (n : Nat) : Clean "||".toList (decimal n) := clean_decimal (by decide) n

theorem split_decimals {values : List Nat} (h : values ≠ []) :
    split (join "||".toList (values.map decimal)) "||".toList = values.map decimal := by
  refine split_join (by decide) (by simpa using h) ?_
  intro t ht
  obtain ⟨n, _, rfl⟩ := List.mem_map.1 ht
  exact bars_clean n

theorem decimal_inj {m n : Nat} (h : decimal m = decimal n) : m = n := by
  have h1 := parseDigits_decimal m
  rw [h, parseDigits_decimal] at h1
  exact (Option.some.inj h1).symm

theorem JSplit.unique {thr : JVal} {d : Str} {dl : Bool} {mt : Str} {r r' : Rule} (h : JSplit thr d dl mt r)
    (h' : JSplit thr d dl mt r') : r = r' := by
  generalize ht : thr = thr' at h'
  generalize hd : d = d' at h'
  cases h with
  | num t dl mt m hm =>
    cases h' with
    | num t' _ _ m' hm' =>
      cases ht
      rw [MissingName.unique hm hm']
    | cat => cases ht
  | cat values dl mt m hm hne =>
    cases h' with
    | num => cases ht
    | cat values' _ _ m' hm' hne' =>
      injection ht with ht
      rw [MissingName.unique hm hm']
      have h1 := split_decimals hne
      rw [ht, split_decimals hne'] at h1
      have : values = values' := List.map_injective_iff.2 (fun _ _ => decimal_inj) h1.symm
      rw [this]

theorem stringToMissingType_of {s : Str} {m : Missing} (h : MissingName s m) : stringToMissingType s = some (missingFlag m) := by
  rcases h with ⟨rfl, rfl⟩ | ⟨rfl, rfl⟩ | ⟨rfl, rfl⟩ <;> decide

/-! ### decoded nodes -/

/-- is it a leaf -/
def JNode.isLeaf : JNode → Bool
  | .leaf _ => true
  | .node .. => false

/-- `JOK` for decoded nodes -/
inductive JN : JNode → Nat → Prop
  | leaf (v : F64) : JN (.leaf v) 0
  | num {f : Nat} {t : F64} {dl : Bool} {mt : Str} {mis : Missing} {l r : JNode} {a b : Nat}
      (hm : MissingName mt mis) (hl : JN l a) (hr : JN r b) :
      JN (.node f (.num t) "<=".toList dl mt l r) (a + b)
  | cat {f : Nat} {dl : Bool} {mt : Str} {mis : Missing} {l r : JNode} {a b w : Nat} (values : List Nat)
      (hm : MissingName mt mis) (hne : values ≠ []) (h31 : ∀ v ∈ values, v < 2 ^ 31)
      (hw : ∀ v ∈ values, v < 32 * w) (hl : JN l a) (hr : JN r b) :
      JN (.node f (.str (join "||".toList (values.map decimal))) "==".toList dl mt l r) (w + a + b)

/-- `JWalk` for decoded nodes -/
inductive NWalk (out : F64 → Int) (fvals : List F64) : JNode → List Bool → F64 → Prop
  | leaf (v : F64) : NWalk out fvals (.leaf v) [] v
  | left {f : Nat} {thr : JVal} {d : Str} {dl : Bool} {mt : Str} {l r : JNode} {rule : Rule} {x v : F64} {p : List Bool}
      (hs : JSplit thr d dl mt rule) (hx : fvals[f]? = some x) (h : rule.Left out x) (w : NWalk out fvals l p v) :
      NWalk out fvals (.node f thr d dl mt l r) (true :: p) v
  | right {f : Nat} {thr : JVal} {d : Str} {dl : Bool} {mt : Str} {l r : JNode} {rule : Rule} {x v : F64} {p : List Bool}
      (hs : JSplit thr d dl mt rule) (hx : fvals[f]? = some x) (h : ¬ rule.Left out x) (w : NWalk out fvals r p v) :
      NWalk out fvals (.node f thr d dl mt l r) (false :: p) v

/-- features of decoded nodes -/
def NFeatures (n : Nat) : JNode → Prop
  | .node f _ _ _ _ l r => f < n ∧ NFeatures n l ∧ NFeatures n r
  | .leaf _ => True

/-- `jPaths` for decoded nodes -/
def nPaths : JNode → List (List Bool)
  | .node _ _ _ _ _ l r => (nPaths l).map (true :: ·) ++ (nPaths r).map (false :: ·)
  | .leaf _ => [[]]

theorem NWalk.of_node {out : F64 → Int} {fvals : List F64} {f : Nat} {thr : JVal} {d : Str} {dl : Bool} {mt : Str}
    {l r : JNode} {v : F64} {p : List Bool} {rule : Rule} (hs : JSplit thr d dl mt rule) :
    NWalk out fvals (.node f thr d dl mt l r) p v ↔
      ∃ x q, fvals[f]? = some x ∧ ((rule.Left out x ∧ p = true :: q ∧ NWalk out fvals l q v) ∨
        (¬ rule.Left out x ∧ p = false :: q ∧ NWalk out fvals r q v)) := by
  constructor
  · intro h
    cases h with
    | left hs' hx h w => rw [← JSplit.unique hs hs'] at h; exact ⟨_, _, hx, .inl ⟨h, rfl, w⟩⟩
    | right hs' hx h w => rw [← JSplit.unique hs hs'] at h; exact ⟨_, _, hx, .inr ⟨h, rfl, w⟩⟩
  · rintro ⟨x, q, hx, ⟨h, rfl, w⟩ | ⟨h, rfl, w⟩⟩
    · exact .left hs hx h w
    · exact .right hs hx h w

theorem JWalk.of_split {out : F64 → Int} {fvals : List F64} {f : Nat} {thr : JVal} {d : Str} {dl : Bool} {m : Char} {ms : Str}
    {l r : JRaw} {v : F64} {p : List Bool} {rule : Rule} (hs : JSplit thr d dl (m :: ms) rule) :
    JWalk out fvals (.split f thr d dl m ms l r) p v ↔
      ∃ x q, fvals[f]? = some x ∧ ((rule.Left out x ∧ p = true :: q ∧ JWalk out fvals l q v) ∨
        (¬ rule.Left out x ∧ p = false :: q ∧ JWalk out fvals r q v)) := by
  constructor
  · intro h
    cases h with
    | left hs' hx h w => rw [← JSplit.unique hs hs'] at h; exact ⟨_, _, hx, .inl ⟨h, rfl, w⟩⟩
    | right hs' hx h w => rw [← JSplit.unique hs hs'] at h; exact ⟨_, _, hx, .inr ⟨h, rfl, w⟩⟩
  · rintro ⟨x, q, hx, ⟨h, rfl, w⟩ | ⟨h, rfl, w⟩⟩
    · exact .left hs hx h w
    · exact .right hs hx h w

/-- decoding a well-formed object -/
theorem unmarshalNode_ok {raw : JRaw} {W : Nat} (h : JOK raw W) :
    ∃ n, unmarshalNode raw = .ok n ∧ JN n W ∧ n.size + 1 = jLeaves raw ∧
      (∀ out fvals p v, NWalk out fvals n p v ↔ JWalk out fvals raw p v) ∧ (∀ k, JFeatures k raw → NFeatures k n) ∧
      nPaths n = jPaths raw := by
  induction h with
  | leaf v =>
    refine ⟨.leaf v, rfl, .leaf v, rfl, ?_, fun _ _ => trivial, rfl⟩
    intro out fvals p v'
    constructor
    · intro h; cases h; exact .leaf v
    · intro h; cases h; exact .leaf v
  | num hm hl hr ihl ihr =>
    obtain ⟨nl, l1, l2, l3, l4, l5, l6⟩ := ihl
    obtain ⟨nr, r1, r2, r3, r4, r5, r6⟩ := ihr
    rename_i f t dl m ms mis l r a b
    refine ⟨.node f (.num t) "<=".toList dl (m :: ms) nl nr, ?_, .num hm l2 r2, ?_, ?_, ?_, by simp only [nPaths, jPaths, l6, r6]⟩
    · rw [unmarshalNode, l1, r1]; rfl
    · simp only [JNode.size, jLeaves]; omega
    · intro out fvals p v
      rw [NWalk.of_node (.num _ _ _ _ hm), JWalk.of_split (.num _ _ _ _ hm)]
      simp only [l4, r4]
    · rintro k ⟨h1, h2, h3⟩; exact ⟨h1, l5 k h2, r5 k h3⟩
  | cat values hm hne h31 hw hl hr ihl ihr =>
    obtain ⟨nl, l1, l2, l3, l4, l5, l6⟩ := ihl
    obtain ⟨nr, r1, r2, r3, r4, r5, r6⟩ := ihr
    rename_i f dl m ms mis l r a b w
    refine ⟨.node f (.str (join "||".toList (values.map decimal))) "==".toList dl (m :: ms) nl nr, ?_,
      .cat values hm hne h31 hw l2 r2, ?_, ?_, ?_, by simp only [nPaths, jPaths, l6, r6]⟩
    · rw [unmarshalNode, l1, r1]; rfl
    · simp only [JNode.size, jLeaves]; omega
    · intro out fvals p v
      rw [NWalk.of_node (.cat _ _ _ _ hm hne), JWalk.of_split (.cat _ _ _ _ hm hne)]
      simp only [l4, r4]
    · rintro k ⟨h1, h2, h3⟩; exact ⟨h1, l5 k h2, r5 k h3⟩

/-! ### creating a node -/

/-- the values of the children that are leaves -/
def leafList : JNode → List F64
  | .leaf v => [v]
  | .node .. => []

theorem jWithLeaves_eq (node : LgNode) (l r : JNode) (aux : JAux) :
    jWithLeaves node l r aux =
      ({ node with flags := (node.flags ||| (if l.isLeaf then Flag.leftLeaf else 0)) ||| (if r.isLeaf then Flag.rightLeaf else 0),
                   left := if l.isLeaf then u32 aux.leafValues.length else node.left,
                   right := if r.isLeaf then u32 (aux.leafValues.length + (leafList l).length) else node.right },
       { aux with leafValues := aux.leafValues ++ leafList l ++ leafList r }) := by
  cases l <;> cases r <;> simp [jWithLeaves, JNode.isLeaf, leafList]

/-- consistent category tables using at most `b` words; `has`: the boundary table was started -/
def jinv (has : Prop) (b : Nat) (t : CatTables) : Prop :=
  t.thresholds.length ≤ b ∧ t.boundaries.length ≤ t.thresholds.length + 1 ∧
  (has → t.boundaries.getLast? = some t.thresholds.length)

theorem jinv_mono {has : Prop} {b b' : Nat} {t : CatTables} (h : jinv has b t) (hb : b ≤ b') : jinv has b' t :=
  ⟨h.1.trans hb, h.2⟩

/-- appending a long category set to the tables -/
theorem longSlot {has : Prop} {b w : Nat} {t : CatTables} (hh : has) (hinv : jinv has b t) {ws : List (BitVec 32)}
    (hlen2 : 1 ≤ ws.length) (hw : ws.length ≤ w) (hb : b + w < 2 ^ 32) (f : Nat) (m : Missing) :
    let ths := t.thresholds ++ ws
    let t' : CatTables := { thresholds := ths, boundaries := t.boundaries ++ [u32 ths.length] }
    let c := u32I ((t.boundaries.length : Int) - 1)
    jinv has (b + w) t' ∧ tablesLe t t' ∧
      NodeRep t'.boundaries t'.thresholds (categoricalNode f (missingFlag m) c 0) f (.cat m (Member ws)) ∧
      (categoricalNode f (missingFlag m) c 0).flags.getLsbD 2 = false ∧
      (categoricalNode f (missingFlag m) c 0).flags.getLsbD 3 = false := by
  obtain ⟨i1, i2, i3⟩ := hinv
  have hlast := i3 hh
  have hbne : t.boundaries ≠ [] := by
    intro h0; rw [h0] at hlast; cases hlast
  have hbpos : 0 < t.boundaries.length := List.length_pos_iff.2 hbne
  have hlast' : t.boundaries[t.boundaries.length - 1]? = some t.thresholds.length := by
    rw [← List.getLast?_eq_getElem?]; exact hlast
  have hidx : u32I ((t.boundaries.length : Int) - 1) = t.boundaries.length - 1 := by
    rw [show ((t.boundaries.length : Int) - 1) = ((t.boundaries.length - 1 : Nat) : Int) by omega]
    exact u32I_natCast (by omega)
  have hlen' : (t.thresholds ++ ws).length = t.thresholds.length + ws.length := List.length_append
  have hu2 : u32 (t.thresholds ++ ws).length = t.thresholds.length + ws.length := by
    rw [hlen']; exact u32_of_lt (by omega)
  obtain ⟨g1, g2, g3, g4, g5, g6, g7, g8⟩ := categoricalNode_flags f m (t.boundaries.length - 1) 0 (by decide)
  dsimp only
  rw [hidx, hu2]
  refine ⟨⟨?_, ?_, ?_⟩, ⟨⟨_, rfl⟩, ⟨_, rfl⟩⟩, ⟨g1, g2, g3, ?_⟩, g4, g5⟩
  · dsimp only; rw [hlen']; omega
  · dsimp only; rw [hlen', List.length_append]; simp; omega
  · intro _; dsimp only; rw [hlen']; simp
  · have hset : Member ws = fun n => Member (((t.thresholds ++ ws).drop t.thresholds.length).take
        (t.thresholds.length + ws.length - t.thresholds.length)) n := by
      rw [List.drop_left, Nat.add_sub_cancel_left, List.take_length]
    rw [hset]
    refine .long (t.boundaries.length - 1) t.thresholds.length (t.thresholds.length + ws.length) ?_ ?_ ?_ ?_ ?_ ?_ ?_ ?_ ?_
    · rw [g6]; decide
    · rw [g7]; decide
    · omega
    · rw [g8]; exact F64.isVal_ofNat (by omega)
    · rw [List.getElem?_append_left (by omega)]; exact hlast'
    · rw [show t.boundaries.length - 1 + 1 = t.boundaries.length by omega, List.getElem?_append_right (Nat.le_refl _)]
      simp
    · omega
    · rw [hlen']
    · omega

/-- what creating the node of a decoded object delivers, given the words `w` it may use -/
def JCreated (P : Platform) (has : Prop) (w : Nat) (f : Nat) (thr : JVal) (d : Str) (dl : Bool) (mt : Str)
    (l r : JNode) : Prop :=
  ∀ aux b, jinv has b aux.cats → b + w < 2 ^ 32 → 4 * w ≤ P.maxAlloc → ∃ nd aux' rule,
    jCreateNode P f thr d dl mt l r aux = .ok (nd, aux') ∧ JSplit thr d dl mt rule ∧ jinv has (b + w) aux'.cats ∧
    tablesLe aux.cats aux'.cats ∧ NodeRep aux'.cats.boundaries aux'.cats.thresholds nd f rule ∧
    hasFlag nd.flags Flag.leftLeaf = l.isLeaf ∧ hasFlag nd.flags Flag.rightLeaf = r.isLeaf ∧
    aux'.leafValues = aux.leafValues ++ leafList l ++ leafList r ∧
    (l.isLeaf = true → nd.left = u32 aux.leafValues.length) ∧
    (r.isLeaf = true → nd.right = u32 (aux.leafValues.length + (leafList l).length))

/-- attaching leaf children to a node that represents a rule -/
theorem jWithLeaves_ok {bs : List Nat} {ts : List (BitVec 32)} {nd : LgNode} {f : Nat} {rule : Rule} (l r : JNode)
    (aux : JAux) (hrep : NodeRep bs ts nd f rule) (h2 : nd.flags.getLsbD 2 = false) (h3 : nd.flags.getLsbD 3 = false) :
    ∃ nd', jWithLeaves nd l r aux = (nd', { aux with leafValues := aux.leafValues ++ leafList l ++ leafList r }) ∧
      NodeRep bs ts nd' f rule ∧ hasFlag nd'.flags Flag.leftLeaf = l.isLeaf ∧ hasFlag nd'.flags Flag.rightLeaf = r.isLeaf ∧
      (l.isLeaf = true → nd'.left = u32 aux.leafValues.length) ∧
      (r.isLeaf = true → nd'.right = u32 (aux.leafValues.length + (leafList l).length)) := by
  rw [jWithLeaves_eq]
  refine ⟨_, rfl, ?_, ?_, ?_, ?_, ?_⟩
  · exact NodeRep.leafBits (nd := nd) (fun j h h' => getLsbD_leafBit nd.flags j h h' _ _) hrep
  · rw [flag_leftLeaf]
    cases l.isLeaf <;> cases r.isLeaf <;>
      simp [-BitVec.getLsbD_eq_getElem, BitVec.getLsbD_or, flags_leftLeaf, flags_rightLeaf, h2]
  · rw [flag_rightLeaf]
    cases l.isLeaf <;> cases r.isLeaf <;>
      simp [-BitVec.getLsbD_eq_getElem, BitVec.getLsbD_or, flags_leftLeaf, flags_rightLeaf, h3]
  · intro h; simp [h]
  · intro h; simp [h]

theorem jCreated_num (P : Platform) (has : Prop) (f : Nat) (t : F64) (dl : Bool) (mt : Str) {mis : Missing}
    (hm : MissingName mt mis) (l r : JNode) : JCreated P has 0 f (.num t) "<=".toList dl mt l r := by
  intro aux b hinv _ _
  obtain ⟨q1, q2, q3⟩ := numericalNode_rep aux.cats.boundaries aux.cats.thresholds f mis t dl
  obtain ⟨nd', e1, e2, e3, e4, e5, e6⟩ := jWithLeaves_ok l r aux q1 q2 q3
  refine ⟨nd', { aux with leafValues := aux.leafValues ++ leafList l ++ leafList r }, .num ⟨mis, dl, t⟩, ?_, .num _ _ _ _ hm, hinv, ⟨List.prefix_rfl, List.prefix_rfl⟩, e2, e3, e4, rfl, e5, e6⟩
  unfold jCreateNode
  rw [if_neg (by decide), if_pos rfl]
  unfold jCreateNumericalNode
  rw [stringToMissingType_of hm]
  simp only [Res.ofOption, Res.ok_bind, Res.pure_eq, e1]

theorem jCreated_cat (P : Platform) {has : Prop} (hh : has) (f : Nat) (dl : Bool) (mt : Str) {mis : Missing} {w : Nat}
    (hm : MissingName mt mis) (values : List Nat) (hne : values ≠ []) (h31 : ∀ v ∈ values, v < 2 ^ 31)
    (hw : ∀ v ∈ values, v < 32 * w) (l r : JNode) :
    JCreated P has w f (.str (join "||".toList (values.map decimal))) "==".toList dl mt l r := by
  intro aux b hinv hb hal
  -- the three encodings
  have key : ∃ c ct cats, jCatSlot P (values.map decimal) aux.cats = .ok (c, ct, cats) ∧ jinv has (b + w) cats ∧ tablesLe aux.cats cats ∧
      NodeRep cats.boundaries cats.thresholds (categoricalNode f (missingFlag mis) c ct) f (.cat mis (· ∈ values)) ∧
      (categoricalNode f (missingFlag mis) c ct).flags.getLsbD 2 = false ∧
      (categoricalNode f (missingFlag mis) c ct).flags.getLsbD 3 = false := by
    match values, hne, h31, hw with
    | [v], _, h31, hw =>
      have hv := h31 v (by simp)
      obtain ⟨g1, g2, g3, g4, g5, g6, g7, g8⟩ := categoricalNode_flags f mis v Flag.catOneHot (by decide)
      refine ⟨v, Flag.catOneHot, aux.cats, ?_, jinv_mono hinv (by omega), ⟨List.prefix_rfl, List.prefix_rfl⟩, ⟨g1, g2, g3, ?_⟩, g4, g5⟩
      · simp only [List.map_cons, List.map_nil, jCatSlot]
        rw [atoi_decimal (by omega)]
        simp only [Res.ofOption, Res.ok_bind, Res.pure_eq]
        rw [u32I_natCast (by omega)]
      · rw [show (fun x => x ∈ [v]) = fun n => n = v by funext n; simp]
        refine .oneHot v ?_ hv ?_
        · rw [g6]; decide
        · rw [g8]; exact F64.isVal_ofNat (by omega)
    | v :: u :: vs, _, h31, hw =>
      obtain ⟨ws, c1, c2, c3, c4⟩ := constructBitset_spec P (v :: u :: vs)
        (fun x hx => by have := h31 x hx; omega) (fun x hx => by have := hw x hx; omega)
      have hconv : Params.convertAll atoi ((v :: u :: vs).map decimal) = .ok ((v :: u :: vs).map Int.ofNat) :=
        convertAll_map _ fun x hx => atoi_decimal (by have := h31 x hx; omega)
      have hset : (fun x => x ∈ v :: u :: vs) = Member ws := by funext i; exact propext (c2 i).symm
      rw [hset]
      have hlen1 : 1 ≤ ws.length := by have := c3 v (by simp); omega
      have hwl : ws.length ≤ w := by
        obtain ⟨x, hx, hl⟩ := c4 (by intro h0; rw [h0] at hlen1; simp at hlen1)
        have := hw x hx; omega
      match ws, c1, hlen1, hwl with
      | [word], c1, _, hwl =>
        obtain ⟨g1, g2, g3, g4, g5, g6, g7, g8⟩ := categoricalNode_flags f mis word.toNat Flag.catSmall (by decide)
        refine ⟨word.toNat, Flag.catSmall, aux.cats, ?_, jinv_mono hinv (by omega), ⟨List.prefix_rfl, List.prefix_rfl⟩, ⟨g1, g2, g3, ?_⟩, g4, g5⟩
        · simp only [List.map_cons, jCatSlot] at hconv c1 ⊢
          rw [hconv]
          simp only [Res.ok_bind]
          rw [c1]
          rfl
        · refine .small word ?_ ?_ ?_
          · rw [g6]; decide
          · rw [g7]; decide
          · rw [g8]; exact F64.isVal_ofNat (by have := word.isLt; omega)
      | w1 :: w2 :: ws, c1, _, hwl =>
        obtain ⟨k1, k2, k3, k4, k5⟩ := longSlot hh hinv (ws := w1 :: w2 :: ws) (by simp) hwl hb f mis
        refine ⟨_, 0, _, ?_, k1, k2, k3, k4, k5⟩
        simp only [List.map_cons, jCatSlot] at hconv c1 ⊢
        rw [hconv]
        simp only [Res.ok_bind]
        rw [c1]
        rfl
  obtain ⟨c, ct, cats, k1, k2, k3, k4, k5, k6⟩ := key
  obtain ⟨nd', e1, e2, e3, e4, e5, e6⟩ := jWithLeaves_ok l r { aux with cats := cats } k4 k5 k6
  refine ⟨nd', { leafValues := aux.leafValues ++ leafList l ++ leafList r, cats := cats }, .cat mis (· ∈ values), ?_, .cat _ _ _ _ hm hne, k2, k3, e2, e3, e4, rfl, e5, e6⟩
  unfold jCreateNode
  rw [if_pos rfl]
  unfold jCreateCategoricalNode
  rw [stringToMissingType_of hm]
  simp only [Res.ofOption, Res.ok_bind]
  rw [split_decimals hne]
  rw [k1]
  simp only [Res.ok_bind, Res.pure_eq, e1]

theorem JN.created {P : Platform} {has : Prop} {f : Nat} {thr : JVal} {d : Str} {dl : Bool} {mt : Str} {l r : JNode} {W : Nat}
    (hh : 0 < W → has) (h : JN (.node f thr d dl mt l r) W) :
    ∃ w a b, W = w + a + b ∧ JN l a ∧ JN r b ∧ JCreated P has w f thr d dl mt l r := by
  cases h with
  | num hm hl hr => exact ⟨0, _, _, by omega, hl, hr, jCreated_num P has _ _ _ _ hm _ _⟩
  | cat values hm hne h31 hw hl hr =>
    refine ⟨_, _, _, rfl, hl, hr, jCreated_cat P (hh ?_) _ _ _ hm values hne h31 hw _ _⟩
    obtain ⟨v, vs, rfl⟩ := List.exists_cons_of_ne_nil hne
    have := hw v (by simp)
    omega

/-! ### the loop -/

/-- object `n` sits at `c` (an index into the nodes, or into the leaf values); `T` is its tree with every inner node
numbered by its place among the nodes and every leaf by its place among the leaf values -/
def JRel (nodes : List LgNode) (aux : JAux) : JNode → Nat → BTree → Prop
  | .leaf v, j, T => T = .leaf j ∧ aux.leafValues[j]? = some v
  | .node f thr d dl mt l r, c, T => ∃ L R nd rule, T = .node c L R ∧ nodes[c]? = some nd ∧ JSplit thr d dl mt rule ∧
      NodeRep aux.cats.boundaries aux.cats.thresholds nd f rule ∧
      hasFlag nd.flags Flag.leftLeaf = l.isLeaf ∧ hasFlag nd.flags Flag.rightLeaf = r.isLeaf ∧
      (l.isLeaf = false → nd.left = c + 1 + r.size) ∧ JRel nodes aux l nd.left L ∧
      JRel nodes aux r (if r.isLeaf then nd.right else c + 1) R

/-- the tables only grow -/
def auxLe (x y : JAux) : Prop := x.leafValues <+: y.leafValues ∧ tablesLe x.cats y.cats

theorem auxLe.refl (x : JAux) : auxLe x x := ⟨List.prefix_rfl, List.prefix_rfl, List.prefix_rfl⟩
theorem auxLe.trans {x y z : JAux} (h1 : auxLe x y) (h2 : auxLe y z) : auxLe x z :=
  ⟨h1.1.trans h2.1, h1.2.1.trans h2.2.1, h1.2.2.trans h2.2.2⟩

theorem prefix_get {α : Type} {l l' : List α} (h : l <+: l') {i : Nat} {x : α} (hx : l[i]? = some x) : l'[i]? = some x := by
  obtain ⟨t, rfl⟩ := h
  rw [List.getElem?_append_left (List.getElem?_eq_some_iff.1 hx).1]; exact hx

theorem JNode.size_leaf {n : JNode} (h : n.isLeaf = true) : n.size = 0 := by cases n <;> simp_all [JNode.isLeaf, JNode.size]

theorem JRel.mono {nodes nodes' : List LgNode} {x y : JAux} (hle : auxLe x y) : ∀ (n : JNode) (c : Nat) (T : BTree),
    (∀ j, c ≤ j → j < c + n.size → nodes'[j]? = nodes[j]?) → JRel nodes x n c T → JRel nodes' y n c T
  | .leaf v, j, T, _, h => ⟨h.1, prefix_get hle.1 h.2⟩
  | .node f thr d dl mt l r, c, T, hn, h => by
    obtain ⟨L, R, nd, rule, h1, h2, h3, h4, h5, h6, h7, h8, h9⟩ := h
    simp only [JNode.size] at hn
    refine ⟨L, R, nd, rule, h1, ?_, h3, h4.mono hle.2.1 hle.2.2, h5, h6, h7, ?_, ?_⟩
    · rw [hn c (by omega) (by omega)]; exact h2
    · refine JRel.mono hle l _ L ?_ h8
      intro j a b
      cases hl : l.isLeaf with
      | true => rw [JNode.size_leaf hl] at b; omega
      | false => rw [h7 hl] at a b; exact hn j (by omega) (by omega)
    · refine JRel.mono hle r _ R ?_ h9
      intro j a b
      cases hr : r.isLeaf with
      | true => rw [JNode.size_leaf hr] at b; omega
      | false => rw [hr] at a b; simp at a b; exact hn j (by omega) (by omega)

/-- the stack entry for a child -/
def pushOf (p : JPtr) : JNode → List (Option JPtr × JNode)
  | .leaf _ => []
  | n => [(some p, n)]

/-- the nodes after a write through a pointer into the current array -/
def writeAt (nodes : List LgNode) (p : Option JPtr) (v : Nat) : List LgNode :=
  match p with
  | none => nodes
  | some p => nodes.modify p.index fun n => if p.isLeft then { n with left := v } else { n with right := v }

theorem writeAt_length (nodes : List LgNode) (p : Option JPtr) (v : Nat) : (writeAt nodes p v).length = nodes.length := by
  cases p <;> simp [writeAt]

theorem jStep_eq {P : Platform} {s : JState} {ptr : Option JPtr} {f : Nat} {thr : JVal} {d : Str} {dl : Bool} {mt : Str}
    {l r : JNode} {nd : LgNode} {aux : JAux} (hcr : jCreateNode P f thr d dl mt l r s.aux = .ok (nd, aux))
    (hp : ∀ p, ptr = some p → p.gen = s.gen) (hcap : s.nodes.length < s.cap) (hlt : s.nodes.length < 2 ^ 32) :
    jStep P s ptr (.node f thr d dl mt l r) = .ok
      { nodes := writeAt s.nodes ptr s.nodes.length ++ [nd], cap := s.cap, gen := s.gen,
        stack := pushOf ⟨s.gen, s.nodes.length, false⟩ r ++ (pushOf ⟨s.gen, s.nodes.length, true⟩ l ++ s.stack), aux := aux } := by
  have hw : ({ s with aux := aux } : JState).writePtr ptr (u32 s.nodes.length) =
      { s with aux := aux, nodes := writeAt s.nodes ptr s.nodes.length } := by
    unfold JState.writePtr writeAt
    rw [u32_of_lt hlt]
    cases ptr with
    | none => rfl
    | some p => simp only; rw [if_pos (hp p rfl)]
  unfold jStep
  simp only [hcr, Res.ok_bind, Res.pure_eq, hw]
  unfold JState.appendNode
  simp only [writeAt_length]
  rw [if_pos hcap]
  cases l <;> cases r <;> simp [pushOf, writeAt_length]

/-- the conversion of the object on top of the stack -/
structure JDone (has : Prop) (s s' : JState) (ptr : Option JPtr) (n : JNode) (b W : Nat) (below : List (Option JPtr × JNode))
    (T : BTree) : Prop where
  stack : s'.stack = below
  cap : s'.cap = s.cap
  gen : s'.gen = s.gen
  len : s'.nodes.length = s.nodes.length + n.size
  old : ∀ j, j < s.nodes.length → s'.nodes[j]? = (writeAt s.nodes ptr s.nodes.length)[j]?
  rel : JRel s'.nodes s'.aux n s.nodes.length T
  le : auxLe s.aux s'.aux
  inv : jinv has (b + W) s'.aux.cats
  lvs : s'.aux.leafValues.length = s.aux.leafValues.length + n.size + 1
  nodup : T.leaves.Nodup
  range : ∀ k ∈ T.leaves, s.aux.leafValues.length ≤ k ∧ k < s'.aux.leafValues.length

theorem writeAt_get {nodes : List LgNode} {p : JPtr} {v j : Nat} :
    (writeAt nodes (some p) v)[j]? = if p.index = j then
      (nodes[j]?).map fun n => if p.isLeft then { n with left := v } else { n with right := v } else nodes[j]? := by
  unfold writeAt
  rw [List.getElem?_modify]
  split
  · rfl
  · cases nodes[j]? <;> rfl

/-- a child: nothing to do for a leaf -/
structure CDone (has : Prop) (s s' : JState) (p : JPtr) (n : JNode) (b W : Nat) (below : List (Option JPtr × JNode))
    (T : BTree) : Prop where
  stack : s'.stack = below
  cap : s'.cap = s.cap
  gen : s'.gen = s.gen
  len : s'.nodes.length = s.nodes.length + n.size
  old : ∀ j, j < s.nodes.length → s'.nodes[j]? = if n.isLeaf then s.nodes[j]? else (writeAt s.nodes (some p) s.nodes.length)[j]?
  rel : n.isLeaf = false → JRel s'.nodes s'.aux n s.nodes.length T
  le : auxLe s.aux s'.aux
  inv : jinv has (b + W) s'.aux.cats
  lvs : s'.aux.leafValues.length = s.aux.leafValues.length + if n.isLeaf then 0 else n.size + 1
  nodup : n.isLeaf = false → T.leaves.Nodup
  range : n.isLeaf = false → ∀ k ∈ T.leaves, s.aux.leafValues.length ≤ k ∧ k < s'.aux.leafValues.length

/-- what `jLoop` does with an object on top of the stack -/
def JRun (P : Platform) (has : Prop) (n : JNode) : Prop :=
  ∀ (s : JState) (ptr : Option JPtr) (below : List (Option JPtr × JNode)) (b W fuel : Nat), n.isLeaf = false → JN n W →
    (0 < W → has) → s.stack = (ptr, n) :: below → (∀ p, ptr = some p → p.gen = s.gen) → s.nodes.length + n.size ≤ s.cap →
    s.nodes.length + n.size < 2 ^ 32 → s.aux.leafValues.length + n.size + 1 < 2 ^ 32 → jinv has b s.aux.cats →
    b + W < 2 ^ 32 → 4 * W ≤ P.maxAlloc →
    ∃ s' T, jLoop P (n.size + fuel) s = jLoop P fuel s' ∧ JDone has s s' ptr n b W below T

theorem JRun.child {P : Platform} {has : Prop} {n : JNode} (ih : JRun P has n) (s : JState) (p : JPtr)
    (below : List (Option JPtr × JNode)) (b W fuel : Nat) (hn : JN n W) (hh : 0 < W → has) (hst : s.stack = pushOf p n ++ below)
    (hp : p.gen = s.gen) (hcap : s.nodes.length + n.size ≤ s.cap) (h1 : s.nodes.length + n.size < 2 ^ 32)
    (h2 : n.isLeaf = false → s.aux.leafValues.length + n.size + 1 < 2 ^ 32) (hinv : jinv has b s.aux.cats)
    (h3 : b + W < 2 ^ 32) (h4 : 4 * W ≤ P.maxAlloc) :
    ∃ s' T, jLoop P (n.size + fuel) s = jLoop P fuel s' ∧ CDone has s s' p n b W below T := by
  cases hl : n.isLeaf with
  | true =>
    cases n with
    | node => cases hl
    | leaf v =>
      refine ⟨s, .leaf 0, by simp [JNode.size], ?_⟩
      exact { stack := hst, cap := rfl, gen := rfl, len := by simp [JNode.size], old := fun j _ => (by simp [JNode.isLeaf]),
              rel := fun h => (by cases h), le := auxLe.refl _, inv := jinv_mono hinv (by omega),
              lvs := by simp [JNode.isLeaf], nodup := fun h => (by cases h), range := fun h => (by cases h) }
  | false =>
    have hpush : pushOf p n = [(some p, n)] := by
      cases n with
      | leaf => cases hl
      | node => rfl
    rw [hpush] at hst
    obtain ⟨s', T, hrun, hd⟩ := ih s (some p) below b W fuel hl hn hh hst (fun q hq => by cases hq; exact hp) hcap h1 (h2 hl) hinv h3 h4
    refine ⟨s', T, hrun, ?_⟩
    exact { stack := hd.stack, cap := hd.cap, gen := hd.gen, len := hd.len, old := fun j hj => (by rw [hl]; simpa using hd.old j hj),
            rel := fun _ => hd.rel, le := hd.le, inv := hd.inv, lvs := by rw [hl, hd.lvs]; simp; omega,
            nodup := fun _ => hd.nodup, range := fun _ => hd.range }

theorem jRun (P : Platform) (has : Prop) : ∀ n : JNode, JRun P has n
  | .leaf v => by intro s ptr below b W fuel h; cases h
  | .node f thr d dl mt l r => by
    intro s ptr below b W fuel _ hn hh hst hp hcap h1 h2 hinv h3 h4
    obtain ⟨w, wl, wr, rfl, hl, hr, hcr⟩ := JN.created (P := P) hh hn
    simp only [JNode.size] at hcap h1 h2 ⊢
    obtain ⟨nd, aux, rule, c1, c2, c3, c4, c5, c6, c7, c8, c9, c10⟩ := hcr s.aux b hinv (by omega) (by omega)
    have hstep := jStep_eq (P := P) (s := { s with stack := below }) (ptr := ptr) c1 hp (by show s.nodes.length < s.cap; omega)
      (by show s.nodes.length < 2 ^ 32; omega)
    dsimp only at hstep
    generalize hs1 : JState.mk (writeAt s.nodes ptr s.nodes.length ++ [nd]) s.cap s.gen
        (pushOf ⟨s.gen, s.nodes.length, false⟩ r ++ (pushOf ⟨s.gen, s.nodes.length, true⟩ l ++ below)) aux = s1 at hstep
    have n1 : s1.nodes = writeAt s.nodes ptr s.nodes.length ++ [nd] := by rw [← hs1]
    have n1l : s1.nodes.length = s.nodes.length + 1 := by rw [n1, List.length_append, writeAt_length]; rfl
    have n1c : s1.cap = s.cap := by rw [← hs1]
    have n1g : s1.gen = s.gen := by rw [← hs1]
    have n1a : s1.aux = aux := by rw [← hs1]
    have n1s : s1.stack = pushOf ⟨s.gen, s.nodes.length, false⟩ r ++ (pushOf ⟨s.gen, s.nodes.length, true⟩ l ++ below) := by rw [← hs1]
    have hlv1 : s1.aux.leafValues.length = s.aux.leafValues.length + (leafList l).length + (leafList r).length := by
      rw [n1a, c8]; simp; omega
    have lll : (leafList l).length = if l.isLeaf then 1 else 0 := by cases l <;> rfl
    have llr : (leafList r).length = if r.isLeaf then 1 else 0 := by cases r <;> rfl
    have szl : l.isLeaf = true → l.size = 0 := JNode.size_leaf
    have szr : r.isLeaf = true → r.size = 0 := JNode.size_leaf
    have hle1 : auxLe s.aux s1.aux := by
      rw [n1a]
      refine ⟨?_, c4⟩
      rw [c8]; exact ⟨leafList l ++ leafList r, by simp⟩
    -- right child
    obtain ⟨s2, R, run2, d2⟩ := (jRun P has r).child s1 ⟨s.gen, s.nodes.length, false⟩ _ (b + w) wr (l.size + fuel) hr
      (fun h => hh (by omega)) n1s n1g.symm (by rw [n1l, n1c]; omega) (by rw [n1l]; omega)
      (fun h => by rw [hlv1, lll, llr, h]; split <;> simp <;> omega) (by rw [n1a]; exact c3) (by omega) (by omega)
    -- left child
    obtain ⟨s3, L, run3, d3⟩ := (jRun P has l).child s2 ⟨s.gen, s.nodes.length, true⟩ below (b + w + wr) wl fuel hl
      (fun h => hh (by omega)) d2.stack (by rw [d2.gen, n1g]) (by rw [d2.len, d2.cap, n1l, n1c]; omega)
      (by rw [d2.len, n1l]; omega)
      (fun h => by
        rw [d2.lvs, hlv1, lll, llr, h]
        cases hrl : r.isLeaf
        · simp; omega
        · have := szr hrl; simp; omega)
      d2.inv (by omega) (by omega)
    have hrun : jLoop P (l.size + r.size + 1 + fuel) s = jLoop P fuel s3 := by
      rw [show l.size + r.size + 1 + fuel = (r.size + (l.size + fuel)) + 1 by omega, jLoop, hst]
      simp only [hstep, Res.ok_bind]
      rw [run2, run3]
    -- the node itself in the end
    have hg1 : s1.nodes[s.nodes.length]? = some nd := by
      rw [n1, List.getElem?_append_right (by rw [writeAt_length]), writeAt_length]; simp
    have hg2 : s2.nodes[s.nodes.length]? = some { nd with right := if r.isLeaf then nd.right else s.nodes.length + 1 } := by
      rw [d2.old _ (by omega)]
      cases hrl : r.isLeaf
      · rw [writeAt_get, hg1, n1l]; simp
      · simp [hg1]
    have hg3 : s3.nodes[s.nodes.length]? = some { nd with
        right := if r.isLeaf then nd.right else s.nodes.length + 1,
        left := if l.isLeaf then nd.left else s.nodes.length + 1 + r.size } := by
      rw [d3.old _ (by rw [d2.len]; omega)]
      cases hll : l.isLeaf
      · rw [writeAt_get, hg2, d2.len, n1l]; simp
      · simp [hg2]
    have hle : auxLe s.aux s3.aux := hle1.trans (d2.le.trans d3.le)
    have hle13 : auxLe aux s3.aux := by rw [← n1a]; exact d2.le.trans d3.le
    -- trees of the children
    let L' : BTree := if l.isLeaf then .leaf s.aux.leafValues.length else L
    let R' : BTree := if r.isLeaf then .leaf (s.aux.leafValues.length + (leafList l).length) else R
    have hleafL : l.isLeaf = true → nd.left = s.aux.leafValues.length := by
      intro h; rw [c9 h, u32_of_lt (by omega)]
    have hleafR : r.isLeaf = true → nd.right = s.aux.leafValues.length + (leafList l).length := by
      intro h
      rw [c10 h, u32_of_lt]
      rw [lll]; split <;> omega
    have relL : JRel s3.nodes s3.aux l (if l.isLeaf then nd.left else s.nodes.length + 1 + r.size) L' := by
      cases hll : l.isLeaf with
      | true =>
        cases l with
        | node => cases hll
        | leaf v =>
          refine ⟨?_, ?_⟩
          · simp only [L', JNode.isLeaf, if_true]; rw [hleafL rfl]
          · simp only [if_true]; rw [hleafL rfl]
            refine prefix_get hle13.1 ?_
            rw [c8]
            rw [List.append_assoc, List.getElem?_append_right (Nat.le_refl _)]
            simp [leafList]
      | false =>
        have := d3.rel hll
        rw [d2.len, n1l] at this
        simpa [L', hll] using this
    have relR : JRel s3.nodes s3.aux r (if r.isLeaf then nd.right else s.nodes.length + 1) R' := by
      cases hrl : r.isLeaf with
      | true =>
        cases r with
        | node => cases hrl
        | leaf v =>
          refine ⟨?_, ?_⟩
          · simp only [R', JNode.isLeaf, if_true]; rw [hleafR rfl]
          · simp only [if_true]; rw [hleafR rfl]
            refine prefix_get hle13.1 ?_
            rw [c8, List.getElem?_append_right (by simp)]
            simp [leafList]
      | false =>
        have h0 := d2.rel hrl
        rw [n1l] at h0
        have h5 := JRel.mono (nodes' := s3.nodes) d3.le r (s.nodes.length + 1) R (fun j a a' => by
          rw [d3.old j (by rw [d2.len, n1l]; omega)]
          split
          · rfl
          · rw [writeAt_get, if_neg (by show ¬ s.nodes.length = j; omega)]) h0
        simpa [R', hrl] using h5
    have lvs2 := d2.lvs
    have lvs3 := d3.lvs
    have rgL : ∀ k ∈ L'.leaves, if l.isLeaf then k = s.aux.leafValues.length
        else s2.aux.leafValues.length ≤ k ∧ k < s3.aux.leafValues.length := by
      intro k hk
      cases hll : l.isLeaf
      · simpa using d3.range hll k (by simpa [L', hll] using hk)
      · simpa [L', hll, BTree.leaves] using hk
    have rgR : ∀ k ∈ R'.leaves, if r.isLeaf then k = s.aux.leafValues.length + (leafList l).length
        else s1.aux.leafValues.length ≤ k ∧ k < s2.aux.leafValues.length := by
      intro k hk
      cases hrl : r.isLeaf
      · simpa using d2.range hrl k (by simpa [R', hrl] using hk)
      · simpa [R', hrl, BTree.leaves] using hk
    refine ⟨s3, .node s.nodes.length L' R', hrun, ?_⟩
    refine { stack := d3.stack, cap := by rw [d3.cap, d2.cap, n1c], gen := by rw [d3.gen, d2.gen, n1g], len := ?_, old := ?_,
             rel := ?_, le := hle, inv := ?_, lvs := ?_, nodup := ?_, range := ?_ }
    · rw [d3.len, d2.len, n1l]; simp only [JNode.size]; omega
    · intro j hj
      rw [d3.old j (by rw [d2.len, n1l]; omega)]
      have e1 : s2.nodes[j]? = s1.nodes[j]? := by
        rw [d2.old j (by omega)]
        split
        · rfl
        · rw [writeAt_get, if_neg (by show ¬ s.nodes.length = j; omega)]
      have e2 : s1.nodes[j]? = (writeAt s.nodes ptr s.nodes.length)[j]? := by
        rw [n1, List.getElem?_append_left (by rw [writeAt_length]; exact hj)]
      split
      · rw [e1, e2]
      · rw [writeAt_get, if_neg (by show ¬ s.nodes.length = j; omega), e1, e2]
    · refine ⟨L', R', _, rule, rfl, hg3, c2, ?_, c6, c7, ?_, relL, ?_⟩
      · exact (NodeRep.congr (nd := nd) rfl rfl rfl c5).mono hle13.2.1 hle13.2.2
      · intro h; simp [h]
      · have := relR
        cases hrl : r.isLeaf <;> simpa [hrl] using this
    · have := d3.inv
      rw [show b + (w + wl + wr) = b + w + wr + wl by omega]; exact this
    · rw [lvs3, lvs2, hlv1, lll, llr]
      simp only [JNode.size]
      cases hll : l.isLeaf <;> cases hrl : r.isLeaf <;> simp <;> (try have := szl hll) <;> (try have := szr hrl) <;> omega
    · show (L'.leaves ++ R'.leaves).Nodup
      rw [List.nodup_append]
      refine ⟨?_, ?_, ?_⟩
      · cases hll : l.isLeaf
        · simpa [L', hll] using d3.nodup hll
        · simp [L', hll, BTree.leaves]
      · cases hrl : r.isLeaf
        · simpa [R', hrl] using d2.nodup hrl
        · simp [R', hrl, BTree.leaves]
      · intro x hx y hy
        have h5 := rgL x hx
        have h6 := rgR y hy
        rw [lll] at h6
        rw [lvs2, hlv1, lll, llr] at h5 h6
        cases hll : l.isLeaf <;> cases hrl : r.isLeaf <;> simp [hll, hrl] at h5 h6 <;> omega
    · intro k hk
      have hk' : k ∈ L'.leaves ++ R'.leaves := hk
      rw [List.mem_append] at hk'
      rw [lvs3, lvs2, hlv1, lll, llr]
      rcases hk' with hx | hy
      · have h5 := rgL k hx
        rw [lvs3, lvs2, hlv1, lll, llr] at h5
        cases hll : l.isLeaf <;> cases hrl : r.isLeaf <;> simp [hll, hrl] at h5 ⊢ <;> omega
      · have h6 := rgR k hy
        rw [lvs2, hlv1, lll, llr] at h6
        cases hll : l.isLeaf <;> cases hrl : r.isLeaf <;> simp [hll, hrl] at h6 ⊢ <;> omega

/-! ### from the array to the walk -/

/-- the nodes mean themselves -/
def selfMeaning (nodes : List LgNode) : Meaning Unit where
  R i nd _ := nodes[i]? = some nd
  Q k j _ := j = k

theorem JRel.isLeaf {nodes : List LgNode} {aux : JAux} {n : JNode} {c : Nat} {T : BTree} (h : JRel nodes aux n c T) :
    T.isLeaf = n.isLeaf := by
  cases n with
  | leaf v => rw [h.1]; rfl
  | node => obtain ⟨L, R, nd, rule, rfl, _⟩ := h; rfl

theorem nPaths_ne : ∀ n : JNode, ∃ p, p ∈ nPaths n
  | .leaf _ => ⟨[], by simp [nPaths]⟩
  | .node _ _ _ _ _ l _ => by
    obtain ⟨p, hp⟩ := nPaths_ne l
    exact ⟨true :: p, by simp [nPaths, hp]⟩

theorem JRel.size {nodes : List LgNode} {aux : JAux} : ∀ (n : JNode) (c : Nat) (T : BTree), JRel nodes aux n c T → T.size = n.size
  | .leaf v, c, T, h => by rw [h.1]; rfl
  | .node f thr d dl mt l r, c, T, h => by
    obtain ⟨L, R, nd, rule, rfl, _, _, _, _, _, _, hl, hr⟩ := h
    simp only [BTree.size, JNode.size]
    rw [JRel.size l _ _ hl, JRel.size r _ _ hr]

theorem JRel.emb {nodes : List LgNode} {aux : JAux} : ∀ (n : JNode) (c : Nat) (T : BTree), JRel nodes aux n c T →
    Emb (selfMeaning nodes) nodes () T c
  | .leaf v, c, T, h => by rw [h.1]; rfl
  | .node f thr d dl mt l r, c, T, h => by
    obtain ⟨L, R, nd, rule, rfl, h2, h3, h4, h5, h6, h7, hl, hr⟩ := h
    refine ⟨nd, h2, h2, ?_, ?_, ?_, JRel.emb l _ _ hl, ?_⟩
    · rw [hl.isLeaf]; exact h5
    · rw [hr.isLeaf]; exact h6
    · rw [hl.isLeaf, JRel.size r _ _ hr]; exact h7
    · rw [hr.isLeaf]; exact JRel.emb r _ _ hr

/-- one step in the node array -/
def StepAt (P : Platform) (t : LgTree) (fvals : List F64) (i : Nat) (b : Bool) : Prop :=
  ∃ nd x, t.nodes[i]? = some nd ∧ fvals[nd.feature]? = some x ∧ t.decision P nd x = .ok b

/-- the leaf at the end of a path -/
def leafAt : BTree → List Bool → Option Nat
  | .leaf k, [] => some k
  | .node _ l _, true :: p => leafAt l p
  | .node _ _ r, false :: p => leafAt r p
  | _, _ => none

theorem JRel.walk {P : Platform} {t : LgTree} {aux : JAux} (hb : t.catBoundaries = aux.cats.boundaries)
    (ht : t.catThresholds = aux.cats.thresholds) (fvals : List F64) : ∀ (n : JNode) (c : Nat) (T : BTree),
    JRel t.nodes aux n c T → ∀ v k, (Walk (StepAt P t fvals) T k ∧ aux.leafValues[k]? = some v) ↔
      ∃ p, NWalk P.out fvals n p v ∧ leafAt T p = some k
  | .leaf w, c, T, h, v, k => by
    obtain ⟨rfl, hw⟩ := h
    constructor
    · rintro ⟨hk, hv⟩
      cases hk
      rw [hw] at hv; cases hv
      exact ⟨[], .leaf _, rfl⟩
    · rintro ⟨p, h, hk⟩; cases h; cases hk; exact ⟨.leaf c, hw⟩
  | .node f thr d dl mt l r, c, T, h, v, k => by
    obtain ⟨L, R, nd, rule, rfl, h2, h3, h4, h5, h6, h7, hl, hr⟩ := h
    have ihl := JRel.walk (P := P) hb ht fvals l _ _ hl v k
    have ihr := JRel.walk (P := P) hb ht fvals r _ _ hr v k
    rw [← hb, ← ht] at h4
    have hstep : ∀ b, StepAt P t fvals c b ↔ ∃ x, fvals[f]? = some x ∧ (b = true ↔ rule.Left P.out x) := by
      intro b
      constructor
      · rintro ⟨nd', x, hn, hx, hd⟩
        rw [h2] at hn; cases hn
        obtain ⟨b', e1, e2⟩ := decision_rep P t nd f rule x h4
        rw [e1] at hd; cases hd
        exact ⟨x, by rw [← h4.1]; exact hx, e2⟩
      · rintro ⟨x, hx, hiff⟩
        obtain ⟨b', e1, e2⟩ := decision_rep P t nd f rule x h4
        refine ⟨nd, x, h2, by rw [h4.1]; exact hx, ?_⟩
        rw [e1]; congr 1; rw [Bool.eq_iff_iff, e2, hiff]
    constructor
    · rintro ⟨hk, hv⟩
      cases hk with
      | left hs w =>
        obtain ⟨x, hx, hi⟩ := (hstep true).1 hs
        obtain ⟨p, hp, hk⟩ := ihl.1 ⟨w, hv⟩
        exact ⟨true :: p, .left h3 hx (hi.1 rfl) hp, hk⟩
      | right hs w =>
        obtain ⟨x, hx, hi⟩ := (hstep false).1 hs
        obtain ⟨p, hp, hk⟩ := ihr.1 ⟨w, hv⟩
        exact ⟨false :: p, .right h3 hx (fun h => (by have := hi.2 h; cases this)) hp, hk⟩
    · rintro ⟨p, hp, hk⟩
      obtain ⟨x, q, hx, ⟨h, rfl, w⟩ | ⟨h, rfl, w⟩⟩ := (NWalk.of_node h3).1 hp
      · obtain ⟨e1, e2⟩ := ihl.2 ⟨q, w, hk⟩
        exact ⟨.left ((hstep true).2 ⟨x, hx, by simp [h]⟩) e1, e2⟩
      · obtain ⟨e1, e2⟩ := ihr.2 ⟨q, w, hk⟩
        exact ⟨.right ((hstep false).2 ⟨x, hx, by simp [h]⟩) e1, e2⟩

theorem JRel.paths {nodes : List LgNode} {aux : JAux} : ∀ (n : JNode) (c : Nat) (T : BTree), JRel nodes aux n c T →
    (nPaths n).map (leafAt T) = T.leaves.map some
  | .leaf v, c, T, h => by rw [h.1]; rfl
  | .node f thr d dl mt l r, c, T, h => by
    obtain ⟨L, R, nd, rule, rfl, _, _, _, _, _, _, hl, hr⟩ := h
    simp only [nPaths, BTree.leaves, List.map_append, List.map_map]
    rw [← JRel.paths l _ _ hl, ← JRel.paths r _ _ hr]
    rfl

theorem NWalk.mem {out : F64 → Int} {fvals : List F64} {n : JNode} {p : List Bool} {v : F64} (h : NWalk out fvals n p v) :
    p ∈ nPaths n := by
  induction h with
  | leaf v => simp [nPaths]
  | left _ _ _ _ ih => simp [nPaths, ih]
  | right _ _ _ _ ih => simp [nPaths, ih]

/-- some walk exists when the row has all features -/
theorem NWalk.exists {out : F64 → Int} {fvals : List F64} {n : JNode} {W : Nat} (hn : JN n W)
    (hf : NFeatures fvals.length n) : ∃ p v, NWalk out fvals n p v := by
  classical
  induction hn with
  | leaf v => exact ⟨[], v, .leaf v⟩
  | num hm hl hr ihl ihr =>
    obtain ⟨h1, h2, h3⟩ := hf
    obtain ⟨p, v, hp⟩ := ihl h2
    obtain ⟨q, u, hq⟩ := ihr h3
    rename_i f t dl mt mis l r a b
    by_cases h : (Rule.num ⟨mis, dl, t⟩).Left out fvals[f]
    · exact ⟨_, v, .left (.num _ _ _ _ hm) (List.getElem?_eq_getElem h1) h hp⟩
    · exact ⟨_, u, .right (.num _ _ _ _ hm) (List.getElem?_eq_getElem h1) h hq⟩
  | cat values hm hne h31 hw hl hr ihl ihr =>
    obtain ⟨h1, h2, h3⟩ := hf
    obtain ⟨p, v, hp⟩ := ihl h2
    obtain ⟨q, u, hq⟩ := ihr h3
    rename_i f dl mt mis l r a b w
    by_cases h : (Rule.cat mis (· ∈ values)).Left out fvals[f]
    · exact ⟨_, v, .left (.cat _ _ _ _ hm hne) (List.getElem?_eq_getElem h1) h hp⟩
    · exact ⟨_, u, .right (.cat _ _ _ _ hm hne) (List.getElem?_eq_getElem h1) h hq⟩

/-- the tree is no higher than the longest path -/
theorem JRel.height {nodes : List LgNode} {aux : JAux} : ∀ (n : JNode) (c : Nat) (T : BTree), JRel nodes aux n c T →
    ∀ b, (∀ p ∈ nPaths n, p.length ≤ b) → T.height ≤ b
  | .leaf v, c, T, h, b, hb => by rw [h.1]; exact Nat.zero_le _
  | .node f thr d dl mt l r, c, T, h, b, hb => by
    obtain ⟨L, R, nd, rule, rfl, _, _, _, _, _, _, hl, hr⟩ := h
    cases b with
    | zero =>
      obtain ⟨p, hp⟩ : ∃ p, p ∈ nPaths (.node f thr d dl mt l r) ∧ p ≠ [] := by
        obtain ⟨q, hq⟩ := nPaths_ne l
        exact ⟨true :: q, by simp [nPaths, hq], by simp⟩
      have := hb p hp.1
      exact absurd (List.length_eq_zero_iff.1 (Nat.le_zero.1 this)) hp.2
    | succ b =>
      have e1 := JRel.height l _ _ hl b fun p hp => by
        have := hb (true :: p) (by simp [nPaths, hp])
        simpa using this
      have e2 := JRel.height r _ _ hr b fun p hp => by
        have := hb (false :: p) (by simp [nPaths, hp])
        simpa using this
      show max L.height R.height + 1 ≤ b + 1
      omega

/-- Everything about a loaded JSON tree with a split. -/
theorem json_load (P : Platform) {t : JTree} {W : Nat} (h : JTreeOK t W) (hal : jLeaves t.root * 24 ≤ P.maxAlloc)
    (haw : 4 * W ≤ P.maxAlloc) (hsplit : 1 < jLeaves t.root) :
    ∃ t' idx, unmarshalTree P t = .ok t' ∧ t'.nodes.length + 1 = jLeaves t.root ∧ t'.leafValues.length = jLeaves t.root ∧
      ((jPaths t.root).map idx).Perm (List.range (jLeaves t.root)) ∧
      ∀ fvals, (t'.predict P fvals ≠ .hang ∧ ∀ b, (∀ p ∈ jPaths t.root, p.length ≤ b) → ∀ i, (t'.examined P fvals i).length ≤ b) ∧ (∀ v j, t'.predict P fvals = .ok (v, j) ↔
        ∃ p, JWalk P.out fvals t.root p v ∧ j = idx p) ∧
        (JFeatures fvals.length t.root → ∃ v j, t'.predict P fvals = .ok (v, j)) := by
  obtain ⟨n, hn, hN, hsz, hw, hft, hpt⟩ := unmarshalNode_ok h.objects
  have hsmall := h.small
  have hwords := h.words
  have hnl : n.isLeaf = false := by
    cases n with
    | leaf v => simp only [JNode.size] at hsz; omega
    | node => rfl
  have hlv := h.leaves
  have hcap : (t.numLeaves - 1).toNat = n.size := by omega
  obtain ⟨s', T, hrun, hd⟩ := jRun P (0 < t.numCat) n
    { nodes := [], cap := (t.numLeaves - 1).toNat, gen := 0, stack := [(none, n)],
      aux := { leafValues := [], cats := { boundaries := if t.numCat > 0 then [0] else [], thresholds := [] } } } none []
    0 W 1 hnl hN h.cats rfl (by intro p hp; cases hp) (by simp; omega) (by simp; omega) (by simp; omega)
    (by
      refine ⟨by simp, by simp only; split <;> simp, ?_⟩
      intro hc
      simp [hc])
    (by omega) haw
  have hlen : s'.nodes.length = n.size := by have := hd.len; simpa using this
  have hlvs : s'.aux.leafValues.length = n.size + 1 := by have := hd.lvs; simpa using this
  have hrel := hd.rel
  simp only [List.length_nil] at hrel
  have hout : jLoop P 1 s' = .ok s' := by rw [jLoop, hd.stack]
  refine ⟨{ nodes := s'.nodes, leafValues := s'.aux.leafValues, catBoundaries := s'.aux.cats.boundaries,
            catThresholds := s'.aux.cats.thresholds, nCategorical := t.numCat }, fun p => (leafAt T p).getD 0, ?_, ?_, ?_, ?_, ?_⟩
  · unfold unmarshalTree
    dsimp only
    rw [if_neg (by omega), hn]
    simp only [Res.ok_bind]
    cases n with
    | leaf v => cases hnl
    | node f thr d dl mt l r =>
      simp only
      rw [allocCheck_ok (by omega) (by push_cast; omega), allocCheck_ok (by omega) (by push_cast; omega)]
      simp only [Res.ok_bind]
      rw [hrun, hout]
      rfl
  · show s'.nodes.length + 1 = _; omega
  · show s'.aux.leafValues.length = _; omega
  · have hll : T.leaves.length = jLeaves t.root := by
      rw [BTree.leaves_length, JRel.size _ _ _ hrel]; exact hsz
    have hpm : (jPaths t.root).map (fun p => (leafAt T p).getD 0) = T.leaves := by
      have := congrArg (List.map (fun o : Option Nat => o.getD 0)) (JRel.paths _ _ _ hrel)
      rw [List.map_map, List.map_map, hpt] at this
      simpa [Function.comp_def] using this
    rw [hpm]
    refine (List.subperm_of_subset hd.nodup ?_).perm_of_length_le (by simp [hll])
    intro k hk
    have := (hd.range k hk).2
    exact List.mem_range.2 (by omega)
  · intro fvals
    generalize ht : LgTree.mk s'.nodes s'.aux.leafValues s'.aux.cats.boundaries s'.aux.cats.thresholds t.numCat = t'
    have t1 : t'.nodes = s'.nodes := by rw [← ht]
    have t2 : t'.leafValues = s'.aux.leafValues := by rw [← ht]
    have t3 : t'.catBoundaries = s'.aux.cats.boundaries := by rw [← ht]
    have t4 : t'.catThresholds = s'.aux.cats.thresholds := by rw [← ht]
    rw [← t1] at hrel hlen
    have hTl : T.isLeaf = false := by rw [hrel.isLeaf]; exact hnl
    have hTs : T.size = n.size := JRel.size _ _ _ hrel
    have hpos : t'.nodes.length ≠ 0 := by rw [hlen]; omega
    have h32 : t'.nodes.length < 2 ^ 32 := by omega
    have hemb := JRel.emb _ _ _ hrel
    have hp : ∀ v j, t'.predict P fvals = .ok (v, j) ↔ (Walk (StepAt P t' fvals) T j ∧ t'.leafValues[j]? = some v) := by
      intro v j
      unfold LgTree.predict
      rw [if_neg hpos]
      constructor
      · intro hp
        obtain ⟨k, w, hq, hv⟩ := walk_of_predictLoop (P := P) (t := t') (fvals := fvals) (goes := StepAt P t' fvals)
          (fun i nd hR b x hx hd => ⟨nd, x, hR, hx, hd⟩) h32 T 0 _ v j hTl hemb hp
        obtain rfl : j = k := hq
        exact ⟨w, hv⟩
      · rintro ⟨w, hv⟩
        obtain ⟨j', hq, hp⟩ := predictLoop_walk (P := P) (t := t') (fvals := fvals) (goes := StepAt P t' fvals)
          (V := fun k => Res.idx t'.leafValues k)
          (fun i nd hR b hg => by
            obtain ⟨nd', x, hn', hx, hd⟩ := hg
            have hR' : t'.nodes[i]? = some nd := hR
            rw [hR'] at hn'; cases hn'
            exact ⟨x, hx, hd⟩)
          (fun k j hj => by obtain rfl : j = k := hj; rfl) h32 T j 0 (t'.nodes.length + 1) hTl hemb w (by omega)
        obtain rfl : j' = j := hq
        rw [hp, Res.idx_eq_ok.2 hv]
        rfl
    have hsome : ∀ p ∈ nPaths n, leafAt T p = some ((leafAt T p).getD 0) := by
      intro p hpm
      have h0 := JRel.paths _ _ _ hrel
      have h5 : leafAt T p ∈ (nPaths n).map (leafAt T) := List.mem_map_of_mem hpm
      rw [h0] at h5
      obtain ⟨k, _, hk⟩ := List.mem_map.1 h5
      rw [← hk]; rfl
    have hpred : ∀ v j, t'.predict P fvals = .ok (v, j) ↔ ∃ p, JWalk P.out fvals t.root p v ∧ j = (leafAt T p).getD 0 := by
      intro v j
      rw [hp, t2, JRel.walk (P := P) t3 t4 fvals n 0 T hrel v j]
      refine exists_congr fun p => ?_
      rw [hw]
      refine and_congr_right fun hwk => ?_
      have := hsome p (NWalk.mem ((hw _ _ _ _).2 hwk))
      constructor
      · intro h; rw [h]; rfl
      · intro h; rw [h]; exact this
    refine ⟨⟨?_, ?_⟩, hpred, ?_⟩
    · unfold LgTree.predict
      rw [if_neg hpos]
      exact predictLoop_emb_ne_hang (LgTree.decision_ne_hang P t') h32 T 0 _ hTl hemb (by omega)
    · intro b hb i
      refine (examined_emb (LgTree.decision_ne_hang P t') h32 hTl hemb fvals i).trans ?_
      rw [← hpt] at hb
      exact JRel.height _ _ _ hrel b hb
    · intro hf
      obtain ⟨p, v, hpv⟩ := NWalk.exists (out := P.out) hN (hft _ hf)
      exact ⟨v, _, (hpred v _).2 ⟨p, (hw _ _ _ _).1 hpv, rfl⟩⟩

end Leaves
