import Verif.Props.Pickle
import Verif.Props.SkTree
import Verif.Props.XgFile
import Verif.Model.SkLoad

/-! # Python objects are parsed as the values they denote -/

namespace Leaves

open Pickle Spec

variable {A : List Arr} {D : List DictCells}

theorem toGlobal_octets (m n : String) :
    toGlobal (.global (octets m.toList) (octets n.toList)) m n = .ok (octets m.toList, octets n.toList) := by
  unfold toGlobal
  dsimp only
  rw [if_neg fun h => h.2 rfl, if_neg fun h => h.2 rfl]

theorem toGlobal_any (m : String) (n : Bytes) : toGlobal (.global (octets m.toList) n) m "" = .ok (octets m.toList, n) := by
  unfold toGlobal
  dsimp only
  rw [if_neg fun h => h.2 rfl, if_neg fun h => h.1 rfl]

theorem denotes_name {m n : String} {x : PVal} (h : Denotes A D x (pyName m n)) :
    x = .global (octets m.toList) (octets n.toList) := h

theorem denotesSeq_ofList : ∀ (vs : List PyVal) (xs : List PVal), DenotesSeq A D xs (.ofList vs) ↔ List.Forall₂ (Denotes A D) xs vs
  | [], xs => by
    constructor
    · intro h; cases (show xs = [] from h); exact .nil
    · intro h; cases h; rfl
  | v :: vs, xs => by
    constructor
    · rintro ⟨x, rest, rfl, h1, h2⟩
      exact .cons h1 ((denotesSeq_ofList vs rest).1 h2)
    · intro h
      cases h with
      | cons h1 h2 => exact ⟨_, _, rfl, h1, (denotesSeq_ofList vs _).2 h2⟩

theorem denotesSeq_toList : ∀ (vs : PySeq) (xs : List PVal), DenotesSeq A D xs vs ↔ List.Forall₂ (Denotes A D) xs vs.toList
  | .nil, xs => by
    constructor
    · intro h; cases (show xs = [] from h); exact .nil
    · intro h; cases h; rfl
  | .cons v vs, xs => by
    constructor
    · rintro ⟨x, rest, rfl, h1, h2⟩
      exact .cons h1 ((denotesSeq_toList vs rest).1 h2)
    · intro h
      cases h with
      | cons h1 h2 => exact ⟨_, _, rfl, h1, (denotesSeq_toList vs _).2 h2⟩

/-- a dtype is parsed as its type code; the byte order is right unless it is neither `<` nor `>` -/
theorem parse_dtype {t : String} {e : BitVec 8} {v : PyVal} {x : PVal} (h : IsDType t e v) (hx : Denotes A D x v) :
    ∃ d, parseDType x = .ok d ∧ d.type = octets t.toList ∧ (e = octet '<' → d.littleEndian = true) ∧
      (e = octet '>' → d.littleEndian = false) := by
  cases h with
  | plain a b he =>
    obtain ⟨y, ys, rfl, h1, h2⟩ := hx
    cases denotes_name h1
    obtain ⟨x0, r, rfl, h0, x1, r, rfl, -, x2, r, rfl, -, rfl⟩ := h2
    cases (show x0 = _ from h0)
    refine ⟨⟨true, octets t.toList⟩, ?_, rfl, fun _ => rfl, fun h => ?_⟩
    · show (toGlobal _ "numpy" "dtype" >>= _) = _
      rw [toGlobal_octets]; rfl
    · subst he; exact absurd h (by decide)
  | built a b s0 s2 s3 s4 s5 s6 s7 =>
    obtain ⟨y, ys, z, rfl, h1, h2, zs, rfl, h3⟩ := hx
    cases denotes_name h1
    obtain ⟨x0, r, rfl, h0, x1, r, rfl, -, x2, r, rfl, -, rfl⟩ := h2
    cases (show x0 = _ from h0)
    obtain ⟨_, _, rfl, -, z1, _, rfl, hz, _, _, rfl, -, _, _, rfl, -, _, _, rfl, -, _, _, rfl, -, _, _, rfl, -, _, _, rfl, -, rfl⟩ := h3
    cases (show z1 = _ from hz)
    refine ⟨⟨decide (e = byte '<'), octets t.toList⟩, ?_, rfl, fun h => decide_eq_true h, fun h => ?_⟩
    · show ((toGlobal _ "numpy" "dtype" >>= _) >>= _) = _
      rw [toGlobal_octets]; rfl
    · subst h; exact (by decide : decide (octet '>' = byte '<') = false)
  | again a b s0 s2 s3 s4 s5 s6 s7 he =>
    obtain ⟨y, ys, rfl, h1, h2⟩ := hx
    cases denotes_name h1
    obtain ⟨x0, r, rfl, h0, x1, r, rfl, -, x2, r, rfl, -, rfl⟩ := h2
    cases (show x0 = _ from h0)
    refine ⟨⟨true, octets t.toList⟩, ?_, rfl, fun _ => rfl, fun h => absurd h he⟩
    show (toGlobal _ "numpy" "dtype" >>= _) = _
    rw [toGlobal_octets]; rfl

theorem parse_bytes {bs : Bytes} {v : PyVal} {x : PVal} (h : IsBytes bs v) (hx : Denotes A D x v) :
    (∃ c a, x = .reduce c a) ∧ parseRawBytes x = .ok bs := by
  subst h
  obtain ⟨y, ys, rfl, h1, h2⟩ := hx
  cases denotes_name h1
  obtain ⟨x0, r, rfl, h0, x1, r, rfl, -, rfl⟩ := h2
  cases (show x0 = _ from h0)
  refine ⟨⟨_, _, rfl⟩, ?_⟩
  show (toGlobal _ "_codecs" "encode" >>= _) = _
  rw [toGlobal_octets]; rfl

theorem parse_shape : ∀ (shape : List Int) (xs : List PVal), DenotesSeq A D xs (.ofList (shape.map PyVal.int)) → parseShape xs = .ok shape
  | [], xs, h => by cases (show xs = [] from h); rfl
  | i :: is, xs, h => by
    obtain ⟨x, rest, rfl, h1, h2⟩ := h
    cases (show x = _ from h1)
    rw [parseShape, parse_shape is rest h2]
    rfl

/-- an array is parsed as its shape, type and data -/
theorem parse_array {m : Machine} {shape : List Int} {t : String} {e : BitVec 8} {data v : PyVal} {x : PVal}
    (h : IsArray shape t e data v) (hx : Denotes m.arrays m.dicts x v) :
    ∃ d y, d.type = octets t.toList ∧ (e = octet '<' → d.littleEndian = true) ∧ (e = octet '>' → d.littleEndian = false) ∧
      Denotes m.arrays m.dicts y data ∧
      (∀ bs, (∃ c a, y = .reduce c a) → parseRawBytes y = .ok bs →
        parseArray m x = .ok { type := d, shape := shape, data := bs }) ∧
      ∀ arr len elems, y = .list arr len → listElems m arr len = .ok elems →
        parseArray m x = .ok { type := d, shape := shape, dataList := elems } := by
  obtain ⟨a, b, version, dtype, hd, rfl⟩ := h
  obtain ⟨y, ys, z, rfl, h1, h2, zs, rfl, h3⟩ := hx
  cases denotes_name h1
  obtain ⟨x0, r, rfl, h0, x1, r, rfl, -, x2, r, rfl, -, rfl⟩ := h2
  cases denotes_name h0
  obtain ⟨z0, _, rfl, hz0, z1, _, rfl, ⟨dims, hz1, hdims⟩, z2, _, rfl, hz2, z3, _, rfl, hz3, z4, _, rfl, hz4, rfl⟩ := h3
  cases (show z0 = _ from hz0)
  cases hz1
  cases (show z3 = _ from hz3)
  obtain ⟨d, e1, e2, e3, e4⟩ := parse_dtype hd hz2
  refine ⟨d, z4, e2, e3, e4, hz4, fun bs hy hbs => ?_, fun arr len elems hy hel => ?_⟩
  · obtain ⟨c, a, rfl⟩ := hy
    show ((toGlobal _ "numpy.core.multiarray" "_reconstruct" >>= _) >>= _) = _
    rw [toGlobal_octets, Res.ok_bind]
    show ((toGlobal _ "numpy" "ndarray" >>= _) >>= _) = _
    rw [toGlobal_octets]
    show (parseShape dims >>= _) = _
    rw [parse_shape _ _ hdims, Res.ok_bind, e1, Res.ok_bind]
    show (parseRawBytes (.reduce c a) >>= _) = _
    rw [hbs]; rfl
  · subst hy
    show ((toGlobal _ "numpy.core.multiarray" "_reconstruct" >>= _) >>= _) = _
    rw [toGlobal_octets, Res.ok_bind]
    show ((toGlobal _ "numpy" "ndarray" >>= _) >>= _) = _
    rw [toGlobal_octets]
    show (parseShape dims >>= _) = _
    rw [parse_shape _ _ hdims, Res.ok_bind, e1, Res.ok_bind]
    show (listElems m arr len >>= _) = _
    rw [hel]; rfl

/-- chunks of equal length are found again -/
theorem iterate_flatMap {α : Type} (f : α → Bytes) (k : Nat) (hf : ∀ a, (f a).length = k + 1) (as : List α) :
    iterate k (as.flatMap f) = .ok (as.map f) := by
  have hl : ∀ as : List α, (as.flatMap f).length = as.length * (k + 1) := by
    intro as
    induction as with
    | nil => simp
    | cons a as ih => rw [List.flatMap_cons, List.length_append, hf, ih, List.length_cons, Nat.succ_mul]; omega
  unfold iterate
  rw [if_neg (by rw [hl, Nat.mul_mod_left]; exact fun hc => hc rfl)]
  have key : ∀ (as : List α) (fuel : Nat), as.length ≤ fuel → chunksGo k fuel (as.flatMap f) = as.map f := by
    intro as
    induction as with
    | nil => intro fuel _; cases fuel <;> rfl
    | cons a as ih =>
      intro fuel hfu
      obtain ⟨fuel, rfl⟩ : ∃ n, fuel = n + 1 := ⟨fuel - 1, by simp at hfu; omega⟩
      have ha := hf a
      rw [List.flatMap_cons]
      obtain ⟨b, bs, hb⟩ : ∃ b bs, f a = b :: bs := by
        cases h : f a with
        | nil => rw [h] at ha; cases ha
        | cons b bs => exact ⟨b, bs, rfl⟩
      rw [hb, List.cons_append, chunksGo, ← List.cons_append, ← hb, List.take_append_of_le_length (by omega),
        List.take_of_length_le (by omega), ← ha, List.drop_left, List.map_cons, ih fuel (by simp at hfu; omega)]
  rw [key as _ (by rw [hl]; exact Nat.le_mul_of_pos_right _ (Nat.succ_pos k))]

theorem mapRes_map {α β γ : Type} (f : β → Res γ) (g : α → β) (h : α → γ) (hf : ∀ a, f (g a) = .ok (h a)) :
    ∀ as : List α, mapRes f (as.map g) = .ok (as.map h)
  | [] => rfl
  | a :: as => by
    rw [List.map_cons, mapRes, hf, Res.ok_bind, mapRes_map f g h hf as]
    rfl

theorem mapRes_forall₂ {α β : Type} {f : α → Res β} {as : List α} {bs : List β} (h : List.Forall₂ (fun a b => f a = .ok b) as bs) :
    mapRes f as = .ok bs := by
  induction h with
  | nil => rfl
  | cons h1 _ ih => rw [mapRes, h1, Res.ok_bind, ih]; rfl

theorem float64_field64_rev (w : BitVec 64) : Util.float64FromBytes (field64 w).reverse false = .ok (F64.ofBits w) := by
  unfold Util.float64FromBytes
  rw [if_neg (by rw [List.length_reverse, field64_length]; omega)]
  dsimp only
  rw [if_neg (by simp), List.take_of_length_le (by rw [List.length_reverse, field64_length]), List.reverse_reverse, leNat_field64,
    BitVec.ofNat_toNat, BitVec.setWidth_eq]

theorem parse_floats {e : BitVec 8} {bs : Bytes} {xs : List F64} (h : FloatBytes e bs xs) {b : Bool} (h1 : e = octet '<' → b = true)
    (h2 : e = octet '>' → b = false) :
    ∃ cs, iterate 7 bs = .ok cs ∧ mapRes (Util.float64FromBytes · b) cs = .ok xs := by
  obtain ⟨ws, rfl, ⟨rfl, rfl⟩ | ⟨rfl, rfl⟩⟩ := h
  · rw [h1 rfl]
    exact ⟨_, iterate_flatMap field64 7 field64_length ws, mapRes_map (Util.float64FromBytes · true) field64 F64.ofBits float64_field64 ws⟩
  · rw [h2 rfl]
    exact ⟨_, iterate_flatMap (fun w => (field64 w).reverse) 7 (fun w => by rw [List.length_reverse, field64_length]) ws,
      mapRes_map (Util.float64FromBytes · false) (fun w => (field64 w).reverse) F64.ofBits float64_field64_rev ws⟩

theorem parse_float {e : BitVec 8} {bs : Bytes} {x : F64} (h : FloatBytes e bs [x]) {b : Bool} (h1 : e = octet '<' → b = true)
    (h2 : e = octet '>' → b = false) : Util.float64FromBytes bs b = .ok x := by
  obtain ⟨ws, hw, h⟩ := h
  obtain ⟨w, rfl, rfl⟩ : ∃ w, ws = [w] ∧ x = F64.ofBits w := by
    match ws, hw with
    | [w], hw => simp at hw; exact ⟨w, rfl, hw⟩
  rcases h with ⟨rfl, rfl⟩ | ⟨rfl, rfl⟩
  · rw [h1 rfl]; simpa using float64_field64 w
  · rw [h2 rfl]; simpa using float64_field64_rev w

theorem allocCheck_int {P : Platform} {n : Int} {size : Nat} (h0 : 0 ≤ n) (h : n * size ≤ P.maxAlloc) : allocCheck P n size = .ok ⟨⟩ := by
  obtain ⟨k, rfl⟩ := Int.eq_ofNat_of_zero_le h0
  exact allocCheck_of (k := k) rfl (by exact_mod_cast h)

/-- an array of int64 is parsed as its numbers -/
theorem parse_ints {P : Platform} {m : Machine} {is : List Int} {v : PyVal} {x : PVal} {n : Int} (h : IsIntArray is v)
    (hx : Denotes m.arrays m.dicts x v) (h0 : 0 ≤ n) (ha : n * 8 ≤ P.maxAlloc) : parseIntArray P m x n = .ok is := by
  obtain ⟨ws, data, hA, hB, rfl⟩ := h
  obtain ⟨d, y, e1, e2, -, hy, h5, -⟩ := parse_array hA hx
  obtain ⟨k1, k2⟩ := parse_bytes hB hy
  unfold parseIntArray
  rw [h5 _ k1 k2, Res.ok_bind]
  dsimp only
  rw [show badShape [((ws.map BitVec.toInt).length : Int)] n = .ok false from rfl, Res.ok_bind, if_neg (by simp), if_neg
    (by rw [e2 rfl]; exact fun hc => hc.elim (fun h => h e1) (by simp)), allocCheck_int h0 (by exact_mod_cast ha), Res.ok_bind,
    iterate_flatMap field64 7 field64_length, Res.ok_bind, mapRes_map _ _ _ int64LE_field64]

theorem lookup_append {k : Bytes} {x : PVal} {k' : Bytes} : ∀ cells : DictCells,
    Pickle.lookup k (cells ++ [(k', x)]) = match Pickle.lookup k cells with
      | some y => some y
      | none => if k' = k then some x else none
  | [] => by simp only [List.nil_append, Pickle.lookup]
  | (k'', y) :: cells => by
    rw [List.cons_append, Pickle.lookup, Pickle.lookup]
    split
    · rfl
    · exact lookup_append cells

theorem denotes_lookup : ∀ (kvs : PyMap) (cells : DictCells) (k : Bytes), DenotesMap A D cells kvs →
    match kvs.get k with
      | some v => ∃ x, Pickle.lookup k cells = some x ∧ Denotes A D x v
      | none => Pickle.lookup k cells = none
  | .nil, cells, k, h => by cases (show cells = [] from h); rfl
  | .cons k' v kvs, cells, k, h => by
    obtain ⟨x, rest, rfl, h1, h2⟩ := h
    have ih := denotes_lookup kvs rest k h2
    rw [PyMap.get, lookup_append]
    cases hk : kvs.get k with
    | some w =>
      rw [hk] at ih
      obtain ⟨y, hy, hd⟩ := ih
      rw [hy]
      exact ⟨y, rfl, hd⟩
    | none =>
      rw [hk] at ih
      rw [show Pickle.lookup k rest = none from ih]
      dsimp only
      by_cases he : k' = k
      · rw [if_pos he, if_pos he]; exact ⟨x, rfl, h1⟩
      · rw [if_neg he, if_neg he]

theorem dict_value {kvs : PyMap} {cells : DictCells} {k : String} {v : PyVal} (h : DenotesMap A D cells kvs) (hk : kvs.attr k = some v) :
    ∃ x, DictCells.value cells k = .ok x ∧ Denotes A D x v := by
  have := denotes_lookup kvs cells (octets k.toList) h
  rw [show kvs.get (octets k.toList) = some v from hk] at this
  obtain ⟨x, h1, h2⟩ := this
  refine ⟨x, ?_, h2⟩
  unfold DictCells.value
  rw [show Pickle.lookup (str k) cells = some x from h1]
  rfl

theorem dict_int {kvs : PyMap} {cells : DictCells} {k : String} {i : Int} (h : DenotesMap A D cells kvs) (hk : kvs.attr k = some (.int i)) :
    DictCells.toInt cells k = .ok i := by
  obtain ⟨x, h1, h2⟩ := dict_value h hk
  cases (show x = _ from h2)
  unfold DictCells.toInt
  rw [h1]; rfl

theorem dict_float {kvs : PyMap} {cells : DictCells} {k : String} {y : F64} (h : DenotesMap A D cells kvs)
    (hk : kvs.attr k = some (.float y)) : DictCells.toFloat cells k = .ok y := by
  obtain ⟨x, h1, h2⟩ := dict_value h hk
  cases (show x = _ from h2)
  unfold DictCells.toFloat
  rw [h1]; rfl

theorem parse_scalar {t : String} {e : BitVec 8} {bs : Bytes} {v : PyVal} {x : PVal} (h : IsScalar t e bs v) (hx : Denotes A D x v) :
    ∃ d, parseScalar x = .ok (d, bs) ∧ d.type = octets t.toList ∧ (e = octet '<' → d.littleEndian = true) ∧
      (e = octet '>' → d.littleEndian = false) := by
  obtain ⟨dtype, data, hd, hb, rfl⟩ := h
  obtain ⟨y, ys, rfl, h1, h2⟩ := hx
  cases denotes_name h1
  obtain ⟨x0, _, rfl, h0, x1, _, rfl, h3, rfl⟩ := h2
  obtain ⟨d, e1, e2⟩ := parse_dtype hd h0
  refine ⟨d, ?_, e2⟩
  show (toGlobal _ "numpy.core.multiarray" "scalar" >>= _) = _
  rw [toGlobal_octets, Res.ok_bind]
  show (parseDType x0 >>= _) = _
  rw [e1, Res.ok_bind, (parse_bytes hb h3).2]
  rfl

theorem parse_floatArray {m : Machine} {xs : List F64} {v : PyVal} {x : PVal} (h : IsFloatArray xs v)
    (hx : Denotes m.arrays m.dicts x v) :
    ∃ a cs, parseArray m x = .ok a ∧ a.type.type = str "f8" ∧ iterate 7 a.data = .ok cs ∧
      mapRes (Util.float64FromBytes · a.type.littleEndian) cs = .ok xs := by
  obtain ⟨shape, e, bs, data, hA, hB, hF⟩ := h
  obtain ⟨d, y, e1, e2, e3, hy, h5, -⟩ := parse_array hA hx
  obtain ⟨k1, k2⟩ := parse_bytes hB hy
  obtain ⟨cs, c1, c2⟩ := parse_floats hF e2 e3
  exact ⟨_, cs, h5 _ k1 k2, e1, c1, c2⟩

theorem skNode_words (n : NodeWords) : skNodeFromBytes n.record = .ok n.node := C54_node_record _ _ _ _ _ _ _

theorem nodeWords_length (n : NodeWords) : n.record.length = 55 + 1 := by
  unfold NodeWords.record nodeRecord
  simp only [List.flatMap_cons, List.flatMap_nil, List.length_append, field64_length, List.length_nil]

theorem parse_nodeArray {m : Machine} {nodes : List SkNode} {v : PyVal} {x : PVal} (h : IsNodeArray nodes v)
    (hx : Denotes m.arrays m.dicts x v) :
    ∃ a cs, parseArray m x = .ok a ∧ a.type.type = str "V56" ∧ iterate 55 a.data = .ok cs ∧ mapRes skNodeFromBytes cs = .ok nodes := by
  obtain ⟨shape, e, ws, data, hA, hB, rfl⟩ := h
  obtain ⟨d, y, e1, e2, e3, hy, h5, -⟩ := parse_array hA hx
  obtain ⟨k1, k2⟩ := parse_bytes hB hy
  exact ⟨_, _, h5 _ k1 k2, e1, iterate_flatMap _ 55 nodeWords_length ws, mapRes_map _ _ _ skNode_words ws⟩

/-- a tree is parsed as its arrays -/
theorem parse_tree {P : Platform} {m : Machine} {t : SkTree} {v : PyVal} {x : PVal} (h : IsTree t v) (hx : Denotes m.arrays m.dicts x v)
    (h0 : 0 ≤ t.nOutputs) (ha : t.nOutputs * 8 ≤ P.maxAlloc) : parseSkTree P m x = .ok t := by
  obtain ⟨nf, classes, kvs, nodes, values, rfl, hc, h1, h2, h3, h4, h5⟩ := h
  obtain ⟨y, ys, z, rfl, g1, g2, ref, cells, rfl, g3, g4⟩ := hx
  cases denotes_name g1
  obtain ⟨x0, _, rfl, -, x1, _, rfl, k1, x2, _, rfl, k2, rfl⟩ := g2
  cases (show x2 = _ from k2)
  obtain ⟨xn, n1, n2⟩ := dict_value g4 h2
  obtain ⟨xv, v1, v2⟩ := dict_value g4 h4
  obtain ⟨an, cn, a1, a2, a3, a4⟩ := parse_nodeArray h3 n2
  obtain ⟨av, cv, b1, b2, b3, b4⟩ := parse_floatArray h5 v2
  show ((toGlobal _ "sklearn.tree._tree" "Tree" >>= _) >>= _) = _
  rw [toGlobal_octets, Res.ok_bind]
  show ((parseIntArray P m x1 t.nOutputs >>= _) >>= _) = _
  rw [parse_ints hc k1 h0 ha]
  show (Res.idx m.dicts ref >>= _) = _
  rw [Res.idx_eq_ok.2 g3, Res.ok_bind, dict_int g4 h1, Res.ok_bind, n1, Res.ok_bind, a1, Res.ok_bind, if_neg (fun hc => hc a2), a3,
    Res.ok_bind, a4, Res.ok_bind, v1, Res.ok_bind, b1, Res.ok_bind, if_neg (fun hc => hc b2), b3, Res.ok_bind, b4]
  rfl

theorem reconstructor_octets (m n : String) (x1 x2 : PVal) :
    reconstructor (.global (octets "copy_reg".toList) (octets "_reconstructor".toList))
      [.global (octets m.toList) (octets n.toList), x1, x2] m n = .ok (octets m.toList, octets n.toList) := by
  unfold reconstructor
  rw [toGlobal_octets, Res.ok_bind]
  exact toGlobal_octets m n

theorem reconstructor_any (m : String) (n : Bytes) (x1 x2 : PVal) :
    reconstructor (.global (octets "copy_reg".toList) (octets "_reconstructor".toList))
      [.global (octets m.toList) n, x1, x2] m "" = .ok (octets m.toList, n) := by
  unfold reconstructor
  rw [toGlobal_octets, Res.ok_bind]
  exact toGlobal_any m n

/-- an instance is a BUILD of a REDUCE with a dict -/
theorem denotes_instance {modul name : String} {kvs : PyMap} {v : PyVal} {x : PVal} (h : IsInstance modul name kvs v)
    (hx : Denotes A D x v) :
    ∃ x1 x2 ref cells, x = .build (.reduce (.global (octets "copy_reg".toList) (octets "_reconstructor".toList))
      [.global (octets modul.toList) (octets name.toList), x1, x2]) (.dict ref) ∧ D[ref]? = some cells ∧ DenotesMap A D cells kvs := by
  obtain ⟨a, b, rfl⟩ := h
  obtain ⟨y, ys, z, rfl, g1, g2, ref, cells, rfl, g3, g4⟩ := hx
  cases denotes_name g1
  obtain ⟨x0, _, rfl, k0, x1, _, rfl, -, x2, _, rfl, -, rfl⟩ := g2
  cases denotes_name k0
  exact ⟨x1, x2, ref, cells, rfl, g3, g4⟩

/-- a regressor is parsed to its tree -/
theorem parse_regressor {P : Platform} {m : Machine} {t : SkTree} {v : PyVal} {x : PVal} (h : IsRegressor t v)
    (hx : Denotes m.arrays m.dicts x v) (h0 : 0 ≤ t.nOutputs) (ha : t.nOutputs * 8 ≤ P.maxAlloc) :
    ∃ r, parseSkRegressor P m x = .ok r ∧ r.tree = t := by
  obtain ⟨kvs, nc, w, mf, no, tree, hi, h1, h2, h3, h4, h5, h6⟩ := h
  obtain ⟨x1, x2, ref, cells, rfl, g1, g2⟩ := denotes_instance hi hx
  obtain ⟨xn, n1, n2⟩ := dict_value g2 h1
  obtain ⟨xt, t1, t2⟩ := dict_value g2 h5
  obtain ⟨d, s1, s2, s3, -⟩ := parse_scalar h2 n2
  refine ⟨⟨t, w.toInt, mf, no⟩, ?_, rfl⟩
  show ((reconstructor _ _ "sklearn.tree.tree" "DecisionTreeRegressor" >>= _) >>= _) = _
  rw [reconstructor_octets]
  show (Res.idx m.dicts ref >>= _) = _
  rw [Res.idx_eq_ok.2 g1, Res.ok_bind, n1, Res.ok_bind, s1, Res.ok_bind]
  dsimp only
  rw [if_neg (by rw [s3 rfl]; exact fun hc => hc.elim (fun h => h s2) (by simp)), int64LE_field64, Res.ok_bind, dict_int g2 h3,
    Res.ok_bind, dict_int g2 h4, Res.ok_bind, t1, Res.ok_bind, parse_tree h6 t2 h0 ha]
  rfl

/-- the initial estimator is parsed so that it gives every group its prior -/
theorem parse_init {P : Platform} {m : Machine} {K : Nat} {prior : List F64} {v : PyVal} {x : PVal} (h : IsInit K prior v)
    (hx : Denotes m.arrays m.dicts x v) (hK : 1 ≤ K) (ha : K * 8 ≤ P.maxAlloc) :
    ∃ e, parseSkInit m x = .ok e ∧ skBases P e K = .ok prior := by
  have hal : allocCheck P (K : Int) 8 = .ok ⟨⟩ := allocCheck_of (k := K) rfl ha
  have n11 : octets "LogOddsEstimator".toList = str "LogOddsEstimator" := rfl
  have n21 : octets "PriorProbabilityEstimator".toList ≠ str "LogOddsEstimator" := by decide
  have n22 : octets "PriorProbabilityEstimator".toList = str "PriorProbabilityEstimator" := rfl
  cases h with
  | logOdds kvs p _ e bs y hv hp hs hy =>
    obtain ⟨x1, x2, ref, cells, rfl, g1, g2⟩ := denotes_instance hv hx
    obtain ⟨xn, n1, n2⟩ := dict_value g2 hp
    obtain ⟨d, s1, s2, s3, s4⟩ := parse_scalar hs n2
    refine ⟨⟨octets "LogOddsEstimator".toList, [y]⟩, ?_, ?_⟩
    · show ((reconstructor _ _ "sklearn.ensemble.gradient_boosting" "" >>= _) >>= _) = _
      rw [reconstructor_any, Res.ok_bind]
      dsimp only
      rw [Res.pure_eq, Res.ok_bind]
      dsimp only
      rw [if_pos n11]
      show (Res.idx m.dicts ref >>= _) = _
      rw [Res.idx_eq_ok.2 g1, Res.ok_bind, n1, Res.ok_bind, s1, Res.ok_bind]
      dsimp only
      rw [if_neg (fun hc => hc s2), parse_float hy s3 s4]
      rfl
    · unfold skBases
      rw [hal, Res.ok_bind]
      dsimp only
      rw [if_pos n11, Int.toNat_natCast, if_neg (by omega)]
      rfl
  | priors kvs p _ xs hv hp hs hl =>
    obtain ⟨x1, x2, ref, cells, rfl, g1, g2⟩ := denotes_instance hv hx
    obtain ⟨xn, n1, n2⟩ := dict_value g2 hp
    obtain ⟨a, cs, s1, s2, s3, s4⟩ := parse_floatArray hs n2
    refine ⟨⟨octets "PriorProbabilityEstimator".toList, prior⟩, ?_, ?_⟩
    · show ((reconstructor _ _ "sklearn.ensemble.gradient_boosting" "" >>= _) >>= _) = _
      rw [reconstructor_any, Res.ok_bind]
      dsimp only
      rw [Res.pure_eq, Res.ok_bind]
      dsimp only
      rw [if_neg n21, if_pos n22]
      show (Res.idx m.dicts ref >>= _) = _
      rw [Res.idx_eq_ok.2 g1, Res.ok_bind, n1, Res.ok_bind, s1, Res.ok_bind]
      rw [if_neg (fun hc => hc s2), s3]
      dsimp only
      rw [s4]
      rfl
    · unfold skBases
      rw [hal, Res.ok_bind]
      dsimp only
      rw [if_neg n21, if_pos n22, if_neg (by rw [hl]; simp)]
      rfl

theorem forall₂_parse {P : Platform} {m : Machine} {ts : List SkTree} {vs : List PyVal} {xs : List PVal}
    (h : List.Forall₂ IsRegressor ts vs) (hx : List.Forall₂ (Denotes m.arrays m.dicts) xs vs)
    (ha : ∀ t ∈ ts, 0 ≤ t.nOutputs ∧ t.nOutputs * 8 ≤ P.maxAlloc) :
    ∃ rs, mapRes (parseSkRegressor P m) xs = .ok rs ∧ rs.map SkRegressor.tree = ts := by
  induction h generalizing xs with
  | nil => cases hx; exact ⟨[], rfl, rfl⟩
  | @cons t v ts vs h1 _ ih =>
    cases hx with
    | cons g1 g2 =>
      obtain ⟨r, r1, r2⟩ := parse_regressor (P := P) h1 g1 (ha t (by simp)).1 (ha t (by simp)).2
      obtain ⟨rs, q1, q2⟩ := ih g2 fun u hu => ha u (by simp [hu])
      refine ⟨r :: rs, ?_, by rw [List.map_cons, r2, q2]⟩
      rw [mapRes, r1, Res.ok_bind, q1]; rfl

theorem wrap64_small {n : Nat} (h : n < 2 ^ 63) : wrap64 n = n := by
  unfold wrap64
  exact Int.bmod_eq_of_le (by push_cast; omega) (by push_cast; omega)

/-- a classifier is parsed to its trees, prior and counts -/
theorem parse_classifier {P : Platform} {m : Machine} {M : SkModel} {v : PyVal} {x : PVal} (h : IsClassifier M v) (ok : M.OK P.maxAlloc)
    (hx : Denotes m.arrays m.dicts x v) :
    ∃ g, parseSkBoosting P m x = .ok g ∧ g.nClasses = M.classes ∧ g.nEstimators = M.estimators ∧ g.maxFeatures = M.maxFeatures ∧
      g.learningRate = M.learningRate ∧ g.estimators.map SkRegressor.tree = M.trees ∧
      skBases P g.initEstimator M.groups = .ok M.prior := by
  obtain ⟨kvs, loss, init, classes, labels, ests, dtype, e, list, hi, h1, h2, h3, h4, h5, h6, h7, h8, h9, h10, h11, h12⟩ := h
  obtain ⟨c1, c2, c3⟩ := ok.counts
  have hgr : 1 ≤ M.groups ∧ M.groups ≤ M.classes := by unfold SkModel.groups; split <;> omega
  obtain ⟨al1, al2⟩ := ok.alloc
  obtain ⟨x1, x2, ref, cells, rfl, g1, g2⟩ := denotes_instance hi hx
  obtain ⟨xl, l1, l2⟩ := dict_value g2 h3
  obtain ⟨xi, i1, i2⟩ := dict_value g2 h4
  obtain ⟨xc, cc1, cc2⟩ := dict_value g2 h6
  obtain ⟨xe, ee1, ee2⟩ := dict_value g2 h10
  cases (show xl = _ from l2)
  obtain ⟨ie, p1, p2⟩ := parse_init (P := P) h5 i2 hgr.1 (le_trans (Nat.mul_le_mul_right 8 hgr.2) al1)
  obtain ⟨d, y, -, -, -, hy, -, a6⟩ := parse_array h11 ee2
  obtain ⟨arr, len, ar, rfl, b1, b2, b3⟩ := hy
  have hel : listElems m arr len = .ok (ar.elems.take len) := by unfold listElems; rw [Res.idx_eq_ok.2 b1]; rfl
  have hpa := a6 arr len _ rfl hel
  have hf2 := (denotesSeq_toList _ _).1 b3
  obtain ⟨rs, r1, r2⟩ := forall₂_parse (P := P) h12 hf2 fun t ht => (ok.treeAlloc t ht).2
  have hlen : (ar.elems.take len).length = M.estimators * M.groups := by rw [hf2.length_eq, ← h12.length_eq, c3]
  have hle : M.estimators * M.groups ≤ M.estimators * M.classes := Nat.mul_le_mul_left _ hgr.2
  have hint := ok.int
  refine ⟨⟨M.classes, labels, M.estimators, M.maxFeatures, rs, M.learningRate, ie⟩, ?_, rfl, rfl, rfl, rfl, r2, p2⟩
  show ((reconstructor _ _ "sklearn.ensemble.gradient_boosting" "GradientBoostingClassifier" >>= _) >>= _) = _
  rw [reconstructor_octets]
  show (Res.idx m.dicts ref >>= _) = _
  rw [Res.idx_eq_ok.2 g1, Res.ok_bind, dict_int g2 h1, Res.ok_bind, dict_float g2 h2, Res.ok_bind, l1, Res.ok_bind]
  show (toUnicode (.unicode loss) >>= _) = _
  rw [show toUnicode (.unicode loss) = .ok loss from rfl, Res.ok_bind, i1, Res.ok_bind, p1, Res.ok_bind, cc1, Res.ok_bind,
    parse_ints h7 cc2 (by omega) (by exact_mod_cast al1), Res.ok_bind, dict_int g2 h8, Res.ok_bind, dict_int g2 h9, Res.ok_bind, ee1,
    Res.ok_bind, hpa, Res.ok_bind]
  dsimp only
  have hadj : (if (M.classes : Int) = 2 then (1 : Int) else M.classes) = M.groups := by
    unfold SkModel.groups
    by_cases hc : M.classes = 2
    · rw [if_pos (by exact_mod_cast hc), if_pos hc]; rfl
    · rw [if_neg (by exact_mod_cast hc), if_neg hc]
  rw [hadj, if_neg (by simp), if_neg, allocCheck_of (k := (ar.elems.take len).length) rfl (by rw [hlen]; omega), Res.ok_bind, r1]
  · rfl
  · rw [hlen, show ((M.estimators : Int) * (M.groups : Int)) = ((M.estimators * M.groups : Nat) : Int) by push_cast; rfl,
      wrap64_small (by omega)]
    simp

end Leaves
