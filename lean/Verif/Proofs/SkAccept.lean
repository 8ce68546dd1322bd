import Verif.Props.SkModel
import Verif.Spec.SkAccept
import Verif.Proofs.XgInv

/-! # From parsed objects back to the pickled values -/

namespace Leaves

open Pickle Spec

variable {A : List Arr} {D : List DictCells}

/-! ### values from objects -/

theorem denotes_build {o z : PVal} {v : PyVal} (h : Denotes A D (.build o z) v) :
    ∃ y ys f args s, o = .reduce y ys ∧ v = .build f args s ∧ Denotes A D y f ∧ DenotesSeq A D ys args ∧ Denotes A D z s := by
  cases v with
  | build f args s =>
    obtain ⟨y, ys, z', e, h1, h2, h3⟩ := h
    cases e
    exact ⟨y, ys, f, args, s, rfl, rfl, h1, h2, h3⟩
  | _ => simp [Denotes] at h

theorem denotes_reduce {y : PVal} {ys : List PVal} {v : PyVal} (h : Denotes A D (.reduce y ys) v) :
    ∃ f args, (v = .reduce f args ∨ ∃ s, v = .again f args s) ∧ Denotes A D y f ∧ DenotesSeq A D ys args := by
  cases v with
  | reduce f args =>
    obtain ⟨y', ys', e, h1, h2⟩ := h
    cases e
    exact ⟨f, args, .inl rfl, h1, h2⟩
  | again f args s =>
    obtain ⟨y', ys', e, h1, h2⟩ := h
    cases e
    exact ⟨f, args, .inr ⟨s, rfl⟩, h1, h2⟩
  | _ => simp [Denotes] at h

theorem denotes_global {m n : Bytes} {v : PyVal} (h : Denotes A D (.global m n) v) : v = .global m n := by
  cases v <;> simp_all [Denotes]

theorem denotes_int {i : Int} {v : PyVal} (h : Denotes A D (.int i) v) : v = .int i := by
  cases v <;> simp_all [Denotes]

theorem denotes_float {x : F64} {v : PyVal} (h : Denotes A D (.float x) v) : v = .float x := by
  cases v <;> simp_all [Denotes]

theorem denotes_unicode {s : Bytes} {v : PyVal} (h : Denotes A D (.unicode s) v) : v = .str s := by
  cases v <;> simp_all [Denotes]

theorem denotes_tuple {xs : List PVal} {v : PyVal} (h : Denotes A D (.tuple xs) v) : ∃ vs, v = .tuple vs ∧ DenotesSeq A D xs vs := by
  cases v with
  | tuple vs =>
    obtain ⟨xs', e, h⟩ := h
    cases e
    exact ⟨vs, rfl, h⟩
  | _ => simp [Denotes] at h

theorem denotes_list {arr len : Nat} {v : PyVal} (h : Denotes A D (.list arr len) v) :
    ∃ vs a, v = .list vs ∧ A[arr]? = some a ∧ DenotesSeq A D (a.elems.take len) vs := by
  cases v with
  | list vs =>
    obtain ⟨arr', len', a, e, h1, -, h⟩ := h
    cases e
    exact ⟨vs, a, rfl, h1, h⟩
  | _ => simp [Denotes] at h

theorem denotes_dict {ref : Nat} {v : PyVal} (h : Denotes A D (.dict ref) v) :
    ∃ kvs cells, v = .dict kvs ∧ D[ref]? = some cells ∧ DenotesMap A D cells kvs := by
  cases v with
  | dict kvs =>
    obtain ⟨ref', cells, e, h1, h⟩ := h
    cases e
    exact ⟨kvs, cells, rfl, h1, h⟩
  | _ => simp [Denotes] at h

theorem denotesSeq_inv : ∀ {xs : List PVal} {vs : PySeq}, DenotesSeq A D xs vs → ∃ l, vs = .ofList l ∧ List.Forall₂ (Denotes A D) xs l
  | xs, .nil, h => by
    cases (show xs = [] from h)
    exact ⟨[], rfl, .nil⟩
  | xs, .cons v vs, h => by
    obtain ⟨x, rest, rfl, h1, h2⟩ := h
    obtain ⟨l, rfl, hl⟩ := denotesSeq_inv h2
    exact ⟨v :: l, rfl, .cons h1 hl⟩

theorem ofList_toList : ∀ l : List PyVal, (PySeq.ofList l).toList = l
  | [] => rfl
  | x :: l => congrArg (x :: ·) (ofList_toList l)

/-- the value of an attribute that was found -/
theorem value_attr {kvs : PyMap} {cells : DictCells} {k : String} {x : PVal} (h : DenotesMap A D cells kvs)
    (hx : DictCells.value cells k = .ok x) : ∃ v, kvs.attr k = some v ∧ Denotes A D x v := by
  have := denotes_lookup kvs cells (octets k.toList) h
  unfold DictCells.value at hx
  cases hv : kvs.get (octets k.toList) with
  | none =>
    rw [hv] at this
    rw [show Pickle.lookup (str k) cells = none from this] at hx
    cases hx
  | some v =>
    rw [hv] at this
    obtain ⟨y, h1, h2⟩ := this
    rw [show Pickle.lookup (str k) cells = some y from h1] at hx
    cases hx
    exact ⟨v, hv, h2⟩

theorem asInt_inv {x : PVal} {i : Int} (h : asInt x = .ok i) : x = .int i := by
  cases x <;> first | (cases h; rfl) | cases h

theorem int_attr {kvs : PyMap} {cells : DictCells} {k : String} {i : Int} (h : DenotesMap A D cells kvs)
    (hx : DictCells.toInt cells k = .ok i) : kvs.attr k = some (.int i) := by
  obtain ⟨x, h1, h2⟩ := Res.bind_eq_ok.1 hx
  obtain ⟨v, h3, h4⟩ := value_attr h h1
  cases asInt_inv h2
  rw [h3, denotes_int h4]

theorem float_attr {kvs : PyMap} {cells : DictCells} {k : String} {y : F64} (h : DenotesMap A D cells kvs)
    (hx : DictCells.toFloat cells k = .ok y) : kvs.attr k = some (.float y) := by
  obtain ⟨x, h1, h2⟩ := Res.bind_eq_ok.1 hx
  obtain ⟨v, h3, h4⟩ := value_attr h h1
  cases x with
  | float z => cases h2; rw [h3, denotes_float h4]
  | _ => cases h2

theorem toUnicode_inv {x : PVal} {b : Bytes} (h : toUnicode x = .ok b) : x = .unicode b := by
  cases x <;> first | (cases h; rfl) | cases h

theorem toTuple_inv {x : PVal} {n : Nat} {t : List PVal} (h : toTuple x n = .ok t) : x = .tuple t ∧ t.length = n := by
  cases x with
  | tuple u =>
    simp only [toTuple] at h
    split at h
    · cases h
    · cases h
      exact ⟨rfl, by omega⟩
  | _ => cases h

theorem toDict_inv {m : Machine} {x : PVal} {d : DictCells} (h : toDict m x = .ok d) : ∃ ref, x = .dict ref ∧ m.dicts[ref]? = some d := by
  cases x with
  | dict ref => exact ⟨ref, rfl, Res.idx_eq_ok.1 h⟩
  | _ => cases h

theorem toGlobal_inv {x : PVal} {modul name : String} {r : Bytes × Bytes} (h : toGlobal x modul name = .ok r) (hm : modul ≠ "") :
    x = .global (octets modul.toList) r.2 ∧ (name ≠ "" → r.2 = octets name.toList) := by
  cases x with
  | global m n =>
    simp only [toGlobal] at h
    split at h
    · cases h
    rename_i h1
    split at h
    · cases h
    rename_i h2
    cases h
    refine ⟨?_, fun hn => ?_⟩
    · have : m = str modul := by
        by_contra hc
        exact h1 ⟨hm, hc⟩
      rw [this]; rfl
    · by_contra hc
      exact h2 ⟨hn, hc⟩
  | _ => cases h

theorem toGlobal_name {x : PVal} {modul name : String} {r : Bytes × Bytes} {v : PyVal} (h : toGlobal x modul name = .ok r) (hm : modul ≠ "")
    (hn : name ≠ "") (hv : Denotes A D x v) : v = pyName modul name := by
  obtain ⟨rfl, h2⟩ := toGlobal_inv h hm
  rw [denotes_global hv, h2 hn]
  rfl

theorem parseClass_inv {α : Type} {reduceF : PVal → List PVal → Res α} {buildF : α → PVal → Res α} {x : PVal} {a : α} {v : PyVal}
    (h : parseClass reduceF buildF x = .ok a) (hv : Denotes A D x v) :
    (∃ y ys f args, (v = .reduce f args ∨ ∃ s, v = .again f args s) ∧ Denotes A D y f ∧ DenotesSeq A D ys args ∧ reduceF y ys = .ok a) ∨
    ∃ y ys z f args s b, v = .build f args s ∧ Denotes A D y f ∧ DenotesSeq A D ys args ∧ Denotes A D z s ∧ reduceF y ys = .ok b ∧
      buildF b z = .ok a := by
  cases x with
  | build o z =>
    obtain ⟨y, ys, f, args, s, rfl, rfl, h1, h2, h3⟩ := denotes_build hv
    obtain ⟨b, h4, h5⟩ := Res.bind_eq_ok.1 h
    exact .inr ⟨y, ys, z, f, args, s, b, rfl, h1, h2, h3, h4, h5⟩
  | reduce y ys =>
    obtain ⟨f, args, h1, h2, h3⟩ := denotes_reduce hv
    exact .inl ⟨y, ys, f, args, h1, h2, h3, h⟩
  | _ => cases h

/-! ### numpy -/

theorem dtype_reduce {y : PVal} {ys : List PVal} {f : PyVal} {args : PySeq} {d : DType} (hf : Denotes A D y f) (ha : DenotesSeq A D ys args)
    (h : (do
      let _ ← toGlobal y "numpy" "dtype"
      match ys with
      | [a0, _, _] => do
        let u ← toUnicode a0
        return { type := u, littleEndian := true }
      | _ => .err "not expected tuple" : Res DType) = .ok d) :
    ∃ a b, f = pyName "numpy" "dtype" ∧ args = .ofList [.str d.type, a, b] ∧ d.littleEndian = true := by
  obtain ⟨r, h1, h⟩ := Res.bind_eq_ok.1 h
  have e := toGlobal_name h1 (by decide) (by decide) hf
  obtain ⟨l, rfl, hl⟩ := denotesSeq_inv ha
  split at h
  · obtain ⟨u, h2, h⟩ := Res.bind_eq_ok.1 h
    cases h
    cases toUnicode_inv h2
    rcases hl with _ | ⟨k1, _ | ⟨k2, _ | ⟨k3, _ | _⟩⟩⟩
    rw [denotes_unicode k1]
    exact ⟨_, _, e, rfl, rfl⟩
  · cases h

theorem parseDType_inv {x : PVal} {v : PyVal} {d : DType} (hv : Denotes A D x v) (h : parseDType x = .ok d) : HasDType d.type d.littleEndian v := by
  rcases parseClass_inv h hv with ⟨y, ys, f, args, hc, hf, ha, h⟩ | ⟨y, ys, z, f, args, s, b, rfl, hf, ha, hs, h, h'⟩
  · obtain ⟨a, b, rfl, rfl, e⟩ := dtype_reduce hf ha h
    rw [e]
    exact .called a b v hc
  · obtain ⟨a, c, rfl, rfl, e⟩ := dtype_reduce hf ha h
    obtain ⟨t, h1, g⟩ := Res.bind_eq_ok.1 h'
    clear h'
    obtain ⟨rfl, hlen⟩ := toTuple_inv h1
    clear h1
    obtain ⟨vs, rfl, hvs⟩ := denotes_tuple hs
    obtain ⟨l, rfl, hl⟩ := denotesSeq_inv hvs
    rcases hl with _ | ⟨k1, _ | ⟨k2, hl⟩⟩
    · cases hlen
    · cases hlen
    · obtain ⟨u, h2, g'⟩ := Res.bind_eq_ok.1 g
      clear g
      cases toUnicode_inv h2
      split at g'
      · cases g'
        rcases hl with _ | ⟨_, _ | ⟨_, _ | ⟨_, _ | ⟨_, _ | ⟨_, _ | ⟨_, _ | _⟩⟩⟩⟩⟩⟩ <;> first | (exfalso; simp at hlen; done) | skip
        rw [denotes_unicode k2]
        exact .built _ _ _ _ _ _ _ _ _ _ _ _ (by rw [decide_eq_true_iff]; rfl) rfl
      · cases g'

theorem rawBytes_reduce {y : PVal} {ys : List PVal} {f : PyVal} {args : PySeq} {bs : Bytes} (hf : Denotes A D y f) (ha : DenotesSeq A D ys args)
    (h : (do
      let _ ← toGlobal y "_codecs" "encode"
      match ys with
      | [a0, _] => toUnicode a0
      | _ => .err "not expected tuple" : Res Bytes) = .ok bs) :
    ∃ coding, f = pyName "_codecs" "encode" ∧ args = .ofList [.str bs, coding] := by
  obtain ⟨r, h1, h⟩ := Res.bind_eq_ok.1 h
  have e := toGlobal_name h1 (by decide) (by decide) hf
  obtain ⟨l, rfl, hl⟩ := denotesSeq_inv ha
  split at h
  · cases toUnicode_inv h
    rcases hl with _ | ⟨k1, _ | ⟨k2, _ | _⟩⟩
    rw [denotes_unicode k1]
    exact ⟨_, e, rfl⟩
  · cases h

theorem parseRawBytes_inv {x : PVal} {v : PyVal} {bs : Bytes} (hv : Denotes A D x v) (h : parseRawBytes x = .ok bs) : HasBytes bs v := by
  rcases parseClass_inv h hv with ⟨y, ys, f, args, hc, hf, ha, h⟩ | ⟨y, ys, z, f, args, s, b, rfl, hf, ha, hs, h, h'⟩
  · obtain ⟨coding, rfl, rfl⟩ := rawBytes_reduce hf ha h
    exact ⟨coding, .inl hc⟩
  · obtain ⟨coding, rfl, rfl⟩ := rawBytes_reduce hf ha h
    cases h'
    exact ⟨coding, .inr ⟨s, rfl⟩⟩

theorem parseShape_inv : ∀ {xs : List PVal} {l : List PyVal} {shape : List Int}, List.Forall₂ (Denotes A D) xs l → parseShape xs = .ok shape →
    l = shape.map PyVal.int
  | [], l, shape, h, hs => by cases h; cases hs; rfl
  | x :: xs, l, shape, h, hs => by
    cases h with
    | cons h1 h2 =>
      rw [parseShape] at hs
      obtain ⟨i, h3, hs⟩ := Res.bind_eq_ok.1 hs
      obtain ⟨is, h4, hs⟩ := Res.bind_eq_ok.1 hs
      cases hs
      cases asInt_inv h3
      rw [denotes_int h1, parseShape_inv h2 h4]
      rfl

theorem listElems_inv {m : Machine} {arr len : Nat} {es : List PVal} {v : PyVal} (hv : Denotes m.arrays m.dicts (.list arr len) v)
    (h : listElems m arr len = .ok es) : ∃ list, v = .list list ∧ List.Forall₂ (Denotes m.arrays m.dicts) es list.toList := by
  obtain ⟨vs, a, rfl, h1, h2⟩ := denotes_list hv
  obtain ⟨a', h3, h⟩ := Res.bind_eq_ok.1 h
  cases (Res.idx_eq_ok.1 h3).symm.trans h1
  cases h
  exact ⟨vs, rfl, (denotesSeq_toList _ _).1 h2⟩

/-- an array that was parsed, if it has a state -/
theorem parseArray_inv {m : Machine} {x : PVal} {v : PyVal} {a : Pickle.Array} (hv : Denotes m.arrays m.dicts x v) (h : parseArray m x = .ok a)
    (ht : a.type.type ≠ [] ∨ a.shape ≠ []) :
    ∃ data, HasArray a.shape a.type.type a.type.littleEndian data v ∧
      ((HasBytes a.data data ∧ a.dataList = []) ∨
        a.data = [] ∧ ∃ list, data = .list list ∧ List.Forall₂ (Denotes m.arrays m.dicts) a.dataList list.toList) := by
  rcases parseClass_inv h hv with ⟨y, ys, f, args, hc, hf, ha, h⟩ | ⟨y, ys, z, f, args, s, b, rfl, hf, ha, hs, h, h'⟩
  · obtain ⟨r, -, hnew⟩ := Res.bind_eq_ok.1 h; clear h; rename' hnew => h
    split at h
    · obtain ⟨r, -, hnew⟩ := Res.bind_eq_ok.1 h; clear h; rename' hnew => h
      cases h
      rcases ht with ht | ht <;> exact absurd rfl ht
    · cases h
  · obtain ⟨r, h1, hnew⟩ := Res.bind_eq_ok.1 h; clear h; rename' hnew => h
    cases toGlobal_name h1 (by decide) (by decide) hf
    obtain ⟨l, rfl, hl⟩ := denotesSeq_inv ha
    split at h
    · obtain ⟨r, h2, hnew⟩ := Res.bind_eq_ok.1 h; clear h; rename' hnew => h
      cases h
      rcases hl with _ | ⟨k1, _ | ⟨k2, _ | ⟨k3, _ | _⟩⟩⟩
      cases toGlobal_name h2 (by decide) (by decide) k1
      obtain ⟨t, h3, g⟩ := Res.bind_eq_ok.1 h'
      clear h'
      obtain ⟨rfl, hlen⟩ := toTuple_inv h3
      clear h3
      obtain ⟨vs, rfl, hvs⟩ := denotes_tuple hs
      obtain ⟨l, rfl, hl⟩ := denotesSeq_inv hvs
      rcases hl with _ | ⟨q0, _ | ⟨q1, _ | ⟨q2, _ | ⟨q3, _ | ⟨q4, _ | _⟩⟩⟩⟩⟩ <;> first | (exfalso; simp at hlen; done) | skip
      obtain ⟨i, g0, h'⟩ := Res.bind_eq_ok.1 g
      clear g
      cases asInt_inv g0
      cases denotes_int q0
      split at h'
      · obtain ⟨shape, g1, hnew⟩ := Res.bind_eq_ok.1 h'; clear h'; rename' hnew => h'
        obtain ⟨ds, rfl, hds⟩ := denotes_tuple q1
        obtain ⟨l, rfl, hl⟩ := denotesSeq_inv hds
        cases parseShape_inv hl g1
        obtain ⟨d, g2, hnew⟩ := Res.bind_eq_ok.1 h'; clear h'; rename' hnew => h'
        have hd := parseDType_inv q2 g2
        obtain ⟨fortran, g3, hnew⟩ := Res.bind_eq_ok.1 h'; clear h'; rename' hnew => h'
        cases asInt_inv g3
        cases denotes_int q3
        by_cases hfo : fortran = 0
        · subst hfo
          rw [if_neg fun hc => hc rfl] at h'
          split at h'
          · obtain ⟨bs, g4, hnew⟩ := Res.bind_eq_ok.1 h'; clear h'; rename' hnew => h'
            cases h'
            exact ⟨_, ⟨_, _, _, _, hd, rfl⟩, .inl ⟨parseRawBytes_inv q4 g4, rfl⟩⟩
          · obtain ⟨bs, g4, hnew⟩ := Res.bind_eq_ok.1 h'; clear h'; rename' hnew => h'
            cases h'
            exact ⟨_, ⟨_, _, _, _, hd, rfl⟩, .inl ⟨parseRawBytes_inv q4 g4, rfl⟩⟩
          · obtain ⟨es, g4, hnew⟩ := Res.bind_eq_ok.1 h'; clear h'; rename' hnew => h'
            cases h'
            obtain ⟨list, rfl, hl⟩ := listElems_inv q4 g4
            exact ⟨_, ⟨_, _, _, _, hd, rfl⟩, .inr ⟨rfl, list, rfl, hl⟩⟩
          · cases h'
        · rw [if_pos hfo] at h'
          cases h'
      · cases h'
    · cases h

theorem scalar_reduce {y : PVal} {ys : List PVal} {f : PyVal} {args : PySeq} {r : DType × Bytes} (hf : Denotes A D y f) (ha : DenotesSeq A D ys args)
    (h : (do
      let _ ← toGlobal y "numpy.core.multiarray" "scalar"
      match ys with
      | [a0, a1] => do
        let type ← parseDType a0
        let data ← parseRawBytes a1
        return (type, data)
      | _ => .err "not expected tuple" : Res (DType × Bytes)) = .ok r) :
    ∃ dtype data, HasDType r.1.type r.1.littleEndian dtype ∧ HasBytes r.2 data ∧ f = pyName "numpy.core.multiarray" "scalar" ∧
      args = .ofList [dtype, data] := by
  obtain ⟨_, h1, h⟩ := Res.bind_eq_ok.1 h
  have e := toGlobal_name h1 (by decide) (by decide) hf
  obtain ⟨l, rfl, hl⟩ := denotesSeq_inv ha
  split at h
  · obtain ⟨d, h2, h⟩ := Res.bind_eq_ok.1 h
    obtain ⟨bs, h3, h⟩ := Res.bind_eq_ok.1 h
    cases h
    rcases hl with _ | ⟨k1, _ | ⟨k2, _ | _⟩⟩
    exact ⟨_, _, parseDType_inv k1 h2, parseRawBytes_inv k2 h3, e, rfl⟩
  · cases h

theorem parseScalar_inv {x : PVal} {v : PyVal} {d : DType} {bs : Bytes} {t : String} (hv : Denotes A D x v) (h : parseScalar x = .ok (d, bs))
    (ht : d.type = octets t.toList) : HasScalar t d.littleEndian bs v := by
  rcases parseClass_inv h hv with ⟨y, ys, f, args, hc, hf, ha, h⟩ | ⟨y, ys, z, f, args, s, b, rfl, hf, ha, hs, h, h'⟩
  · obtain ⟨dtype, data, h1, h2, rfl, rfl⟩ := scalar_reduce hf ha h
    exact ⟨dtype, data, ht ▸ h1, h2, .inl hc⟩
  · obtain ⟨dtype, data, h1, h2, rfl, rfl⟩ := scalar_reduce hf ha h
    cases h'
    exact ⟨dtype, data, ht ▸ h1, h2, .inr ⟨s, rfl⟩⟩

theorem iterate_cover {α : Type} (f : α → Bytes) (k : Nat) (hf : ∀ c : Bytes, c.length = k + 1 → ∃ a, c = f a) {b : Bytes} {cs : List Bytes}
    (h : iterate k b = .ok cs) : ∃ as : List α, b = as.flatMap f := by
  unfold iterate at h
  split at h
  · cases h
  rename_i hm
  have hd : (k + 1) ∣ b.length := by
    by_contra hc
    exact hm fun h => hc (Nat.dvd_of_mod_eq_zero h)
  obtain ⟨n, hn⟩ := hd
  clear h hm
  induction n generalizing b with
  | zero => exact ⟨[], List.length_eq_zero_iff.1 (by rw [hn, Nat.mul_zero])⟩
  | succ n ih =>
    rw [Nat.mul_succ] at hn
    obtain ⟨a, ha⟩ := hf (b.take (k + 1)) (by rw [List.length_take]; omega)
    obtain ⟨as, has⟩ := ih (b := b.drop (k + 1)) (by rw [List.length_drop]; omega)
    exact ⟨a :: as, by rw [List.flatMap_cons, ← ha, ← has, List.take_append_drop]⟩

theorem field64_cover {c : Bytes} (h : c.length = 8) : ∃ w, c = field64 w := by
  refine ⟨BitVec.ofNat 64 (Util.leNat c), ?_⟩
  have := bytesLE_leNat c
  rw [h] at this
  unfold field64
  rw [BitVec.toNat_ofNat]
  have key : ∀ d : Bytes, Util.leNat d < 256 ^ d.length := by
    intro d
    induction d with
    | nil => simp [Util.leNat]
    | cons x d ih =>
      have := x.isLt
      simp only [Util.leNat, List.length_cons, Nat.pow_succ]
      omega
  have hk := key c
  rw [h] at hk
  rw [Nat.mod_eq_of_lt (by simpa using hk)]
  exact this.symm

theorem word_cover (little : Bool) {c : Bytes} (h : c.length = 8) : ∃ w, c = if little then field64 w else (field64 w).reverse := by
  cases little with
  | true => exact field64_cover h
  | false =>
    obtain ⟨w, hw⟩ := field64_cover (c := c.reverse) (by rw [List.length_reverse, h])
    exact ⟨w, by rw [if_neg (by decide), ← hw, List.reverse_reverse]⟩

theorem word_length (little : Bool) (w : BitVec 64) : (if little then field64 w else (field64 w).reverse).length = 7 + 1 := by
  cases little
  · rw [if_neg (by decide), List.length_reverse, field64_length]
  · rw [if_pos rfl, field64_length]

theorem float_word (little : Bool) (w : BitVec 64) :
    Util.float64FromBytes (if little then field64 w else (field64 w).reverse) little = .ok (F64.ofBits w) := by
  cases little
  · exact float64_field64_rev w
  · exact float64_field64 w

theorem floats_inv {little : Bool} {b : Bytes} {cs : List Bytes} {xs : List F64} (h : iterate 7 b = .ok cs)
    (h' : mapRes (Util.float64FromBytes · little) cs = .ok xs) : ∃ ws, b = wordBytes little ws ∧ xs = ws.map F64.ofBits := by
  obtain ⟨ws, rfl⟩ := iterate_cover _ 7 (fun c hc => word_cover little hc) h
  rw [iterate_flatMap _ 7 (word_length little)] at h
  cases h
  rw [mapRes_map _ _ F64.ofBits (float_word little)] at h'
  cases h'
  exact ⟨ws, rfl, rfl⟩

theorem ints_inv {b : Bytes} {cs : List Bytes} {is : List Int} (h : iterate 7 b = .ok cs) (h' : mapRes int64LE cs = .ok is) :
    ∃ ws, b = wordBytes true ws ∧ is = ws.map BitVec.toInt := by
  obtain ⟨ws, rfl⟩ := iterate_cover _ 7 (fun c hc => field64_cover hc) h
  rw [iterate_flatMap _ 7 field64_length] at h
  cases h
  rw [mapRes_map _ _ BitVec.toInt int64LE_field64] at h'
  cases h'
  exact ⟨ws, rfl, rfl⟩

theorem nodes_inv {b : Bytes} {cs : List Bytes} {ns : List SkNode} (h : iterate 55 b = .ok cs) (h' : mapRes skNodeFromBytes cs = .ok ns) :
    ∃ ws : List NodeWords, b = ws.flatMap NodeWords.record ∧ ns = ws.map NodeWords.node := by
  obtain ⟨ws, rfl⟩ := iterate_cover NodeWords.record 55 (fun c hc => by
    obtain ⟨l, r, f, t, im, s, w, rfl⟩ := C54_records_covered c hc
    exact ⟨⟨l, r, f, t, im, s, w⟩, rfl⟩) h
  rw [iterate_flatMap _ 55 nodeWords_length] at h
  cases h
  rw [mapRes_map _ _ NodeWords.node skNode_words] at h'
  cases h'
  exact ⟨ws, rfl, rfl⟩

theorem arrayBytes_of {m : Machine} {a : Pickle.Array} {data : PyVal} (h : (HasBytes a.data data ∧ a.dataList = []) ∨
    a.data = [] ∧ ∃ list, data = .list list ∧ List.Forall₂ (Denotes m.arrays m.dicts) a.dataList list.toList) : ArrayBytes a.data data := by
  rcases h with ⟨h, -⟩ | ⟨h, list, h', -⟩
  · exact .inl h
  · exact .inr ⟨h, list, h'⟩

theorem parseIntArray_inv {P : Platform} {m : Machine} {x : PVal} {v : PyVal} {n : Int} {is : List Int} (hv : Denotes m.arrays m.dicts x v)
    (h : parseIntArray P m x n = .ok is) : HasIntArray is v := by
  obtain ⟨a, h1, h⟩ := Res.bind_eq_ok.1 h
  obtain ⟨bad, -, h⟩ := Res.bind_eq_ok.1 h
  cases bad with
  | true => cases h
  | false =>
    rw [if_neg (by decide)] at h
    split at h
    · cases h
    rename_i ht
    rw [not_or] at ht
    have e1 : a.type.type = octets "i8".toList := Decidable.not_not.1 ht.1
    have e2 : a.type.littleEndian = true := by simpa using ht.2
    obtain ⟨-, -, h⟩ := Res.bind_eq_ok.1 h
    obtain ⟨cs, h2, h⟩ := Res.bind_eq_ok.1 h
    obtain ⟨data, h3, h4⟩ := parseArray_inv hv h1 (.inl (by rw [e1]; decide))
    obtain ⟨ws, h5, h6⟩ := ints_inv h2 h
    rw [e1, e2] at h3
    exact ⟨_, ws, data, h3, h5 ▸ arrayBytes_of h4, h6⟩

theorem parseFloatArray_inv {m : Machine} {x : PVal} {v : PyVal} {a : Pickle.Array} {cs : List Bytes} {xs : List F64} (hv : Denotes m.arrays m.dicts x v)
    (h : parseArray m x = .ok a) (ht : a.type.type = octets "f8".toList) (hc : iterate 7 a.data = .ok cs)
    (hx : mapRes (Util.float64FromBytes · a.type.littleEndian) cs = .ok xs) : HasFloatArray xs v := by
  obtain ⟨data, h3, h4⟩ := parseArray_inv hv h (.inl (by rw [ht]; decide))
  obtain ⟨ws, h5, h6⟩ := floats_inv hc hx
  rw [ht] at h3
  exact ⟨_, _, ws, data, h3, h5 ▸ arrayBytes_of h4, h6⟩

/-! ### scikit-learn -/

theorem parseSkTree_inv {P : Platform} {m : Machine} {x : PVal} {v : PyVal} {t : SkTree} (hv : Denotes m.arrays m.dicts x v)
    (h : parseSkTree P m x = .ok t) (hn : t.nodes ≠ []) : HasTree t v := by
  rcases parseClass_inv h hv with ⟨y, ys, f, args, hc, hf, ha, h⟩ | ⟨y, ys, z, f, args, s, b, rfl, hf, ha, hs, h, h'⟩
  · obtain ⟨_, -, hnew⟩ := Res.bind_eq_ok.1 h; clear h; rename' hnew => h
    split at h
    · obtain ⟨_, -, hnew⟩ := Res.bind_eq_ok.1 h; clear h; rename' hnew => h
      obtain ⟨_, -, hnew⟩ := Res.bind_eq_ok.1 h; clear h; rename' hnew => h
      cases h
      exact absurd rfl hn
    · cases h
  · obtain ⟨_, h1, hnew⟩ := Res.bind_eq_ok.1 h; clear h; rename' hnew => h
    cases toGlobal_name h1 (by decide) (by decide) hf
    obtain ⟨l, rfl, hl⟩ := denotesSeq_inv ha
    split at h
    · obtain ⟨nOutputs, h2, hnew⟩ := Res.bind_eq_ok.1 h; clear h; rename' hnew => h
      obtain ⟨classes, h3, hnew⟩ := Res.bind_eq_ok.1 h; clear h; rename' hnew => h
      cases h
      rcases hl with _ | ⟨k1, _ | ⟨k2, _ | ⟨k3, _ | _⟩⟩⟩
      cases asInt_inv h2
      cases denotes_int k3
      have hcl := parseIntArray_inv k2 h3
      obtain ⟨d, g1, hnew⟩ := Res.bind_eq_ok.1 h'; clear h'; rename' hnew => h'
      obtain ⟨ref, rfl, g2⟩ := toDict_inv g1
      obtain ⟨kvs, cells, rfl, g3, hmap⟩ := denotes_dict hs
      cases g2.symm.trans g3
      obtain ⟨nNodes, g4, hnew⟩ := Res.bind_eq_ok.1 h'; clear h'; rename' hnew => h'
      obtain ⟨xn, g5, hnew⟩ := Res.bind_eq_ok.1 h'; clear h'; rename' hnew => h'
      obtain ⟨vn, a5, d5⟩ := value_attr hmap g5
      obtain ⟨an, g6, hnew⟩ := Res.bind_eq_ok.1 h'; clear h'; rename' hnew => h'
      by_cases ht : an.type.type ≠ str "V56"
      · rw [if_pos ht] at h'; cases h'
      rw [if_neg ht] at h'
      have ht : an.type.type = octets "V56".toList := Decidable.not_not.1 ht
      obtain ⟨cs, g7, hnew⟩ := Res.bind_eq_ok.1 h'; clear h'; rename' hnew => h'
      obtain ⟨ns, g8, hnew⟩ := Res.bind_eq_ok.1 h'; clear h'; rename' hnew => h'
      obtain ⟨xv, g9, hnew⟩ := Res.bind_eq_ok.1 h'; clear h'; rename' hnew => h'
      obtain ⟨vv, a9, d9⟩ := value_attr hmap g9
      obtain ⟨av, g10, hnew⟩ := Res.bind_eq_ok.1 h'; clear h'; rename' hnew => h'
      by_cases ht' : av.type.type ≠ str "f8"
      · rw [if_pos ht'] at h'; cases h'
      rw [if_neg ht'] at h'
      obtain ⟨cs', g11, hnew⟩ := Res.bind_eq_ok.1 h'; clear h'; rename' hnew => h'
      obtain ⟨xs, g12, hnew⟩ := Res.bind_eq_ok.1 h'; clear h'; rename' hnew => h'
      cases h'
      obtain ⟨data, q3, q4⟩ := parseArray_inv d5 g6 (.inl (by rw [ht]; decide))
      obtain ⟨ws, q5, q6⟩ := nodes_inv g7 g8
      rw [ht] at q3
      exact ⟨_, _, kvs, vn, vv, rfl, hcl, int_attr hmap g4, a5, ⟨_, _, ws, data, q3, q5 ▸ arrayBytes_of q4, q6⟩, a9,
        parseFloatArray_inv d9 g10 (Decidable.not_not.1 ht') g11 g12⟩
    · cases h

/-- an instance of a class -/
theorem reconstructor_inv {m : Machine} {y : PVal} {ys : List PVal} {f : PyVal} {args : PySeq} {modul name : String} {r : Bytes × Bytes} {z : PVal} {s : PyVal}
    {d : DictCells} (hf : Denotes m.arrays m.dicts y f) (ha : DenotesSeq m.arrays m.dicts ys args) (hs : Denotes m.arrays m.dicts z s)
    (hm : modul ≠ "") (hname : r.2 = octets name.toList) {given : String} (h : reconstructor y ys modul given = .ok r) (hd : toDict m z = .ok d) :
    ∃ kvs, IsInstance modul name kvs (.build f args s) ∧ DenotesMap m.arrays m.dicts d kvs := by
  obtain ⟨_, h1, hnew⟩ := Res.bind_eq_ok.1 h; clear h; rename' hnew => h
  cases toGlobal_name h1 (by decide) (by decide) hf
  obtain ⟨l, rfl, hl⟩ := denotesSeq_inv ha
  split at h
  · rcases hl with _ | ⟨k1, _ | ⟨k2, _ | ⟨k3, _ | _⟩⟩⟩
    obtain ⟨rfl, -⟩ := toGlobal_inv h hm
    cases denotes_global k1
    obtain ⟨ref, rfl, g2⟩ := toDict_inv hd
    obtain ⟨kvs, cells, rfl, g3, hmap⟩ := denotes_dict hs
    cases g2.symm.trans g3
    rw [hname]
    exact ⟨kvs, ⟨_, _, rfl⟩, hmap⟩
  · cases h

theorem reconstructor_name {y : PVal} {ys : List PVal} {modul name : String} {r : Bytes × Bytes} (hm : modul ≠ "") (hn : name ≠ "")
    (h : reconstructor y ys modul name = .ok r) : r.2 = octets name.toList := by
  obtain ⟨_, -, hnew⟩ := Res.bind_eq_ok.1 h; clear h; rename' hnew => h
  split at h
  · exact (toGlobal_inv h hm).2 hn
  · cases h

theorem parseSkRegressor_inv {P : Platform} {m : Machine} {x : PVal} {v : PyVal} {t : SkRegressor} (hv : Denotes m.arrays m.dicts x v)
    (h : parseSkRegressor P m x = .ok t) (hn : t.tree.nodes ≠ []) : HasRegressor t.tree v := by
  rcases parseClass_inv h hv with ⟨y, ys, f, args, hc, hf, ha, h⟩ | ⟨y, ys, z, f, args, s, b, rfl, hf, ha, hs, h, h'⟩
  · obtain ⟨_, -, hnew⟩ := Res.bind_eq_ok.1 h; clear h; rename' hnew => h
    cases h
    exact absurd rfl hn
  · obtain ⟨r, h1, hnew⟩ := Res.bind_eq_ok.1 h; clear h; rename' hnew => h
    obtain ⟨d, h2, hnew⟩ := Res.bind_eq_ok.1 h'; clear h'; rename' hnew => h'
    obtain ⟨kvs, hi, hmap⟩ := reconstructor_inv hf ha hs (by decide) (reconstructor_name (by decide) (by decide) h1) h1 h2
    obtain ⟨xc, g1, hnew⟩ := Res.bind_eq_ok.1 h'; clear h'; rename' hnew => h'
    obtain ⟨vc, a1, d1⟩ := value_attr hmap g1
    obtain ⟨⟨dt, bs⟩, g2, hnew⟩ := Res.bind_eq_ok.1 h'; clear h'; rename' hnew => h'
    dsimp only at h'
    split at h'
    · cases h'
    rename_i ht
    rw [not_or] at ht
    have e2 : dt.littleEndian = true := by simpa using ht.2
    have hsc := parseScalar_inv d1 g2 (t := "i8") (Decidable.not_not.1 ht.1)
    rw [e2] at hsc
    obtain ⟨nClasses, -, hnew⟩ := Res.bind_eq_ok.1 h'; clear h'; rename' hnew => h'
    obtain ⟨mf, g4, hnew⟩ := Res.bind_eq_ok.1 h'; clear h'; rename' hnew => h'
    obtain ⟨no, g5, hnew⟩ := Res.bind_eq_ok.1 h'; clear h'; rename' hnew => h'
    obtain ⟨xt, g6, hnew⟩ := Res.bind_eq_ok.1 h'; clear h'; rename' hnew => h'
    obtain ⟨vt, a6, d6⟩ := value_attr hmap g6
    obtain ⟨tree, g7, hnew⟩ := Res.bind_eq_ok.1 h'; clear h'; rename' hnew => h'
    cases h'
    exact ⟨kvs, vc, bs, mf, no, vt, hi, a1, hsc, int_attr hmap g4, int_attr hmap g5, a6, parseSkTree_inv d6 g7 hn⟩

/-- the initial estimator, once it gives base values to at least one group -/
theorem parseSkInit_inv {P : Platform} {m : Machine} {x : PVal} {v : PyVal} {e : SkInit} {K : Nat} {bases : List F64}
    (hv : Denotes m.arrays m.dicts x v) (h : parseSkInit m x = .ok e) (hK : 1 ≤ K) (hb : skBases P e K = .ok bases) : HasInit K bases v := by
  have hpr : e.prior ≠ [] := by
    intro hc
    obtain ⟨-, -, hb⟩ := Res.bind_eq_ok.1 hb
    rw [hc] at hb
    split at hb
    · rw [Int.toNat_natCast, if_neg (by omega)] at hb
      cases hb
    · split at hb
      · rw [if_pos (by simp; omega)] at hb
        cases hb
      · cases hb
  rcases parseClass_inv h hv with ⟨y, ys, f, args, hc, hf, ha, h⟩ | ⟨y, ys, z, f, args, s, b, rfl, hf, ha, hs, h, h'⟩
  · obtain ⟨_, -, hnew⟩ := Res.bind_eq_ok.1 h; clear h; rename' hnew => h
    cases h
    exact absurd rfl hpr
  · obtain ⟨⟨r1, r2⟩, h1, hnew⟩ := Res.bind_eq_ok.1 h; clear h; rename' hnew => h
    cases h
    dsimp only at h'
    by_cases hl : r2 = str "LogOddsEstimator"
    · rw [if_pos hl] at h'
      obtain ⟨d, h2, hnew⟩ := Res.bind_eq_ok.1 h'; clear h'; rename' hnew => h'
      obtain ⟨kvs, hi, hmap⟩ := reconstructor_inv (name := "LogOddsEstimator") hf ha hs (by decide) hl h1 h2
      obtain ⟨xp, g1, hnew⟩ := Res.bind_eq_ok.1 h'; clear h'; rename' hnew => h'
      obtain ⟨vp, a1, d1⟩ := value_attr hmap g1
      obtain ⟨⟨dt, bs⟩, g2, hnew⟩ := Res.bind_eq_ok.1 h'; clear h'; rename' hnew => h'
      dsimp only at h'
      split at h'
      · cases h'
      rename_i ht
      have hsc := parseScalar_inv d1 g2 (t := "f8") (Decidable.not_not.1 ht)
      obtain ⟨q, g3, hnew⟩ := Res.bind_eq_ok.1 h'; clear h'; rename' hnew => h'
      cases h'
      have hlen : 8 ≤ bs.length := by
        unfold Util.float64FromBytes at g3
        split at g3
        · cases g3
        · omega
      obtain ⟨w, hw⟩ := word_cover dt.littleEndian (c := bs.take 8) (by rw [List.length_take]; omega)
      have hq : q = F64.ofBits w := by
        have e1 : Util.float64FromBytes (bs.take 8) dt.littleEndian = .ok q := by
          rw [← g3]
          unfold Util.float64FromBytes
          rw [if_neg (by rw [List.length_take]; omega), if_neg (by omega), List.take_take, Nat.min_self]
        rw [hw, float_word] at e1
        cases e1
        rfl
      have hbs : bs = wordBytes dt.littleEndian [w] ++ bs.drop 8 := by
        unfold wordBytes
        rw [List.flatMap_cons, List.flatMap_nil, List.append_nil, ← hw, List.take_append_drop]
      obtain ⟨-, -, hb⟩ := Res.bind_eq_ok.1 hb
      dsimp only at hb
      rw [if_pos hl, Int.toNat_natCast, if_neg (by omega)] at hb
      cases hb
      rw [hbs] at hsc
      rw [hq]
      exact .logOdds kvs vp _ dt.littleEndian w _ hi a1 hsc
    · rw [if_neg hl] at h'
      by_cases hl' : r2 = str "PriorProbabilityEstimator"
      · rw [if_pos hl'] at h'
        obtain ⟨d, h2, hnew⟩ := Res.bind_eq_ok.1 h'; clear h'; rename' hnew => h'
        obtain ⟨kvs, hi, hmap⟩ := reconstructor_inv (name := "PriorProbabilityEstimator") hf ha hs (by decide) hl' h1 h2
        obtain ⟨xp, g1, hnew⟩ := Res.bind_eq_ok.1 h'; clear h'; rename' hnew => h'
        obtain ⟨vp, a1, d1⟩ := value_attr hmap g1
        obtain ⟨a, g2, hnew⟩ := Res.bind_eq_ok.1 h'; clear h'; rename' hnew => h'
        by_cases ht : a.type.type ≠ str "f8"
        · rw [if_pos ht] at h'; cases h'
        rw [if_neg ht] at h'
        split at h'
        · rename_i cs g3
          obtain ⟨xs, g4, hnew⟩ := Res.bind_eq_ok.1 h'; clear h'; rename' hnew => h'
          cases h'
          have hfa := parseFloatArray_inv d1 g2 (Decidable.not_not.1 ht) g3 g4
          obtain ⟨-, -, hb⟩ := Res.bind_eq_ok.1 hb
          dsimp only at hb
          rw [if_neg hl, if_pos hl'] at hb
          split at hb
          · cases hb
          rename_i hlen
          cases hb
          exact .priors kvs vp _ _ hi a1 hfa (by simpa using hlen)
        · cases h'
          exact absurd rfl hpr
      · rw [if_neg hl'] at h'
        cases h'

theorem mapRes_inv {α β : Type} {f : α → Res β} : ∀ {as : List α} {bs : List β}, mapRes f as = .ok bs → List.Forall₂ (fun a b => f a = .ok b) as bs
  | [], bs, h => by cases h; exact .nil
  | a :: as, bs, h => by
    rw [mapRes] at h
    obtain ⟨b, h1, hnew⟩ := Res.bind_eq_ok.1 h; clear h; rename' hnew => h
    obtain ⟨bs', h2, hnew⟩ := Res.bind_eq_ok.1 h; clear h; rename' hnew => h
    cases h
    exact .cons h1 (mapRes_inv h2)

theorem lgTreeFromSklearn_nodes {P : Platform} {t : SkTree} {scale base : F64} {t' : LgTree} (h : lgTreeFromSklearn P t scale base = .ok t') :
    t.nodes ≠ [] := by
  intro hc
  unfold lgTreeFromSklearn at h
  rw [hc] at h
  cases h

end Leaves
