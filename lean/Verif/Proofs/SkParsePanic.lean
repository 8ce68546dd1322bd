import Verif.Proofs.PickleHeap
import Verif.Proofs.SkAccept
import Verif.Proofs.SkPanic

/-! # Which decoded objects crash the scikit-learn loader: internals of C57 -/

namespace Leaves

open Pickle Spec

theorem Occurs.trans {A : List Arr} {D : List DictCells} {r v w : PVal} (h : Occurs A D r v) (h' : Occurs A D v w) : Occurs A D r w := by
  induction h' with
  | self => exact h
  | object o s _ ih => exact .object o s ih
  | state o s _ ih => exact .state o s ih
  | callable f args _ ih => exact .callable f args ih
  | arg f args x _ hx ih => exact .arg f args x ih hx
  | part xs x _ hx ih => exact .part xs x ih hx
  | elem r len a x _ ha hx ih => exact .elem r len a x ih ha hx
  | value r cells key x _ hd hx ih => exact .value r cells key x ih hd hx

theorem parseClass_ne_panic {α : Type} {reduceF : PVal → List PVal → Res α} {buildF : α → PVal → Res α} {x : PVal}
    (hr : ∀ c a, (x = .reduce c a ∨ ∃ s, x = .build (.reduce c a) s) → reduceF c a ≠ .panic)
    (hb : ∀ c a s y, x = .build (.reduce c a) s → reduceF c a = .ok y → buildF y s ≠ .panic) : parseClass reduceF buildF x ≠ .panic := by
  unfold parseClass
  cases x with
  | build o s =>
    cases o with
    | reduce c a =>
      dsimp only
      exact bind_ne_panic (hr c a (.inr ⟨s, rfl⟩)) fun y hy => hb c a s y rfl hy
    | _ => exact err_ne_panic _
  | reduce c a => exact hr c a (.inl rfl)
  | _ => exact err_ne_panic _

theorem toGlobal_ne_panic (x : PVal) (a b : String) : toGlobal x a b ≠ .panic := by unfold toGlobal; no_panic []
theorem toUnicode_ne_panic (x : PVal) : toUnicode x ≠ .panic := by unfold toUnicode; no_panic []
theorem toTuple_ne_panic (x : PVal) (n : Nat) : toTuple x n ≠ .panic := by unfold toTuple; no_panic []
theorem asInt_ne_panic (x : PVal) : asInt x ≠ .panic := by unfold asInt; no_panic []
theorem value_ne_panic (d : DictCells) (k : String) : DictCells.value d k ≠ .panic := ofOption_ne_panic _ _
theorem dictToInt_ne_panic (d : DictCells) (k : String) : DictCells.toInt d k ≠ .panic := by
  unfold DictCells.toInt
  exact bind_ne_panic (value_ne_panic d k) fun _ _ => asInt_ne_panic _
theorem dictToFloat_ne_panic (d : DictCells) (k : String) : DictCells.toFloat d k ≠ .panic := by
  unfold DictCells.toFloat
  refine bind_ne_panic (value_ne_panic d k) fun x _ => ?_
  cases x <;> first | exact ok_ne_panic _ | exact err_ne_panic _

theorem reconstructor_ne_panic (c : PVal) (a : List PVal) (modul name : String) : reconstructor c a modul name ≠ .panic := by
  unfold reconstructor
  refine bind_ne_panic (toGlobal_ne_panic _ _ _) fun _ _ => ?_
  split
  · exact toGlobal_ne_panic _ _ _
  · exact err_ne_panic _

theorem parseDType_ne_panic (x : PVal) : parseDType x ≠ .panic := by
  refine parseClass_ne_panic (fun c a _ => ?_) fun c a s y _ _ => ?_
  · refine bind_ne_panic (toGlobal_ne_panic _ _ _) fun _ _ => ?_
    split
    · exact bind_ne_panic (toUnicode_ne_panic _) fun _ _ => ok_ne_panic _
    · exact err_ne_panic _
  · refine bind_ne_panic (toTuple_ne_panic _ _) fun t ht => ?_
    split
    · refine bind_ne_panic (toUnicode_ne_panic _) fun u _ => ?_
      split
      · exact ok_ne_panic _
      · exact err_ne_panic _
    · rename_i hne
      have := (toTuple_inv ht).2
      match t, this with
      | a :: b :: rest, _ => exact absurd rfl (hne a b rest)

theorem parseRawBytes_ne_panic (x : PVal) : parseRawBytes x ≠ .panic := by
  refine parseClass_ne_panic (fun c a _ => ?_) fun c a s y _ _ => ok_ne_panic _
  refine bind_ne_panic (toGlobal_ne_panic _ _ _) fun _ _ => ?_
  split
  · exact toUnicode_ne_panic _
  · exact err_ne_panic _

theorem parseShape_ne_panic : ∀ l, parseShape l ≠ .panic
  | [] => ok_ne_panic _
  | d :: ds => by
    unfold parseShape
    exact bind_ne_panic (asInt_ne_panic d) fun _ _ => bind_ne_panic (parseShape_ne_panic ds) fun _ _ => ok_ne_panic _

theorem parseClass_cases {α : Type} {reduceF : PVal → List PVal → Res α} {buildF : α → PVal → Res α} {x : PVal} {a : α}
    (h : parseClass reduceF buildF x = .ok a) :
    (∃ c as, x = .reduce c as ∧ reduceF c as = .ok a) ∨ ∃ c as s y, x = .build (.reduce c as) s ∧ reduceF c as = .ok y ∧ buildF y s = .ok a := by
  unfold parseClass at h
  cases x with
  | build o s =>
    cases o with
    | reduce c as =>
      obtain ⟨y, h1, h2⟩ := Res.bind_eq_ok.1 h
      exact .inr ⟨c, as, s, y, rfl, h1, h2⟩
    | _ => cases h
  | reduce c as => exact .inl ⟨c, as, rfl, h⟩
  | _ => cases h

theorem parseRawBytes_raw {x : PVal} {b : Pickle.Bytes} (h : parseRawBytes x = .ok b) : RawBytes x b := by
  have key : ∀ {c : PVal} {as : List PVal} {b : Pickle.Bytes}, (do
      let _ ← toGlobal c "_codecs" "encode"
      match as with
      | [a0, _] => toUnicode a0
      | _ => .err "not expected tuple") = Res.ok b → ∃ e, as = [.unicode b, e] := by
    intro c as b h
    obtain ⟨_, -, h⟩ := Res.bind_eq_ok.1 h
    split at h
    · exact ⟨_, by rw [toUnicode_inv h]⟩
    · cases h
  rcases parseClass_cases h with ⟨c, as, rfl, h⟩ | ⟨c, as, s, y, rfl, h, h'⟩
  · obtain ⟨e, rfl⟩ := key h
    exact .plain _ _ _
  · obtain ⟨e, rfl⟩ := key h
    cases h'
    exact .built _ _ _ _

theorem parseScalar_raw {x : PVal} {r : DType × Pickle.Bytes} (h : parseScalar x = .ok r) : ScalarBytes x r.2 := by
  have key : ∀ {c : PVal} {as : List PVal} {r : DType × Pickle.Bytes}, (do
      let _ ← toGlobal c "numpy.core.multiarray" "scalar"
      match as with
      | [a0, a1] => do
        let type ← parseDType a0
        let data ← parseRawBytes a1
        return (type, data)
      | _ => .err "not expected tuple") = Res.ok r → ∃ t raw, as = [t, raw] ∧ RawBytes raw r.2 := by
    intro c as r h
    obtain ⟨_, -, h⟩ := Res.bind_eq_ok.1 h
    split at h
    · obtain ⟨_, -, h⟩ := Res.bind_eq_ok.1 h
      obtain ⟨_, h1, h⟩ := Res.bind_eq_ok.1 h
      cases h
      exact ⟨_, _, rfl, parseRawBytes_raw h1⟩
    · cases h
  rcases parseClass_cases h with ⟨c, as, rfl, h⟩ | ⟨c, as, s, y, rfl, h, h'⟩
  · obtain ⟨t, raw, rfl, hr⟩ := key h
    exact .plain _ _ _ _ hr
  · obtain ⟨t, raw, rfl, hr⟩ := key h
    cases h'
    exact .built _ _ _ _ _ hr

theorem parseScalar_ne_panic (x : PVal) : parseScalar x ≠ .panic := by
  refine parseClass_ne_panic (fun c a _ => ?_) fun c a s y _ _ => ok_ne_panic _
  refine bind_ne_panic (toGlobal_ne_panic _ _ _) fun _ _ => ?_
  split
  · exact bind_ne_panic (parseDType_ne_panic _) fun _ _ => bind_ne_panic (parseRawBytes_ne_panic _) fun _ _ => ok_ne_panic _
  · exact err_ne_panic _

/-- what an array that was taken apart says about the object -/
structure ArrayFrom (m : Machine) (x : PVal) (a : Pickle.Array) : Prop where
  shape : a.shape = [] → Dimensionless x
  elems : ∀ e ∈ a.dataList, Occurs m.arrays m.dicts x e
  length : a.dataList = [] ∨ ∃ r len, Occurs m.arrays m.dicts x (.list r len) ∧ a.dataList.length ≤ len

theorem parseShape_nil : ∀ {l : List PVal}, parseShape l = .ok [] → l = []
  | [], _ => rfl
  | d :: ds, h => by
    unfold parseShape at h
    obtain ⟨_, -, h⟩ := Res.bind_eq_ok.1 h
    obtain ⟨_, -, h⟩ := Res.bind_eq_ok.1 h
    cases h

theorem parseArray_from {m : Machine} {x : PVal} {a : Pickle.Array} (h : parseArray m x = .ok a) : ArrayFrom m x a := by
  replace h := parseClass_cases h
  rcases h with ⟨c, as, rfl, h⟩ | ⟨c, as, s, y, rfl, -, h⟩
  · obtain ⟨_, -, h⟩ := Res.bind_eq_ok.1 h
    split at h
    · obtain ⟨_, -, h⟩ := Res.bind_eq_ok.1 h
      cases h
      exact ⟨fun _ => .bare _ _, (by intro e he; cases he), .inl rfl⟩
    · cases h
  · obtain ⟨t, ht, hnew⟩ := Res.bind_eq_ok.1 h
    obtain ⟨rfl, -⟩ := toTuple_inv ht
    clear h
    revert hnew
    intro h
    split at h
    · rename_i a0 a1 a2 a3 a4
      obtain ⟨_, -, h⟩ := Res.bind_eq_ok.1 h
      cases a1 with
      | tuple dims =>
        dsimp only at h
        obtain ⟨shape, hs, h⟩ := Res.bind_eq_ok.1 h
        obtain ⟨type, -, h⟩ := Res.bind_eq_ok.1 h
        obtain ⟨fo, -, h⟩ := Res.bind_eq_ok.1 h
        have hdim : shape = [] → Dimensionless (.build (.reduce c as) (.tuple [a0, .tuple dims, a2, a3, a4])) := by
          rintro rfl
          rw [parseShape_nil hs]
          exact .filled _ _ _ _ _
        split at h
        · cases h
        · cases a4 with
          | build o s =>
            obtain ⟨_, -, h⟩ := Res.bind_eq_ok.1 h
            cases h
            exact ⟨hdim, (by intro e he; cases he), .inl rfl⟩
          | reduce o s =>
            obtain ⟨_, -, h⟩ := Res.bind_eq_ok.1 h
            cases h
            exact ⟨hdim, (by intro e he; cases he), .inl rfl⟩
          | list r len =>
            obtain ⟨es, he, h⟩ := Res.bind_eq_ok.1 h
            cases h
            obtain ⟨b, hb, he⟩ := Res.bind_eq_ok.1 he
            cases he
            have hin : Occurs m.arrays m.dicts (.build (.reduce c as) (.tuple [a0, .tuple dims, a2, a3, .list r len])) (.list r len) :=
              .part _ _ (.state _ _ .self) (by simp)
            refine ⟨hdim, fun e he => .elem _ _ _ _ hin (Res.idx_eq_ok.1 hb) he, .inr ⟨r, len, hin, ?_⟩⟩
            exact List.length_take_le _ _
          | _ => cases h
      | _ => cases h
    · cases h

theorem parseArray_ne_panic {m : Machine} {x : PVal} (hx : DeepOK m.arrays.length m.dicts.length x) : parseArray m x ≠ .panic := by
  refine parseClass_ne_panic (fun c a _ => ?_) fun c a s y hxs _ => ?_
  · refine bind_ne_panic (toGlobal_ne_panic _ _ _) fun _ _ => ?_
    split
    · exact bind_ne_panic (toGlobal_ne_panic _ _ _) fun _ _ => ok_ne_panic _
    · exact err_ne_panic _
  · subst hxs
    refine bind_ne_panic (toTuple_ne_panic _ _) fun t ht => ?_
    obtain ⟨rfl, hlen⟩ := toTuple_inv ht
    match t, hlen with
    | [a0, a1, a2, a3, a4], _ =>
      dsimp only
      refine bind_ne_panic (asInt_ne_panic _) fun _ _ => ?_
      cases a1 with
      | tuple dims =>
        dsimp only
        refine bind_ne_panic (parseShape_ne_panic _) fun _ _ => bind_ne_panic (parseDType_ne_panic _) fun _ _ =>
          bind_ne_panic (asInt_ne_panic _) fun _ _ => ?_
        split
        · exact err_ne_panic _
        · cases a4 with
          | build o s => exact bind_ne_panic (parseRawBytes_ne_panic _) fun _ _ => ok_ne_panic _
          | reduce o s => exact bind_ne_panic (parseRawBytes_ne_panic _) fun _ _ => ok_ne_panic _
          | list r len =>
            dsimp only
            refine bind_ne_panic ?_ fun _ _ => ok_ne_panic _
            have hr : r < m.arrays.length := by
              cases hx with
              | build _ _ _ hs =>
                cases hs with
                | tuple _ h =>
                  cases h (.list r len) (by simp) with
                  | list _ _ h => exact h
            unfold listElems
            rw [Res.idx_eq_ok.2 (List.getElem?_eq_getElem hr)]
            exact ok_ne_panic _
          | _ => exact err_ne_panic _
      | _ => exact err_ne_panic _

theorem chunksGo_length (k : Nat) : ∀ (fuel : Nat) (b : Pickle.Bytes), b.length % (k + 1) = 0 → ∀ c ∈ chunksGo k fuel b, c.length = k + 1
  | 0, _, _, c, hc => by cases hc
  | _ + 1, [], _, c, hc => by cases hc
  | fuel + 1, x :: bs, hb, c, hc => by
    have hle : k + 1 ≤ (x :: bs).length := Nat.le_of_dvd (by simp) (Nat.dvd_of_mod_eq_zero hb)
    rw [chunksGo] at hc
    rcases List.mem_cons.1 hc with rfl | hc
    · rw [List.length_take]; omega
    · refine chunksGo_length k fuel _ ?_ c hc
      rw [List.length_drop, ← Nat.mod_eq_sub_mod hle]
      exact hb

theorem iterate_length {k : Nat} {b : Pickle.Bytes} {cs : List Pickle.Bytes} (h : iterate k b = .ok cs) : ∀ c ∈ cs, c.length = k + 1 := by
  unfold iterate at h
  split at h
  · cases h
  · rename_i hb
    cases h
    exact chunksGo_length k _ b (by omega)

theorem iterate_ne_panic (k : Nat) (b : Pickle.Bytes) : iterate k b ≠ .panic := by
  unfold iterate; no_panic []

theorem mapRes_ne_panic {α β : Type} {f : α → Res β} : ∀ {l : List α}, (∀ a ∈ l, f a ≠ .panic) → mapRes f l ≠ .panic
  | [], _ => ok_ne_panic _
  | a :: l, h => by
    unfold mapRes
    exact bind_ne_panic (h a (by simp)) fun _ _ => bind_ne_panic (mapRes_ne_panic fun b hb => h b (by simp [hb])) fun _ _ => ok_ne_panic _

theorem int64LE_ne_panic {b : Pickle.Bytes} (h : 8 ≤ b.length) : int64LE b ≠ .panic := by
  unfold int64LE
  rw [if_neg (by omega)]
  exact ok_ne_panic _

theorem float64FromBytes_ne_panic {b : Pickle.Bytes} (h : 8 ≤ b.length) (le : Bool) : Util.float64FromBytes b le ≠ .panic := by
  unfold Util.float64FromBytes
  rw [if_neg (by omega)]
  exact ok_ne_panic _

theorem skNode_ne_panic {c : Pickle.Bytes} (h : c.length = 56) : skNodeFromBytes c ≠ .panic := by
  have hl : ∀ i, i < 7 → 8 ≤ ((c.drop (8 * i)).take 8).length := by
    intro i hi
    simp only [List.length_take, List.length_drop, h]
    omega
  unfold skNodeFromBytes
  dsimp only
  refine bind_ne_panic (int64LE_ne_panic (hl 0 (by omega))) fun _ _ => bind_ne_panic (int64LE_ne_panic (hl 1 (by omega))) fun _ _ =>
    bind_ne_panic (int64LE_ne_panic (hl 2 (by omega))) fun _ _ => bind_ne_panic (float64FromBytes_ne_panic (hl 3 (by omega)) _) fun _ _ =>
    bind_ne_panic (float64FromBytes_ne_panic (hl 4 (by omega)) _) fun _ _ => bind_ne_panic (int64LE_ne_panic (hl 5 (by omega))) fun _ _ =>
    bind_ne_panic (float64FromBytes_ne_panic (hl 6 (by omega)) _) fun _ _ => ok_ne_panic _

theorem badShape_ne_panic {shape : List Int} (h : shape ≠ []) (n : Int) : badShape shape n ≠ .panic := by
  unfold badShape
  cases shape with
  | nil => exact absurd rfl h
  | cons d ds =>
    split
    · exact ok_ne_panic _
    · exact ok_ne_panic _

theorem allocCheck_ne_panic {P : Platform} {n : Int} {size : Nat} (h : MemFits P n size) : allocCheck P n size ≠ .panic := by
  rw [allocCheck_int h.1 h.2]
  exact ok_ne_panic _

theorem parseIntArray_ne_panic {P : Platform} {m : Machine} {x : PVal} {n : Int} (hx : DeepOK m.arrays.length m.dicts.length x)
    (hd : ¬ Dimensionless x) (hn : MemFits P n 8) : parseIntArray P m x n ≠ .panic := by
  unfold parseIntArray
  refine bind_ne_panic (parseArray_ne_panic hx) fun a ha => ?_
  refine bind_ne_panic (badShape_ne_panic (fun h => hd ((parseArray_from ha).shape h)) n) fun b _ => ?_
  split
  · exact err_ne_panic _
  split
  · exact err_ne_panic _
  · refine bind_ne_panic (allocCheck_ne_panic hn) fun _ _ => bind_ne_panic (iterate_ne_panic _ _) fun cs hc => ?_
    exact mapRes_ne_panic fun c h => int64LE_ne_panic (by rw [iterate_length hc c h])

section

variable {P : Platform} {m : Machine} {root : PVal}

theorem toDict_ne_panic {x : PVal} (hx : DeepOK m.arrays.length m.dicts.length x) : toDict m x ≠ .panic := by
  unfold toDict
  cases hx with
  | dict r h =>
    dsimp only
    rw [Res.idx_eq_ok.2 (List.getElem?_eq_getElem h)]
    exact ok_ne_panic _
  | _ => exact err_ne_panic _

theorem value_entry {x v : PVal} {d : DictCells} {k : String} (hx : Occurs m.arrays m.dicts root x) (hd : toDict m x = .ok d)
    (hv : DictCells.value d k = .ok v) : Entry m.arrays m.dicts root k v ∧ Occurs m.arrays m.dicts root v := by
  obtain ⟨ref, rfl, hc⟩ := toDict_inv hd
  unfold DictCells.value at hv
  cases hl : Pickle.lookup (str k) d with
  | none => rw [hl] at hv; cases hv
  | some w =>
    rw [hl] at hv
    cases hv
    have hmem : ∀ (l : DictCells) (key : Pickle.Bytes) (w : PVal), Pickle.lookup key l = some w → (key, w) ∈ l := by
      intro l key w
      induction l with
      | nil => intro h; cases h
      | cons kv l ih =>
        obtain ⟨k', v'⟩ := kv
        intro h
        unfold Pickle.lookup at h
        split at h
        · rename_i he
          cases h
          rw [he]
          exact List.mem_cons_self
        · exact List.mem_cons_of_mem _ (ih h)
    have h2 := hmem _ _ _ hl
    exact ⟨⟨ref, d, hx, hc, h2⟩, .value _ _ _ _ hx hc h2⟩

variable (hs : SkSound P m.arrays m.dicts root) (hin : ∀ v, Occurs m.arrays m.dicts root v → DeepOK m.arrays.length m.dicts.length v)

include hs hin

theorem parseSkTree_ne_panic {x : PVal} (hx : Occurs m.arrays m.dicts root x) : parseSkTree P m x ≠ .panic := by
  refine parseClass_ne_panic (fun c a h => ?_) fun c a s y h _ => ?_
  · refine bind_ne_panic (toGlobal_ne_panic _ _ _) fun g hg => ?_
    have hred : Occurs m.arrays m.dicts root (.reduce c a) := by
      rcases h with rfl | ⟨s, rfl⟩
      · exact hx
      · exact .object _ _ hx
    split
    · rename_i a0 a1 a2
      refine bind_ne_panic (asInt_ne_panic _) fun n hn => ?_
      have := asInt_inv hn
      subst this
      obtain ⟨he, hname⟩ := toGlobal_inv hg (by decide)
      rw [hname (by decide)] at he
      obtain ⟨h1, h2⟩ := hs.outputs _ _ _ _ hred he
      refine bind_ne_panic (parseIntArray_ne_panic (hin _ (.arg _ _ a1 hred (by simp))) h2 h1) fun _ _ => ok_ne_panic _
    · exact err_ne_panic _
  · subst h
    have hst : Occurs m.arrays m.dicts root s := .state _ _ hx
    refine bind_ne_panic (toDict_ne_panic (hin _ hst)) fun d hd => bind_ne_panic (dictToInt_ne_panic _ _) fun _ _ =>
      bind_ne_panic (value_ne_panic _ _) fun v hv => bind_ne_panic (parseArray_ne_panic (hin _ (value_entry hst hd hv).2)) fun arr _ => ?_
    split
    · exact err_ne_panic _
    refine bind_ne_panic (iterate_ne_panic _ _) fun cs hc => bind_ne_panic (mapRes_ne_panic fun c h => skNode_ne_panic (iterate_length hc c h))
      fun _ _ => bind_ne_panic (value_ne_panic _ _) fun w hw => bind_ne_panic (parseArray_ne_panic (hin _ (value_entry hst hd hw).2)) fun arr2 _ => ?_
    split
    · exact err_ne_panic _
    exact bind_ne_panic (iterate_ne_panic _ _) fun cs hc => bind_ne_panic
      (mapRes_ne_panic fun c h => float64FromBytes_ne_panic (by rw [iterate_length hc c h]) _) fun _ _ => ok_ne_panic _

theorem parseSkRegressor_ne_panic {x : PVal} (hx : Occurs m.arrays m.dicts root x) : parseSkRegressor P m x ≠ .panic := by
  refine parseClass_ne_panic (fun c a h => ?_) fun c a s y h _ => ?_
  · exact bind_ne_panic (reconstructor_ne_panic _ _ _ _) fun _ _ => ok_ne_panic _
  · subst h
    have hst : Occurs m.arrays m.dicts root s := .state _ _ hx
    refine bind_ne_panic (toDict_ne_panic (hin _ hst)) fun d hd => bind_ne_panic (value_ne_panic _ _) fun v hv =>
      bind_ne_panic (parseScalar_ne_panic _) fun ⟨ty, data⟩ hr => ?_
    have hlen := hs.classCounts v data (value_entry hst hd hv).1 (parseScalar_raw hr)
    dsimp only
    split
    · exact err_ne_panic _
    exact bind_ne_panic (int64LE_ne_panic hlen) fun _ _ => bind_ne_panic (dictToInt_ne_panic _ _) fun _ _ =>
      bind_ne_panic (dictToInt_ne_panic _ _) fun _ _ => bind_ne_panic (value_ne_panic _ _) fun w hw =>
      bind_ne_panic (parseSkTree_ne_panic hs hin (value_entry hst hd hw).2) fun _ _ => ok_ne_panic _

theorem parseSkInit_ne_panic {x : PVal} (hx : Occurs m.arrays m.dicts root x) : parseSkInit m x ≠ .panic := by
  refine parseClass_ne_panic (fun c a h => ?_) fun c a s y h _ => ?_
  · exact bind_ne_panic (reconstructor_ne_panic _ _ _ _) fun _ _ => ok_ne_panic _
  · subst h
    have hst : Occurs m.arrays m.dicts root s := .state _ _ hx
    dsimp only
    split
    · refine bind_ne_panic (toDict_ne_panic (hin _ hst)) fun d hd => bind_ne_panic (value_ne_panic _ _) fun v hv =>
        bind_ne_panic (parseScalar_ne_panic _) fun ⟨ty, data⟩ hr => ?_
      have hlen := hs.prior v data (value_entry hst hd hv).1 (parseScalar_raw hr)
      dsimp only
      split
      · exact err_ne_panic _
      exact bind_ne_panic (float64FromBytes_ne_panic hlen _) fun _ _ => ok_ne_panic _
    split
    · refine bind_ne_panic (toDict_ne_panic (hin _ hst)) fun d hd => bind_ne_panic (value_ne_panic _ _) fun v hv =>
        bind_ne_panic (parseArray_ne_panic (hin _ (value_entry hst hd hv).2)) fun arr _ => ?_
      split
      · exact err_ne_panic _
      split
      · rename_i chunks hc
        exact bind_ne_panic (mapRes_ne_panic fun c h => float64FromBytes_ne_panic (by rw [iterate_length hc c h]) _) fun _ _ => ok_ne_panic _
      · exact ok_ne_panic _
    · exact err_ne_panic _

theorem parseSkBoosting_ne_panic {x : PVal} (hx : Occurs m.arrays m.dicts root x) : parseSkBoosting P m x ≠ .panic := by
  refine parseClass_ne_panic (fun c a h => ?_) fun c a s y h _ => ?_
  · exact bind_ne_panic (reconstructor_ne_panic _ _ _ _) fun _ _ => ok_ne_panic _
  · subst h
    have hst : Occurs m.arrays m.dicts root s := .state _ _ hx
    refine bind_ne_panic (toDict_ne_panic (hin _ hst)) fun d hd => bind_ne_panic (dictToInt_ne_panic _ _) fun n hn => ?_
    have hfit : MemFits P n 8 := by
      obtain ⟨v, hv, hi⟩ := Res.bind_eq_ok.1 hn
      have := asInt_inv hi
      subst this
      exact hs.classCount n (value_entry hst hd hv).1
    refine bind_ne_panic (dictToFloat_ne_panic _ _) fun lr _ => bind_ne_panic (value_ne_panic _ _) fun _ _ =>
      bind_ne_panic (toUnicode_ne_panic _) fun _ _ => bind_ne_panic (value_ne_panic _ _) fun v hv =>
      bind_ne_panic (parseSkInit_ne_panic hs hin (value_entry hst hd hv).2) fun _ _ =>
      bind_ne_panic (value_ne_panic _ _) fun w hw => bind_ne_panic
        (parseIntArray_ne_panic (hin _ (value_entry hst hd hw).2) (hs.classes _ (value_entry hst hd hw).1) hfit) fun _ _ =>
      bind_ne_panic (dictToInt_ne_panic _ _) fun _ _ => bind_ne_panic (dictToInt_ne_panic _ _) fun _ _ =>
      bind_ne_panic (value_ne_panic _ _) fun z hz => bind_ne_panic (parseArray_ne_panic (hin _ (value_entry hst hd hz).2)) fun arr ha => ?_
    have hfrom := parseArray_from ha
    have hzin := (value_entry hst hd hz).2
    dsimp only
    generalize (if n = 2 then (1 : Int) else n) = adj
    split
    · exact err_ne_panic _
    split
    · exact err_ne_panic _
    refine bind_ne_panic (allocCheck_ne_panic ?_) fun _ _ => bind_ne_panic (mapRes_ne_panic fun e he =>
      parseSkRegressor_ne_panic hs hin (Occurs.trans hzin (hfrom.elems e he))) fun _ _ => ok_ne_panic _
    rcases hfrom.length with h0 | ⟨r, len, hr, hle⟩
    · rw [h0]
      exact ⟨by simp, by simp⟩
    · obtain ⟨h1, h2⟩ := hs.lists r len (Occurs.trans hzin hr)
      refine ⟨by omega, ?_⟩
      have : ((arr.dataList.length : Int)) ≤ len := by exact_mod_cast hle
      have h3 : ((112 : Nat) : Int) = 112 := rfl
      rw [h3] at h2 ⊢
      omega

end

/-- loading a file crashes only if an opcode lacks its values, a number inside is unreasonable or the model does not fit -/
theorem skReader_ne_panic (P : Platform) (bytes : List (BitVec 8)) (lt : Bool) (hu : ¬ Underflow bytes [0])
    (hs : ∀ x m, decode P bytes = .ok (x, m) → SkSound P m.arrays m.dicts x)
    (hf : ∀ x m g, decode P bytes = .ok (x, m) → parseSkBoosting P m x = .ok g → SkFit P g) :
    skEnsembleFromReader P bytes lt ≠ .panic := by
  unfold skEnsembleFromReader
  refine bind_ne_panic (fun h => hu (decode_panic P bytes h)) fun ⟨x, m⟩ hx => ?_
  obtain ⟨h1, h2⟩ := decode_heap P bytes hx
  dsimp only
  refine bind_ne_panic (parseSkBoosting_ne_panic (hs x m hx) (fun v hv => occurs_ok h1 h2 hv) .self) fun g hg => ?_
  exact skAssemble_ne_panic P g (hf x m g hx hg)

end Leaves
