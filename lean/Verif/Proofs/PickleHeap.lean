import Verif.Proofs.PicklePanic
import Verif.Spec.SkSound

/-! # References in decoded pickles lead somewhere: internals of C57 -/

namespace Leaves

open Pickle Spec

/-- all references in the value lead into a heap of that size -/
inductive DeepOK (nA nD : Nat) : PVal → Prop
  | nil : DeepOK nA nD .nil
  | none : DeepOK nA nD .none
  | int (i : Int) : DeepOK nA nD (.int i)
  | float (x : F64) : DeepOK nA nD (.float x)
  | unicode (b : Pickle.Bytes) : DeepOK nA nD (.unicode b)
  | global (m n : Pickle.Bytes) : DeepOK nA nD (.global m n)
  | tuple (xs : List PVal) (h : ∀ x ∈ xs, DeepOK nA nD x) : DeepOK nA nD (.tuple xs)
  | list (a n : Nat) (h : a < nA) : DeepOK nA nD (.list a n)
  | dict (r : Nat) (h : r < nD) : DeepOK nA nD (.dict r)
  | reduce (f : PVal) (args : List PVal) (hf : DeepOK nA nD f) (h : ∀ x ∈ args, DeepOK nA nD x) : DeepOK nA nD (.reduce f args)
  | build (o s : PVal) (ho : DeepOK nA nD o) (hs : DeepOK nA nD s) : DeepOK nA nD (.build o s)

theorem DeepOK.mono {nA nD nA' nD' : Nat} (h1 : nA ≤ nA') (h2 : nD ≤ nD') {v : PVal} (h : DeepOK nA nD v) : DeepOK nA' nD' v := by
  induction h with
  | nil => exact .nil
  | none => exact .none
  | int i => exact .int i
  | float x => exact .float x
  | unicode b => exact .unicode b
  | global m n => exact .global m n
  | tuple xs _ ih => exact .tuple xs ih
  | list a n h => exact .list a n (by omega)
  | dict r h => exact .dict r (by omega)
  | reduce f args _ _ ihf ih => exact .reduce f args ihf ih
  | build o s _ _ iho ihs => exact .build o s iho ihs

/-- everything the machine holds is in order -/
structure HeapOK (m : Machine) : Prop where
  stack : ∀ v ∈ m.stack, DeepOK m.arrays.length m.dicts.length v
  memory : ∀ kv ∈ m.memory, DeepOK m.arrays.length m.dicts.length kv.2
  arrays : ∀ a ∈ m.arrays, ∀ v ∈ a.elems, DeepOK m.arrays.length m.dicts.length v
  dicts : ∀ c ∈ m.dicts, ∀ kv ∈ c, DeepOK m.arrays.length m.dicts.length kv.2

theorem HeapOK.push {m : Machine} (h : HeapOK m) {v : PVal} (hv : DeepOK m.arrays.length m.dicts.length v) : HeapOK (m.push v) where
  stack := by
    intro w hw
    rcases List.mem_cons.1 hw with rfl | hw
    · exact hv
    · exact h.stack w hw
  memory := h.memory
  arrays := h.arrays
  dicts := h.dicts

/-- fewer values on the stack -/
theorem HeapOK.less {m : Machine} (h : HeapOK m) {st : List PVal} {ms : List Nat} (hs : ∀ v ∈ st, v ∈ m.stack) :
    HeapOK { m with stack := st, marks := ms } where
  stack := fun v hv => h.stack v (hs v hv)
  memory := h.memory
  arrays := h.arrays
  dicts := h.dicts

/-- a new backing array -/
theorem HeapOK.newArr {m : Machine} (h : HeapOK m) (a : Arr) (ha : ∀ v ∈ a.elems, DeepOK m.arrays.length m.dicts.length v) :
    HeapOK (m.newArr a).2 := by
  have up : ∀ {v}, DeepOK m.arrays.length m.dicts.length v → DeepOK (m.arrays ++ [a]).length m.dicts.length v :=
    fun hv => hv.mono (by simp) (Nat.le_refl _)
  refine ⟨fun v hv => up (h.stack v hv), fun v hv => up (h.memory v hv), fun b hb v hv => ?_, fun c hc kv hkv => up (h.dicts c hc kv hkv)⟩
  rcases List.mem_append.1 hb with hb | hb
  · exact up (h.arrays b hb v hv)
  · rw [List.mem_singleton] at hb
    subst hb
    exact up (ha v hv)

/-- a changed backing array -/
theorem HeapOK.setArr {m : Machine} (h : HeapOK m) (i : Nat) (a : Arr) (ha : ∀ v ∈ a.elems, DeepOK m.arrays.length m.dicts.length v) :
    HeapOK { m with arrays := m.arrays.set i a } := by
  have up : ∀ {v}, DeepOK m.arrays.length m.dicts.length v → DeepOK (m.arrays.set i a).length m.dicts.length v :=
    fun hv => hv.mono (by simp) (Nat.le_refl _)
  refine ⟨fun v hv => up (h.stack v hv), fun v hv => up (h.memory v hv), fun b hb v hv => ?_, fun c hc kv hkv => up (h.dicts c hc kv hkv)⟩
  rcases List.mem_or_eq_of_mem_set hb with hb | rfl
  · exact up (h.arrays b hb v hv)
  · exact up (ha v hv)

/-- a new dictionary -/
theorem HeapOK.newDict {m : Machine} (h : HeapOK m) (c : DictCells) (hc : ∀ kv ∈ c, DeepOK m.arrays.length m.dicts.length kv.2) :
    HeapOK (m.newDict c).2 := by
  have up : ∀ {v}, DeepOK m.arrays.length m.dicts.length v → DeepOK m.arrays.length (m.dicts ++ [c]).length v :=
    fun hv => hv.mono (Nat.le_refl _) (by simp)
  refine ⟨fun v hv => up (h.stack v hv), fun v hv => up (h.memory v hv), fun a ha v hv => up (h.arrays a ha v hv), fun b hb kv hkv => ?_⟩
  rcases List.mem_append.1 hb with hb | hb
  · exact up (h.dicts b hb kv hkv)
  · rw [List.mem_singleton] at hb
    subst hb
    exact up (hc kv hkv)

/-- a changed dictionary -/
theorem HeapOK.setDict {m : Machine} (h : HeapOK m) (i : Nat) (c : DictCells) (hc : ∀ kv ∈ c, DeepOK m.arrays.length m.dicts.length kv.2) :
    HeapOK { m with dicts := m.dicts.set i c } := by
  have up : ∀ {v}, DeepOK m.arrays.length m.dicts.length v → DeepOK m.arrays.length (m.dicts.set i c).length v :=
    fun hv => hv.mono (Nat.le_refl _) (by simp)
  refine ⟨fun v hv => up (h.stack v hv), fun v hv => up (h.memory v hv), fun a ha v hv => up (h.arrays a ha v hv), fun b hb kv hkv => ?_⟩
  rcases List.mem_or_eq_of_mem_set hb with hb | rfl
  · exact up (h.dicts b hb kv hkv)
  · exact up (hc kv hkv)

/-- the outcome of an opcode is in order -/
def Keeps (r : Res Next) : Prop :=
  (∀ m' bs', r = .ok (.continue m' bs') → HeapOK m') ∧ ∀ m', r = .ok (.stop m') → HeapOK m'

theorem Keeps.bind {α : Type} {x : Res α} {f : α → Res Next} (h : ∀ a, x = .ok a → Keeps (f a)) : Keeps (x >>= f) := by
  cases x with
  | ok a => exact h a rfl
  | err t => exact ⟨fun _ _ h => (by cases h), fun _ h => (by cases h)⟩
  | panic => exact ⟨fun _ _ h => (by cases h), fun _ h => (by cases h)⟩
  | hang => exact ⟨fun _ _ h => (by cases h), fun _ h => (by cases h)⟩

theorem Keeps.err (t : String) : Keeps (.err t) := ⟨fun _ _ h => (by cases h), fun _ h => (by cases h)⟩

theorem Keeps.cont {m : Machine} {bs : Pickle.Bytes} (h : HeapOK m) : Keeps (.ok (.continue m bs)) :=
  ⟨fun _ _ e => by cases e; exact h, fun _ e => by cases e⟩

theorem dictCells_ok {nA nD : Nat} : ∀ (n : Nat) (l : List PVal) (acc cells : DictCells), l.length ≤ n → dictCells l acc = .ok cells →
    (∀ v ∈ l, DeepOK nA nD v) → (∀ kv ∈ acc, DeepOK nA nD kv.2) → ∀ kv ∈ cells, DeepOK nA nD kv.2
  | _, [], acc, cells, _, h, _, ha => by cases h; exact ha
  | _, [_], acc, cells, _, h, _, _ => by cases h
  | 0, _ :: _ :: _, _, _, hn, _, _, _ => by simp at hn
  | n + 1, k :: v :: rest, acc, cells, hn, h, hl, ha => by
    cases k with
    | unicode key =>
      simp only [dictCells] at h
      refine dictCells_ok n rest _ cells (by simp at hn; omega) h (fun x hx => hl x (by simp [hx])) fun kv hkv => ?_
      rcases List.mem_cons.1 hkv with rfl | hkv
      · exact hl v (by simp)
      · exact ha kv hkv
    | _ => cases h

theorem pop_ok {m m' : Machine} {v : PVal} (hm : HeapOK m) (h : m.pop = .ok (v, m')) :
    HeapOK m' ∧ DeepOK m'.arrays.length m'.dicts.length v := by
  unfold Machine.pop at h
  split at h
  · cases h
  · rename_i v st hst
    cases h
    exact ⟨hm.less fun w hw => by rw [hst]; simp [hw], hm.stack v (by rw [hst]; simp)⟩

theorem popMark_ok {m m' : Machine} {objs : List PVal} (hm : HeapOK m) (h : m.popMark = .ok (objs, m')) :
    HeapOK m' ∧ ∀ v ∈ objs, DeepOK m'.arrays.length m'.dicts.length v := by
  unfold Machine.popMark at h
  split at h
  · cases h
  · split at h
    · cases h
    · cases h
      refine ⟨hm.less fun w hw => List.mem_of_mem_drop hw, fun v hv => hm.stack v ?_⟩
      rw [List.mem_reverse] at hv
      exact List.mem_of_mem_take hv

theorem back_ok {m : Machine} {v : PVal} (hm : HeapOK m) (h : m.back = .ok v) : DeepOK m.arrays.length m.dicts.length v := by
  unfold Machine.back at h
  split at h
  · cases h
  · rename_i v st hst
    cases h
    exact hm.stack v (by rw [hst]; simp)

theorem stepOp_keeps (P : Platform) (op : BitVec 8) (bs : Pickle.Bytes) (m : Machine) (hm : HeapOK m) : Keeps (stepOp P op bs m) := by
  unfold stepOp
  by_cases c1 : op = byte '('
  · rw [if_pos c1]
    exact .cont (hm.less fun v hv => hv)
  rw [if_neg c1]
  by_cases c2 : op = byte 'p'
  · rw [if_pos c2]
    refine .bind fun ⟨line, rest⟩ _ => ?_
    dsimp only
    refine .bind fun m' hm' => .cont ?_
    unfold Machine.putMemory at hm'
    obtain ⟨v, hv, e⟩ := Res.bind_eq_ok.1 hm'
    have hb := back_ok hm hv
    cases e
    refine ⟨hm.stack, ?_, hm.arrays, hm.dicts⟩
    intro kv hkv
    rcases List.mem_cons.1 hkv with rfl | hkv
    · exact hb
    · exact hm.memory kv hkv
  rw [if_neg c2]
  by_cases c3 : op = byte 'g'
  · rw [if_pos c3]
    refine .bind fun ⟨line, rest⟩ _ => .cont (hm.push ?_)
    unfold Machine.getMemory
    cases hl : Pickle.lookup line m.memory with
    | none => exact .nil
    | some v =>
      obtain ⟨kv, h1, rfl⟩ := lookup_mem _ _ _ hl
      exact hm.memory kv h1
  rw [if_neg c3]
  by_cases c4 : op = byte 'c'
  · rw [if_pos c4]
    refine .bind fun ⟨a, rest⟩ _ => .bind fun ⟨b, rest'⟩ _ => .cont (hm.push (.global _ _))
  rw [if_neg c4]
  by_cases c5 : op = byte 'L'
  · rw [if_pos c5]
    refine .bind fun ⟨line, rest⟩ _ => ?_
    dsimp only
    split
    · exact .err _
    · exact .bind fun v _ => .cont (hm.push (.int _))
  rw [if_neg c5]
  by_cases c6 : op = byte 'I'
  · rw [if_pos c6]
    exact .bind fun ⟨line, rest⟩ _ => .bind fun v _ => .cont (hm.push (.int _))
  rw [if_neg c6]
  by_cases c7 : op = byte 'F'
  · rw [if_pos c7]
    exact .bind fun ⟨line, rest⟩ _ => .bind fun v _ => .cont (hm.push (.float _))
  rw [if_neg c7]
  by_cases c8 : op = byte 't'
  · rw [if_pos c8]
    refine .bind fun ⟨objs, m'⟩ h => ?_
    obtain ⟨h1, h2⟩ := popMark_ok hm h
    exact .cont (h1.push (.tuple _ h2))
  rw [if_neg c8]
  by_cases c9 : op = byte 'l'
  · rw [if_pos c9]
    refine .bind fun ⟨objs, m'⟩ h => ?_
    obtain ⟨h1, h2⟩ := popMark_ok hm h
    refine .cont (HeapOK.push (m := (m'.newList P objs).2) (h1.newArr _ h2) ?_)
    exact .list _ _ (by simp [Machine.newList, Machine.newArr])
  rw [if_neg c9]
  by_cases c10 : op = byte 'a'
  · rw [if_pos c10]
    refine .bind fun ⟨el, m1⟩ e1 => ?_
    dsimp only
    refine .bind fun ⟨obj, m2⟩ e2 => ?_
    obtain ⟨h1, d1⟩ := pop_ok hm e1
    obtain ⟨h2, d2⟩ := pop_ok h1 e2
    have hel : DeepOK m2.arrays.length m2.dicts.length el := by
      have e : m2.arrays = m1.arrays ∧ m2.dicts = m1.dicts := by
        unfold Machine.pop at e2
        split at e2 <;> cases e2
        exact ⟨rfl, rfl⟩
      rw [e.1, e.2]
      exact d1
    cases obj with
    | list arr len =>
      dsimp only
      refine .bind fun ⟨l, m3⟩ e3 => ?_
      unfold Machine.appendList at e3
      obtain ⟨a, ha, e3⟩ := Res.bind_eq_ok.1 e3
      have hget := Res.idx_eq_ok.1 ha
      have hel2 := h2.arrays a (List.mem_of_getElem? hget)
      split at e3
      · cases e3
        refine .cont (HeapOK.push (h2.setArr _ _ ?_) ?_)
        · intro v hv
          dsimp only at hv
          split at hv
          · rcases List.mem_or_eq_of_mem_set hv with hv | rfl
            · exact hel2 v hv
            · exact hel
          · rcases List.mem_append.1 hv with hv | hv
            · exact hel2 v hv
            · rw [List.mem_singleton] at hv; subst hv; exact hel
        · refine .list _ _ ?_
          have := (List.getElem?_eq_some_iff.1 hget).1
          simpa using this
      · cases e3
        refine .cont (HeapOK.push (h2.newArr _ ?_) ?_)
        · intro v hv
          rcases List.mem_append.1 hv with hv | hv
          · exact hel2 v (List.mem_of_mem_take hv)
          · rw [List.mem_singleton] at hv; subst hv; exact hel
        · exact .list _ _ (by simp [Machine.newArr])
    | _ => exact .err _
  rw [if_neg c10]
  by_cases c11 : op = byte 'V'
  · rw [if_pos c11]
    exact .bind fun ⟨line, rest⟩ _ => .cont (hm.push (.unicode _))
  rw [if_neg c11]
  have two : ∀ {m1 m2 : Machine} {a b : PVal}, m.pop = .ok (a, m1) → m1.pop = .ok (b, m2) →
      HeapOK m2 ∧ DeepOK m2.arrays.length m2.dicts.length a ∧ DeepOK m2.arrays.length m2.dicts.length b := by
    intro m1 m2 a b e1 e2
    obtain ⟨h1, d1⟩ := pop_ok hm e1
    obtain ⟨h2, d2⟩ := pop_ok h1 e2
    refine ⟨h2, ?_, d2⟩
    have e : m2.arrays = m1.arrays ∧ m2.dicts = m1.dicts := by
      unfold Machine.pop at e2
      split at e2 <;> cases e2
      exact ⟨rfl, rfl⟩
    rw [e.1, e.2]
    exact d1
  by_cases c12 : op = byte 'R'
  · rw [if_pos c12]
    refine .bind fun ⟨args, m1⟩ e1 => ?_
    dsimp only
    refine .bind fun ⟨callable, m2⟩ e2 => ?_
    obtain ⟨h2, ha, hc⟩ := two e1 e2
    cases args with
    | tuple t =>
      cases ha with
      | tuple _ ht => exact .cont (h2.push (.reduce _ _ hc ht))
    | _ => exact .err _
  rw [if_neg c12]
  by_cases c13 : op = byte 'N'
  · rw [if_pos c13]
    exact .cont (hm.push .none)
  rw [if_neg c13]
  by_cases c14 : op = byte 'b'
  · rw [if_pos c14]
    refine .bind fun ⟨args, m1⟩ e1 => ?_
    dsimp only
    refine .bind fun ⟨o, m2⟩ e2 => ?_
    obtain ⟨h2, ha, hc⟩ := two e1 e2
    exact .cont (h2.push (.build _ _ hc ha))
  rw [if_neg c14]
  by_cases c15 : op = byte 'd'
  · rw [if_pos c15]
    refine .bind fun ⟨objs, m'⟩ h => ?_
    obtain ⟨h1, h2⟩ := popMark_ok hm h
    dsimp only
    split
    · exact .err _
    · refine .bind fun cells hc => ?_
      refine .cont (HeapOK.push (m := (m'.newDict cells).2) (h1.newDict _ ?_) ?_)
      · exact dictCells_ok _ _ _ _ (Nat.le_refl _) hc h2 (by intro kv h; cases h)
      · exact .dict _ (by simp [Machine.newDict])
  rw [if_neg c15]
  by_cases c16 : op = byte 's'
  · rw [if_pos c16]
    refine .bind fun ⟨v, m1⟩ e1 => ?_
    dsimp only
    refine .bind fun ⟨k, m2⟩ e2 => ?_
    obtain ⟨h2, hv, hk⟩ := two e1 e2
    dsimp only
    refine .bind fun d _ => ?_
    cases d with
    | dict ref =>
      dsimp only
      cases k with
      | unicode key =>
        dsimp only
        refine .bind fun m3 e3 => .cont ?_
        unfold Machine.setDict at e3
        obtain ⟨c, hc, e3⟩ := Res.bind_eq_ok.1 e3
        cases e3
        refine h2.setDict _ _ fun kv hkv => ?_
        rcases List.mem_cons.1 hkv with rfl | hkv
        · exact hv
        · exact h2.dicts c (List.mem_of_getElem? (Res.idx_eq_ok.1 hc)) kv hkv
      | _ => exact .err _
    | _ => exact .err _
  rw [if_neg c16]
  by_cases c17 : op = byte '.'
  · rw [if_pos c17]
    exact ⟨fun _ _ e => (by cases e), fun m' e => (by cases e; exact hm)⟩
  rw [if_neg c17]
  exact .err _

theorem decodeLoop_heap (P : Platform) : ∀ (fuel : Nat) (bs : Pickle.Bytes) (m m' : Machine), HeapOK m → decodeLoop P fuel bs m = .ok m' →
    HeapOK m'
  | 0, _, _, _, _, h => by cases h
  | _ + 1, [], _, _, _, h => by cases h
  | fuel + 1, op :: bs, m, m', hm, h => by
    rw [decodeLoop] at h
    obtain ⟨x, hx, h⟩ := Res.bind_eq_ok.1 h
    obtain ⟨hc, hs⟩ := stepOp_keeps P op bs m hm
    cases x with
    | «continue» m1 bs1 => exact decodeLoop_heap P fuel bs1 m1 m' (hc m1 bs1 hx) h
    | stop m1 => cases h; exact hs m' hx

theorem decode_heap (P : Platform) (bs : Pickle.Bytes) {v : PVal} {m : Machine} (h : decode P bs = .ok (v, m)) :
    HeapOK m ∧ DeepOK m.arrays.length m.dicts.length v := by
  unfold decode at h
  obtain ⟨m', hm, h⟩ := Res.bind_eq_ok.1 h
  obtain ⟨v', hv, h⟩ := Res.bind_eq_ok.1 h
  cases h
  have := decodeLoop_heap P _ bs {} m ⟨(by intro v h; cases h), (by intro v h; cases h), (by intro v h; cases h), (by intro v h; cases h)⟩ hm
  exact ⟨this, back_ok this hv⟩

/-- what is inside a decoded object refers to lists and dictionaries that exist -/
theorem occurs_ok {m : Machine} (hm : HeapOK m) {root v : PVal} (hr : DeepOK m.arrays.length m.dicts.length root)
    (h : Occurs m.arrays m.dicts root v) : DeepOK m.arrays.length m.dicts.length v := by
  induction h with
  | self => exact hr
  | object o s _ ih => cases ih with | build _ _ ho _ => exact ho
  | state o s _ ih => cases ih with | build _ _ _ hs => exact hs
  | callable f args _ ih => cases ih with | reduce _ _ hf _ => exact hf
  | arg f args x _ hx ih => cases ih with | reduce _ _ _ h => exact h x hx
  | part xs x _ hx ih => cases ih with | tuple _ h => exact h x hx
  | elem r len a x _ ha hx _ => exact hm.arrays a (List.mem_of_getElem? ha) x (List.mem_of_mem_take hx)
  | value r cells key x _ hd hx _ => exact hm.dicts cells (List.mem_of_getElem? hd) (key, x) hx

end Leaves
