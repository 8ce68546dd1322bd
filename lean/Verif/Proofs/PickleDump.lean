import Verif.Proofs.PickleOps

/-! Decoding a pickle builds the pickled value. -/

namespace Leaves

open Pickle Spec

mutual
/-- `Denotes`, using only the arrays in `F` and the maps in `G` -/
def PRep (A : List Arr) (D : List DictCells) (F G : Nat → Prop) : PVal → PyVal → Prop
  | x, .none => x = PVal.none
  | x, .int i => x = PVal.int i
  | x, .float y => x = PVal.float y
  | x, .str s => x = PVal.unicode s
  | x, .global m n => x = PVal.global m n
  | x, .tuple vs => ∃ xs, x = PVal.tuple xs ∧ PRepSeq A D F G xs vs
  | x, .list vs => ∃ arr len a, x = PVal.list arr len ∧ F arr ∧ A[arr]? = some a ∧ len ≤ a.elems.length ∧
      PRepSeq A D F G (a.elems.take len) vs
  | x, .dict kvs => ∃ ref cells, x = PVal.dict ref ∧ G ref ∧ D[ref]? = some cells ∧ PRepMap A D F G cells kvs
  | x, .reduce f args => ∃ y ys, x = PVal.reduce y ys ∧ PRep A D F G y f ∧ PRepSeq A D F G ys args
  | x, .build f args s => ∃ y ys z, x = PVal.build (PVal.reduce y ys) z ∧ PRep A D F G y f ∧ PRepSeq A D F G ys args ∧
      PRep A D F G z s
  | x, .again f args _ => ∃ y ys, x = PVal.reduce y ys ∧ PRep A D F G y f ∧ PRepSeq A D F G ys args
/-- `DenotesSeq` with a footprint -/
def PRepSeq (A : List Arr) (D : List DictCells) (F G : Nat → Prop) : List PVal → PySeq → Prop
  | xs, .nil => xs = []
  | xs, .cons v vs => ∃ x rest, xs = x :: rest ∧ PRep A D F G x v ∧ PRepSeq A D F G rest vs
/-- `DenotesMap` with a footprint -/
def PRepMap (A : List Arr) (D : List DictCells) (F G : Nat → Prop) : DictCells → PyMap → Prop
  | cells, .nil => cells = []
  | cells, .cons k v kvs => ∃ x rest, cells = rest ++ [(k, x)] ∧ PRep A D F G x v ∧ PRepMap A D F G rest kvs
end

/-- the entries in the footprint are still there -/
def Agree {α : Type} (F : Nat → Prop) (A A' : List α) : Prop := ∀ r, F r → ∀ a, A[r]? = some a → A'[r]? = some a

section mono
variable {A A' : List Arr} {D D' : List DictCells} {F F' G G' : Nat → Prop}

mutual
theorem PRep.mono (hA : Agree F A A') (hD : Agree G D D') (hF : ∀ r, F r → F' r) (hG : ∀ r, G r → G' r) :
    ∀ (v : PyVal) (x : PVal), PRep A D F G x v → PRep A' D' F' G' x v
  | .none, _, h => h
  | .int _, _, h => h
  | .float _, _, h => h
  | .str _, _, h => h
  | .global _ _, _, h => h
  | .tuple vs, _, h => by
    obtain ⟨xs, e, h⟩ := h
    exact ⟨xs, e, PRepSeq.mono hA hD hF hG vs _ h⟩
  | .list vs, _, h => by
    obtain ⟨arr, len, a, e, hf, ha, hl, h⟩ := h
    exact ⟨arr, len, a, e, hF _ hf, hA _ hf _ ha, hl, PRepSeq.mono hA hD hF hG vs _ h⟩
  | .dict kvs, _, h => by
    obtain ⟨ref, cells, e, hg, hd, h⟩ := h
    exact ⟨ref, cells, e, hG _ hg, hD _ hg _ hd, PRepMap.mono hA hD hF hG kvs _ h⟩
  | .reduce f args, _, h => by
    obtain ⟨y, ys, e, h1, h2⟩ := h
    exact ⟨y, ys, e, PRep.mono hA hD hF hG f _ h1, PRepSeq.mono hA hD hF hG args _ h2⟩
  | .build f args s, _, h => by
    obtain ⟨y, ys, z, e, h1, h2, h3⟩ := h
    exact ⟨y, ys, z, e, PRep.mono hA hD hF hG f _ h1, PRepSeq.mono hA hD hF hG args _ h2, PRep.mono hA hD hF hG s _ h3⟩
  | .again f args s, _, h => by
    obtain ⟨y, ys, e, h1, h2⟩ := h
    exact ⟨y, ys, e, PRep.mono hA hD hF hG f _ h1, PRepSeq.mono hA hD hF hG args _ h2⟩
theorem PRepSeq.mono (hA : Agree F A A') (hD : Agree G D D') (hF : ∀ r, F r → F' r) (hG : ∀ r, G r → G' r) :
    ∀ (vs : PySeq) (xs : List PVal), PRepSeq A D F G xs vs → PRepSeq A' D' F' G' xs vs
  | .nil, _, h => h
  | .cons v vs, _, h => by
    obtain ⟨x, rest, e, h1, h2⟩ := h
    exact ⟨x, rest, e, PRep.mono hA hD hF hG v _ h1, PRepSeq.mono hA hD hF hG vs _ h2⟩
theorem PRepMap.mono (hA : Agree F A A') (hD : Agree G D D') (hF : ∀ r, F r → F' r) (hG : ∀ r, G r → G' r) :
    ∀ (kvs : PyMap) (cells : DictCells), PRepMap A D F G cells kvs → PRepMap A' D' F' G' cells kvs
  | .nil, _, h => h
  | .cons _ v kvs, _, h => by
    obtain ⟨x, rest, e, h1, h2⟩ := h
    exact ⟨x, rest, e, PRep.mono hA hD hF hG v _ h1, PRepMap.mono hA hD hF hG kvs _ h2⟩
end

mutual
theorem PRep.denotes : ∀ (v : PyVal) (x : PVal), PRep A D F G x v → Denotes A D x v
  | .none, _, h => h
  | .int _, _, h => h
  | .float _, _, h => h
  | .str _, _, h => h
  | .global _ _, _, h => h
  | .tuple vs, _, h => by
    obtain ⟨xs, e, h⟩ := h
    exact ⟨xs, e, PRepSeq.denotes vs _ h⟩
  | .list vs, _, h => by
    obtain ⟨arr, len, a, e, hf, ha, hl, h⟩ := h
    exact ⟨arr, len, a, e, ha, hl, PRepSeq.denotes vs _ h⟩
  | .dict kvs, _, h => by
    obtain ⟨ref, cells, e, hg, hd, h⟩ := h
    exact ⟨ref, cells, e, hd, PRepMap.denotes kvs _ h⟩
  | .reduce f args, _, h => by
    obtain ⟨y, ys, e, h1, h2⟩ := h
    exact ⟨y, ys, e, PRep.denotes f _ h1, PRepSeq.denotes args _ h2⟩
  | .build f args s, _, h => by
    obtain ⟨y, ys, z, e, h1, h2, h3⟩ := h
    exact ⟨y, ys, z, e, PRep.denotes f _ h1, PRepSeq.denotes args _ h2, PRep.denotes s _ h3⟩
  | .again f args s, _, h => by
    obtain ⟨y, ys, e, h1, h2⟩ := h
    exact ⟨y, ys, e, PRep.denotes f _ h1, PRepSeq.denotes args _ h2⟩
theorem PRepSeq.denotes : ∀ (vs : PySeq) (xs : List PVal), PRepSeq A D F G xs vs → DenotesSeq A D xs vs
  | .nil, _, h => h
  | .cons v vs, _, h => by
    obtain ⟨x, rest, e, h1, h2⟩ := h
    exact ⟨x, rest, e, PRep.denotes v _ h1, PRepSeq.denotes vs _ h2⟩
theorem PRepMap.denotes : ∀ (kvs : PyMap) (cells : DictCells), PRepMap A D F G cells kvs → DenotesMap A D cells kvs
  | .nil, _, h => h
  | .cons _ v kvs, _, h => by
    obtain ⟨x, rest, e, h1, h2⟩ := h
    exact ⟨x, rest, e, PRep.denotes v _ h1, PRepMap.denotes kvs _ h2⟩
end

end mono

/-! ### the invariant of decoding -/

/-- complete objects use the arrays `F` and the maps `G`, which exist; the memo keeps the complete objects of `μ` -/
structure PInv (m : Machine) (μ : Memo) (F G : Nat → Prop) : Prop where
  bF : ∀ r, F r → r < m.arrays.length
  bG : ∀ r, G r → r < m.dicts.length
  memo : ∀ key v, μ key = .holds v → ∃ x, Pickle.lookup key m.memory = some x ∧ PRep m.arrays m.dicts F G x v

/-- the machine went from `m` to `m'`, leaving alone all arrays but those in `X` and all maps but those in `Y` -/
structure Evolves (X Y : Nat → Prop) (m m' : Machine) (μ μ' : Memo) (F F' G G' : Nat → Prop) : Prop where
  marks : m'.marks = m.marks
  lenA : m.arrays.length ≤ m'.arrays.length
  lenD : m.dicts.length ≤ m'.dicts.length
  oldA : ∀ r, r < m.arrays.length → ¬ X r → m'.arrays[r]? = m.arrays[r]?
  oldD : ∀ r, r < m.dicts.length → ¬ Y r → m'.dicts[r]? = m.dicts[r]?
  subF : ∀ r, F r → F' r
  subG : ∀ r, G r → G' r
  newF : ∀ r, F' r → F r ∨ m.arrays.length ≤ r
  newG : ∀ r, G' r → G r ∨ m.dicts.length ≤ r
  keep : ∀ k, μ k ≠ .unused → μ' k ≠ .unused ∧ Pickle.lookup k m'.memory = Pickle.lookup k m.memory
  inv : PInv m' μ' F' G'

/-- nothing is modified -/
def Nothing : Nat → Prop := fun _ => False

theorem Evolves.trans {X Y X' Y' : Nat → Prop} {m m₁ m₂ : Machine} {μ μ₁ μ₂ : Memo} {F F₁ F₂ G G₁ G₂ : Nat → Prop}
    (h : Evolves X Y m m₁ μ μ₁ F F₁ G G₁) (h' : Evolves X' Y' m₁ m₂ μ₁ μ₂ F₁ F₂ G₁ G₂)
    (hX : ∀ r, r < m.arrays.length → X' r → X r) (hY : ∀ r, r < m.dicts.length → Y' r → Y r) :
    Evolves X Y m m₂ μ μ₂ F F₂ G G₂ where
  marks := h'.marks.trans h.marks
  lenA := Nat.le_trans h.lenA h'.lenA
  lenD := Nat.le_trans h.lenD h'.lenD
  oldA := fun r hr hx => (h'.oldA r (Nat.lt_of_lt_of_le hr h.lenA) fun hc => hx (hX r hr hc)).trans (h.oldA r hr hx)
  oldD := fun r hr hx => (h'.oldD r (Nat.lt_of_lt_of_le hr h.lenD) fun hc => hx (hY r hr hc)).trans (h.oldD r hr hx)
  subF := fun r hr => h'.subF r (h.subF r hr)
  subG := fun r hr => h'.subG r (h.subG r hr)
  newF := fun r hr => (h'.newF r hr).elim (h.newF r) fun hl => .inr (Nat.le_trans h.lenA hl)
  newG := fun r hr => (h'.newG r hr).elim (h.newG r) fun hl => .inr (Nat.le_trans h.lenD hl)
  keep := fun k hk => ⟨(h'.keep k (h.keep k hk).1).1, (h'.keep k (h.keep k hk).1).2.trans (h.keep k hk).2⟩
  inv := h'.inv

theorem Evolves.trans' {X Y : Nat → Prop} {m m₁ m₂ : Machine} {μ μ₁ μ₂ : Memo} {F F₁ F₂ G G₁ G₂ : Nat → Prop}
    (h : Evolves X Y m m₁ μ μ₁ F F₁ G G₁) (h' : Evolves Nothing Nothing m₁ m₂ μ₁ μ₂ F₁ F₂ G₁ G₂) :
    Evolves X Y m m₂ μ μ₂ F F₂ G G₂ := h.trans h' (fun _ _ hc => hc.elim) (fun _ _ hc => hc.elim)

theorem Evolves.agreeA {X Y : Nat → Prop} {m m' : Machine} {μ μ' : Memo} {F F' G G' : Nat → Prop}
    (h : Evolves X Y m m' μ μ' F F' G G') {H : Nat → Prop} (hX : ∀ r, H r → ¬ X r) : Agree H m.arrays m'.arrays :=
  fun r hr a ha => by rw [h.oldA r (List.getElem?_eq_some_iff.1 ha).1 (hX r hr), ha]

theorem Evolves.agreeD {X Y : Nat → Prop} {m m' : Machine} {μ μ' : Memo} {F F' G G' : Nat → Prop}
    (h : Evolves X Y m m' μ μ' F F' G G') {H : Nat → Prop} (hY : ∀ r, H r → ¬ Y r) : Agree H m.dicts m'.dicts :=
  fun r hr a ha => by rw [h.oldD r (List.getElem?_eq_some_iff.1 ha).1 (hY r hr), ha]

/-- objects complete before stay what they are -/
theorem Evolves.rep {X Y : Nat → Prop} {m m' : Machine} {μ μ' : Memo} {F F' G G' : Nat → Prop}
    (h : Evolves X Y m m' μ μ' F F' G G') (hX : ∀ r, F r → ¬ X r) (hY : ∀ r, G r → ¬ Y r) {x : PVal} {v : PyVal}
    (hr : PRep m.arrays m.dicts F G x v) : PRep m'.arrays m'.dicts F' G' x v :=
  PRep.mono (h.agreeA hX) (h.agreeD hY) h.subF h.subG v x hr

theorem Evolves.repSeq {X Y : Nat → Prop} {m m' : Machine} {μ μ' : Memo} {F F' G G' : Nat → Prop}
    (h : Evolves X Y m m' μ μ' F F' G G') (hX : ∀ r, F r → ¬ X r) (hY : ∀ r, G r → ¬ Y r) {x : List PVal} {v : PySeq}
    (hr : PRepSeq m.arrays m.dicts F G x v) : PRepSeq m'.arrays m'.dicts F' G' x v :=
  PRepSeq.mono (h.agreeA hX) (h.agreeD hY) h.subF h.subG v x hr

theorem Evolves.repMap {X Y : Nat → Prop} {m m' : Machine} {μ μ' : Memo} {F F' G G' : Nat → Prop}
    (h : Evolves X Y m m' μ μ' F F' G G') (hX : ∀ r, F r → ¬ X r) (hY : ∀ r, G r → ¬ Y r) {x : DictCells} {v : PyMap}
    (hr : PRepMap m.arrays m.dicts F G x v) : PRepMap m'.arrays m'.dicts F' G' x v :=
  PRepMap.mono (h.agreeA hX) (h.agreeD hY) h.subF h.subG v x hr

/-- only the stack changes -/
theorem Evolves.stack {m m' : Machine} {μ : Memo} {F G : Nat → Prop} (hi : PInv m μ F G) (h1 : m'.marks = m.marks)
    (h2 : m'.memory = m.memory) (h3 : m'.arrays = m.arrays) (h4 : m'.dicts = m.dicts) :
    Evolves Nothing Nothing m m' μ μ F F G G where
  marks := h1
  lenA := by rw [h3]
  lenD := by rw [h4]
  oldA := fun _ _ _ => by rw [h3]
  oldD := fun _ _ _ => by rw [h4]
  subF := fun _ h => h
  subG := fun _ h => h
  newF := fun _ h => .inl h
  newG := fun _ h => .inl h
  keep := fun _ hk => ⟨hk, by rw [h2]⟩
  inv := ⟨by rw [h3]; exact hi.bF, by rw [h4]; exact hi.bG, by rw [h2, h3, h4]; exact hi.memo⟩

theorem Evolves.marked {m m' : Machine} {μ μ' : Memo} {X Y F F' G G' : Nat → Prop} {st : List PVal} {ms : List Nat}
    (h : Evolves X Y { m with stack := st, marks := ms } m' μ μ' F F' G G') (hm : m'.marks = m.marks) :
    Evolves X Y m m' μ μ' F F' G G' :=
  ⟨hm, h.lenA, h.lenD, h.oldA, h.oldD, h.subF, h.subG, h.newF, h.newG, h.keep, h.inv⟩

theorem PInv.mark {m : Machine} {μ : Memo} {F G : Nat → Prop} (hi : PInv m μ F G) : PInv m.pushMark μ F G :=
  ⟨hi.bF, hi.bG, hi.memo⟩

/-- drop the marks and replace the stack -/
theorem Evolves.unmark {m m' : Machine} {μ μ' : Memo} {X Y F F' G G' : Nat → Prop} (st : List PVal)
    (h : Evolves X Y m.pushMark m' μ μ' F F' G G') :
    Evolves X Y m { m' with stack := st, marks := m.marks } μ μ' F F' G G' :=
  ⟨rfl, h.lenA, h.lenD, h.oldA, h.oldD, h.subF, h.subG, h.newF, h.newG, h.keep, ⟨h.inv.bF, h.inv.bG, h.inv.memo⟩⟩

theorem remember {P : Platform} {μ μ' : Memo} {s : Slot} {put : Bytes} (h : Remember μ s put μ') {m : Machine}
    {F G : Nat → Prop} (hi : PInv m μ F G) {x : PVal} {st : List PVal} (hs : m.stack = x :: st)
    (hx : ∀ v, s = .holds v → PRep m.arrays m.dicts F G x v) :
    ∃ m', Runs P m put m' ∧ m'.stack = m.stack ∧ m'.arrays = m.arrays ∧ m'.dicts = m.dicts ∧
      Evolves Nothing Nothing m m' μ μ' F F G G ∧
      (∀ key, put = octet 'p' :: (key ++ [nl]) → Pickle.lookup key m'.memory = some x) := by
  cases h with
  | skip => exact ⟨m, Runs.refl P m, rfl, rfl, rfl, Evolves.stack hi rfl rfl rfl rfl, fun key hk => by cases hk⟩
  | put key hk hu =>
    refine ⟨{ m with memory := (key, x) :: m.memory }, run_put P m hk hs, rfl, rfl, rfl, ?_, ?_⟩
    · refine ⟨rfl, Nat.le_refl _, Nat.le_refl _, fun _ _ _ => rfl, fun _ _ _ => rfl, fun _ h => h, fun _ h => h,
        fun _ h => .inl h, fun _ h => .inl h, fun k hk' => ?_, hi.bF, hi.bG, fun k v hv => ?_⟩
      · have hne : k ≠ key := fun hc => hk' (hc ▸ hu)
        refine ⟨by unfold Memo.set; rw [if_neg hne]; exact hk', ?_⟩
        show (if key = k then _ else _) = _
        rw [if_neg fun hc => hne hc.symm]
      · unfold Memo.set at hv
        by_cases he : k = key
        · rw [if_pos he] at hv
          refine ⟨x, ?_, hx v hv⟩
          show (if key = k then _ else _) = _
          rw [if_pos he.symm]
        · rw [if_neg he] at hv
          obtain ⟨y, hy, hr⟩ := hi.memo k v hv
          refine ⟨y, ?_, hr⟩
          show (if key = k then _ else _) = _
          rw [if_neg fun hc => he hc.symm]
          exact hy
    · intro k hk'
      have : key = k := by
        have := (List.cons.inj hk').2
        exact List.append_cancel_right this
      show (if key = k then _ else _) = _
      rw [if_pos this]

/-- what decoding the pickle of a value does -/
def Builds (P : Platform) (μ : Memo) (v : PyVal) (bs : Bytes) (μ' : Memo) : Prop :=
  ∀ m F G, PInv m μ F G → ∃ m' x F' G', Runs P m bs m' ∧ m'.stack = x :: m.stack ∧
    Evolves Nothing Nothing m m' μ μ' F F' G G' ∧ PRep m'.arrays m'.dicts F' G' x v

def BuildsSeq (P : Platform) (μ : Memo) (vs : PySeq) (bs : Bytes) (μ' : Memo) : Prop :=
  ∀ m F G, PInv m μ F G → ∃ m' xs F' G', Runs P m bs m' ∧ m'.stack = xs.reverse ++ m.stack ∧
    Evolves Nothing Nothing m m' μ μ' F F' G G' ∧ PRepSeq m'.arrays m'.dicts F' G' xs vs

def BuildsAppends (P : Platform) (μ : Memo) (vs : PySeq) (bs : Bytes) (μ' : Memo) : Prop :=
  ∀ m F G arr a st, PInv m μ F G → m.stack = .list arr a.elems.length :: st → m.arrays[arr]? = some a → ¬ F arr →
    ∃ m' arr' a' xs F' G', Runs P m bs m' ∧ m'.stack = .list arr' a'.elems.length :: st ∧ m'.arrays[arr']? = some a' ∧
      a'.elems = a.elems ++ xs ∧ ¬ F' arr' ∧ (arr' = arr ∨ m.arrays.length ≤ arr') ∧
      Evolves (· = arr) Nothing m m' μ μ' F F' G G' ∧ PRepSeq m'.arrays m'.dicts F' G' xs vs

def BuildsItems (P : Platform) (μ : Memo) (kvs : PyMap) (bs : Bytes) (μ' : Memo) : Prop :=
  ∀ m F G ref cells st, PInv m μ F G → m.stack = .dict ref :: st → m.dicts[ref]? = some cells → ¬ G ref →
    ∃ m' new F' G', Runs P m bs m' ∧ m'.stack = .dict ref :: st ∧ m'.dicts[ref]? = some (new ++ cells) ∧ ¬ G' ref ∧
      Evolves Nothing (· = ref) m m' μ μ' F F' G G' ∧ PRepMap m'.arrays m'.dicts F' G' new kvs

def BuildsPairs (P : Platform) (μ : Memo) (kvs : PyMap) (bs : Bytes) (μ' : Memo) : Prop :=
  ∀ m F G, PInv m μ F G → ∃ m' objs new F' G', Runs P m bs m' ∧ m'.stack = objs.reverse ++ m.stack ∧ objs.length % 2 = 0 ∧
    (∀ acc, dictCells objs acc = .ok (new ++ acc)) ∧ Evolves Nothing Nothing m m' μ μ' F F' G G' ∧
    PRepMap m'.arrays m'.dicts F' G' new kvs

/-- a value pushed without touching the heap -/
theorem builds_push {P : Platform} {μ : Memo} {v : PyVal} {bs : Bytes} {x : PVal}
    (h : ∀ m : Machine, Runs P m bs (m.push x)) (hx : ∀ A D F G, PRep A D F G x v) : Builds P μ v bs μ :=
  fun m F G hi => ⟨m.push x, x, F, G, h m, rfl, Evolves.stack hi rfl rfl rfl rfl, hx _ _ _ _⟩

/-- … and then stored -/
theorem builds_push_put {P : Platform} {μ μ' : Memo} {v : PyVal} {bs put : Bytes} {x : PVal}
    (h : ∀ m : Machine, Runs P m bs (m.push x)) (hx : ∀ A D F G, PRep A D F G x v)
    (hp : Remember μ (.holds v) put μ') : Builds P μ v (bs ++ put) μ' := by
  intro m F G hi
  have e1 := Evolves.stack (m' := m.push x) hi rfl rfl rfl rfl
  obtain ⟨m', hr, hs, -, -, he, -⟩ := remember (P := P) hp e1.inv (x := x) (st := m.stack) rfl fun w hw => by
    cases hw; exact hx _ _ _ _
  exact ⟨m', x, F, G, (h m).trans hr, by rw [hs]; rfl, e1.trans' he, hx _ _ _ _⟩

theorem builds_tuple {P : Platform} {μ μ₁ μ₂ : Memo} {vs : PySeq} {bs put : Bytes} (h : BuildsSeq P μ vs bs μ₁)
    (hp : Remember μ₁ (.holds (.tuple vs)) put μ₂) : Builds P μ (.tuple vs) (octet '(' :: (bs ++ octet 't' :: put)) μ₂ := by
  intro m F G hi
  obtain ⟨m₁, xs, F₁, G₁, r1, s1, e1, p1⟩ := h m.pushMark F G hi.mark
  have e2 := e1.unmark (.tuple xs :: m.stack)
  have hx : PRep m₁.arrays m₁.dicts F₁ G₁ (.tuple xs) (.tuple vs) := ⟨xs, rfl, p1⟩
  obtain ⟨m₂, r2, s2, a2, d2, e3, -⟩ := remember (P := P) hp e2.inv rfl fun w hw => by cases hw; exact hx
  refine ⟨m₂, .tuple xs, F₁, G₁, ?_, s2, e2.trans' e3, by rw [a2, d2]; exact hx⟩
  have := ((run_mark P m).trans (r1.trans (run_tuple P m₁ s1 e1.marks))).trans r2
  simpa using this

theorem builds_listOf {P : Platform} {μ μ₁ μ₂ : Memo} {vs : PySeq} {bs put : Bytes} (h : BuildsSeq P μ vs bs μ₁)
    (hp : Remember μ₁ (.holds (.list vs)) put μ₂) : Builds P μ (.list vs) (octet '(' :: (bs ++ octet 'l' :: put)) μ₂ := by
  intro m F G hi
  obtain ⟨m₁, xs, F₁, G₁, r1, s1, e1, p1⟩ := h m.pushMark F G hi.mark
  obtain ⟨a, ha, rl⟩ := run_list P m₁ s1 e1.marks
  let mid : Machine := { m₁ with stack := .list m₁.arrays.length xs.length :: m.stack, marks := m.marks, arrays := m₁.arrays ++ [a] }
  let F₂ : Nat → Prop := fun r => F₁ r ∨ r = m₁.arrays.length
  have hA : Agree F₁ m₁.arrays mid.arrays := fun r _ b hb => by
    rw [List.getElem?_append_left (List.getElem?_eq_some_iff.1 hb).1]; exact hb
  have hmid : mid.arrays[m₁.arrays.length]? = some a := by simp [mid]
  have hlen : mid.arrays.length = m₁.arrays.length + 1 := by simp [mid]
  have hx : PRep mid.arrays mid.dicts F₂ G₁ (.list m₁.arrays.length xs.length) (.list vs) := by
    refine ⟨_, _, a, rfl, .inr rfl, hmid, by rw [ha], ?_⟩
    rw [ha, List.take_length]
    exact PRepSeq.mono hA (fun _ _ _ h => h) (fun _ h => .inl h) (fun _ h => h) vs xs p1
  have e2 : Evolves Nothing Nothing m mid μ μ₁ F F₂ G G₁ := by
    refine ⟨rfl, by rw [hlen]; exact Nat.le_succ_of_le e1.lenA, e1.lenD, fun r hr hn => ?_, e1.oldD, fun r h => .inl (e1.subF r h),
      e1.subG, fun r h => ?_, e1.newG, e1.keep, fun r h => ?_, e1.inv.bG, fun k v hv => ?_⟩
    · show (m₁.arrays ++ [a])[r]? = _
      have hr' : r < m₁.arrays.length := Nat.lt_of_lt_of_le hr e1.lenA
      rw [List.getElem?_append_left hr']
      exact e1.oldA r hr hn
    · rcases h with h | rfl
      · exact e1.newF r h
      · exact .inr e1.lenA
    · rw [hlen]
      rcases h with h | rfl
      · exact Nat.lt_succ_of_lt (e1.inv.bF r h)
      · exact Nat.lt_succ_self _
    · obtain ⟨y, hy, hr⟩ := e1.inv.memo k v hv
      exact ⟨y, hy, PRep.mono hA (fun _ _ _ h => h) (fun _ h => .inl h) (fun _ h => h) v y hr⟩
  obtain ⟨m₂, r2, s2, a2, d2, e3, -⟩ := remember (P := P) hp e2.inv rfl fun w hw => by cases hw; exact hx
  refine ⟨m₂, .list m₁.arrays.length xs.length, F₂, G₁, ?_, s2, e2.trans' e3, by rw [a2, d2]; exact hx⟩
  have := ((run_mark P m).trans (r1.trans rl)).trans r2
  simpa using this

theorem builds_dictOf {P : Platform} {μ μ₁ μ₂ : Memo} {kvs : PyMap} {bs put : Bytes} (h : BuildsPairs P μ kvs bs μ₁)
    (hp : Remember μ₁ (.holds (.dict kvs)) put μ₂) : Builds P μ (.dict kvs) (octet '(' :: (bs ++ octet 'd' :: put)) μ₂ := by
  intro m F G hi
  obtain ⟨m₁, xs, new, F₁, G₁, r1, s1, v1, c1, e1, p1⟩ := h m.pushMark F G hi.mark
  have c1 := c1 []
  rw [List.append_nil] at c1
  have rl := run_dictOf P m₁ s1 e1.marks v1 c1
  let mid : Machine := { m₁ with stack := .dict m₁.dicts.length :: m.stack, marks := m.marks, dicts := m₁.dicts ++ [new] }
  let G₂ : Nat → Prop := fun r => G₁ r ∨ r = m₁.dicts.length
  have hD : Agree G₁ m₁.dicts mid.dicts := fun r _ b hb => by
    rw [List.getElem?_append_left (List.getElem?_eq_some_iff.1 hb).1]; exact hb
  have hmid : mid.dicts[m₁.dicts.length]? = some new := by simp [mid]
  have hlen : mid.dicts.length = m₁.dicts.length + 1 := by simp [mid]
  have hx : PRep mid.arrays mid.dicts F₁ G₂ (.dict m₁.dicts.length) (.dict kvs) :=
    ⟨_, new, rfl, .inr rfl, hmid, PRepMap.mono (fun _ _ _ h => h) hD (fun _ h => h) (fun _ h => .inl h) kvs new p1⟩
  have e2 : Evolves Nothing Nothing m mid μ μ₁ F F₁ G G₂ := by
    refine ⟨rfl, e1.lenA, by rw [hlen]; exact Nat.le_succ_of_le e1.lenD, e1.oldA, fun r hr hn => ?_, e1.subF, fun r h => .inl (e1.subG r h),
      e1.newF, fun r h => ?_, e1.keep, e1.inv.bF, fun r h => ?_, fun k v hv => ?_⟩
    · show (m₁.dicts ++ [new])[r]? = _
      have hr' : r < m₁.dicts.length := Nat.lt_of_lt_of_le hr e1.lenD
      rw [List.getElem?_append_left hr']
      exact e1.oldD r hr hn
    · rcases h with h | rfl
      · exact e1.newG r h
      · exact .inr e1.lenD
    · rw [hlen]
      rcases h with h | rfl
      · exact Nat.lt_succ_of_lt (e1.inv.bG r h)
      · exact Nat.lt_succ_self _
    · obtain ⟨y, hy, hr⟩ := e1.inv.memo k v hv
      exact ⟨y, hy, PRep.mono (fun _ _ _ h => h) hD (fun _ h => h) (fun _ h => .inl h) v y hr⟩
  obtain ⟨m₂, r2, s2, a2, d2, e3, -⟩ := remember (P := P) hp e2.inv rfl fun w hw => by cases hw; exact hx
  refine ⟨m₂, .dict m₁.dicts.length, F₁, G₂, ?_, s2, e2.trans' e3, by rw [a2, d2]; exact hx⟩
  have := ((run_mark P m).trans (r1.trans rl)).trans r2
  simpa using this

/-- a fresh empty list -/
theorem fresh_list {P : Platform} {μ : Memo} {m : Machine} {F G : Nat → Prop} (hi : PInv m μ F G) :
    ∃ m₁ a, Runs P m (octet '(' :: [octet 'l']) m₁ ∧ a.elems = [] ∧ m₁.stack = .list m.arrays.length 0 :: m.stack ∧
      m₁.arrays = m.arrays ++ [a] ∧ Evolves Nothing Nothing m m₁ μ μ F F G G := by
  obtain ⟨a, ha, rl⟩ := run_list P m.pushMark (ys := []) (st := m.stack) (ms := m.marks) rfl rfl
  refine ⟨_, a, (run_mark P m).trans rl, ha, rfl, rfl, ?_⟩
  have hA : Agree F m.arrays (m.arrays ++ [a]) := fun r _ b hb => by
    rw [List.getElem?_append_left (List.getElem?_eq_some_iff.1 hb).1]; exact hb
  refine ⟨rfl, by simp [Machine.pushMark], Nat.le_refl _, fun r hr _ => ?_, fun _ _ _ => rfl, fun _ h => h, fun _ h => h,
    fun _ h => .inl h, fun _ h => .inl h, fun _ hk => ⟨hk, rfl⟩, fun r hr => ?_, hi.bG, fun k v hv => ?_⟩
  · show (m.arrays ++ [a])[r]? = _
    rw [List.getElem?_append_left hr]
  · have := hi.bF r hr
    show r < (m.arrays ++ [a]).length
    rw [List.length_append]; exact Nat.lt_add_right _ this
  · obtain ⟨y, hy, hr⟩ := hi.memo k v hv
    exact ⟨y, hy, PRep.mono hA (fun _ _ _ h => h) (fun _ h => h) (fun _ h => h) v y hr⟩

theorem builds_list {P : Platform} {μ μ₁ μ₂ : Memo} {vs : PySeq} {bs put : Bytes} (hp : Remember μ .hidden put μ₁)
    (h : BuildsAppends P μ₁ vs bs μ₂) : Builds P μ (.list vs) (octet '(' :: octet 'l' :: (put ++ bs)) μ₂ := by
  intro m F G hi
  obtain ⟨m₁, a, r1, ha, s1, a1, e1⟩ := fresh_list (P := P) hi
  obtain ⟨m₂, r2, s2, a2, d2, e2, -⟩ := remember (P := P) hp e1.inv s1 fun w hw => by cases hw
  have hs : m₂.stack = .list m.arrays.length a.elems.length :: m.stack := by rw [s2, s1, ha]; rfl
  have hg : m₂.arrays[m.arrays.length]? = some a := by rw [a2, a1]; simp
  have hnF : ¬ F m.arrays.length := fun hc => Nat.lt_irrefl _ (hi.bF _ hc)
  obtain ⟨m₃, arr', a', xs, F', G', r3, s3, g3, l3, n3, o3, e3, p3⟩ := h m₂ F G _ a m.stack e2.inv hs hg hnF
  have e12 := e1.trans' e2
  have e123 : Evolves Nothing Nothing m m₃ μ μ₂ F F' G G' := e12.trans e3
    (fun r hr hc => absurd hr (by rw [hc]; exact Nat.lt_irrefl _)) (fun _ _ hc => hc)
  have hge : m.arrays.length ≤ arr' := by
    rcases o3 with rfl | h
    · exact Nat.le_refl _
    · exact Nat.le_trans e12.lenA h
  have hlt : arr' < m₃.arrays.length := (List.getElem?_eq_some_iff.1 g3).1
  have hxs : a'.elems = xs := by rw [l3, ha]; rfl
  refine ⟨m₃, .list arr' a'.elems.length, fun r => F' r ∨ r = arr', G', ?_, s3, ?_, ?_⟩
  · have := (r1.trans r2).trans r3
    simpa using this
  · refine ⟨e123.marks, e123.lenA, e123.lenD, e123.oldA, e123.oldD, fun r h => .inl (e123.subF r h), e123.subG,
      fun r h => ?_, e123.newG, e123.keep, fun r h => ?_, e123.inv.bG, fun k v hv => ?_⟩
    · rcases h with h | rfl
      · exact e123.newF r h
      · exact .inr hge
    · rcases h with h | rfl
      · exact e123.inv.bF r h
      · exact hlt
    · obtain ⟨y, hy, hr⟩ := e123.inv.memo k v hv
      exact ⟨y, hy, PRep.mono (fun _ _ _ h => h) (fun _ _ _ h => h) (fun _ h => .inl h) (fun _ h => h) v y hr⟩
  · refine ⟨arr', a'.elems.length, a', rfl, .inr rfl, g3, Nat.le_refl _, ?_⟩
    rw [List.take_length, hxs]
    exact PRepSeq.mono (fun _ _ _ h => h) (fun _ _ _ h => h) (fun _ h => .inl h) (fun _ h => h) vs xs p3

/-- a fresh empty dict -/
theorem fresh_dict {P : Platform} {μ : Memo} {m : Machine} {F G : Nat → Prop} (hi : PInv m μ F G) :
    ∃ m₁, Runs P m (octet '(' :: [octet 'd']) m₁ ∧ m₁.stack = .dict m.dicts.length :: m.stack ∧
      m₁.dicts = m.dicts ++ [[]] ∧ m₁.arrays = m.arrays ∧ Evolves Nothing Nothing m m₁ μ μ F F G G := by
  refine ⟨_, (run_mark P m).trans (run_dict P m.pushMark (st := m.stack) (ms := m.marks) rfl rfl), rfl, rfl, rfl, ?_⟩
  have hD : Agree G m.dicts (m.dicts ++ [[]]) := fun r _ b hb => by
    rw [List.getElem?_append_left (List.getElem?_eq_some_iff.1 hb).1]; exact hb
  refine ⟨rfl, Nat.le_refl _, by simp [Machine.pushMark], fun _ _ _ => rfl, fun r hr _ => ?_, fun _ h => h, fun _ h => h,
    fun _ h => .inl h, fun _ h => .inl h, fun _ hk => ⟨hk, rfl⟩, hi.bF, fun r hr => ?_, fun k v hv => ?_⟩
  · show (m.dicts ++ [[]])[r]? = _
    rw [List.getElem?_append_left hr]
  · have := hi.bG r hr
    show r < (m.dicts ++ [[]]).length
    rw [List.length_append]; exact Nat.lt_add_right _ this
  · obtain ⟨y, hy, hr⟩ := hi.memo k v hv
    exact ⟨y, hy, PRep.mono (fun _ _ _ h => h) hD (fun _ h => h) (fun _ h => h) v y hr⟩

/-- the common part of the two ways of writing a dict -/
theorem finish_dict {P : Platform} {μ μ₁ μ₂ : Memo} {kvs : PyMap} {bs put : Bytes} {s : Slot}
    (hp : Remember μ s put μ₁) (hsl : s = .hidden) (h : BuildsItems P μ₁ kvs bs μ₂) (m : Machine) (F G : Nat → Prop)
    (hi : PInv m μ F G) :
    ∃ m' x F' G', Runs P m (octet '(' :: octet 'd' :: (put ++ bs)) m' ∧ m'.stack = x :: m.stack ∧
      Evolves Nothing Nothing m m' μ μ₂ F F' G G' ∧ PRep m'.arrays m'.dicts F' G' x (.dict kvs) ∧
      (∀ key, put = octet 'p' :: (key ++ [nl]) → μ₁ key ≠ .unused → Pickle.lookup key m'.memory = some x) := by
  obtain ⟨m₁, r1, s1, d1, a1, e1⟩ := fresh_dict (P := P) hi
  obtain ⟨m₂, r2, s2, a2, d2, e2, l2⟩ := remember (P := P) hp e1.inv s1 fun w hw => by rw [hsl] at hw; cases hw
  have hg : m₂.dicts[m.dicts.length]? = some [] := by rw [d2, d1]; simp
  have hnG : ¬ G m.dicts.length := fun hc => Nat.lt_irrefl _ (hi.bG _ hc)
  obtain ⟨m₃, new, F', G', r3, s3, g3, n3, e3, p3⟩ := h m₂ F G _ [] m.stack e2.inv (s2.trans s1) hg hnG
  rw [List.append_nil] at g3
  have e12 := e1.trans' e2
  have e123 : Evolves Nothing Nothing m m₃ μ μ₂ F F' G G' := e12.trans e3 (fun _ _ hc => hc)
    (fun r hr hc => absurd hr (by rw [hc]; exact Nat.lt_irrefl _))
  have hlt : m.dicts.length < m₃.dicts.length := (List.getElem?_eq_some_iff.1 g3).1
  refine ⟨m₃, .dict m.dicts.length, F', fun r => G' r ∨ r = m.dicts.length, ?_, s3, ?_, ?_, ?_⟩
  · have := (r1.trans r2).trans r3
    simpa using this
  · refine ⟨e123.marks, e123.lenA, e123.lenD, e123.oldA, e123.oldD, e123.subF, fun r h => .inl (e123.subG r h),
      e123.newF, fun r h => ?_, e123.keep, e123.inv.bF, fun r h => ?_, fun k v hv => ?_⟩
    · rcases h with h | rfl
      · exact e123.newG r h
      · exact .inr (Nat.le_refl _)
    · rcases h with h | rfl
      · exact e123.inv.bG r h
      · exact hlt
    · obtain ⟨y, hy, hr⟩ := e123.inv.memo k v hv
      exact ⟨y, hy, PRep.mono (fun _ _ _ h => h) (fun _ _ _ h => h) (fun _ h => h) (fun _ h => .inl h) v y hr⟩
  · refine ⟨_, new, rfl, .inr rfl, g3, ?_⟩
    exact PRepMap.mono (fun _ _ _ h => h) (fun _ _ _ h => h) (fun _ h => h) (fun _ h => .inl h) kvs new p3
  · intro key hk hu
    rw [(e3.keep key hu).2]
    exact l2 key hk

theorem builds_dict {P : Platform} {μ μ₁ : Memo} {kvs : PyMap} {bs : Bytes} (h : BuildsItems P μ kvs bs μ₁) :
    Builds P μ (.dict kvs) (octet '(' :: octet 'd' :: bs) μ₁ := by
  intro m F G hi
  obtain ⟨m', x, F', G', r, s, e, p, -⟩ := finish_dict (s := .hidden) Remember.skip rfl h m F G hi
  exact ⟨m', x, F', G', r, s, e, p⟩

theorem builds_dictPut {P : Platform} {μ μ₁ : Memo} {kvs : PyMap} {key bs : Bytes} (hk : nl ∉ key)
    (hu : μ key = .unused) (h : BuildsItems P (μ.set key .hidden) kvs bs μ₁) :
    Builds P μ (.dict kvs) (octet '(' :: octet 'd' :: octet 'p' :: (key ++ nl :: bs)) (μ₁.set key (.holds (.dict kvs))) := by
  intro m F G hi
  obtain ⟨m', x, F', G', r, s, e, p, l⟩ := finish_dict (Remember.put key hk hu) rfl h m F G hi
  have hl := l key rfl (by unfold Memo.set; rw [if_pos rfl]; exact Slot.noConfusion)
  refine ⟨m', x, F', G', by simpa using r, s, ?_, p⟩
  refine ⟨e.marks, e.lenA, e.lenD, e.oldA, e.oldD, e.subF, e.subG, e.newF, e.newG, fun k hk' => ?_, e.inv.bF, e.inv.bG,
    fun k v hv => ?_⟩
  · refine ⟨?_, (e.keep k hk').2⟩
    unfold Memo.set
    split
    · exact Slot.noConfusion
    · exact (e.keep k hk').1
  · unfold Memo.set at hv
    by_cases he : k = key
    · rw [if_pos he] at hv
      cases hv
      exact ⟨x, by rw [he]; exact hl, p⟩
    · rw [if_neg he] at hv
      exact e.inv.memo k v hv

theorem builds_reduce {P : Platform} {μ μ₁ μ₂ μ₃ : Memo} {f : PyVal} {args : PySeq} {bf ba put : Bytes}
    (hf : Builds P μ f bf μ₁) (ha : Builds P μ₁ (.tuple args) ba μ₂) (s : Slot)
    (hs : s = .hidden ∨ s = .holds (.reduce f args)) (hp : Remember μ₂ s put μ₃) :
    Builds P μ (.reduce f args) (bf ++ (ba ++ octet 'R' :: put)) μ₃ := by
  intro m F G hi
  obtain ⟨m₁, y, F₁, G₁, r1, s1, e1, p1⟩ := hf m F G hi
  obtain ⟨m₂, z, F₂, G₂, r2, s2, e2, p2⟩ := ha m₁ F₁ G₁ e1.inv
  obtain ⟨ys, rfl, p2⟩ := p2
  have q1 := e2.rep (fun _ _ h => h) (fun _ _ h => h) p1
  have r3 := run_reduce P m₂ (f := y) (args := ys) (st := m.stack) (by rw [s2, s1])
  let mid : Machine := { m₂ with stack := .reduce y ys :: m.stack }
  have e3 : Evolves Nothing Nothing m₂ mid μ₂ μ₂ F₂ F₂ G₂ G₂ := Evolves.stack e2.inv rfl rfl rfl rfl
  have hx : PRep mid.arrays mid.dicts F₂ G₂ (.reduce y ys) (.reduce f args) := ⟨y, ys, rfl, q1, p2⟩
  obtain ⟨m₄, r4, s4, a4, d4, e4, -⟩ := remember (P := P) hp e3.inv rfl fun w hw => by
    rcases hs with rfl | rfl
    · cases hw
    · cases hw; exact hx
  refine ⟨m₄, .reduce y ys, F₂, G₂, ?_, s4, (e1.trans' e2).trans' (e3.trans' e4), by rw [a4, d4]; exact hx⟩
  have := (r1.trans (r2.trans (r3.trans r4)))
  simpa using this

theorem builds_build {P : Platform} {μ μ₁ μ₂ μ₃ μ₄ : Memo} {f : PyVal} {args : PySeq} {state : PyVal} {bf ba put bs : Bytes}
    (hf : Builds P μ f bf μ₁) (ha : Builds P μ₁ (.tuple args) ba μ₂) (hp : Remember μ₂ .hidden put μ₃)
    (hs : Builds P μ₃ state bs μ₄) :
    Builds P μ (.build f args state) (bf ++ (ba ++ octet 'R' :: (put ++ (bs ++ [octet 'b'])))) μ₄ := by
  intro m F G hi
  obtain ⟨m₁, y, F₁, G₁, r1, s1, e1, p1⟩ := builds_reduce hf ha .hidden (.inl rfl) hp m F G hi
  obtain ⟨m₂, z, F₂, G₂, r2, s2, e2, p2⟩ := hs m₁ F₁ G₁ e1.inv
  obtain ⟨w, ws, rfl, q1, q2⟩ := p1
  have r3 := run_build P m₂ (o := .reduce w ws) (s := z) (st := m.stack) (by rw [s2, s1])
  have e3 : Evolves Nothing Nothing m₂ { m₂ with stack := .build (.reduce w ws) z :: m.stack } μ₄ μ₄ F₂ F₂ G₂ G₂ :=
    Evolves.stack e2.inv rfl rfl rfl rfl
  refine ⟨_, .build (.reduce w ws) z, F₂, G₂, ?_, rfl, (e1.trans' e2).trans' e3, w, ws, z, rfl,
    e2.rep (fun _ _ h => h) (fun _ _ h => h) q1, e2.repSeq (fun _ _ h => h) (fun _ _ h => h) q2, p2⟩
  have := (r1.trans (r2.trans r3))
  simpa using this

theorem builds_buildPut {P : Platform} {μ μ₁ μ₂ μ₃ : Memo} {f : PyVal} {args : PySeq} {state : PyVal} {bf ba key bs : Bytes}
    (hf : Builds P μ f bf μ₁) (ha : Builds P μ₁ (.tuple args) ba μ₂) (hk : nl ∉ key) (hu : μ₂ key = .unused)
    (hs : Builds P (μ₂.set key .hidden) state bs μ₃) :
    Builds P μ (.build f args state) (bf ++ (ba ++ octet 'R' :: octet 'p' :: (key ++ nl :: (bs ++ [octet 'b']))))
      (μ₃.set key (.holds (.again f args state))) := by
  intro m F G hi
  obtain ⟨m₁, y, F₁, G₁, r1, s1, e1, p1⟩ := builds_reduce hf ha .hidden (.inl rfl) .skip m F G hi
  obtain ⟨m₁', r1', s1', a1', d1', e1', l1'⟩ := remember (P := P) (Remember.put (s := .hidden) key hk hu) e1.inv s1
    fun w hw => by cases hw
  obtain ⟨m₂, z, F₂, G₂, r2, s2, e2, p2⟩ := hs m₁' F₁ G₁ e1'.inv
  obtain ⟨w, ws, rfl, q1, q2⟩ := p1
  rw [← a1', ← d1'] at q1 q2
  have q1 := e2.rep (fun _ _ h => h) (fun _ _ h => h) q1
  have q2 := e2.repSeq (fun _ _ h => h) (fun _ _ h => h) q2
  have r3 := run_build P m₂ (o := .reduce w ws) (s := z) (st := m.stack) (by rw [s2, s1', s1])
  let mid : Machine := { m₂ with stack := .build (.reduce w ws) z :: m.stack }
  have e3 : Evolves Nothing Nothing m₂ mid μ₃ μ₃ F₂ F₂ G₂ G₂ := Evolves.stack e2.inv rfl rfl rfl rfl
  have hl : Pickle.lookup key mid.memory = some (.reduce w ws) := by
    show Pickle.lookup key m₂.memory = _
    rw [(e2.keep key (by unfold Memo.set; rw [if_pos rfl]; exact Slot.noConfusion)).2]
    exact l1' key rfl
  have e := ((e1.trans' e1').trans' e2).trans' e3
  refine ⟨mid, .build (.reduce w ws) z, F₂, G₂, ?_, rfl, ?_, w, ws, z, rfl, q1, q2, p2⟩
  · have := r1.trans (r1'.trans (r2.trans r3))
    simpa using this
  · refine ⟨e.marks, e.lenA, e.lenD, e.oldA, e.oldD, e.subF, e.subG, e.newF, e.newG, fun k hk' => ?_, e.inv.bF, e.inv.bG,
      fun k v hv => ?_⟩
    · refine ⟨?_, (e.keep k hk').2⟩
      unfold Memo.set
      split
      · exact Slot.noConfusion
      · exact (e.keep k hk').1
    · unfold Memo.set at hv
      by_cases he : k = key
      · rw [if_pos he] at hv
        cases hv
        exact ⟨.reduce w ws, by rw [he]; exact hl, w, ws, rfl, q1, q2⟩
      · rw [if_neg he] at hv
        exact e.inv.memo k v hv

theorem builds_seq_cons {P : Platform} {μ μ₁ μ₂ : Memo} {v : PyVal} {vs : PySeq} {b bs : Bytes} (h : Builds P μ v b μ₁)
    (hs : BuildsSeq P μ₁ vs bs μ₂) : BuildsSeq P μ (.cons v vs) (b ++ bs) μ₂ := by
  intro m F G hi
  obtain ⟨m₁, x, F₁, G₁, r1, s1, e1, p1⟩ := h m F G hi
  obtain ⟨m₂, xs, F₂, G₂, r2, s2, e2, p2⟩ := hs m₁ F₁ G₁ e1.inv
  exact ⟨m₂, x :: xs, F₂, G₂, r1.trans r2, by rw [s2, s1]; simp, e1.trans' e2, x, xs, rfl,
    e2.rep (fun _ _ h => h) (fun _ _ h => h) p1, p2⟩

theorem builds_appends_cons {P : Platform} {μ μ₁ μ₂ : Memo} {v : PyVal} {vs : PySeq} {b bs : Bytes} (h : Builds P μ v b μ₁)
    (hs : BuildsAppends P μ₁ vs bs μ₂) : BuildsAppends P μ (.cons v vs) (b ++ octet 'a' :: bs) μ₂ := by
  intro m F G arr a st hi hst hg hn
  have hltm : arr < m.arrays.length := (List.getElem?_eq_some_iff.1 hg).1
  obtain ⟨m₁, x, F₁, G₁, r1, s1, e1, p1⟩ := h m F G hi
  have hg1 : m₁.arrays[arr]? = some a := by rw [e1.oldA arr hltm fun h => h]; exact hg
  have hn1 : ¬ F₁ arr := fun hc => (e1.newF arr hc).elim hn fun hl => by omega
  obtain ⟨arr₂, A₂, a₂, l2, g2, o2, r2⟩ := run_append P m₁ (st := st) (by rw [s1, hst]) hg1
  let mid : Machine := { m₁ with stack := .list arr₂ a₂.elems.length :: st, arrays := A₂ }
  have hA : ∀ r, r < m₁.arrays.length → r ≠ arr → A₂[r]? = m₁.arrays[r]? := by
    intro r hr hne
    rcases o2 with ⟨-, rfl⟩ | ⟨-, rfl⟩
    · exact List.getElem?_set_ne (Ne.symm hne)
    · exact List.getElem?_append_left hr
  have hlen : m₁.arrays.length ≤ A₂.length := by
    rcases o2 with ⟨-, rfl⟩ | ⟨-, rfl⟩ <;> simp
  have hag : Agree F₁ m₁.arrays A₂ := fun r hr c hc => by
    rw [hA r (List.getElem?_eq_some_iff.1 hc).1 fun he => hn1 (he ▸ hr)]; exact hc
  have hn2 : ¬ F₁ arr₂ := by
    rcases o2 with ⟨rfl, -⟩ | ⟨rfl, -⟩
    · exact hn1
    · exact fun hc => Nat.lt_irrefl _ (e1.inv.bF _ hc)
  have e2 : Evolves (· = arr) Nothing m₁ mid μ₁ μ₁ F₁ F₁ G₁ G₁ := by
    refine ⟨rfl, hlen, Nat.le_refl _, hA, fun _ _ _ => rfl, fun _ h => h, fun _ h => h, fun _ h => .inl h,
      fun _ h => .inl h, fun _ hk => ⟨hk, rfl⟩, fun r hr => Nat.lt_of_lt_of_le (e1.inv.bF r hr) hlen, e1.inv.bG,
      fun k v hv => ?_⟩
    obtain ⟨y, hy, hr⟩ := e1.inv.memo k v hv
    exact ⟨y, hy, PRep.mono hag (fun _ _ _ h => h) (fun _ h => h) (fun _ h => h) v y hr⟩
  obtain ⟨m₃, arr₃, a₃, xs, F₃, G₃, r3, s3, g3, l3, n3, o3, e3, p3⟩ := hs mid F₁ G₁ arr₂ a₂ st e2.inv rfl g2 hn2
  have hX : ∀ r, r < m.arrays.length → r = arr₂ → r = arr := by
    intro r hr he
    rcases o2 with ⟨h, -⟩ | ⟨h, -⟩
    · rw [he, h]
    · have := e1.lenA; omega
  have e12 : Evolves (· = arr) Nothing m mid μ μ₁ F F₁ G G₁ :=
    (Evolves.trans (X := (· = arr)) (Y := Nothing) ⟨e1.marks, e1.lenA, e1.lenD, fun r hr _ => e1.oldA r hr fun h => h, e1.oldD,
      e1.subF, e1.subG, e1.newF, e1.newG, e1.keep, e1.inv⟩ e2 (fun _ _ h => h) (fun _ _ h => h))
  refine ⟨m₃, arr₃, a₃, x :: xs, F₃, G₃, ?_, s3, g3, by rw [l3, l2]; simp, n3, ?_, e12.trans e3 hX (fun _ _ h => h),
    x, xs, rfl, ?_, p3⟩
  · have := r1.trans (r2.trans r3)
    simpa using this
  · rcases o3 with h | h
    · rcases o2 with ⟨h', -⟩ | ⟨h', -⟩
      · exact .inl (h.trans h')
      · refine .inr ?_
        rw [h, h']
        exact e1.lenA
    · exact .inr (Nat.le_trans e1.lenA (Nat.le_trans hlen h))
  · refine e3.rep (fun r hr he => hn2 (he ▸ hr)) (fun _ _ h => h) ?_
    exact PRep.mono hag (fun _ _ _ h => h) (fun _ h => h) (fun _ h => h) v x p1

theorem builds_items_cons {P : Platform} {μ μ₁ μ₂ μ₃ : Memo} {k : Bytes} {v : PyVal} {kvs : PyMap} {bk bv bs : Bytes}
    (hk : Builds P μ (.str k) bk μ₁) (hv : Builds P μ₁ v bv μ₂) (hs : BuildsItems P μ₂ kvs bs μ₃) :
    BuildsItems P μ (.cons k v kvs) (bk ++ (bv ++ octet 's' :: bs)) μ₃ := by
  intro m F G ref cells st hi hst hg hn
  have hltm : ref < m.dicts.length := (List.getElem?_eq_some_iff.1 hg).1
  obtain ⟨m₁, y, F₁, G₁, r1, s1, e1, p1⟩ := hk m F G hi
  have p1 : y = .unicode k := p1
  obtain ⟨m₂, x, F₂, G₂, r2, s2, e2, p2⟩ := hv m₁ F₁ G₁ e1.inv
  have e12 := e1.trans' e2
  have hg2 : m₂.dicts[ref]? = some cells := by rw [e12.oldD ref hltm fun h => h]; exact hg
  have hlt2 : ref < m₂.dicts.length := (List.getElem?_eq_some_iff.1 hg2).1
  have hn2 : ¬ G₂ ref := fun hc => (e12.newG ref hc).elim hn fun hl => by omega
  have r3 := run_setitem P m₂ (v := x) (key := k) (st := st) (by rw [s2, s1, hst, p1]) hg2
  let mid : Machine := { m₂ with stack := .dict ref :: st, dicts := m₂.dicts.set ref ((k, x) :: cells) }
  have hD : ∀ r, r < m₂.dicts.length → r ≠ ref → mid.dicts[r]? = m₂.dicts[r]? :=
    fun r _ hne => List.getElem?_set_ne (Ne.symm hne)
  have hag : Agree G₂ m₂.dicts mid.dicts := fun r hr c hc => by
    rw [hD r (List.getElem?_eq_some_iff.1 hc).1 fun he => hn2 (he ▸ hr)]; exact hc
  have hlen : mid.dicts.length = m₂.dicts.length := List.length_set
  have e3 : Evolves Nothing (· = ref) m₂ mid μ₂ μ₂ F₂ F₂ G₂ G₂ := by
    refine ⟨rfl, Nat.le_refl _, Nat.le_of_eq hlen.symm, fun _ _ _ => rfl, hD, fun _ h => h, fun _ h => h, fun _ h => .inl h,
      fun _ h => .inl h, fun _ hk => ⟨hk, rfl⟩, e12.inv.bF, fun r hr => by rw [hlen]; exact e12.inv.bG r hr, fun k v hv => ?_⟩
    obtain ⟨y, hy, hr⟩ := e12.inv.memo k v hv
    exact ⟨y, hy, PRep.mono (fun _ _ _ h => h) hag (fun _ h => h) (fun _ h => h) v y hr⟩
  obtain ⟨m₄, new, F₄, G₄, r4, s4, g4, n4, e4, p4⟩ := hs mid F₂ G₂ ref ((k, x) :: cells) st e3.inv rfl
    (List.getElem?_set_self hlt2) hn2
  have e123 : Evolves Nothing (· = ref) m mid μ μ₂ F F₂ G G₂ :=
    (Evolves.trans (X := Nothing) (Y := (· = ref)) ⟨e12.marks, e12.lenA, e12.lenD, e12.oldA, fun r hr _ => e12.oldD r hr fun h => h,
      e12.subF, e12.subG, e12.newF, e12.newG, e12.keep, e12.inv⟩ e3 (fun _ _ h => h) (fun _ _ h => h))
  refine ⟨m₄, new ++ [(k, x)], F₄, G₄, ?_, s4, by rw [g4]; simp, n4, e123.trans e4 (fun _ _ h => h) (fun _ _ h => h),
    x, new, rfl, ?_, p4⟩
  · have := r1.trans (r2.trans (r3.trans r4))
    simpa using this
  · refine e4.rep (fun _ _ h => h) (fun r hr he => hn2 (he ▸ hr)) ?_
    exact PRep.mono (fun _ _ _ h => h) hag (fun _ h => h) (fun _ h => h) v x p2

theorem builds_pairs_cons {P : Platform} {μ μ₁ μ₂ μ₃ : Memo} {k : Bytes} {v : PyVal} {kvs : PyMap} {bk bv bs : Bytes}
    (hk : Builds P μ (.str k) bk μ₁) (hv : Builds P μ₁ v bv μ₂) (hs : BuildsPairs P μ₂ kvs bs μ₃) :
    BuildsPairs P μ (.cons k v kvs) (bk ++ (bv ++ bs)) μ₃ := by
  intro m F G hi
  obtain ⟨m₁, y, F₁, G₁, r1, s1, e1, p1⟩ := hk m F G hi
  have p1 : y = .unicode k := p1
  subst p1
  obtain ⟨m₂, x, F₂, G₂, r2, s2, e2, p2⟩ := hv m₁ F₁ G₁ e1.inv
  obtain ⟨m₃, objs, new, F₃, G₃, r3, s3, v3, c3, e3, p3⟩ := hs m₂ F₂ G₂ e2.inv
  refine ⟨m₃, .unicode k :: x :: objs, new ++ [(k, x)], F₃, G₃, r1.trans (r2.trans r3), by rw [s3, s2, s1]; simp, ?_, fun acc => ?_,
    (e1.trans' e2).trans' e3, x, new, rfl, e3.rep (fun _ _ h => h) (fun _ _ h => h) p2, p3⟩
  · simp only [List.length_cons]; omega
  · rw [dictCells, c3]
    simp

mutual
theorem dumps_builds {P : Platform} : ∀ {μ v bs μ'}, Dumps P μ v bs μ' → Builds P μ v bs μ'
  | _, _, _, _, .none _ => builds_push (run_none P) fun _ _ _ _ => rfl
  | _, _, _, _, .int _ i hi => builds_push (fun m => run_int P m (fun _ h => decimalI_ascii h) (atoi_decimalI hi)) fun _ _ _ _ => rfl
  | _, _, _, _, .bool _ b => by
    cases b
    · exact builds_push (fun m => run_int P m (text := "00".toList) (by decide) (by decide)) fun _ _ _ _ => rfl
    · exact builds_push (fun m => run_int P m (text := "01".toList) (by decide) (by decide)) fun _ _ _ _ => rfl
  | _, _, _, _, .long _ i hi => builds_push (fun m => run_long P m (fun _ h => decimalI_ascii h)
      (by unfold decimalI; split; exacts [List.cons_ne_nil _ _, decimal_ne_nil _]) (atoi_decimalI hi)) fun _ _ _ _ => rfl
  | _, _, _, _, .float _ x text ha hx => builds_push (fun m => run_float P m ha hx) fun _ _ _ _ => rfl
  | _, _, _, _, .str _ _ s put hp => by
    have := builds_push_put (v := .str s) (x := .unicode s) (fun m => run_str P m s) (fun _ _ _ _ => rfl) hp
    simpa using this
  | _, _, _, _, .global _ _ m n put hm hn hp => by
    have := builds_push_put (v := .global m n) (x := .global m n) (fun mm => run_global P mm hm hn) (fun _ _ _ _ => rfl) hp
    simpa using this
  | _, _, _, _, .get _ key v hk hv => fun m F G hi => by
    obtain ⟨x, hx, hr⟩ := hi.memo key v hv
    exact ⟨m.push x, x, F, G, run_get P m hk hx, rfl, Evolves.stack hi rfl rfl rfl rfl, hr⟩
  | _, _, _, _, .tuple _ _ _ xs bs put hx hp => builds_tuple (dumpsSeq_builds hx) hp
  | _, _, _, _, .listOf _ _ _ xs bs put hx hp => builds_listOf (dumpsSeq_builds hx) hp
  | _, _, _, _, .list _ _ _ xs put bs hp hx => builds_list hp (dumpsAppends_builds hx)
  | _, _, _, _, .dictOf _ _ _ kvs bs put hx hp => builds_dictOf (dumpsPairs_builds hx) hp
  | _, _, _, _, .dict _ _ kvs bs hx => builds_dict (dumpsItems_builds hx)
  | _, _, _, _, .dictPut _ _ kvs key bs hk hu hx => builds_dictPut hk hu (dumpsItems_builds hx)
  | _, _, _, _, .reduce _ _ _ _ f args bf ba put hf ha hp => builds_reduce (dumps_builds hf) (dumps_builds ha) _ (.inr rfl) hp
  | _, _, _, _, .build _ _ _ _ _ f args s bf ba put bs hf ha hp hs => builds_build (dumps_builds hf) (dumps_builds ha) hp (dumps_builds hs)
  | _, _, _, _, .buildPut _ _ _ _ f args s bf ba key bs hf ha hk hu hs =>
    builds_buildPut (dumps_builds hf) (dumps_builds ha) hk hu (dumps_builds hs)
theorem dumpsSeq_builds {P : Platform} : ∀ {μ vs bs μ'}, DumpsSeq P μ vs bs μ' → BuildsSeq P μ vs bs μ'
  | _, _, _, _, .nil _ => fun m F G hi => ⟨m, [], F, G, Runs.refl P m, rfl, Evolves.stack hi rfl rfl rfl rfl, rfl⟩
  | _, _, _, _, .cons _ _ _ x xs b bs hx hs => builds_seq_cons (dumps_builds hx) (dumpsSeq_builds hs)
theorem dumpsAppends_builds {P : Platform} : ∀ {μ vs bs μ'}, DumpsAppends P μ vs bs μ' → BuildsAppends P μ vs bs μ'
  | _, _, _, _, .nil _ => fun m F G arr a st hi hs hg hn =>
    ⟨m, arr, a, [], F, G, Runs.refl P m, hs, hg, by simp, hn, .inl rfl,
      ⟨rfl, Nat.le_refl _, Nat.le_refl _, fun _ _ _ => rfl, fun _ _ _ => rfl, fun _ h => h, fun _ h => h, fun _ h => .inl h,
        fun _ h => .inl h, fun _ hk => ⟨hk, rfl⟩, hi⟩, rfl⟩
  | _, _, _, _, .cons _ _ _ x xs b bs hx hs => builds_appends_cons (dumps_builds hx) (dumpsAppends_builds hs)
theorem dumpsPairs_builds {P : Platform} : ∀ {μ kvs bs μ'}, DumpsPairs P μ kvs bs μ' → BuildsPairs P μ kvs bs μ'
  | _, _, _, _, .nil _ => fun m F G hi => ⟨m, [], [], F, G, Runs.refl P m, rfl, rfl, fun _ => rfl, Evolves.stack hi rfl rfl rfl rfl, rfl⟩
  | _, _, _, _, .cons _ _ _ _ k v kvs bk bv bs hk hv hs => builds_pairs_cons (dumps_builds hk) (dumps_builds hv) (dumpsPairs_builds hs)
theorem dumpsItems_builds {P : Platform} : ∀ {μ kvs bs μ'}, DumpsItems P μ kvs bs μ' → BuildsItems P μ kvs bs μ'
  | _, _, _, _, .nil _ => fun m F G _ _ _ hi hs hg hn =>
    ⟨m, [], F, G, Runs.refl P m, hs, hg, hn,
      ⟨rfl, Nat.le_refl _, Nat.le_refl _, fun _ _ _ => rfl, fun _ _ _ => rfl, fun _ h => h, fun _ h => h, fun _ h => .inl h,
        fun _ h => .inl h, fun _ hk => ⟨hk, rfl⟩, hi⟩, rfl⟩
  | _, _, _, _, .cons _ _ _ _ k v kvs bk bv bs hk hv hs => builds_items_cons (dumps_builds hk) (dumps_builds hv) (dumpsItems_builds hs)
end

/-- the memo at the start of a pickle -/
def noMemo : Memo := fun _ => .unused

/-- the decoder returns an object that denotes the pickled value -/
theorem decode_dumps (P : Platform) (v : PyVal) (bs rest : Bytes) (μ : Memo) (h : Dumps P noMemo v bs μ) :
    ∃ x m, decode P (bs ++ octet '.' :: rest) = .ok (x, m) ∧ Denotes m.arrays m.dicts x v := by
  have hi : PInv {} noMemo (fun _ => False) (fun _ => False) :=
    ⟨fun _ h => h.elim, fun _ h => h.elim, fun _ _ h => by cases h⟩
  obtain ⟨m, x, F, G, ⟨n, hn, hr⟩, hs, -, hp⟩ := dumps_builds h {} _ _ hi
  refine ⟨x, m, ?_, PRep.denotes v x hp⟩
  unfold decode
  have e : (bs ++ octet '.' :: rest).length + 1 = n + ((bs.length - n + rest.length + 1) + 1) := by
    simp only [List.length_append, List.length_cons]; omega
  rw [e, hr]
  show ((stepOp P (octet '.') rest m >>= _) >>= _) = _
  show ((m.back >>= _) : Res _) = _
  unfold Machine.back
  rw [hs]
  rfl

end Leaves
