import Verif.Proofs.NoPanic
import Verif.Spec.Pickle

/-! # Which pickles crash the decoder: internals of C57 -/

namespace Leaves

open Pickle Spec

theorem readLine_inv : ∀ (bs l rest : Pickle.Bytes), readLine bs = .ok (l, rest) → bs = l ++ nl :: rest ∧ nl ∉ l
  | [], l, rest, h => by cases h
  | b :: bs, l, rest, h => by
    unfold readLine at h
    split at h
    · rename_i hb
      cases h
      exact ⟨by rw [hb]; rfl, by simp⟩
    · rename_i hb
      obtain ⟨⟨l', r'⟩, h1, h⟩ := Res.bind_eq_ok.1 h
      cases h
      obtain ⟨e, hn⟩ := readLine_inv bs l' rest h1
      refine ⟨by rw [e]; rfl, ?_⟩
      simp only [List.mem_cons, not_or]
      exact ⟨fun h => hb h.symm, hn⟩

theorem readLine_ne_panic : ∀ bs, readLine bs ≠ .panic
  | [] => by simp [readLine]
  | b :: bs => by
    unfold readLine
    no_panic [readLine_ne_panic bs]

/-- the stack heights at the marks -/
def marksOf : List Nat → List Nat
  | [] => []
  | [_] => []
  | _ :: h :: hs => (h + hs.sum) :: marksOf (h :: hs)

/-- references lead somewhere -/
def RefOK (m : Machine) : PVal → Prop
  | .list a _ => a < m.arrays.length
  | .dict r => r < m.dicts.length
  | _ => True

/-- the stack has the described heights, and references lead somewhere -/
structure PickInv (m : Machine) (hs : List Nat) : Prop where
  ne : hs ≠ []
  height : m.stack.length = hs.sum
  marks : m.marks = marksOf hs
  stack : ∀ v ∈ m.stack, RefOK m v
  memory : ∀ kv ∈ m.memory, RefOK m kv.2

theorem marksOf_head (g h : Nat) (hs : List Nat) : marksOf (g :: hs) = marksOf (h :: hs) := by
  cases hs <;> rfl

theorem RefOK.mono {m m' : Machine} (h1 : m.arrays.length ≤ m'.arrays.length) (h2 : m.dicts.length ≤ m'.dicts.length) :
    ∀ {v : PVal}, RefOK m v → RefOK m' v := by
  intro v
  cases v <;> simp only [RefOK] <;> first | exact id | omega

/-- pushing one value -/
theorem PickInv.push {m : Machine} {h : Nat} {hs : List Nat} (hi : PickInv m (h :: hs)) {v : PVal} (hv : RefOK m v) :
    PickInv (m.push v) ((h + 1) :: hs) where
  ne := by simp
  height := by
    have := hi.height
    simp [Machine.push] at this ⊢
    omega
  marks := by rw [marksOf_head _ h]; exact hi.marks
  stack := by
    intro w hw
    rcases List.mem_cons.1 hw with rfl | hw
    · exact hv
    · exact hi.stack w hw
  memory := hi.memory

/-- taking away `k` values -/
theorem PickInv.drop {m : Machine} {h : Nat} {hs : List Nat} (k : Nat) (hi : PickInv m ((h + k) :: hs)) :
    PickInv { m with stack := m.stack.drop k } (h :: hs) where
  ne := by simp
  height := by
    have := hi.height
    simp at this ⊢
    omega
  marks := by rw [marksOf_head _ (h + k)]; exact hi.marks
  stack := fun w hw => hi.stack w (List.mem_of_mem_drop hw)
  memory := hi.memory

/-- a larger heap -/
theorem PickInv.heap {m m' : Machine} {hs : List Nat} (hi : PickInv m hs) (h1 : m'.stack = m.stack) (h2 : m'.marks = m.marks)
    (h3 : m'.memory = m.memory) (h4 : m.arrays.length ≤ m'.arrays.length) (h5 : m.dicts.length ≤ m'.dicts.length) : PickInv m' hs where
  ne := hi.ne
  height := by rw [h1]; exact hi.height
  marks := by rw [h2]; exact hi.marks
  stack := by rw [h1]; exact fun v hv => (hi.stack v hv).mono h4 h5
  memory := by rw [h3]; exact fun v hv => (hi.memory v hv).mono h4 h5

theorem PickInv.mark {m : Machine} {hs : List Nat} (hi : PickInv m hs) : PickInv m.pushMark (0 :: hs) where
  ne := by simp
  height := by have := hi.height; simp [Machine.pushMark]; omega
  marks := by
    cases hs with
    | nil => exact absurd rfl hi.ne
    | cons h hs =>
      show m.stack.length :: m.marks = _
      rw [hi.marks, hi.height]
      rfl
  stack := hi.stack
  memory := hi.memory

theorem PickInv.popMark {m : Machine} {g h : Nat} {hs : List Nat} (hi : PickInv m (g :: h :: hs)) :
    ∃ objs m', m.popMark = .ok (objs, m') ∧ PickInv m' (h :: hs) ∧ m'.arrays = m.arrays ∧ m'.dicts = m.dicts := by
  have hm := hi.marks
  have hh := hi.height
  unfold Machine.popMark
  rw [hm]
  simp only [marksOf, List.sum_cons] at hh ⊢
  rw [if_neg (by omega)]
  refine ⟨_, _, rfl, ?_, rfl, rfl⟩
  have e : m.stack.length - (h + hs.sum) = g := by omega
  rw [e]
  exact ⟨by simp, by simp; omega, rfl, fun w hw => hi.stack w (List.mem_of_mem_drop hw), hi.memory⟩

theorem PickInv.two {m : Machine} {h : Nat} {hs : List Nat} (hi : PickInv m ((h + 2) :: hs)) :
    ∃ a b st, m.stack = a :: b :: st ∧ RefOK m a ∧ RefOK m b ∧ PickInv { m with stack := st } (h :: hs) := by
  have hh := hi.height
  have hd := hi.drop 2
  have hv := hi.stack
  revert hd hv hh
  cases hst : m.stack with
  | nil => intro hh; simp at hh; omega
  | cons a l =>
    cases l with
    | nil => intro hh; simp at hh; omega
    | cons b l => intro _ hd hv; exact ⟨a, b, l, rfl, hv _ (by simp), hv _ (by simp), hd⟩

/-- what an opcode does to the invariant -/
def StepGood (input : Pickle.Bytes) (hs : List Nat) (r : Res Next) : Prop :=
  Underflow input hs ∨ (r ≠ .panic ∧ (∀ m' bs', r = .ok (.continue m' bs') → (∃ hs', Opcode input hs bs' hs' ∧ PickInv m' hs')) ∧
    ∀ m', r = .ok (.stop m') → m'.stack ≠ [])

theorem StepGood.bind {α : Type} {input : Pickle.Bytes} {hs : List Nat} {x : Res α} {f : α → Res Next} (hx : x ≠ .panic)
    (hf : ∀ a, x = .ok a → StepGood input hs (f a)) : StepGood input hs (x >>= f) := by
  cases x with
  | ok a => exact hf a rfl
  | panic => exact absurd rfl hx
  | err t => exact .inr ⟨(by intro h; cases h), fun _ _ h => (by cases h), fun _ h => (by cases h)⟩
  | hang => exact .inr ⟨(by intro h; cases h), fun _ _ h => (by cases h), fun _ h => (by cases h)⟩

theorem StepGood.err {input : Pickle.Bytes} {hs : List Nat} (t : String) : StepGood input hs (.err t) :=
  .inr ⟨(by intro h; cases h), fun _ _ h => (by cases h), fun _ h => (by cases h)⟩

theorem StepGood.cont {input : Pickle.Bytes} {hs hs' : List Nat} {m : Machine} {bs : Pickle.Bytes} (ho : Opcode input hs bs hs')
    (hi : PickInv m hs') : StepGood input hs (.ok (.continue m bs)) :=
  .inr ⟨(by intro h; cases h), fun _ _ h => (by cases h; exact ⟨hs', ho, hi⟩), fun _ h => (by cases h)⟩

theorem lookup_mem {α : Type} (k : Pickle.Bytes) (v : α) : ∀ l : List (Pickle.Bytes × α), Pickle.lookup k l = some v → ∃ kv ∈ l, kv.2 = v
  | [], h => by cases h
  | (k', w) :: l, h => by
    unfold Pickle.lookup at h
    split at h
    · cases h; exact ⟨_, List.mem_cons_self, rfl⟩
    · obtain ⟨kv, h1, h2⟩ := lookup_mem k v l h
      exact ⟨kv, List.mem_cons_of_mem _ h1, h2⟩

theorem dictCells_ne_panic : ∀ (n : Nat) (l : List PVal) (acc : DictCells), l.length ≤ n → dictCells l acc ≠ .panic
  | _, [], acc, _ => by simp [dictCells]
  | _, [x], acc, _ => by simp [dictCells]
  | n + 1, k :: v :: l, acc, h => by
    unfold dictCells
    split
    · exact dictCells_ne_panic n l _ (by simp at h; omega)
    · simp
  | 0, _ :: _ :: _, _, h => by simp at h

theorem stepOp_good (P : Platform) (op : BitVec 8) (bs : Pickle.Bytes) (m : Machine) (h : Nat) (hs : List Nat) (hi : PickInv m (h :: hs)) :
    StepGood (op :: bs) (h :: hs) (stepOp P op bs m) := by
  have hline : ∀ (f : Pickle.Bytes × Pickle.Bytes → Res Next), (∀ line rest, bs = line ++ nl :: rest → nl ∉ line →
      StepGood (op :: bs) (h :: hs) (f (line, rest))) → StepGood (op :: bs) (h :: hs) (readLine bs >>= f) := by
    intro f hf
    refine StepGood.bind (readLine_ne_panic bs) fun ⟨l, r⟩ he => ?_
    obtain ⟨h1, h2⟩ := readLine_inv _ _ _ he
    exact hf l r h1 h2
  have hpush : PushesLine op → ∀ (line rest : Pickle.Bytes) (v : PVal), RefOK m v → bs = line ++ nl :: rest → nl ∉ line →
      StepGood (op :: bs) (h :: hs) (.ok (.continue (m.push v) rest)) := by
    intro ho line rest v hv hb hl
    subst hb
    exact .cont (.line op line rest h hs ho hl) (hi.push hv)
  have hclose : ∀ (_ : Closes op) (f : List PVal × Machine → Res Next), (∀ g hs' objs m', h = g → hs = hs' →
      True → (∀ k ks, hs = k :: ks → m.popMark = .ok (objs, m') → PickInv m' (k :: ks) → m'.arrays = m.arrays → m'.dicts = m.dicts →
      StepGood (op :: bs) (h :: k :: ks) (f (objs, m')))) → StepGood (op :: bs) (h :: hs) (m.popMark >>= f) := by
    intro ho f hf
    cases hs with
    | nil => exact .inl (.mark op bs h ho)
    | cons k ks =>
      obtain ⟨objs, m', he, hi', ha, hd⟩ := hi.popMark
      rw [he, Res.ok_bind]
      exact hf h (k :: ks) objs m' rfl rfl trivial k ks rfl he hi' ha hd
  unfold stepOp
  by_cases c1 : op = byte '('
  · rw [if_pos c1]
    subst c1
    exact .cont (.mark bs _) hi.mark
  rw [if_neg c1]
  by_cases c2 : op = byte 'p'
  · rw [if_pos c2]
    subst c2
    refine hline _ fun line rest hb hl => ?_
    subst hb
    cases h with
    | zero => exact .inl (.value _ _ 1 0 hs .put (by omega))
    | succ h =>
      unfold Machine.putMemory Machine.back
      cases hst : m.stack with
      | nil => have := hi.height; rw [hst] at this; simp at this; omega
      | cons v st =>
        refine .cont (.put line rest h hs hl) ⟨by simp, hst ▸ hi.height, hi.marks, hst ▸ hi.stack, ?_⟩
        intro kv hkv
        rcases List.mem_cons.1 hkv with rfl | hkv
        · exact hi.stack v (by rw [hst]; simp)
        · exact hi.memory kv hkv
  rw [if_neg c2]
  by_cases c3 : op = byte 'g'
  · rw [if_pos c3]
    subst c3
    refine hline _ fun line rest hb hl => hpush .get line rest _ ?_ hb hl
    unfold Machine.getMemory
    cases hl : Pickle.lookup line m.memory with
    | none => trivial
    | some v =>
      obtain ⟨kv, h1, rfl⟩ := lookup_mem _ _ _ hl
      exact hi.memory kv h1
  rw [if_neg c3]
  by_cases c4 : op = byte 'c'
  · rw [if_pos c4]
    subst c4
    refine hline _ fun a rest hb ha => ?_
    dsimp only
    refine StepGood.bind (readLine_ne_panic rest) fun ⟨b, rest'⟩ he => ?_
    obtain ⟨h1, h2⟩ := readLine_inv _ _ _ he
    subst h1
    subst hb
    exact .cont (.global a b rest' h hs ha h2) (hi.push trivial)
  rw [if_neg c4]
  by_cases c5 : op = byte 'L'
  · rw [if_pos c5]
    subst c5
    refine hline _ fun line rest hb hl => ?_
    dsimp only
    split
    · exact .err _
    · exact StepGood.bind (ofOption_ne_panic _ _) fun v _ => hpush .long line rest _ trivial hb hl
  rw [if_neg c5]
  by_cases c6 : op = byte 'I'
  · rw [if_pos c6]
    subst c6
    refine hline _ fun line rest hb hl => ?_
    exact StepGood.bind (ofOption_ne_panic _ _) fun v _ => hpush .int line rest _ trivial hb hl
  rw [if_neg c6]
  by_cases c7 : op = byte 'F'
  · rw [if_pos c7]
    subst c7
    refine hline _ fun line rest hb hl => ?_
    exact StepGood.bind (ofOption_ne_panic _ _) fun v _ => hpush .float line rest _ trivial hb hl
  rw [if_neg c7]
  by_cases c8 : op = byte 't'
  · rw [if_pos c8]
    subst c8
    refine hclose .tuple _ fun _ _ objs m' _ _ _ k ks _ _ hi' _ _ => ?_
    exact .cont (.close _ bs h k ks .tuple) (hi'.push trivial)
  rw [if_neg c8]
  by_cases c9 : op = byte 'l'
  · rw [if_pos c9]
    subst c9
    refine hclose .list _ fun _ _ objs m' _ _ _ k ks _ _ hi' _ _ => ?_
    refine .cont (.close _ bs h k ks .list) (PickInv.push (m := (m'.newList P objs).2) ?_ ?_)
    · exact hi'.heap rfl rfl rfl (by simp [Machine.newList, Machine.newArr]) (Nat.le_refl _)
    · simp [Machine.newList, Machine.newArr, RefOK]
  rw [if_neg c9]
  by_cases c10 : op = byte 'a'
  · rw [if_pos c10]
    subst c10
    by_cases h2 : h < 2
    · exact .inl (.value _ _ 2 h hs .append h2)
    obtain ⟨h, rfl⟩ : ∃ h', h = h' + 2 := ⟨h - 2, by omega⟩
    obtain ⟨a, b, st, hst, ha, hb, hd⟩ := hi.two
    unfold Machine.pop
    rw [hst]
    simp only [Res.ok_bind]
    cases b with
    | list arr len =>
      simp only
      unfold Machine.appendList
      have hlt : arr < m.arrays.length := hb
      rw [Res.idx_eq_ok.2 (List.getElem?_eq_getElem hlt)]
      simp only [Res.ok_bind]
      split
      · refine .cont (.two _ bs h hs (.inl rfl)) (PickInv.push ?_ ?_)
        · exact hd.heap rfl rfl rfl (by simp) (Nat.le_refl _)
        · simpa [RefOK] using hlt
      · refine .cont (.two _ bs h hs (.inl rfl)) (PickInv.push ?_ ?_)
        · exact hd.heap rfl rfl rfl (by simp [Machine.newArr]) (Nat.le_refl _)
        · simp [RefOK, Machine.newArr]
    | _ => exact .err _
  rw [if_neg c10]
  by_cases c11 : op = byte 'V'
  · rw [if_pos c11]
    subst c11
    exact hline _ fun line rest hb hl => hpush .unicode line rest _ trivial hb hl
  rw [if_neg c11]
  by_cases c12 : op = byte 'R'
  · rw [if_pos c12]
    subst c12
    by_cases h2 : h < 2
    · exact .inl (.value _ _ 2 h hs .reduce h2)
    obtain ⟨h, rfl⟩ : ∃ h', h = h' + 2 := ⟨h - 2, by omega⟩
    obtain ⟨a, b, st, hst, ha, hb, hd⟩ := hi.two
    unfold Machine.pop
    rw [hst]
    simp only [Res.ok_bind]
    cases a with
    | tuple t => exact .cont (.two _ bs h hs (.inr (.inl rfl))) (hd.push trivial)
    | _ => exact .err _
  rw [if_neg c12]
  by_cases c13 : op = byte 'N'
  · rw [if_pos c13]
    subst c13
    exact .cont (.none bs h hs) (hi.push trivial)
  rw [if_neg c13]
  by_cases c14 : op = byte 'b'
  · rw [if_pos c14]
    subst c14
    by_cases h2 : h < 2
    · exact .inl (.value _ _ 2 h hs .build h2)
    obtain ⟨h, rfl⟩ : ∃ h', h = h' + 2 := ⟨h - 2, by omega⟩
    obtain ⟨a, b, st, hst, ha, hb, hd⟩ := hi.two
    unfold Machine.pop
    rw [hst]
    simp only [Res.ok_bind]
    exact .cont (.two _ bs h hs (.inr (.inr rfl))) (hd.push trivial)
  rw [if_neg c14]
  by_cases c15 : op = byte 'd'
  · rw [if_pos c15]
    subst c15
    refine hclose .dict _ fun _ _ objs m' _ _ _ k ks _ _ hi' _ _ => ?_
    dsimp only
    split
    · exact .err _
    · refine StepGood.bind (dictCells_ne_panic _ _ _ (Nat.le_refl _)) fun cells _ => ?_
      refine .cont (.close _ bs h k ks .dict) (PickInv.push (m := (m'.newDict cells).2) ?_ ?_)
      · exact hi'.heap rfl rfl rfl (Nat.le_refl _) (by simp [Machine.newDict])
      · simp [Machine.newDict, RefOK]
  rw [if_neg c15]
  by_cases c16 : op = byte 's'
  · rw [if_pos c16]
    subst c16
    by_cases h2 : h < 3
    · exact .inl (.value _ _ 3 h hs .setitem h2)
    obtain ⟨h, rfl⟩ : ∃ h', h = h' + 3 := ⟨h - 3, by omega⟩
    obtain ⟨a, b, st, hst, ha, hb, hd⟩ := PickInv.two (h := h + 1) hi
    unfold Machine.pop Machine.back
    rw [hst]
    simp only [Res.ok_bind]
    have hh := hd.height
    have hv := hd.stack
    cases st with
    | nil => simp at hh; omega
    | cons d st =>
      have hdv : RefOK m d := hv d (by simp)
      simp only [Res.ok_bind]
      cases d with
      | dict ref =>
        have hlt : ref < m.dicts.length := hdv
        simp only
        cases b with
        | unicode key =>
          simp only
          unfold Machine.setDict
          rw [Res.idx_eq_ok.2 (List.getElem?_eq_getElem hlt)]
          exact .cont (.setitem bs h hs) (hd.heap rfl rfl rfl (Nat.le_refl _) (by simp))
        | _ => exact .err _
      | _ => exact .err _
  rw [if_neg c16]
  by_cases c17 : op = byte '.'
  · rw [if_pos c17]
    subst c17
    cases h with
    | zero => exact .inl (.value _ _ 1 0 hs .stop (by omega))
    | succ h =>
      refine .inr ⟨(by intro h; cases h), fun _ _ h => (by cases h), fun m' hm => ?_⟩
      cases hm
      intro he
      have := hi.height
      rw [he] at this
      simp at this
      omega
  rw [if_neg c17]
  exact .err _

theorem decodeLoop_panic (P : Platform) : ∀ (fuel : Nat) (bs : Pickle.Bytes) (m : Machine) (hs : List Nat), PickInv m hs →
    (decodeLoop P fuel bs m = .panic → Underflow bs hs) ∧
    ∀ m', decodeLoop P fuel bs m = .ok m' → m'.stack = [] → Underflow bs hs
  | 0, bs, m, hs, _ => ⟨fun h => (by cases h), fun _ h => (by cases h)⟩
  | fuel + 1, [], m, hs, _ => ⟨fun h => (by cases h), fun _ h => (by cases h)⟩
  | fuel + 1, op :: bs, m, [], hi => absurd rfl hi.ne
  | fuel + 1, op :: bs, m, h :: hs, hi => by
    rw [decodeLoop]
    rcases stepOp_good P op bs m h hs hi with hu | ⟨hnp, hcont, hstop⟩
    · exact ⟨fun _ => hu, fun _ _ _ => hu⟩
    cases hst : stepOp P op bs m with
    | panic => exact absurd hst hnp
    | err t => exact ⟨fun h => (by cases h), fun _ h => (by cases h)⟩
    | hang => exact ⟨fun h => (by cases h), fun _ h => (by cases h)⟩
    | ok x =>
      simp only [Res.ok_bind]
      cases x with
      | «continue» m1 bs1 =>
        obtain ⟨hs1, ho, hi1⟩ := hcont m1 bs1 hst
        obtain ⟨h1, h2⟩ := decodeLoop_panic P fuel bs1 m1 hs1 hi1
        exact ⟨fun h => .later _ _ _ _ ho (h1 h), fun m' h he => .later _ _ _ _ ho (h2 m' h he)⟩
      | stop m1 =>
        refine ⟨fun h => (by cases h), fun m' hm he => ?_⟩
        cases hm
        exact absurd he (hstop _ hst)

theorem decode_panic (P : Platform) (bs : Pickle.Bytes) (h : decode P bs = .panic) : Underflow bs [0] := by
  have hi : PickInv {} [0] := ⟨by simp, rfl, rfl, (by intro v hv; cases hv), (by intro v hv; cases hv)⟩
  obtain ⟨h1, h2⟩ := decodeLoop_panic P (bs.length + 1) bs {} [0] hi
  unfold decode at h
  cases hl : decodeLoop P (bs.length + 1) bs {} with
  | panic => exact h1 hl
  | err t => rw [hl] at h; cases h
  | hang => rw [hl] at h; cases h
  | ok m =>
    rw [hl] at h
    simp only [Res.ok_bind] at h
    unfold Machine.back at h
    split at h
    · rename_i he
      exact h2 m hl he
    · cases h

end Leaves
