import Verif.Spec.Pickle
import Verif.Proofs.Text
import Verif.Model.PickleClass

/-! The decoder's opcodes, one at a time. -/

namespace Leaves

open Pickle Spec

/-! ### lines and strings -/

theorem readLine_of {l : Bytes} (h : nl ∉ l) (rest : Bytes) : readLine (l ++ nl :: rest) = .ok (l, rest) := by
  induction l with
  | nil => rfl
  | cons b l ih =>
    have hb : b ≠ byte '\n' := fun hc => h (List.mem_cons.2 (.inl hc.symm))
    show (if b = byte '\n' then _ else readLine (l ++ nl :: rest) >>= _) = _
    rw [if_neg hb, ih fun hc => h (List.mem_cons_of_mem _ hc)]
    rfl

/-- the escaped string with the newlines put back -/
def halfEscape : Bytes → Bytes
  | [] => []
  | b :: bs => (if b = octet '\\' then octets "\\u005c".toList else [b]) ++ halfEscape bs

theorem replaceGo_newline (s : Bytes) :
    replaceGo [byte '\\', byte 'u', byte '0', byte '0', byte '0', byte 'a'] [byte '\n'] 0 (escape s) = halfEscape s := by
  induction s with
  | nil => rfl
  | cons b bs ih =>
    show replaceGo _ _ 0 ((if b = octet '\\' then _ else if b = nl then _ else [b]) ++ escape bs)
      = (if b = octet '\\' then _ else [b]) ++ halfEscape bs
    by_cases h1 : b = octet '\\'
    · rw [if_pos h1, if_pos h1, ← ih]
      rfl
    · rw [if_neg h1, if_neg h1]
      by_cases h2 : b = nl
      · rw [if_pos h2, h2, ← ih]
        rfl
      · rw [if_neg h2, ← ih]
        show (if List.isPrefixOf _ (b :: escape bs) then _ else _) = _
        rw [if_neg]
        · rfl
        · simp only [List.isPrefixOf, Bool.and_eq_true, beq_iff_eq]
          exact fun hc => h1 hc.1.symm

theorem replaceGo_backslash (s : Bytes) :
    replaceGo [byte '\\', byte 'u', byte '0', byte '0', byte '5', byte 'c'] [byte '\\'] 0 (halfEscape s) = s := by
  induction s with
  | nil => rfl
  | cons b bs ih =>
    show replaceGo _ _ 0 ((if b = octet '\\' then _ else [b]) ++ halfEscape bs) = _
    by_cases h1 : b = octet '\\'
    · rw [if_pos h1]
      conv_rhs => rw [h1, ← ih]
      rfl
    · rw [if_neg h1]
      show (if List.isPrefixOf _ (b :: halfEscape bs) then _ else _) = _
      rw [if_neg]
      · conv_rhs => rw [← ih]
        rfl
      · simp only [List.isPrefixOf, Bool.and_eq_true, beq_iff_eq]
        exact fun hc => h1 hc.1.symm

theorem decodeUnicode_escape (s : Bytes) : decodeUnicode (escape s) = s := by
  show replaceGo _ _ 0 (replaceGo _ _ 0 _) = _
  rw [replaceGo_newline, replaceGo_backslash]

theorem nl_not_mem_escape (s : Bytes) : nl ∉ escape s := by
  induction s with
  | nil => simp [escape]
  | cons b bs ih =>
    show nl ∉ (if b = octet '\\' then _ else if b = nl then _ else [b]) ++ escape bs
    rw [List.mem_append, not_or]
    refine ⟨?_, ih⟩
    split
    · decide
    · split
      · decide
      · rename_i h; simpa using fun hc => h hc.symm

/-! ### numbers -/

theorem toStr_octets {s : Str} (h : ∀ c ∈ s, c.toNat < 128) : toStr (octets s) = s := by
  unfold toStr octets
  rw [List.map_map]
  conv_rhs => rw [← List.map_id s]
  refine List.map_congr_left fun c hc => ?_
  have h1 := h c hc
  simp only [Function.comp, octet, BitVec.toNat_ofNat, id]
  rw [Nat.mod_eq_of_lt (by omega)]
  exact Char.ofNat_toNat c

theorem isDigit_ascii {c : Char} (h : c.isDigit = true) : c.toNat < 128 ∧ c ≠ '\n' := by
  have h1 : 48 ≤ c.toNat ∧ c.toNat ≤ 57 := by
    simp only [Char.isDigit, Bool.and_eq_true, decide_eq_true_eq] at h
    exact ⟨by have := h.1; simpa [UInt32.le_iff_toNat_le] using this, by have := h.2; simpa [UInt32.le_iff_toNat_le] using this⟩
  refine ⟨by omega, fun hc => ?_⟩
  subst hc
  exact absurd h1.1 (by decide)

theorem decimalI_ascii {i : Int} {c : Char} (h : c ∈ decimalI i) : c.toNat < 128 ∧ c ≠ '\n' := by
  unfold decimalI at h
  split at h
  · rcases List.mem_cons.1 h with rfl | h
    · decide
    · exact isDigit_ascii (decimal_isDigit h)
  · exact isDigit_ascii (decimal_isDigit h)

theorem nl_not_mem_octets {s : Str} (h : ∀ c ∈ s, c.toNat < 128 ∧ c ≠ '\n') : nl ∉ octets s := by
  intro hc
  obtain ⟨c, hc, he⟩ := List.mem_map.1 hc
  obtain ⟨h1, h2⟩ := h c hc
  have h3 : (octet c).toNat = (octet '\n').toNat := by rw [he]; rfl
  simp only [octet, BitVec.toNat_ofNat] at h3
  rw [Nat.mod_eq_of_lt (by omega)] at h3
  have h4 : c.toNat = '\n'.toNat := by rw [h3]; decide
  exact h2 (by have := Char.ofNat_toNat c; rw [h4] at this; rw [← this]; rfl)

theorem atoi_decimalI {i : Int} (h : IsInt64 i) : atoi (decimalI i) = some i := by
  unfold decimalI
  by_cases hi : i < 0
  · rw [if_pos hi]
    show (match parseDigits (decimal i.natAbs) with | some n => _ | none => _) = _
    rw [parseDigits_decimal]
    show (if i.natAbs ≤ 2 ^ 63 then some (-(i.natAbs : Int)) else none) = _
    have h1 := h.1
    rw [if_pos (by omega)]
    congr 1; omega
  · rw [if_neg hi]
    unfold atoi
    rw [parseInt_decimal]
    have h1 := h.2
    rw [if_pos (by omega)]
    congr 1; omega

/-! ### running -/

/-- the decoder, started on `bs` in state `m`, reaches the end of `bs` in state `m'` -/
def Runs (P : Platform) (m : Machine) (bs : Bytes) (m' : Machine) : Prop :=
  ∃ n, n ≤ bs.length ∧ ∀ rest fuel, decodeLoop P (n + fuel) (bs ++ rest) m = decodeLoop P fuel rest m'

theorem Runs.refl (P : Platform) (m : Machine) : Runs P m [] m := ⟨0, Nat.le_refl _, fun rest fuel => by rw [Nat.zero_add]; rfl⟩

theorem Runs.trans {P : Platform} {m m' m'' : Machine} {a b : Bytes} (h1 : Runs P m a m') (h2 : Runs P m' b m'') :
    Runs P m (a ++ b) m'' := by
  obtain ⟨n, hn, h1⟩ := h1
  obtain ⟨k, hk, h2⟩ := h2
  refine ⟨n + k, by rw [List.length_append]; omega, fun rest fuel => ?_⟩
  rw [List.append_assoc, Nat.add_assoc, h1, h2]

theorem Runs.op {P : Platform} {m m' : Machine} {op : BitVec 8} {arg : Bytes}
    (h : ∀ rest, stepOp P op (arg ++ rest) m = .ok (.continue m' rest)) : Runs P m (op :: arg) m' := by
  refine ⟨1, by simp, fun rest fuel => ?_⟩
  rw [Nat.add_comm]
  show (stepOp P op (arg ++ rest) m >>= _) = _
  rw [h rest]
  rfl

theorem run_mark (P : Platform) (m : Machine) : Runs P m [octet '('] m.pushMark := Runs.op fun _ => rfl

theorem run_none (P : Platform) (m : Machine) : Runs P m [octet 'N'] (m.push .none) := Runs.op fun _ => rfl

theorem run_put (P : Platform) (m : Machine) {key : Bytes} (hk : nl ∉ key) {x : PVal} {st : List PVal}
    (hs : m.stack = x :: st) : Runs P m (octet 'p' :: (key ++ [nl])) { m with memory := (key, x) :: m.memory } := by
  refine Runs.op fun rest => ?_
  show (readLine (key ++ [nl] ++ rest) >>= _) = _
  rw [List.append_assoc, List.singleton_append, readLine_of hk]
  show ((m.back >>= _) >>= _) = _
  unfold Machine.back
  rw [hs]
  rfl

theorem run_get (P : Platform) (m : Machine) {key : Bytes} (hk : nl ∉ key) {x : PVal}
    (hx : Pickle.lookup key m.memory = some x) : Runs P m (octet 'g' :: (key ++ [nl])) (m.push x) := by
  refine Runs.op fun rest => ?_
  show (readLine (key ++ [nl] ++ rest) >>= _) = _
  rw [List.append_assoc, List.singleton_append, readLine_of hk]
  show Res.ok (Next.continue (m.push (m.getMemory key)) rest) = _
  unfold Machine.getMemory
  rw [hx]
  rfl

theorem run_global (P : Platform) (m : Machine) {a b : Bytes} (ha : nl ∉ a) (hb : nl ∉ b) :
    Runs P m (octet 'c' :: (a ++ nl :: (b ++ [nl]))) (m.push (.global a b)) := by
  refine Runs.op fun rest => ?_
  have e : (a ++ nl :: (b ++ [nl])) ++ rest = a ++ nl :: (b ++ nl :: rest) := by simp
  rw [e]
  show (readLine (a ++ nl :: (b ++ nl :: rest)) >>= _) = _
  rw [readLine_of ha]
  show (readLine (b ++ nl :: rest) >>= _) = _
  rw [readLine_of hb]
  rfl

theorem run_int (P : Platform) (m : Machine) {text : Str} {i : Int} (ha : ∀ c ∈ text, c.toNat < 128 ∧ c ≠ '\n')
    (hi : atoi text = some i) : Runs P m (octet 'I' :: (octets text ++ [nl])) (m.push (.int i)) := by
  refine Runs.op fun rest => ?_
  show (readLine (octets text ++ [nl] ++ rest) >>= _) = _
  rw [List.append_assoc, List.singleton_append, readLine_of (nl_not_mem_octets ha)]
  show (Res.ofOption "atoi" (atoi (toStr (octets text))) >>= _) = _
  rw [toStr_octets fun c hc => (ha c hc).1, hi]
  rfl

theorem run_long (P : Platform) (m : Machine) {text : Str} {i : Int} (ha : ∀ c ∈ text, c.toNat < 128 ∧ c ≠ '\n')
    (hne : text ≠ []) (hi : atoi text = some i) :
    Runs P m (octet 'L' :: (octets text ++ [octet 'L', nl])) (m.push (.int i)) := by
  refine Runs.op fun rest => ?_
  have e : (octets text ++ [octet 'L', nl]) ++ rest = (octets text ++ [octet 'L']) ++ nl :: rest := by simp
  rw [e]
  show (readLine ((octets text ++ [octet 'L']) ++ nl :: rest) >>= _) = _
  rw [readLine_of]
  · show (if _ then _ else _) = _
    rw [if_neg]
    · show (Res.ofOption _ (atoi (toStr (octets text ++ [octet 'L']).dropLast)) >>= _) = _
      rw [List.dropLast_concat, toStr_octets fun c hc => (ha c hc).1, hi]
      rfl
    · rw [not_or]
      constructor
      · cases text with
        | nil => exact absurd rfl hne
        | cons c cs => simp [octets]
      · rw [List.getLast?_concat]
        exact fun hc => hc rfl
  · rw [List.mem_append, not_or]
    exact ⟨nl_not_mem_octets ha, by decide⟩

theorem run_float (P : Platform) (m : Machine) {text : Str} {x : F64} (ha : ∀ c ∈ text, c.toNat < 128 ∧ c ≠ '\n')
    (hx : P.parseFloat text = some x) : Runs P m (octet 'F' :: (octets text ++ [nl])) (m.push (.float x)) := by
  refine Runs.op fun rest => ?_
  show (readLine (octets text ++ [nl] ++ rest) >>= _) = _
  rw [List.append_assoc, List.singleton_append, readLine_of (nl_not_mem_octets ha)]
  show (Res.ofOption _ (P.parseFloat (toStr (octets text))) >>= _) = _
  rw [toStr_octets fun c hc => (ha c hc).1, hx]
  rfl

theorem run_str (P : Platform) (m : Machine) (s : Bytes) :
    Runs P m (octet 'V' :: (escape s ++ [nl])) (m.push (.unicode s)) := by
  refine Runs.op fun rest => ?_
  show (readLine (escape s ++ [nl] ++ rest) >>= _) = _
  rw [List.append_assoc, List.singleton_append, readLine_of (nl_not_mem_escape s)]
  show Res.ok (Next.continue (m.push (.unicode (decodeUnicode (escape s)))) rest) = _
  rw [decodeUnicode_escape]

theorem popMark_of {m : Machine} {ys st : List PVal} {ms : List Nat} (hs : m.stack = ys.reverse ++ st)
    (hm : m.marks = st.length :: ms) : m.popMark = .ok (ys, { m with stack := st, marks := ms }) := by
  unfold Machine.popMark
  rw [hm]
  show (if m.stack.length < st.length then _ else _) = _
  have hl : m.stack.length = ys.reverse.length + st.length := by rw [hs, List.length_append]
  rw [if_neg (by omega)]
  have hn : m.stack.length - st.length = ys.reverse.length := by omega
  show Res.ok ((m.stack.take (m.stack.length - st.length)).reverse,
    { m with stack := m.stack.drop (m.stack.length - st.length), marks := ms }) = _
  rw [hn, hs, List.take_left, List.drop_left, List.reverse_reverse]

theorem run_tuple (P : Platform) (m : Machine) {ys st : List PVal} {ms : List Nat} (hs : m.stack = ys.reverse ++ st)
    (hm : m.marks = st.length :: ms) :
    Runs P m [octet 't'] { m with stack := .tuple ys :: st, marks := ms } := by
  refine Runs.op fun rest => ?_
  show (m.popMark >>= _) = _
  rw [popMark_of hs hm]
  rfl

theorem run_list (P : Platform) (m : Machine) {ys st : List PVal} {ms : List Nat} (hs : m.stack = ys.reverse ++ st)
    (hm : m.marks = st.length :: ms) :
    ∃ a : Arr, a.elems = ys ∧ Runs P m [octet 'l']
      { m with stack := .list m.arrays.length ys.length :: st, marks := ms, arrays := m.arrays ++ [a] } := by
  refine ⟨⟨ys, if ys.isEmpty then 0 else ys.length + P.growExtra ys.length⟩, rfl, Runs.op fun rest => ?_⟩
  show (m.popMark >>= _) = _
  rw [popMark_of hs hm]
  rfl

theorem run_dict (P : Platform) (m : Machine) {st : List PVal} {ms : List Nat} (hs : m.stack = st)
    (hm : m.marks = st.length :: ms) :
    Runs P m [octet 'd'] { m with stack := .dict m.dicts.length :: st, marks := ms, dicts := m.dicts ++ [[]] } := by
  refine Runs.op fun rest => ?_
  show (m.popMark >>= _) = _
  rw [popMark_of (ys := []) hs hm]
  rfl

theorem run_dictOf (P : Platform) (m : Machine) {ys st : List PVal} {ms : List Nat} {cells : DictCells}
    (hs : m.stack = ys.reverse ++ st) (hm : m.marks = st.length :: ms) (he : ys.length % 2 = 0)
    (hc : dictCells ys [] = .ok cells) :
    Runs P m [octet 'd'] { m with stack := .dict m.dicts.length :: st, marks := ms, dicts := m.dicts ++ [cells] } := by
  refine Runs.op fun rest => ?_
  show (m.popMark >>= _) = _
  rw [popMark_of hs hm, Res.ok_bind]
  dsimp only
  rw [if_neg (by rw [he]; exact fun h => h rfl), hc]
  rfl

theorem run_reduce (P : Platform) (m : Machine) {f : PVal} {args st : List PVal} (hs : m.stack = .tuple args :: f :: st) :
    Runs P m [octet 'R'] { m with stack := .reduce f args :: st } := by
  refine Runs.op fun rest => ?_
  show (m.pop >>= _) = _
  unfold Machine.pop
  rw [hs]
  rfl

theorem run_build (P : Platform) (m : Machine) {o s : PVal} {st : List PVal} (hs : m.stack = s :: o :: st) :
    Runs P m [octet 'b'] { m with stack := .build o s :: st } := by
  refine Runs.op fun rest => ?_
  show (m.pop >>= _) = _
  unfold Machine.pop
  rw [hs]
  rfl

theorem run_setitem (P : Platform) (m : Machine) {v : PVal} {key : Bytes} {ref : Nat} {cells : DictCells} {st : List PVal}
    (hs : m.stack = v :: .unicode key :: .dict ref :: st) (hd : m.dicts[ref]? = some cells) :
    Runs P m [octet 's'] { m with stack := .dict ref :: st, dicts := m.dicts.set ref ((key, v) :: cells) } := by
  refine Runs.op fun rest => ?_
  show (m.pop >>= _) = _
  unfold Machine.pop
  rw [hs]
  show ((({ m with stack := .dict ref :: st } : Machine).setDict ref key v) >>= _) = _
  unfold Machine.setDict
  show ((Res.idx m.dicts ref >>= _) >>= _) = _
  rw [Res.idx_eq_ok.2 hd]
  rfl

/-- APPEND to a list whose header covers its whole array: the element is added in place or in a fresh copy -/
theorem run_append (P : Platform) (m : Machine) {x : PVal} {arr : Nat} {a : Arr} {st : List PVal}
    (hs : m.stack = x :: .list arr a.elems.length :: st) (ha : m.arrays[arr]? = some a) :
    ∃ arr' A' a', a'.elems = a.elems ++ [x] ∧ A'[arr']? = some a' ∧
      (arr' = arr ∧ A' = m.arrays.set arr a' ∨ arr' = m.arrays.length ∧ A' = m.arrays ++ [a']) ∧
      Runs P m [octet 'a'] { m with stack := .list arr' a'.elems.length :: st, arrays := A' } := by
  have hlt : arr < m.arrays.length := (List.getElem?_eq_some_iff.1 ha).1
  by_cases hc : a.elems.length < a.cap
  · refine ⟨arr, m.arrays.set arr ⟨a.elems ++ [x], a.cap⟩, ⟨a.elems ++ [x], a.cap⟩, rfl,
      List.getElem?_set_self hlt, .inl ⟨rfl, rfl⟩, Runs.op fun rest => ?_⟩
    show (m.pop >>= _) = _
    unfold Machine.pop
    rw [hs]
    show (((Res.idx m.arrays arr >>= _) : Res _) >>= _) = _
    rw [Res.idx_eq_ok.2 ha]
    show ((if a.elems.length < a.cap then _ else _) >>= _) = _
    rw [if_pos hc]
    show Res.ok (Next.continue (Machine.mk _ _ _ (m.arrays.set arr ⟨if a.elems.length < a.elems.length then _ else _, _⟩) _) _) = _
    rw [if_neg (Nat.lt_irrefl _), List.length_append]
    rfl
  · refine ⟨m.arrays.length, m.arrays ++ [⟨a.elems ++ [x], a.elems.length + 1 + P.growExtra a.elems.length⟩],
      ⟨a.elems ++ [x], a.elems.length + 1 + P.growExtra a.elems.length⟩, rfl, by simp, .inr ⟨rfl, rfl⟩, Runs.op fun rest => ?_⟩
    show (m.pop >>= _) = _
    unfold Machine.pop
    rw [hs]
    show (((Res.idx m.arrays arr >>= _) : Res _) >>= _) = _
    rw [Res.idx_eq_ok.2 ha]
    show ((if a.elems.length < a.cap then _ else _) >>= _) = _
    rw [if_neg hc]
    show Res.ok (Next.continue (Machine.mk _ _ _ (m.arrays ++ [⟨a.elems.take a.elems.length ++ [x], _⟩]) _) _) = _
    rw [List.take_length, List.length_append]
    rfl

end Leaves
