import Verif.Proofs.PickleDump
import Verif.Proofs.XgBin
import Verif.Spec.SkModel

/-! # C51–C54: pickles -/

namespace Leaves

open Pickle Spec

/-- C51: decoding a protocol-0 pickle returns the pickled value, whatever follows the STOP. -/
theorem C51_decode (P : Platform) (v : PyVal) (_ : v.Plain) (bs rest : Bytes) (μ : Memo) (h : Dumps P noMemo v bs μ) :
    ∃ x m, decode P (bs ++ octet '.' :: rest) = .ok (x, m) ∧ Denotes m.arrays m.dicts x v := decode_dumps P v bs rest μ h

mutual
theorem dump_dumps {P : Platform} {print : F64 → Str} {μ : Memo} :
    ∀ v : PyVal, v.Writable P print → Dumps P μ v (v.dump print) μ
  | .none, _ => .none μ
  | .int i, h => .int μ i h
  | .float x, h => .float μ x _ h.1 h.2
  | .str s, _ => .str μ μ s [] .skip
  | .global m n, h => .global μ μ m n [] h.1 h.2 .skip
  | .tuple xs, h => .tuple μ μ μ xs _ [] (dumpSeq_dumps xs h) .skip
  | .list xs, h => .list μ μ μ xs [] _ .skip (dumpAppends_dumps xs h)
  | .dict kvs, h => .dict μ μ kvs _ (dumpItems_dumps kvs h)
  | .reduce f args, h => by
    have := Dumps.reduce μ μ μ μ f args _ _ [] (dump_dumps f h.1) (.tuple μ μ μ args _ [] (dumpSeq_dumps args h.2) .skip) .skip
    simpa [PyVal.dump] using this
  | .build f args s, h => by
    have := Dumps.build μ μ μ μ μ f args s _ _ [] _ (dump_dumps f h.1)
      (.tuple μ μ μ args _ [] (dumpSeq_dumps args h.2.1) .skip) .skip (dump_dumps s h.2.2)
    simpa [PyVal.dump] using this
  | .again _ _ _, h => h.elim
theorem dumpSeq_dumps {P : Platform} {print : F64 → Str} {μ : Memo} :
    ∀ vs : PySeq, vs.Writable P print → DumpsSeq P μ vs (vs.dump print) μ
  | .nil, _ => .nil μ
  | .cons v vs, h => .cons μ μ μ v vs _ _ (dump_dumps v h.1) (dumpSeq_dumps vs h.2)
theorem dumpAppends_dumps {P : Platform} {print : F64 → Str} {μ : Memo} :
    ∀ vs : PySeq, vs.Writable P print → DumpsAppends P μ vs (vs.dumpAppends print) μ
  | .nil, _ => .nil μ
  | .cons v vs, h => .cons μ μ μ v vs _ _ (dump_dumps v h.1) (dumpAppends_dumps vs h.2)
theorem dumpItems_dumps {P : Platform} {print : F64 → Str} {μ : Memo} :
    ∀ kvs : PyMap, kvs.Writable P print → DumpsItems P μ kvs (kvs.dump print) μ
  | .nil, _ => .nil μ
  | .cons k v kvs, h => by
    have := DumpsItems.cons μ μ μ μ k v kvs _ _ _ (.str μ μ k [] .skip) (dump_dumps v h.1) (dumpItems_dumps kvs h.2)
    simpa [PyMap.dump] using this
end

mutual
theorem writable_plain {P : Platform} {print : F64 → Str} : ∀ v : PyVal, v.Writable P print → v.Plain
  | .none, _ => trivial
  | .int _, _ => trivial
  | .float _, _ => trivial
  | .str _, _ => trivial
  | .global _ _, _ => trivial
  | .tuple xs, h => writableSeq_plain xs h
  | .list xs, h => writableSeq_plain xs h
  | .dict kvs, h => writableMap_plain kvs h
  | .reduce f args, h => ⟨writable_plain f h.1, writableSeq_plain args h.2⟩
  | .build f args s, h => ⟨writable_plain f h.1, writableSeq_plain args h.2.1, writable_plain s h.2.2⟩
  | .again _ _ _, h => h
theorem writableSeq_plain {P : Platform} {print : F64 → Str} : ∀ v : PySeq, v.Writable P print → v.Plain
  | .nil, _ => trivial
  | .cons x xs, h => ⟨writable_plain x h.1, writableSeq_plain xs h.2⟩
theorem writableMap_plain {P : Platform} {print : F64 → Str} : ∀ v : PyMap, v.Writable P print → v.Plain
  | .nil, _ => trivial
  | .cons _ x xs, h => ⟨writable_plain x h.1, writableMap_plain xs h.2⟩
end

/-- C51: every value whose integers fit into 64 bits and whose names have no newline has a pickle, and decoding it returns
the value. -/
theorem C51_every_value (P : Platform) (print : F64 → Str) (v : PyVal) (h : v.Writable P print) :
    ∃ x m, decode P (v.dump print ++ [octet '.']) = .ok (x, m) ∧ Denotes m.arrays m.dicts x v :=
  C51_decode P v (writable_plain v h) _ [] _ (dump_dumps v h)

mutual
theorem denotes_unique {A : List Arr} {D : List DictCells} :
    ∀ (v w : PyVal) (x : PVal), v.Plain → w.Plain → Denotes A D x v → Denotes A D x w → v = w
  | .none, w, x, _, _, h, h' => by
    cases h
    cases w <;> simp_all [Denotes]
  | .int i, w, x, _, _, h, h' => by
    cases h
    cases w <;> simp_all [Denotes]
  | .float i, w, x, _, _, h, h' => by
    cases h
    cases w <;> simp_all [Denotes]
  | .str i, w, x, _, _, h, h' => by
    cases h
    cases w <;> simp_all [Denotes]
  | .global m n, w, x, _, _, h, h' => by
    cases h
    cases w <;> simp_all [Denotes]
  | .tuple vs, w, x, p, p', h, h' => by
    obtain ⟨xs, rfl, h⟩ := h
    cases w <;> simp only [Denotes, reduceCtorEq, false_and, exists_false] at h'
    obtain ⟨xs', e, h'⟩ := h'
    cases e
    rw [denotesSeq_unique vs _ xs p p' h h']
  | .list vs, w, x, p, p', h, h' => by
    obtain ⟨arr, len, a, rfl, ha, hl, h⟩ := h
    cases w <;> simp only [Denotes, reduceCtorEq, false_and, exists_false] at h'
    obtain ⟨arr', len', a', e, ha', hl', h'⟩ := h'
    cases e
    rw [ha] at ha'
    cases ha'
    rw [denotesSeq_unique vs _ _ p p' h h']
  | .dict kvs, w, x, p, p', h, h' => by
    obtain ⟨ref, cells, rfl, hd, h⟩ := h
    cases w <;> simp only [Denotes, reduceCtorEq, false_and, exists_false] at h'
    obtain ⟨ref', cells', e, hd', h'⟩ := h'
    cases e
    rw [hd] at hd'
    cases hd'
    rw [denotesMap_unique kvs _ _ p p' h h']
  | .reduce f args, w, x, p, p', h, h' => by
    obtain ⟨y, ys, rfl, h1, h2⟩ := h
    cases w with
    | again f' args' s' => exact p'.elim
    | reduce f' args' =>
      obtain ⟨y', ys', e, h1', h2'⟩ := h'
      cases e
      rw [denotes_unique f _ _ p.1 p'.1 h1 h1', denotesSeq_unique args _ _ p.2 p'.2 h2 h2']
    | _ => simp only [Denotes, reduceCtorEq, false_and, exists_false] at h'
  | .build f args s, w, x, p, p', h, h' => by
    obtain ⟨y, ys, z, rfl, h1, h2, h3⟩ := h
    cases w <;> simp only [Denotes, reduceCtorEq, false_and, exists_false] at h'
    obtain ⟨y', ys', z', e, h1', h2', h3'⟩ := h'
    cases e
    rw [denotes_unique f _ _ p.1 p'.1 h1 h1', denotesSeq_unique args _ _ p.2.1 p'.2.1 h2 h2',
      denotes_unique s _ _ p.2.2 p'.2.2 h3 h3']
  | .again _ _ _, _, _, p, _, _, _ => p.elim
theorem denotesSeq_unique {A : List Arr} {D : List DictCells} :
    ∀ (v w : PySeq) (x : List PVal), v.Plain → w.Plain → DenotesSeq A D x v → DenotesSeq A D x w → v = w
  | .nil, w, x, _, _, h, h' => by
    cases h
    cases w
    · rfl
    · obtain ⟨_, _, e, _⟩ := h'; cases e
  | .cons v vs, w, x, p, p', h, h' => by
    obtain ⟨y, ys, rfl, h1, h2⟩ := h
    cases w
    · cases h'
    · obtain ⟨_, _, e, h1', h2'⟩ := h'
      cases e
      rw [denotes_unique v _ _ p.1 p'.1 h1 h1', denotesSeq_unique vs _ _ p.2 p'.2 h2 h2']
theorem denotesMap_unique {A : List Arr} {D : List DictCells} :
    ∀ (v w : PyMap) (x : DictCells), v.Plain → w.Plain → DenotesMap A D x v → DenotesMap A D x w → v = w
  | .nil, w, x, _, _, h, h' => by
    cases h
    cases w
    · rfl
    · obtain ⟨_, _, e, _⟩ := h'; simp at e
  | .cons k v kvs, w, x, p, p', h, h' => by
    obtain ⟨y, ys, rfl, h1, h2⟩ := h
    cases w
    · simp [DenotesMap] at h'
    · obtain ⟨_, _, e, h1', h2'⟩ := h'
      obtain ⟨e1, e2⟩ := List.append_inj' e rfl
      cases e2
      subst e1
      rw [denotes_unique v _ _ p.1 p'.1 h1 h1', denotesMap_unique kvs _ _ p.2 p'.2 h2 h2']
end

/-- C51: an object denotes at most one value, so decoding determines the value. -/
theorem C51_value_unique (A : List Arr) (D : List DictCells) (x : PVal) (v w : PyVal) (p : v.Plain) (p' : w.Plain)
    (h : Denotes A D x v) (h' : Denotes A D x w) : v = w := denotes_unique v w x p p' h h'

/-- C52: decoding the escaped form of a string returns the string. -/
theorem C52_unicode (s : Bytes) : decodeUnicode (escape s) = s := decodeUnicode_escape s

/-- C52: the escaped form has no newline, so it fits on a line of a pickle, and decoding the line returns the string. -/
theorem C52_line (P : Platform) (s rest : Bytes) (m : Machine) :
    stepOp P (octet 'V') (escape s ++ nl :: rest) m = .ok (.continue { m with stack := .unicode s :: m.stack } rest) := by
  show (readLine (escape s ++ nl :: rest) >>= _) = _
  rw [readLine_of (nl_not_mem_escape s)]
  show Res.ok (Next.continue (m.push (.unicode (decodeUnicode (escape s)))) rest) = _
  rw [decodeUnicode_escape]
  rfl

/-- C52: the other escapes that newer Python versions use for protocol 0 (here `\u0000` for a zero byte) are not decoded. -/
theorem C52_zero_escape_kept : decodeUnicode (octets "a\\u0000b".toList) = octets "a\\u0000b".toList := by decide

/-! ### the memo -/

/-- Any number of instructions, none of which stores at `key`. -/
inductive StepsNotPut (P : Platform) (key : Bytes) : Machine → Bytes → Machine → Bytes → Prop
  | refl (m : Machine) (bs : Bytes) : StepsNotPut P key m bs m bs
  | step {m m₁ m' : Machine} {op : BitVec 8} {bs bs₁ bs' : Bytes} (h : stepOp P op bs m = .ok (.continue m₁ bs₁))
      (hp : op = octet 'p' → ¬ (key ++ [nl]) <+: bs) (hs : StepsNotPut P key m₁ bs₁ m' bs') : StepsNotPut P key m (op :: bs) m' bs'

/-! effects of the machine's operations on the memo -/

theorem pop_memory {m m' : Machine} {x : PVal} (h : m.pop = .ok (x, m')) : m'.memory = m.memory := by
  unfold Machine.pop at h
  split at h
  · cases h
  · cases h; rfl

theorem popMark_memory {m m' : Machine} {x : List PVal} (h : m.popMark = .ok (x, m')) : m'.memory = m.memory := by
  unfold Machine.popMark at h
  split at h
  · cases h
  · split at h
    · cases h
    · cases h; rfl

theorem appendList_memory {P : Platform} {m m' : Machine} {a l : Nat} {x y : PVal} (h : m.appendList P a l x = .ok (y, m')) :
    m'.memory = m.memory := by
  unfold Machine.appendList at h
  obtain ⟨arr, -, h⟩ := Res.bind_eq_ok.1 h
  split at h <;> cases h <;> rfl

theorem setDict_memory {m m' : Machine} {r : Nat} {k : Bytes} {x : PVal} (h : m.setDict r k x = .ok m') :
    m'.memory = m.memory := by
  unfold Machine.setDict at h
  obtain ⟨c, -, h⟩ := Res.bind_eq_ok.1 h
  cases h; rfl

theorem readLine_prefix : ∀ {bs l rest : Bytes}, readLine bs = .ok (l, rest) → (l ++ [nl]) <+: bs
  | [], l, rest, h => by cases h
  | b :: bs, l, rest, h => by
    unfold readLine at h
    split at h
    · rename_i hb
      cases h
      rw [hb]
      exact ⟨_, rfl⟩
    · obtain ⟨⟨l', rest'⟩, h1, h⟩ := Res.bind_eq_ok.1 h
      cases h
      obtain ⟨t, ht⟩ := readLine_prefix h1
      exact ⟨t, by rw [← ht]; rfl⟩

theorem stepOp_lookup {P : Platform} {key : Bytes} {op : BitVec 8} {bs bs' : Bytes} {m m' : Machine}
    (h : stepOp P op bs m = .ok (.continue m' bs')) (hp : op = octet 'p' → ¬ (key ++ [nl]) <+: bs) :
    Pickle.lookup key m'.memory = Pickle.lookup key m.memory := by
  unfold stepOp at h
  by_cases ho : op = byte '('
  · rw [if_pos ho] at h
    cases h; rfl
  rw [if_neg ho] at h
  by_cases ho : op = byte 'p'
  · rw [if_pos ho] at h
    obtain ⟨⟨l, r⟩, h1, h⟩ := Res.bind_eq_ok.1 h
    obtain ⟨m₁, h2, h⟩ := Res.bind_eq_ok.1 h
    cases h
    unfold Machine.putMemory at h2
    obtain ⟨x, -, h2⟩ := Res.bind_eq_ok.1 h2
    cases h2
    show (if l = key then _ else _) = _
    rw [if_neg]
    rintro rfl
    exact hp ho (readLine_prefix h1)
  rw [if_neg ho] at h
  by_cases ho : op = byte 'g'
  · rw [if_pos ho] at h
    obtain ⟨⟨l, r⟩, h1, h⟩ := Res.bind_eq_ok.1 h
    cases h; rfl
  rw [if_neg ho] at h
  by_cases ho : op = byte 'c'
  · rw [if_pos ho] at h
    obtain ⟨⟨l, r⟩, h1, h⟩ := Res.bind_eq_ok.1 h
    obtain ⟨⟨l2, r2⟩, h2, h⟩ := Res.bind_eq_ok.1 h
    cases h; rfl
  rw [if_neg ho] at h
  by_cases ho : op = byte 'L'
  · rw [if_pos ho] at h
    obtain ⟨⟨l, r⟩, h1, h⟩ := Res.bind_eq_ok.1 h
    dsimp only at h
    split at h
    · cases h
    · obtain ⟨v, -, h⟩ := Res.bind_eq_ok.1 h
      cases h; rfl
  rw [if_neg ho] at h
  by_cases ho : op = byte 'I'
  · rw [if_pos ho] at h
    obtain ⟨⟨l, r⟩, h1, h⟩ := Res.bind_eq_ok.1 h
    obtain ⟨v, -, h⟩ := Res.bind_eq_ok.1 h
    cases h; rfl
  rw [if_neg ho] at h
  by_cases ho : op = byte 'F'
  · rw [if_pos ho] at h
    obtain ⟨⟨l, r⟩, h1, h⟩ := Res.bind_eq_ok.1 h
    obtain ⟨v, -, h⟩ := Res.bind_eq_ok.1 h
    cases h; rfl
  rw [if_neg ho] at h
  by_cases ho : op = byte 't'
  · rw [if_pos ho] at h
    obtain ⟨⟨l, m₁⟩, h1, h⟩ := Res.bind_eq_ok.1 h
    have := popMark_memory h1
    cases h
    show Pickle.lookup key m₁.memory = _
    rw [this]
  rw [if_neg ho] at h
  by_cases ho : op = byte 'l'
  · rw [if_pos ho] at h
    obtain ⟨⟨l, m₁⟩, h1, h⟩ := Res.bind_eq_ok.1 h
    have := popMark_memory h1
    cases h
    show Pickle.lookup key m₁.memory = _
    rw [this]
  rw [if_neg ho] at h
  by_cases ho : op = byte 'a'
  · rw [if_pos ho] at h
    obtain ⟨⟨x, m₁⟩, h1, h⟩ := Res.bind_eq_ok.1 h
    obtain ⟨⟨y, m₂⟩, h2, h⟩ := Res.bind_eq_ok.1 h
    have e1 := pop_memory h1
    have e2 := pop_memory h2
    dsimp only at h
    split at h
    · obtain ⟨⟨z, m₃⟩, h3, h⟩ := Res.bind_eq_ok.1 h
      have e3 := appendList_memory h3
      cases h
      show Pickle.lookup key m₃.memory = _
      rw [e3, e2, e1]
    · cases h
  rw [if_neg ho] at h
  by_cases ho : op = byte 'V'
  · rw [if_pos ho] at h
    obtain ⟨⟨l, r⟩, h1, h⟩ := Res.bind_eq_ok.1 h
    cases h; rfl
  rw [if_neg ho] at h
  by_cases ho : op = byte 'R'
  · rw [if_pos ho] at h
    obtain ⟨⟨x, m₁⟩, h1, h⟩ := Res.bind_eq_ok.1 h
    obtain ⟨⟨y, m₂⟩, h2, h⟩ := Res.bind_eq_ok.1 h
    have e1 := pop_memory h1
    have e2 := pop_memory h2
    dsimp only at h
    split at h
    · cases h
      show Pickle.lookup key m₂.memory = _
      rw [e2, e1]
    · cases h
  rw [if_neg ho] at h
  by_cases ho : op = byte 'N'
  · rw [if_pos ho] at h
    cases h; rfl
  rw [if_neg ho] at h
  by_cases ho : op = byte 'b'
  · rw [if_pos ho] at h
    obtain ⟨⟨x, m₁⟩, h1, h⟩ := Res.bind_eq_ok.1 h
    obtain ⟨⟨y, m₂⟩, h2, h⟩ := Res.bind_eq_ok.1 h
    have e1 := pop_memory h1
    have e2 := pop_memory h2
    cases h
    show Pickle.lookup key m₂.memory = _
    rw [e2, e1]
  rw [if_neg ho] at h
  by_cases ho : op = byte 'd'
  · rw [if_pos ho] at h
    obtain ⟨⟨l, m₁⟩, h1, h⟩ := Res.bind_eq_ok.1 h
    have := popMark_memory h1
    dsimp only at h
    split at h
    · cases h
    · obtain ⟨c, -, h⟩ := Res.bind_eq_ok.1 h
      cases h
      show Pickle.lookup key m₁.memory = _
      rw [this]
  rw [if_neg ho] at h
  by_cases ho : op = byte 's'
  · rw [if_pos ho] at h
    obtain ⟨⟨x, m₁⟩, h1, h⟩ := Res.bind_eq_ok.1 h
    obtain ⟨⟨y, m₂⟩, h2, h⟩ := Res.bind_eq_ok.1 h
    obtain ⟨d, -, h⟩ := Res.bind_eq_ok.1 h
    have e1 := pop_memory h1
    have e2 := pop_memory h2
    split at h
    · split at h
      · obtain ⟨m₃, h3, h⟩ := Res.bind_eq_ok.1 h
        have e3 := setDict_memory h3
        cases h
        rw [e3, e2, e1]
      · cases h
    · cases h
  rw [if_neg ho] at h
  by_cases ho : op = byte '.'
  · rw [if_pos ho] at h
    cases h
  rw [if_neg ho] at h
  cases h

/-- C53: whatever happens between storing an object and fetching it, unless something else is stored under the same key,
the fetched object is the one that was stored: the same reference for a dict (so that all assignments made in between are
seen), the same object for everything that is never changed. Missing for the full claim: a list header or an object
without its state is fetched as it was when it was stored (theorems `C53_list_stale` and `C53_state_lost`). -/
theorem C53_fetch_partial (P : Platform) (key : Bytes) (hk : nl ∉ key) (m m' : Machine) (x : PVal) (st : List PVal)
    (bs rest : Bytes) (hs : m.stack = x :: st)
    (h : StepsNotPut P key { m with memory := (key, x) :: m.memory } bs m' (octet 'g' :: (key ++ nl :: rest))) :
    (∀ t, stepOp P (octet 'p') (key ++ nl :: t) m = .ok (.continue { m with memory := (key, x) :: m.memory } t)) ∧
    stepOp P (octet 'g') (key ++ nl :: rest) m' = .ok (.continue { m' with stack := x :: m'.stack } rest) := by
  have hl : ∀ {a b : Machine} {c d : Bytes}, StepsNotPut P key a c b d →
      Pickle.lookup key b.memory = Pickle.lookup key a.memory := by
    intro a b c d hst
    induction hst with
    | refl => rfl
    | step h hp _ ih => rw [ih, stepOp_lookup h hp]
  have hx : Pickle.lookup key m'.memory = some x := by
    rw [hl h]
    show (if key = key then _ else _) = _
    rw [if_pos rfl]
  constructor
  · intro t
    show (readLine (key ++ nl :: t) >>= _) = _
    rw [readLine_of hk]
    show ((m.back >>= _) >>= _) = _
    unfold Machine.back
    rw [hs]
    rfl
  · show (readLine (key ++ nl :: rest) >>= _) = _
    rw [readLine_of hk]
    show Res.ok (Next.continue (m'.push (m'.getMemory key)) rest) = _
    unfold Machine.getMemory
    rw [hx]
    rfl

/-- C53, the dict case in full: a value fetched from the memo denotes what was stored, and dicts, which Python stores
before filling them, denote their final contents. (`Dumps` allows fetching exactly these objects.) -/
theorem C53_shared_partial (P : Platform) (v w : PyVal) (_ : v.Plain) (_ : w.Plain) (bv key rest : Bytes) (μ : Memo) (hk : nl ∉ key)
    (hv : Dumps P noMemo v bv μ) (hw : μ key = .holds w) :
    ∃ x m, decode P (octet '(' :: (bv ++ octet 'g' :: (key ++ nl :: octet 't' :: octet '.' :: rest))) = .ok (x, m) ∧
      Denotes m.arrays m.dicts x (.tuple (.cons v (.cons w .nil))) := by
  have h1 : DumpsSeq P noMemo (.cons v (.cons w .nil)) (bv ++ ((octet 'g' :: (key ++ [nl])) ++ [])) μ :=
    .cons noMemo μ μ v _ bv _ hv (.cons μ μ μ w .nil _ [] (.get μ key w hk hw) (.nil μ))
  have h2 := decode_dumps P _ _ rest _ (Dumps.tuple noMemo μ μ _ _ [] h1 .skip)
  simpa using h2

namespace PickleExample

/-- `a = [7]; pickle.dumps((a, a), 0)` -/
def sharedList : Bytes := octets "((lp0\nI7\nag0\nt.".toList

/-- C53 is false for lists: the second component is fetched as the empty list it was when it was stored. -/
theorem C53_list_stale (P : Platform) : ∃ x m, decode P sharedList = .ok (x, m) ∧
    Denotes m.arrays m.dicts x (.tuple (.cons (.list (.cons (.int 7) .nil)) (.cons (.list .nil) .nil))) ∧
    ¬ Denotes m.arrays m.dicts x (.tuple (.cons (.list (.cons (.int 7) .nil)) (.cons (.list (.cons (.int 7) .nil)) .nil))) := by
  have hd : ∃ x m, decode P sharedList = .ok (x, m) ∧
      Denotes m.arrays m.dicts x (.tuple (.cons (.list (.cons (.int 7) .nil)) (.cons (.list .nil) .nil))) := by
    refine ⟨_, _, rfl, _, rfl, _, _, rfl, ⟨_, _, _, rfl, rfl, ?_, _, _, rfl, rfl, rfl⟩, _, _, rfl,
      ⟨_, _, _, rfl, rfl, ?_, rfl⟩, rfl⟩
    · exact Nat.le_refl 1
    · exact Nat.le_refl 0
  obtain ⟨x, m, h1, h2⟩ := hd
  refine ⟨x, m, h1, h2, fun h3 => ?_⟩
  have := C51_value_unique _ _ _ _ _ (by simp [PyVal.Plain, PySeq.Plain]) (by simp [PyVal.Plain, PySeq.Plain]) h2 h3
  cases this

/-- `d = numpy.dtype('>f8'); pickle.dumps((d, d), 0)` (big-endian floats) -/
def sharedDType : Bytes :=
  octets "(cnumpy\ndtype\np1\n(Vf8\nI0\nI1\ntRp2\n(I3\nV>\nNNNI-1\nI-1\nI0\ntbg2\nt.".toList

/-- C53 is false for objects with state: fetched again, the object is the one before its state was set, and the data type
that was big-endian the first time is little-endian the second time. -/
theorem C53_state_lost (P : Platform) : ∃ a b m d e, decode P sharedDType = .ok (.tuple [a, b], m) ∧
    parseDType a = .ok d ∧ parseDType b = .ok e ∧ d.littleEndian = false ∧ e.littleEndian = true :=
  ⟨_, _, _, _, _, rfl, rfl, rfl, rfl, rfl⟩

/-- `{'a': (1, None)}` -/
def dict : PyVal := .dict (.cons (octets "a".toList) (.tuple (.cons (.int 1) (.cons .none .nil))) .nil)

/-- `pickle.dumps({'a': (1, None)}, 0)` without the STOP, as Python writes it: every object is stored -/
def dictBytes : Bytes := octets "(dp0\nVa\np1\n(I1\nNtp2\ns".toList

/-- the memo afterwards -/
def dictMemo : Memo :=
  Memo.set (Memo.set (Memo.set (noMemo.set (octets "0".toList) .hidden) (octets "1".toList) (.holds (.str (octets "a".toList))))
    (octets "2".toList) (.holds (.tuple (.cons (.int 1) (.cons .none .nil))))) (octets "0".toList) (.holds dict)

theorem dict_dumps (P : Platform) : Dumps P noMemo dict dictBytes dictMemo := by
  have h1 : Dumps P (noMemo.set (octets "0".toList) .hidden) (.str (octets "a".toList)) (octets "Va\np1\n".toList) _ :=
    .str _ _ _ _ (.put (octets "1".toList) (by decide) rfl)
  have h2 : Dumps P (Memo.set (noMemo.set (octets "0".toList) .hidden) (octets "1".toList) (.holds (.str (octets "a".toList))))
      (.tuple (.cons (.int 1) (.cons .none .nil))) (octets "(I1\nNtp2\n".toList) _ :=
    .tuple _ _ _ _ (octets "I1\nN".toList) _ (.cons _ _ _ _ _ (octets "I1\n".toList) _ (.int _ 1 ⟨by decide, by decide⟩)
      (.cons _ _ _ _ _ [octet 'N'] [] (.none _) (.nil _))) (.put (octets "2".toList) (by decide) rfl)
  exact .dictPut _ _ _ (octets "0".toList) (octets "Va\np1\n(I1\nNtp2\ns".toList) (by decide) rfl
    (.cons _ _ _ _ _ _ _ _ _ [] h1 h2 (.nil _))

/-- a case of C51 -/
example (P : Platform) : ∃ x m, decode P (dictBytes ++ [octet '.']) = .ok (x, m) ∧ Denotes m.arrays m.dicts x dict :=
  C51_decode P dict (by simp [dict, PyVal.Plain, PyMap.Plain, PySeq.Plain]) dictBytes [] dictMemo (dict_dumps P)

/-- `{'a': 1, 'a': 2}` given at once: the assignments in order -/
def repeated : PyVal := .dict (.cons (octets "a".toList) (.int 1) (.cons (octets "a".toList) (.int 2) .nil))

theorem repeated_dumps (P : Platform) : Dumps P noMemo repeated (octets "(Va\nI1\nVa\nI2\nd".toList) noMemo := by
  have h : DumpsPairs P noMemo (.cons (octets "a".toList) (.int 1) (.cons (octets "a".toList) (.int 2) .nil))
      (octets "Va\nI1\nVa\nI2\n".toList) noMemo :=
    .cons _ _ _ _ _ _ _ (octets "Va\n".toList) (octets "I1\n".toList) (octets "Va\nI2\n".toList) (.str _ _ (octets "a".toList) [] .skip)
      (.int _ 1 ⟨by decide, by decide⟩)
      (.cons _ _ _ _ _ _ _ (octets "Va\n".toList) (octets "I2\n".toList) [] (.str _ _ (octets "a".toList) [] .skip)
        (.int _ 2 ⟨by decide, by decide⟩) (.nil _))
  exact .dictOf _ _ _ _ (octets "Va\nI1\nVa\nI2\n".toList) [] h .skip

/-- a case of C51: the last value of a repeated key counts -/
example (P : Platform) : ∃ ref m, decode P (octets "(Va\nI1\nVa\nI2\nd.".toList) = .ok (.dict ref, m) ∧
    Denotes m.arrays m.dicts (.dict ref) repeated ∧ toDict m (.dict ref) = .ok [(octets "a".toList, .int 2), (octets "a".toList, .int 1)] := by
  obtain ⟨x, m, h1, h2⟩ := C51_decode P repeated (by simp [repeated, PyVal.Plain, PyMap.Plain]) _ [] noMemo (repeated_dumps P)
  exact ⟨_, _, rfl, by cases h1; exact h2, rfl⟩

/-- a case of C53: the dict fetched again after it was filled -/
example (P : Platform) : ∃ x m, decode P (octets "((dp0\nVa\np1\n(I1\nNtp2\nsg0\nt.".toList) = .ok (x, m) ∧
    Denotes m.arrays m.dicts x (.tuple (.cons dict (.cons dict .nil))) :=
  C53_shared_partial P dict dict (by simp [dict, PyVal.Plain, PyMap.Plain, PySeq.Plain])
    (by simp [dict, PyVal.Plain, PyMap.Plain, PySeq.Plain]) dictBytes (octets "0".toList) [] dictMemo (by decide) (dict_dumps P) rfl

/-- a case of C53: an object fetched after other instructions -/
example (P : Platform) (m : Machine) :
    StepsNotPut P (octets "0".toList) m (octets "NI3\np1\ng0\n".toList) { m with stack := .int 3 :: .none :: m.stack, memory := (octets "1".toList, .int 3) :: m.memory }
      (octets "g0\n".toList) :=
  .step (bs₁ := octets "I3\np1\ng0\n".toList) rfl (fun h => absurd h (by decide))
    (.step (bs₁ := octets "p1\ng0\n".toList) rfl (fun h => absurd h (by decide))
      (.step (bs₁ := octets "g0\n".toList) rfl (fun _ => by decide) (.refl _ _)))

/-- a nested value with every kind of part -/
def nested : PyVal :=
  .list (.cons (.tuple .nil) (.cons (.build (.global (octets "m".toList) (octets "C".toList)) (.cons (.float (F64.ofNat 12)) .nil)
    (.dict (.cons (octets "k\\".toList) (.list (.cons (.int (-5)) (.cons (.str (octets "\n".toList)) .nil))) .nil)))
    (.cons (.reduce (.global (octets "m".toList) (octets "f".toList)) (.cons .none .nil)) .nil)))

theorem nested_writable : nested.Writable Platform.demo fun _ => "12".toList := by
  refine ⟨trivial, ⟨⟨by decide, by decide⟩, ⟨⟨by decide, by decide +kernel⟩, trivial⟩, ⟨⟨by decide, by decide⟩, trivial, trivial⟩, trivial⟩,
    ⟨⟨by decide, by decide⟩, trivial, trivial⟩, trivial⟩

example : ∃ x m, decode Platform.demo (nested.dump (fun _ => "12".toList) ++ [octet '.']) = .ok (x, m) ∧
    Denotes m.arrays m.dicts x nested := C51_every_value _ _ _ nested_writable

/-- a case of C52: text that looks like an escape -/
example : escape (octets "\\u000a\n".toList) = octets "\\u005cu000a\\u000a".toList ∧
    decodeUnicode (octets "\\u005cu000a\\u000a".toList) = octets "\\u000a\n".toList := by decide

end PickleExample

/-! ### C54: records and arrays -/

theorem leNat_field64 (w : BitVec 64) : Util.leNat (field64 w) = w.toNat := by
  unfold field64
  rw [leNat_bytesLE]
  exact Nat.mod_eq_of_lt w.isLt

theorem field64_length (w : BitVec 64) : (field64 w).length = 8 := bytesLE_length _ _

theorem int64LE_field64 (w : BitVec 64) : int64LE (field64 w) = .ok w.toInt := by
  unfold int64LE
  rw [if_neg (by rw [field64_length]; omega), List.take_of_length_le (by rw [field64_length]), leNat_field64, BitVec.ofNat_toNat,
    BitVec.setWidth_eq]

theorem float64_field64 (w : BitVec 64) : Util.float64FromBytes (field64 w) true = .ok (F64.ofBits w) := by
  unfold Util.float64FromBytes
  rw [if_neg (by rw [field64_length]; omega)]
  dsimp only
  rw [if_pos rfl, List.take_of_length_le (by rw [field64_length]), leNat_field64, BitVec.ofNat_toNat, BitVec.setWidth_eq]

theorem drop_field64 (ws : List (BitVec 64)) (i : Nat) (w : BitVec 64) (h : ws[i]? = some w) :
    ((ws.flatMap field64).drop (8 * i)).take 8 = field64 w := by
  induction ws generalizing i with
  | nil => cases h
  | cons v vs ih =>
    rw [List.flatMap_cons]
    cases i with
    | zero =>
      cases h
      rw [Nat.mul_zero, List.drop_zero, List.take_append_of_le_length (by rw [field64_length]),
        List.take_of_length_le (by rw [field64_length])]
    | succ i =>
      have e : 8 * (i + 1) = (field64 v).length + 8 * i := by rw [field64_length]; omega
      rw [e, ← List.drop_drop, List.drop_left]
      exact ih i h

/-- C54: a 56-byte record is decoded field by field: integers in two's complement, floats as IEEE bits. -/
theorem C54_node_record (l r f t im s w : BitVec 64) : skNodeFromBytes (nodeRecord l r f t im s w) =
    .ok ⟨l.toInt, r.toInt, f.toInt, F64.ofBits t, F64.ofBits im, s.toInt, F64.ofBits w⟩ := by
  have hd : ∀ i v, [l, r, f, t, im, s, w][i]? = some v → ((nodeRecord l r f t im s w).drop (8 * i)).take 8 = field64 v :=
    fun i v h => drop_field64 _ i v h
  unfold skNodeFromBytes
  dsimp only
  rw [hd 0 l rfl, hd 1 r rfl, hd 2 f rfl, hd 3 t rfl, hd 4 im rfl, hd 5 s rfl, hd 6 w rfl, int64LE_field64, int64LE_field64,
    int64LE_field64, int64LE_field64, float64_field64, float64_field64, float64_field64]
  rfl

/-- C54: every 56-byte string is the record of some node, so records are decoded without exception. -/
theorem C54_records_covered (b : Bytes) (h : b.length = 56) : ∃ l r f t im s w, b = nodeRecord l r f t im s w := by
  have key : ∀ c : Bytes, c.length = 8 → ∃ v : BitVec 64, c = field64 v := by
    intro c hc
    refine ⟨BitVec.ofNat 64 (Util.leNat c), ?_⟩
    have hlt : Util.leNat c < 256 ^ 8 := by
      have : ∀ d : Bytes, Util.leNat d < 256 ^ d.length := by
        intro d
        induction d with
        | nil => simp [Util.leNat]
        | cons x d ih =>
          have := x.isLt
          simp only [Util.leNat, List.length_cons, Nat.pow_succ]
          omega
      rw [← hc]; exact this c
    have hinj : ∀ (k : Nat) (d : Bytes), d.length = k → bytesLE k (Util.leNat d) = d := by
      intro k
      induction k with
      | zero => intro d hd; rw [List.length_eq_zero_iff.1 hd]; rfl
      | succ k ih =>
        intro d hd
        cases d with
        | nil => cases hd
        | cons x d =>
          rw [bytesLE_succ]
          have h1 : (x.toNat + 256 * Util.leNat d) / 256 = Util.leNat d := by have := x.isLt; omega
          have h2 : BitVec.ofNat 8 (x.toNat + 256 * Util.leNat d) = x := by
            apply BitVec.eq_of_toNat_eq
            rw [BitVec.toNat_ofNat]
            have := x.isLt; omega
          simp only [Util.leNat]
          rw [h1, h2, ih d (by simpa using hd)]
    unfold field64
    rw [BitVec.toNat_ofNat, Nat.mod_eq_of_lt (by simpa using hlt)]
    exact (hinj 8 c hc).symm
  have cut : ∀ (d : Bytes) (n : Nat), d.length = 8 * (n + 1) → ∃ (v : BitVec 64) (e : Bytes), d = field64 v ++ e ∧ e.length = 8 * n := by
    intro d n hd
    obtain ⟨v, hv⟩ := key (d.take 8) (by rw [List.length_take]; omega)
    exact ⟨v, d.drop 8, by rw [← hv, List.take_append_drop], by rw [List.length_drop]; omega⟩
  obtain ⟨l, b1, e1, h1⟩ := cut b 6 h
  obtain ⟨r, b2, e2, h2⟩ := cut b1 5 h1
  obtain ⟨f, b3, e3, h3⟩ := cut b2 4 h2
  obtain ⟨t, b4, e4, h4⟩ := cut b3 3 h3
  obtain ⟨im, b5, e5, h5⟩ := cut b4 2 h4
  obtain ⟨s, b6, e6, h6⟩ := cut b5 1 h5
  obtain ⟨w, b7, e7, h7⟩ := cut b6 0 h6
  refine ⟨l, r, f, t, im, s, w, ?_⟩
  rw [e1, e2, e3, e4, e5, e6, e7, List.length_eq_zero_iff.1 h7]
  simp [nodeRecord]

theorem chunksGo_get (k : Nat) : ∀ (fuel : Nat) (b : Bytes) (n : Nat), b.length = n * (k + 1) → n ≤ fuel →
    (chunksGo k fuel b).length = n ∧ ∀ i < n, (chunksGo k fuel b)[i]? = some ((b.drop (i * (k + 1))).take (k + 1))
  | 0, b, n, _, hf => by
    have : n = 0 := by omega
    subst this
    exact ⟨rfl, fun i hi => absurd hi (by omega)⟩
  | fuel + 1, [], n, hb, _ => by
    have : n = 0 := by
      rcases n with _ | n
      · rfl
      · simp [Nat.succ_mul] at hb
    subst this
    exact ⟨rfl, fun i hi => absurd hi (by omega)⟩
  | fuel + 1, c :: cs, n, hb, hf => by
    cases n with
    | zero => simp at hb
    | succ n =>
      have hlen : ((c :: cs).drop (k + 1)).length = n * (k + 1) := by
        rw [List.length_drop, hb, Nat.succ_mul]; omega
      obtain ⟨h1, h2⟩ := chunksGo_get k fuel _ n hlen (by omega)
      refine ⟨congrArg (· + 1) h1, fun i hi => ?_⟩
      cases i with
      | zero => show some _ = _; rw [Nat.zero_mul, List.drop_zero]
      | succ i =>
        show (chunksGo k fuel ((c :: cs).drop (k + 1)))[i]? = _
        rw [h2 i (by omega), List.drop_drop]
        congr 3
        rw [Nat.succ_mul]; omega

/-- C54: an array of `n` elements of `size` bytes is cut into its `n` consecutive elements. -/
theorem C54_chunks (k n : Nat) (b : Bytes) (h : b.length = n * (k + 1)) :
    ∃ cs, iterate k b = .ok cs ∧ cs.length = n ∧ ∀ i < n, cs[i]? = some ((b.drop (i * (k + 1))).take (k + 1)) := by
  unfold iterate
  rw [if_neg (by rw [h, Nat.mul_mod_left]; exact fun hc => hc rfl)]
  exact ⟨_, rfl, chunksGo_get k _ b n h (by rw [h]; exact Nat.le_mul_of_pos_right n (Nat.succ_pos k))⟩

/-- C54: an array whose length is not a multiple of the element size is rejected. -/
theorem C54_bad_length (k : Nat) (b : Bytes) (h : ¬ (k + 1) ∣ b.length) : ∃ e, iterate k b = .err e := by
  unfold iterate
  rw [if_pos fun hc => h (Nat.dvd_of_mod_eq_zero hc)]
  exact ⟨_, rfl⟩

/-- a case of C54: a leaf, whose children are -1 and whose feature is -2 -/
example : skNodeFromBytes (nodeRecord (-1) (-1) (-2) 0xc000000000000000 0x3fe0000000000000 3 0x4008000000000000) =
    .ok ⟨-1, -1, -2, F64.ofInt (-2), F64.const 1 2, 3, F64.ofNat 3⟩ := by
  rw [C54_node_record]
  decide +kernel

example : iterate 1 (octets "abcdef".toList) = .ok [octets "ab".toList, octets "cd".toList, octets "ef".toList] ∧
    ∃ e, iterate 1 (octets "abc".toList) = .err e := by
  exact ⟨rfl, C54_bad_length 1 _ (by decide)⟩

end Leaves
