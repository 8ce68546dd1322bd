import Verif.Spec.Truncation
import Verif.Proofs.XgBin
import Verif.Proofs.PickleOps
import Verif.Proofs.NoHang
import Verif.Model.XgLoad

/-! # Reading functions take a definite part of the input: internals of C92 -/

namespace Leaves

open Spec XgBin

/-- `r` takes from every input that it accepts a part that determines the value, and rejects less than this part -/
def Exact {α : Type} (r : Rd α) : Prop := ∀ bs a rest, r bs = .ok (a, rest) → ∃ img, bs = img ++ rest ∧ Codec r img a

theorem Exact.pure {α : Type} (a : α) : Exact (Pure.pure a : Rd α) := by
  rintro bs b rest h
  cases h
  exact ⟨[], rfl, Codec.pure a⟩

theorem Exact.lift {α : Type} (x : Res α) : Exact (lift x) := by
  rintro bs b rest h
  cases x with
  | ok a =>
    cases h
    exact ⟨[], rfl, Codec.pure b⟩
  | err t => cases h
  | panic => cases h
  | hang => cases h

theorem Exact.bind {α β : Type} {r : Rd α} {f : α → Rd β} (h : Exact r) (hf : ∀ a, Exact (f a)) : Exact (r >>= f) := by
  rintro bs b rest hb
  replace hb : (match r bs with | .ok (a, bs) => f a bs | .err t => .err t | .panic => .panic | .hang => .hang) = .ok (b, rest) := hb
  cases hr : r bs with
  | ok x =>
    obtain ⟨a, bs'⟩ := x
    rw [hr] at hb
    obtain ⟨img, e, hc⟩ := h bs a bs' hr
    obtain ⟨img', e', hc'⟩ := hf a bs' b rest hb
    exact ⟨img ++ img', by rw [e, e', List.append_assoc], hc.bind hc'⟩
  | err t => rw [hr] at hb; cases hb
  | panic => rw [hr] at hb; cases hb
  | hang => rw [hr] at hb; cases hb

theorem Exact.bytes (n : Nat) : Exact (readBytes n) := by
  intro bs a rest h
  unfold readBytes at h
  split at h
  · cases h
  rename_i hn
  cases h
  refine ⟨bs.take n, (List.take_append_drop n bs).symm, ?_⟩
  have := Codec.bytes (bs.take n)
  rwa [List.length_take, Nat.min_eq_left (by omega)] at this

theorem Exact.word : Exact readWord := (Exact.bytes 4).bind fun _ => Exact.pure _

theorem Exact.word64 : Exact readWord64 := (Exact.bytes 8).bind fun _ => Exact.pure _

theorem Exact.many {α : Type} {r : Rd α} (h : Exact r) : ∀ n, Exact (readMany r n)
  | 0 => Exact.pure _
  | n + 1 => h.bind fun _ => (Exact.many h n).bind fun _ => Exact.pure _

theorem Exact.string (P : Platform) : Exact (readString P) :=
  Exact.word64.bind fun size => by
    split
    · exact Exact.pure _
    · exact (Exact.lift _).bind fun _ => Exact.bytes _

theorem Exact.slice (P : Platform) : Exact (readWordSlice P) :=
  Exact.word64.bind fun size => by
    split
    · exact Exact.pure _
    · exact (Exact.lift _).bind fun _ => Exact.word.many _

theorem Exact.header (P : Platform) : Exact (readModelHeader P) := by
  refine Exact.bind ?_ fun _ => (Exact.string P).bind fun _ => (Exact.string P).bind fun _ => Exact.pure _
  refine Exact.word.bind fun _ => Exact.word.bind fun _ => Exact.word.bind fun _ => Exact.word.bind fun _ => Exact.word.bind fun _ => ?_
  exact (Exact.word.many _).bind fun _ => Exact.pure _

theorem Exact.tree (P : Platform) : Exact (readTreeModel P) := by
  refine Exact.bind ?_ fun param => ?_
  · refine Exact.word.bind fun _ => Exact.word.bind fun _ => Exact.word.bind fun _ => Exact.word.bind fun _ => Exact.word.bind fun _ =>
      Exact.word.bind fun _ => ?_
    exact (Exact.word.many _).bind fun _ => Exact.pure _
  refine (Exact.lift _).bind fun _ => (Exact.lift _).bind fun _ => ?_
  refine Exact.bind (Exact.many ?_ _) fun _ => Exact.bind (Exact.many ?_ _) fun _ => ?_
  · exact Exact.word.bind fun _ => Exact.word.bind fun _ => Exact.word.bind fun _ => Exact.word.bind fun _ => Exact.word.bind fun _ => Exact.pure _
  · exact Exact.word.bind fun _ => Exact.word.bind fun _ => Exact.word.bind fun _ => Exact.word.bind fun _ => Exact.pure _
  split
  · exact (Exact.slice P).bind fun _ => Exact.pure _
  · exact Exact.pure _

theorem Exact.gbtree (P : Platform) : Exact (readGBTreeModel P) := by
  refine Exact.bind ?_ fun param => ?_
  · refine Exact.word.bind fun _ => Exact.word.bind fun _ => Exact.word.bind fun _ => Exact.word.bind fun _ => Exact.word64.bind fun _ =>
      Exact.word.bind fun _ => Exact.word.bind fun _ => ?_
    exact (Exact.word.many _).bind fun _ => Exact.pure _
  refine (Exact.many (Exact.tree P) _).bind fun _ => ?_
  split
  · exact (Exact.lift _).bind fun _ => (Exact.word.many _).bind fun _ => Exact.pure _
  · exact Exact.pure _

theorem Exact.linear (P : Platform) : Exact (readGBLinearModel P) := by
  refine Exact.bind ?_ fun param => (Exact.slice P).bind fun _ => Exact.pure _
  exact Exact.word.bind fun _ => Exact.word.bind fun _ => (Exact.word.many _).bind fun _ => Exact.pure _

theorem Exact.weightDrop (P : Platform) (name : Bytes) (n : Int) : Exact (xgWeightDrop P name n) := by
  refine (Exact.lift _).bind fun _ => ?_
  split
  · refine (Exact.slice P).bind fun _ => ?_
    split
    · exact Exact.lift _
    · exact Exact.pure _
  · split
    · exact Exact.pure _
    · exact Exact.lift _

theorem Exact.xgEnsemble (P : Platform) (lt : Bool) : Exact (xgEnsembleFromReader P lt) := by
  refine (Exact.header P).bind fun header => ?_
  split
  · exact Exact.lift _
  dsimp only
  split
  · exact Exact.lift _
  refine (Exact.gbtree P).bind fun m => ?_
  split
  · exact Exact.lift _
  exact (Exact.weightDrop P _ _).bind fun _ => Exact.lift _

theorem Exact.xgLinear (P : Platform) (lt : Bool) : Exact (xgbLinearFromReader P lt) := by
  refine (Exact.header P).bind fun header => ?_
  split
  · exact Exact.lift _
  split
  · exact Exact.lift _
  exact (Exact.linear P).bind fun m => (Exact.lift _).bind fun _ => Exact.pure _

/-! ## pickles -/

namespace Pickle

theorem readLine_exact : ∀ {bs l rest : Bytes}, readLine bs = .ok (l, rest) →
    bs = l ++ byte '\n' :: rest ∧ (∀ more, readLine (l ++ byte '\n' :: more) = .ok (l, more)) ∧
    ∀ p q, l ++ [byte '\n'] = p ++ q → q ≠ [] → ∃ e, readLine p = .err e
  | [], l, rest, h => by cases h
  | b :: bs, l, rest, h => by
    unfold readLine at h
    split at h
    · rename_i hb
      cases h
      refine ⟨by rw [hb]; rfl, fun more => ?_, fun p q e hq => ?_⟩
      · rw [List.nil_append, readLine, if_pos rfl]
      · cases p with
        | nil => exact ⟨_, rfl⟩
        | cons c p =>
          rw [List.nil_append, List.cons_append, List.cons.injEq, eq_comm (a := ([] : Bytes)), List.append_eq_nil_iff] at e
          exact absurd e.2.2 hq
    · rename_i hb
      obtain ⟨⟨l', rest'⟩, h1, h⟩ := Res.bind_eq_ok.1 h
      cases h
      obtain ⟨e1, e2, e3⟩ := readLine_exact h1
      refine ⟨by rw [e1]; rfl, fun more => ?_, fun p q e hq => ?_⟩
      · rw [List.cons_append, readLine, if_neg hb, e2]
        rfl
      · cases p with
        | nil => exact ⟨_, rfl⟩
        | cons c p =>
          rw [List.cons_append, List.cons_append, List.cons.injEq] at e
          obtain ⟨rfl, e⟩ := e
          obtain ⟨t, ht⟩ := e3 p q e hq
          exact ⟨t, by rw [readLine, if_neg hb, ht]; rfl⟩

/-- one opcode takes a definite part of the input, and does not stop -/
def StepExact (f : Bytes → Res Next) : Prop := ∀ bs,
  (∀ m rest, f bs = .ok (.continue m rest) → ∃ img, bs = img ++ rest ∧ (∀ more, f (img ++ more) = .ok (.continue m more)) ∧
    ∀ p q, img = p ++ q → q ≠ [] → ∃ e, f p = .err e) ∧
  ∀ m, f bs ≠ .ok (.stop m)

theorem StepExact.err (e : String) : StepExact fun _ => .err e := fun _ => ⟨(fun _ _ h => nomatch h), (fun _ h => nomatch h)⟩

theorem StepExact.continue (m : Machine) : StepExact fun bs => .ok (.continue m bs) := by
  intro bs
  refine ⟨fun m' rest h => ?_, fun m h => nomatch h⟩
  cases h
  refine ⟨[], rfl, fun more => rfl, fun p q e hq => ?_⟩
  rw [eq_comm, List.append_eq_nil_iff] at e
  exact absurd e.2 hq

theorem StepExact.res {β : Type} (x : Res β) {f : β → Bytes → Res Next} (hf : ∀ b, StepExact (f b)) :
    StepExact fun bs => x >>= fun b => f b bs := by
  cases x with
  | ok b => exact hf b
  | err e => exact StepExact.err e
  | panic => exact fun _ => ⟨(fun _ _ h => nomatch h), (fun _ h => nomatch h)⟩
  | hang => exact fun _ => ⟨(fun _ _ h => nomatch h), (fun _ h => nomatch h)⟩

theorem StepExact.line {f : Bytes × Bytes → Res Next} (hf : ∀ l, StepExact fun bs => f (l, bs)) :
    StepExact fun bs => readLine bs >>= f := by
  intro bs
  refine ⟨fun m rest h => ?_, fun m h => ?_⟩
  · obtain ⟨⟨l, bs'⟩, h1, h2⟩ := Res.bind_eq_ok.1 h
    obtain ⟨e1, e2, e3⟩ := readLine_exact h1
    obtain ⟨img, g1, g2, g3⟩ := (hf l bs').1 m rest h2
    refine ⟨l ++ [byte '\n'] ++ img, ?_, fun more => ?_, fun p q e hq => ?_⟩
    · rw [e1, g1]; simp
    · have : l ++ [byte '\n'] ++ img ++ more = l ++ byte '\n' :: (img ++ more) := by simp
      dsimp only
      rw [this, e2, Res.ok_bind]
      exact g2 more
    · dsimp only
      rcases List.append_eq_append_iff.1 e with ⟨as, k1, k2⟩ | ⟨cs, k1, k2⟩
      · have : p = l ++ byte '\n' :: as := by rw [k1]; simp
        rw [this, e2, Res.ok_bind]
        exact g3 as q k2 hq
      · by_cases hc : cs = []
        · subst hc
          rw [List.append_nil] at k1
          rw [List.nil_append] at k2
          rw [← k1, e2, Res.ok_bind]
          exact g3 [] q (by rw [k2]; rfl) hq
        · obtain ⟨t, ht⟩ := e3 p cs k1 hc
          exact ⟨t, by rw [ht]; rfl⟩
  · obtain ⟨⟨l, bs'⟩, h1, h2⟩ := Res.bind_eq_ok.1 h
    exact (hf l bs').2 m h2

theorem stepOp_exact (P : Platform) (op : BitVec 8) (m : Machine) (hop : op ≠ byte '.') : StepExact fun bs => stepOp P op bs m := by
  unfold stepOp
  by_cases hc : op = byte '('
  · simp only [if_pos hc]
    exact .continue _
  simp only [if_neg hc]
  clear hc
  by_cases hc : op = byte 'p'
  · simp only [if_pos hc]
    refine StepExact.line fun l => ?_
    dsimp only
    exact StepExact.res _ fun _ => .continue _
  simp only [if_neg hc]
  clear hc
  by_cases hc : op = byte 'g'
  · simp only [if_pos hc]
    refine StepExact.line fun l => ?_
    dsimp only
    exact StepExact.continue _
  simp only [if_neg hc]
  clear hc
  by_cases hc : op = byte 'c'
  · simp only [if_pos hc]
    refine StepExact.line fun l => ?_
    dsimp only
    refine StepExact.line fun l => ?_
    dsimp only
    exact StepExact.continue _
  simp only [if_neg hc]
  clear hc
  by_cases hc : op = byte 'L'
  · simp only [if_pos hc]
    refine StepExact.line fun l => ?_
    dsimp only
    split
    · exact .err _
    · exact StepExact.res _ fun _ => .continue _
  simp only [if_neg hc]
  clear hc
  by_cases hc : op = byte 'I'
  · simp only [if_pos hc]
    refine StepExact.line fun l => ?_
    dsimp only
    exact StepExact.res _ fun _ => .continue _
  simp only [if_neg hc]
  clear hc
  by_cases hc : op = byte 'F'
  · simp only [if_pos hc]
    refine StepExact.line fun l => ?_
    dsimp only
    exact StepExact.res _ fun _ => .continue _
  simp only [if_neg hc]
  clear hc
  by_cases hc : op = byte 't'
  · simp only [if_pos hc]
    exact StepExact.res _ fun _ => .continue _
  simp only [if_neg hc]
  clear hc
  by_cases hc : op = byte 'l'
  · simp only [if_pos hc]
    exact StepExact.res _ fun _ => .continue _
  simp only [if_neg hc]
  clear hc
  by_cases hc : op = byte 'a'
  · simp only [if_pos hc]
    refine StepExact.res _ fun x => StepExact.res _ fun y => ?_
    obtain ⟨el, m1⟩ := x
    obtain ⟨obj, m2⟩ := y
    cases obj with
    | list arr len => exact StepExact.res _ fun _ => .continue _
    | _ => exact .err _
  simp only [if_neg hc]
  clear hc
  by_cases hc : op = byte 'V'
  · simp only [if_pos hc]
    refine StepExact.line fun l => ?_
    dsimp only
    exact StepExact.continue _
  simp only [if_neg hc]
  clear hc
  by_cases hc : op = byte 'R'
  · simp only [if_pos hc]
    refine StepExact.res _ fun x => StepExact.res _ fun y => ?_
    obtain ⟨args, m1⟩ := x
    cases args with
    | tuple t => exact .continue _
    | _ => exact .err _
  simp only [if_neg hc]
  clear hc
  by_cases hc : op = byte 'N'
  · simp only [if_pos hc]
    exact .continue _
  simp only [if_neg hc]
  clear hc
  by_cases hc : op = byte 'b'
  · simp only [if_pos hc]
    exact StepExact.res _ fun x => StepExact.res _ fun y => .continue _
  simp only [if_neg hc]
  clear hc
  by_cases hc : op = byte 'd'
  · simp only [if_pos hc]
    refine StepExact.res _ fun x => ?_
    split
    · exact .err _
    · exact StepExact.res _ fun x => .continue _
  simp only [if_neg hc]
  clear hc
  by_cases hc : op = byte 's'
  · simp only [if_pos hc]
    refine StepExact.res _ fun x => StepExact.res _ fun y => StepExact.res _ fun d => ?_
    obtain ⟨k, m2⟩ := y
    cases d with
    | dict ref =>
      cases k with
      | unicode key => exact StepExact.res _ fun _ => .continue _
      | _ => exact .err _
    | _ => exact .err _
  simp only [if_neg hc, if_neg hop]
  exact .err _

theorem stepOp_stop (P : Platform) (bs : Bytes) (m : Machine) : stepOp P (byte '.') bs m = .ok (.stop m) := by
  unfold stepOp
  simp [byte]

/-- the loop takes a definite part of the input; the fuel only has to be large enough -/
theorem decodeLoop_exact (P : Platform) : ∀ (fuel : Nat) (bs : Bytes) (m m' : Machine), decodeLoop P fuel bs m = .ok m' →
    ∃ used rest, bs = used ++ rest ∧
      (∀ more fuel', (used ++ more).length < fuel' → decodeLoop P fuel' (used ++ more) m = .ok m') ∧
      ∀ p q, used = p ++ q → q ≠ [] → ∀ fuel', p.length < fuel' → ∃ e, decodeLoop P fuel' p m = .err e
  | 0, _, _, _, h => nomatch h
  | fuel + 1, [], _, _, h => nomatch h
  | fuel + 1, op :: bs, m, m', h => by
    rw [decodeLoop] at h
    by_cases hop : op = byte '.'
    · subst hop
      rw [stepOp_stop, Res.ok_bind] at h
      cases h
      refine ⟨[byte '.'], bs, rfl, fun more fuel' hf => ?_, fun p q e hq fuel' hf => ?_⟩
      · obtain ⟨k, rfl⟩ : ∃ k, fuel' = k + 1 := ⟨fuel' - 1, by omega⟩
        rw [List.singleton_append, decodeLoop, stepOp_stop]
        rfl
      · obtain ⟨k, rfl⟩ : ∃ k, fuel' = k + 1 := ⟨fuel' - 1, by omega⟩
        cases p with
        | nil => exact ⟨_, rfl⟩
        | cons c p =>
          rw [List.cons_append, List.cons.injEq, eq_comm (a := ([] : Bytes)), List.append_eq_nil_iff] at e
          exact absurd e.2.2 hq
    · obtain ⟨nx, h1, h2⟩ := Res.bind_eq_ok.1 h
      cases nx with
      | stop m1 => exact absurd h1 ((stepOp_exact P op m hop bs).2 m1)
      | «continue» m1 bs1 =>
        obtain ⟨img, g1, g2, g3⟩ := (stepOp_exact P op m hop bs).1 m1 bs1 h1
        obtain ⟨used, rest, k1, k2, k3⟩ := decodeLoop_exact P fuel bs1 m1 m' h2
        refine ⟨op :: (img ++ used), rest, by rw [g1, k1]; simp, fun more fuel' hf => ?_, fun p q e hq fuel' hf => ?_⟩
        · obtain ⟨k, rfl⟩ : ∃ k, fuel' = k + 1 := ⟨fuel' - 1, by omega⟩
          rw [List.cons_append, List.append_assoc, decodeLoop]
          have := g2 (used ++ more)
          dsimp only at this
          rw [this, Res.ok_bind]
          refine k2 more k ?_
          simp only [List.length_append, List.length_cons] at hf ⊢
          omega
        · obtain ⟨k, rfl⟩ : ∃ k, fuel' = k + 1 := ⟨fuel' - 1, by omega⟩
          cases p with
          | nil => exact ⟨_, rfl⟩
          | cons c p =>
            rw [List.cons_append, List.cons.injEq] at e
            obtain ⟨rfl, e⟩ := e
            rw [List.length_cons] at hf
            rw [decodeLoop]
            rcases List.append_eq_append_iff.1 e with ⟨as, j1, j2⟩ | ⟨cs, j1, j2⟩
            · have := g2 as
              dsimp only at this
              rw [j1, this, Res.ok_bind]
              refine k3 as q j2 hq k ?_
              rw [j1, List.length_append] at hf
              omega
            · by_cases hc : cs = []
              · subst hc
                rw [List.append_nil] at j1
                rw [List.nil_append] at j2
                have := g2 []
                dsimp only at this
                rw [List.append_nil] at this
                rw [← j1, this, Res.ok_bind]
                exact k3 [] q (by rw [j2]; rfl) hq k (by simp only [List.length_nil]; omega)
              · obtain ⟨t, ht⟩ := g3 p cs j1 hc
                dsimp only at ht
                exact ⟨t, by rw [ht]; rfl⟩

end Pickle
end Leaves
