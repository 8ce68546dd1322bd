import Verif.Proofs.BufioXg

/-!
# The scikit-learn loader on a buffered reader that never reads nothing
-/

namespace Leaves.Pickle
open Spec

/-- one byte -/
theorem readByteS_follows {b : Bufio (BitVec 8)} {bs : Bytes} (h : ByteHolds 0 b bs) :
    (bs = [] → readByteS b = .err "EOF") ∧
    (∀ x rest, bs = x :: rest → ∃ b', readByteS b = .ok (x, b') ∧ ByteHolds 0 b' rest) := by
  obtain ⟨fin, h⟩ := h
  obtain ⟨ys, e, b', hu, hlen, hcat, hrep, herr, hsome, hemp⟩ := Bufio.read_spec h (n := 1) (by omega)
  have hroom := h.room
  have hlive : b.feed.lim 0 ≠ 0 := by
    obtain ⟨j, hj, hl⟩ := h.patient 0
    have : j = 0 := by omega
    subst this
    simpa using hl
  have hu' : readByteS b = match (generalizing := false) e with
      | some _ => .err "EOF"
      | none => match (generalizing := false) ys with
        | [x] => .ok (x, b')
        | _ => .err "unexpected read" := by
    rw [readByteS, hu]; cases e <;> rfl
  rw [hu']
  constructor
  · rintro rfl
    have hys : ys = [] := (List.append_eq_nil_iff.mp hcat).1
    cases e with
    | some e => rfl
    | none => exact absurd (hemp hys rfl).1 hlive
  · rintro x rest rfl
    cases e with
    | some e =>
      have hys := hsome (by omega) (by simp)
      rcases herr with h1 | ⟨_, h2⟩
      · cases h1
      · rw [hys] at h2; cases h2
    | none =>
      match ys, hlen with
      | [], _ => exact absurd (hemp rfl rfl).1 hlive
      | [y], _ =>
        rw [List.singleton_append, List.cons.injEq] at hcat
        obtain ⟨rfl, hc⟩ := hcat
        exact ⟨b', rfl, fin, hrep rest rfl⟩

/-- one line -/
theorem readLineLoop_follows : ∀ (fuel : Nat) (bs : Bytes) (b : Bufio (BitVec 8)), ByteHolds 0 b bs →
    bs.length < fuel → Follows (ByteHolds 0) (readLineLoop fuel b) (readLine bs)
  | 0, _, _, _, hf => absurd hf (Nat.not_lt_zero _)
  | fuel + 1, [], b, h, _ => by
    rw [readLineLoop, RdS.bind_apply, (readByteS_follows h).1 rfl]
    exact .err _
  | fuel + 1, x :: rest, b, h, hf => by
    obtain ⟨b', h1, h2⟩ := (readByteS_follows h).2 x rest rfl
    rw [readLineLoop, RdS.bind_apply, h1, readLine]
    dsimp only
    split
    · exact .ok _ _ _ h2
    · have ih := readLineLoop_follows fuel rest b' h2 (by simp only [List.length_cons] at hf; omega)
      rw [RdS.bind_apply]
      generalize readLineLoop fuel b' = u at ih ⊢
      generalize readLine rest = v at ih ⊢
      cases ih with
      | ok a s t hst => exact .ok _ _ _ hst
      | err e => exact .err e
      | panic => exact .panic
      | hang => exact .hang

theorem readLineS_follows {b : Bufio (BitVec 8)} {bs : Bytes} (h : ByteHolds 0 b bs) :
    Follows (ByteHolds 0) (readLineS b) (readLine bs) :=
  readLineLoop_follows _ bs b h (by rw [h.size_eq]; omega)

/-- the outcomes of one opcode correspond -/
inductive StepFollows : Res (NextS × Bufio (BitVec 8)) → Res Next → Prop
  | continue (m : Machine) (b : Bufio (BitVec 8)) (bs : Bytes) (h : ByteHolds 0 b bs) :
      StepFollows (.ok (.continue m, b)) (.ok (.continue m bs))
  | stop (m : Machine) (b : Bufio (BitVec 8)) : StepFollows (.ok (.stop m, b)) (.ok (.stop m))
  | err (e : String) : StepFollows (.err e) (.err e)
  | panic : StepFollows .panic .panic
  | hang : StepFollows .hang .hang

theorem StepFollows.line {b : Bufio (BitVec 8)} {bs : Bytes} (h : ByteHolds 0 b bs)
    {f : Bytes → RdS NextS} {g : Bytes × Bytes → Res Next}
    (hf : ∀ l b' bs', ByteHolds 0 b' bs' → StepFollows (f l b') (g (l, bs'))) :
    StepFollows ((readLineS >>= f) b) (readLine bs >>= g) := by
  have hl := readLineS_follows h
  rw [RdS.bind_apply]
  generalize readLineS b = u at hl ⊢
  generalize readLine bs = v at hl ⊢
  cases hl with
  | ok a s t hst => exact hf a s t hst
  | err e => exact .err e
  | panic => exact .panic
  | hang => exact .hang

theorem StepFollows.lift {β : Type} {b : Bufio (BitVec 8)} (x : Res β)
    {f : β → RdS NextS} {g : β → Res Next} (hf : ∀ a, StepFollows (f a b) (g a)) :
    StepFollows ((RdS.lift x >>= f) b) (x >>= g) := by
  rw [RdS.bind_apply]
  cases x with
  | ok a => exact hf a
  | err e => exact .err e
  | panic => exact .panic
  | hang => exact .hang

theorem stepOpS_follows (P : Platform) (op : BitVec 8) (m : Machine) {b : Bufio (BitVec 8)} {bs : Bytes}
    (h : ByteHolds 0 b bs) : StepFollows (stepOpS P op m b) (stepOp P op bs m) := by
  rw [stepOpS, stepOp]
  by_cases hc : op = byte '('
  · rw [if_pos hc, if_pos hc]
    exact .continue _ _ _ h
  rw [if_neg hc, if_neg hc]
  clear hc
  by_cases hc : op = byte 'p'
  · rw [if_pos hc, if_pos hc]
    refine StepFollows.line h fun l b' bs' hb => ?_
    exact StepFollows.lift _ fun a => .continue _ _ _ hb
  rw [if_neg hc, if_neg hc]
  clear hc
  by_cases hc : op = byte 'g'
  · rw [if_pos hc, if_pos hc]
    exact StepFollows.line h fun l b' bs' hb => .continue _ _ _ hb
  rw [if_neg hc, if_neg hc]
  clear hc
  by_cases hc : op = byte 'c'
  · rw [if_pos hc, if_pos hc]
    refine StepFollows.line h fun l b' bs' hb => ?_
    exact StepFollows.line hb fun l b' bs' hb => .continue _ _ _ hb
  rw [if_neg hc, if_neg hc]
  clear hc
  by_cases hc : op = byte 'L'
  · rw [if_pos hc, if_pos hc]
    refine StepFollows.line h fun l b' bs' hb => ?_
    dsimp only
    split
    · exact .err _
    · exact StepFollows.lift _ fun a => .continue _ _ _ hb
  rw [if_neg hc, if_neg hc]
  clear hc
  by_cases hc : op = byte 'I'
  · rw [if_pos hc, if_pos hc]
    refine StepFollows.line h fun l b' bs' hb => ?_
    exact StepFollows.lift _ fun a => .continue _ _ _ hb
  rw [if_neg hc, if_neg hc]
  clear hc
  by_cases hc : op = byte 'F'
  · rw [if_pos hc, if_pos hc]
    refine StepFollows.line h fun l b' bs' hb => ?_
    exact StepFollows.lift _ fun a => .continue _ _ _ hb
  rw [if_neg hc, if_neg hc]
  clear hc
  by_cases hc : op = byte 't'
  · rw [if_pos hc, if_pos hc]
    exact StepFollows.lift _ fun a => .continue _ _ _ h
  rw [if_neg hc, if_neg hc]
  clear hc
  by_cases hc : op = byte 'l'
  · rw [if_pos hc, if_pos hc]
    exact StepFollows.lift _ fun a => .continue _ _ _ h
  rw [if_neg hc, if_neg hc]
  clear hc
  by_cases hc : op = byte 'a'
  · rw [if_pos hc, if_pos hc]
    refine StepFollows.lift _ fun a => ?_
    refine StepFollows.lift _ fun a' => ?_
    obtain ⟨obj, m'⟩ := a'
    cases obj
    case list arr len => exact StepFollows.lift _ fun a => .continue _ _ _ h
    all_goals exact .err _
  rw [if_neg hc, if_neg hc]
  clear hc
  by_cases hc : op = byte 'V'
  · rw [if_pos hc, if_pos hc]
    exact StepFollows.line h fun l b' bs' hb => .continue _ _ _ hb
  rw [if_neg hc, if_neg hc]
  clear hc
  by_cases hc : op = byte 'R'
  · rw [if_pos hc, if_pos hc]
    refine StepFollows.lift _ fun a => ?_
    obtain ⟨args, m'⟩ := a
    refine StepFollows.lift _ fun a' => ?_
    cases args
    case tuple t => exact .continue _ _ _ h
    all_goals exact .err _
  rw [if_neg hc, if_neg hc]
  clear hc
  by_cases hc : op = byte 'N'
  · rw [if_pos hc, if_pos hc]
    exact .continue _ _ _ h
  rw [if_neg hc, if_neg hc]
  clear hc
  by_cases hc : op = byte 'b'
  · rw [if_pos hc, if_pos hc]
    refine StepFollows.lift _ fun a => ?_
    exact StepFollows.lift _ fun a' => .continue _ _ _ h
  rw [if_neg hc, if_neg hc]
  clear hc
  by_cases hc : op = byte 'd'
  · rw [if_pos hc, if_pos hc]
    refine StepFollows.lift _ fun a => ?_
    dsimp only
    split
    · exact .err _
    · exact StepFollows.lift _ fun a' => .continue _ _ _ h
  rw [if_neg hc, if_neg hc]
  clear hc
  by_cases hc : op = byte 's'
  · rw [if_pos hc, if_pos hc]
    refine StepFollows.lift _ fun a => ?_
    refine StepFollows.lift _ fun a' => ?_
    obtain ⟨k, m'⟩ := a'
    refine StepFollows.lift _ fun d => ?_
    cases d
    case dict ref =>
      cases k
      case unicode key => exact StepFollows.lift _ fun a => .continue _ _ _ h
      all_goals exact .err _
    all_goals exact .err _
  rw [if_neg hc, if_neg hc]
  clear hc
  by_cases hc : op = byte '.'
  · rw [if_pos hc, if_pos hc]
    exact .stop _ _
  · rw [if_neg hc, if_neg hc]
    exact .err _

/-- same outcome, whatever is left of the input -/
inductive SameOutcome {β σ : Type} : Res (β × σ) → Res β → Prop
  | ok (a : β) (s : σ) : SameOutcome (.ok (a, s)) (.ok a)
  | err (e : String) : SameOutcome (.err e) (.err e)
  | panic : SameOutcome .panic .panic
  | hang : SameOutcome .hang .hang

theorem decodeLoopS_follows (P : Platform) : ∀ (fuel : Nat) (m : Machine) (b : Bufio (BitVec 8)) (bs : Bytes),
    ByteHolds 0 b bs → SameOutcome (decodeLoopS P fuel m b) (decodeLoop P fuel bs m)
  | 0, _, _, _, _ => .hang
  | fuel + 1, m, b, [], h => by
    rw [decodeLoopS, RdS.bind_apply, (readByteS_follows h).1 rfl]
    exact .err _
  | fuel + 1, m, b, x :: rest, h => by
    obtain ⟨b', h1, h2⟩ := (readByteS_follows h).2 x rest rfl
    rw [decodeLoopS, RdS.bind_apply, h1, decodeLoop]
    dsimp only
    rw [RdS.bind_apply]
    have hs := stepOpS_follows P x m h2
    generalize stepOpS P x m b' = u at hs ⊢
    generalize stepOp P x rest m = v at hs ⊢
    cases hs with
    | «continue» m' b2 bs2 h3 => exact decodeLoopS_follows P fuel m' b2 bs2 h3
    | stop m' b2 => exact .ok _ _
    | err e => exact .err e
    | panic => exact .panic
    | hang => exact .hang

theorem skEnsembleFromReaderS_follows (P : Platform) (lt : Bool) {b : Bufio (BitVec 8)} {bs : Bytes}
    (h : ByteHolds 0 b bs) : SameOutcome (skEnsembleFromReaderS P lt b) (skEnsembleFromReader P bs lt) := by
  rw [skEnsembleFromReaderS, skEnsembleFromReader, RdS.bind_apply, decodeS, decode, RdS.bind_apply, h.size_eq]
  have hd := decodeLoopS_follows P (bs.length + 1) {} b bs h
  generalize decodeLoopS P (bs.length + 1) {} b = u at hd ⊢
  generalize decodeLoop P (bs.length + 1) bs {} = v at hd ⊢
  cases hd with
  | err e => exact .err e
  | panic => exact .panic
  | hang => exact .hang
  | ok m s =>
    dsimp only
    rw [RdS.bind_apply, Res.ok_bind]
    cases m.back with
    | err e => exact .err e
    | panic => exact .panic
    | hang => exact .hang
    | ok v =>
      show SameOutcome ((RdS.lift (parseSkBoosting P m v) >>= fun g => RdS.lift (skAssemble P g)) s)
        (parseSkBoosting P m v >>= fun g => skAssemble P g)
      rw [RdS.bind_apply]
      cases parseSkBoosting P m v with
      | err e => exact .err e
      | panic => exact .panic
      | hang => exact .hang
      | ok g =>
        show SameOutcome (RdS.lift (skAssemble P g) s) (skAssemble P g)
        cases skAssemble P g with
        | err e => exact .err e
        | panic => exact .panic
        | hang => exact .hang
        | ok g => exact .ok _ _

end Leaves.Pickle
