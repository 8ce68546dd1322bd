import Verif.Props.Batch
import Verif.Spec.Calls

/-!
# C77: calls made at the same time do not disturb each other

Any number of goroutines call Predict, PredictDense and PredictCSR on one or several models, with `predictions` slices that do not
overlap; each matrix call may use a worker pool of its own.
-/

namespace Leaves

open Spec

/-! ### one call -/

theorem pool_step_length {σ : Type} {J : Job σ} {s t : PState σ} (h : PState.Step J s t) : t.mem.length = s.mem.length := by
  cases h <;> simp

theorem call_step_length {s t : CallState × List F64} (h : CallState.Step s t) : t.2.length = s.2.length := by
  cases h with
  | dense h => exact pool_step_length h
  | csr h => exact pool_step_length h
  | store hr => simp
  | _ => rfl

theorem call_steps_length {n : Nat} {s t : CallState × List F64} (h : CallState.Steps n s t) : t.2.length = s.2.length := by
  induction h with
  | refl => rfl
  | tail _ h ih => rw [call_step_length h, ih]

/-- what is left to do leads to an outcome of the call alone -/
def CallInv (P : Platform) (c : Call) (m0 : List F64) : CallState × List F64 → Prop
  | (.prog p, m) => Alone P m0 (p.run m).1 (p.run m).2 c
  | (.densePool J pc ws, m) => (∃ n, PState.Steps J n (.start m0) ⟨pc, ws, m⟩) ∧ ∀ out, ParResult J m0 out → Alone P m0 out.1 out.2 c
  | (.csrPool J pc ws, m) => (∃ n, PState.Steps J n (.start m0) ⟨pc, ws, m⟩) ∧ ∀ out, ParResult J m0 out → Alone P m0 out.1 out.2 c
  | (.done r, m) => Alone P m0 r m c

theorem callInv_start (P : Platform) (c : Call) (m0 : List F64) : CallInv P c m0 (c.start P m0.length, m0) := by
  cases c with
  | predict e fvals n => exact rfl
  | dense e vals nrows ncols n nt =>
    unfold Call.start
    simp only
    cases hc : e.denseChecks nrows ncols n m0.length with
    | ok k =>
      simp only
      cases hp : plan P nrows nt with
      | sequential => simp only [CallInv, Alone, Ensemble.PredictDense, hc, hp]
      | parallel t b =>
        simp only [CallInv, Alone, Ensemble.PredictDense, hc, hp]
        exact ⟨⟨0, .refl _⟩, fun out h => h⟩
    | err t => simp only [CallInv, Alone, Ensemble.PredictDense, hc]; rfl
    | panic => simp only [CallInv, Alone, Ensemble.PredictDense, hc]; rfl
    | hang => simp only [CallInv, Alone, Ensemble.PredictDense, hc]; rfl
  | csr e indptr cols vals n nt =>
    unfold Call.start
    simp only
    cases hc : e.csrChecks ((indptr.length : Int) - 1) n m0.length with
    | ok k =>
      simp only
      cases hp : plan P ((indptr.length : Int) - 1) nt with
      | sequential => simp only [CallInv, Alone, Ensemble.PredictCSR, hc, hp]
      | parallel t b =>
        simp only [CallInv, Alone, Ensemble.PredictCSR, hc, hp]
        exact ⟨⟨0, .refl _⟩, fun out h => h⟩
    | err t => simp only [CallInv, Alone, Ensemble.PredictCSR, hc]; rfl
    | panic => simp only [CallInv, Alone, Ensemble.PredictCSR, hc]; rfl
    | hang => simp only [CallInv, Alone, Ensemble.PredictCSR, hc]; rfl

theorem callInv_step {P : Platform} {c : Call} {m0 : List F64} {s t : CallState × List F64} (h : CallState.Step s t)
    (hi : CallInv P c m0 s) : CallInv P c m0 t := by
  cases h with
  | load hr => simp only [CallInv, GoM.run, hr, if_true] at hi; exact hi
  | store hr => simp only [CallInv, GoM.run, hr, if_true] at hi; exact hi
  | loadPanic hr => simpa [CallInv, GoM.run, hr] using hi
  | storePanic hr => simpa [CallInv, GoM.run, hr] using hi
  | ret => exact hi
  | stop hs => exact hi
  | dense h => obtain ⟨⟨n, h1⟩, h2⟩ := hi; exact ⟨⟨n + 1, .tail h1 h⟩, h2⟩
  | csr h => obtain ⟨⟨n, h1⟩, h2⟩ := hi; exact ⟨⟨n + 1, .tail h1 h⟩, h2⟩
  | denseRet => obtain ⟨⟨n, h1⟩, h2⟩ := hi; exact h2 _ (.ok h1 rfl)
  | csrRet => obtain ⟨⟨n, h1⟩, h2⟩ := hi; exact h2 _ (.ok h1 rfl)
  | densePanic => obtain ⟨⟨n, h1⟩, h2⟩ := hi; exact h2 _ (.panic h1 rfl)
  | csrPanic => obtain ⟨⟨n, h1⟩, h2⟩ := hi; exact h2 _ (.panic h1 rfl)

theorem callInv_steps {P : Platform} {c : Call} {m0 : List F64} {n : Nat} {t : CallState × List F64}
    (h : CallState.Steps n (c.start P m0.length, m0) t) : CallInv P c m0 t := by
  generalize hs : (c.start P m0.length, m0) = s at h
  induction h with
  | refl => subst hs; exact callInv_start P c m0
  | tail _ h ih => exact callInv_step h (ih hs)

/-! ### memory -/

theorem Thread.put_get {t : Thread} {m w : List F64} (hl : w.length = t.len) (hb : t.off + t.len ≤ m.length) (k : Nat) :
    (t.put m w)[k]? = if t.off ≤ k ∧ k < t.off + t.len then w[k - t.off]? else m[k]? := by
  unfold Thread.put
  have h1 : (m.take t.off).length = t.off := by rw [List.length_take]; omega
  by_cases hk : k < t.off
  · rw [if_neg (by omega), List.append_assoc, List.getElem?_append_left (by omega), List.getElem?_take_of_lt hk]
  · by_cases hk' : k < t.off + t.len
    · rw [if_pos ⟨by omega, hk'⟩, List.append_assoc, List.getElem?_append_right (by omega), List.getElem?_append_left (by omega), h1]
    · rw [if_neg (by omega), List.getElem?_append_right (by rw [List.length_append]; omega), List.length_append, h1, hl, List.getElem?_drop]
      congr 1
      omega

theorem Thread.view_get (t : Thread) (m : List F64) (k : Nat) : (t.view m)[k]? = if k < t.len then m[t.off + k]? else none := by
  unfold Thread.view
  rw [List.getElem?_take, List.getElem?_drop]

theorem Thread.put_length {t : Thread} {m w : List F64} (hl : w.length = t.len) (hb : t.off + t.len ≤ m.length) :
    (t.put m w).length = m.length := by
  unfold Thread.put
  rw [List.length_append, List.length_append, List.length_take, List.length_drop]
  omega

theorem Thread.view_length {t : Thread} {m : List F64} (hb : t.off + t.len ≤ m.length) : (t.view m).length = t.len := by
  unfold Thread.view
  rw [List.length_take, List.length_drop]
  omega

theorem Thread.view_put {t : Thread} {m w : List F64} (hl : w.length = t.len) (hb : t.off + t.len ≤ m.length) : t.view (t.put m w) = w := by
  apply List.ext_getElem?
  intro k
  rw [t.view_get, Thread.put_get hl hb]
  by_cases hk : k < t.len
  · rw [if_pos hk, if_pos (by omega), Nat.add_sub_cancel_left]
  · rw [if_neg hk, List.getElem?_eq_none (by omega)]

theorem Thread.view_put_other {t u : Thread} {m w : List F64} (hl : w.length = t.len) (hb : t.off + t.len ≤ m.length)
    (hd : t.off + t.len ≤ u.off ∨ u.off + u.len ≤ t.off) : u.view (t.put m w) = u.view m := by
  apply List.ext_getElem?
  intro k
  rw [u.view_get, u.view_get, Thread.put_get hl hb]
  by_cases hk : k < u.len
  · rw [if_pos hk, if_pos hk, if_neg (by omega)]
  · rw [if_neg hk, if_neg hk]

/-! ### all calls -/

/-- what the calls have done so far is what each of them does alone -/
structure WorldInv (ts0 : List Thread) (m0 : List F64) (n : Nat) (ts : List Thread) (m : List F64) (ns : List Nat) : Prop where
  len : m.length = m0.length
  count : ns.length = ts0.length
  threads : ts.length = ts0.length
  sum : ns.sum = n
  alone : ∀ (i : Nat) (t : Thread), ts0[i]? = some t → ∃ s k, ts[i]? = some ⟨t.off, t.len, s⟩ ∧ ns[i]? = some k ∧
    CallState.Steps k (t.st, t.view m0) (s, t.view m)
  free : ∀ k, Free ts0 k → m[k]? = m0[k]?

theorem sum_set_add : ∀ (ns : List Nat) (i k : Nat), ns[i]? = some k → (ns.set i (k + 1)).sum = ns.sum + 1
  | [], i, k, h => by simp at h
  | n :: ns, 0, k, h => by simp at h; subst h; simp; omega
  | n :: ns, i + 1, k, h => by
    simp at h
    simp [sum_set_add ns i k h]
    omega

theorem worldInv_steps {ts0 : List Thread} {m0 : List F64} (ha : Apart ts0) (hin : Inside ts0 m0.length) {n : Nat}
    {s : List Thread × List F64} (h : World.Steps n (ts0, m0) s) : ∃ ns, WorldInv ts0 m0 n s.1 s.2 ns := by
  generalize hs : (ts0, m0) = s0 at h
  induction h with
  | refl =>
    subst hs
    refine ⟨List.replicate ts0.length 0, rfl, by simp, rfl, by simp, fun i t hi => ⟨t.st, 0, hi, ?_, .refl _⟩, fun k _ => rfl⟩
    rw [List.getElem?_replicate, if_pos (by obtain ⟨h, _⟩ := List.getElem?_eq_some_iff.1 hi; exact h)]
  | @tail n s1 t1 u1 h1 h2 ih =>
    obtain ⟨ns, hi⟩ := ih hs
    obtain @⟨ts, m, i, t, st, w, hti, hst⟩ := h2
    simp only at hi ⊢
    have hlt : i < ts0.length := by rw [← hi.threads]; exact (List.getElem?_eq_some_iff.1 hti).1
    obtain ⟨s, k, g1, g2, g3⟩ := hi.alone i _ (List.getElem?_eq_getElem hlt)
    rw [hti] at g1
    have hw0 : ts0[i]? = some ts0[i] := List.getElem?_eq_getElem hlt
    have hbo : ts0[i].off + ts0[i].len ≤ m0.length := hin _ (List.getElem_mem hlt)
    generalize hT : ts0[i] = T at *
    have hteq := Option.some.inj g1
    subst hteq
    have hb : T.off + T.len ≤ m.length := by rw [hi.len]; exact hbo
    have hvl : (Thread.view ⟨T.off, T.len, s⟩ m).length = T.len := Thread.view_length (t := ⟨T.off, T.len, s⟩) hb
    have hl : w.length = T.len := by rw [← hvl]; exact call_step_length hst
    have hvp : T.view (Thread.put ⟨T.off, T.len, s⟩ m w) = w := Thread.view_put (t := ⟨T.off, T.len, s⟩) hl hb
    refine ⟨ns.set i (k + 1), ?_, by simp [hi.count], by simp [hi.threads], by rw [sum_set_add ns i k g2, hi.sum], ?_, ?_⟩
    · rw [Thread.put_length (t := ⟨T.off, T.len, s⟩) hl hb, hi.len]
    · intro j u hj
      by_cases hji : j = i
      · subst hji
        rw [hw0] at hj
        have := Option.some.inj hj
        subst this
        refine ⟨st, k + 1, ?_, ?_, ?_⟩
        · rw [List.getElem?_set_self (by rw [hi.threads]; exact hlt)]
        · rw [List.getElem?_set_self (by rw [hi.count]; exact hlt)]
        · rw [hvp]
          exact .tail g3 hst
      · obtain ⟨s', k', f1, f2, f3⟩ := hi.alone j u hj
        refine ⟨s', k', by rw [List.getElem?_set_ne (Ne.symm hji)]; exact f1, by rw [List.getElem?_set_ne (Ne.symm hji)]; exact f2, ?_⟩
        rw [Thread.view_put_other (t := ⟨T.off, T.len, s⟩) (u := u) hl hb (ha i j T u hw0 hj (Ne.symm hji))]
        exact f3
    · intro q hq
      rw [Thread.put_get (t := ⟨T.off, T.len, s⟩) hl hb, if_neg, hi.free q hq]
      have := hq T (List.mem_of_getElem? hw0)
      simp only
      omega

theorem starting_get {P : Platform} {cs : List (Call × Nat × Nat)} {i : Nat} {c : Call} {off len : Nat} (h : cs[i]? = some (c, off, len)) :
    (starting P cs)[i]? = some ⟨off, len, c.start P len⟩ := by
  unfold starting
  rw [List.getElem?_map, h]
  rfl

/-- C77: whatever the calls do and however their steps are interleaved, each call that has returned or panicked did so with an outcome
it may have when it is made alone, and has left in its slice what it then leaves there; elements outside the slices are unchanged. -/
theorem C77_independent (P : Platform) (cs : List (Call × Nat × Nat)) (m0 : List F64) (ha : Apart (starting P cs))
    (hin : Inside (starting P cs) m0.length) (n : Nat) (ts : List Thread) (m : List F64)
    (h : World.Steps n (starting P cs, m0) (ts, m)) :
    (∀ (i : Nat) (c : Call) (off len : Nat), cs[i]? = some (c, off, len) → ∃ s, ts[i]? = some ⟨off, len, s⟩ ∧
      ∀ r, s = .done r → Alone P ((m0.drop off).take len) r ((m.drop off).take len) c) ∧
    m.length = m0.length ∧ ∀ k, Free (starting P cs) k → m[k]? = m0[k]? := by
  obtain ⟨ns, hi⟩ := worldInv_steps ha hin h
  refine ⟨fun i c off len hc => ?_, hi.len, hi.free⟩
  have hs := starting_get (P := P) hc
  obtain ⟨s, k, g1, g2, g3⟩ := hi.alone i _ hs
  refine ⟨s, g1, ?_⟩
  rintro r rfl
  have hb : off + len ≤ m0.length := hin _ (List.mem_of_getElem? hs)
  have hl : (Thread.view ⟨off, len, c.start P len⟩ m0).length = len := Thread.view_length (t := ⟨off, len, c.start P len⟩) hb
  have := @callInv_steps P c (Thread.view ⟨off, len, c.start P len⟩ m0) k (.done r, Thread.view ⟨off, len, c.start P len⟩ m)
    (by rw [hl]; exact g3)
  exact this

/-! ### calls that succeed -/

/-- bound on the steps of a program -/
def progWeight : CallState × List F64 → Nat
  | (.prog p, m) => GoM.cost p m + 1
  | _ => 0

theorem prog_bounded {p : GoM Unit} {m0 : List F64} {n : Nat} {s : CallState × List F64} (h : CallState.Steps n (.prog p, m0) s) :
    n + progWeight s ≤ GoM.cost p m0 + 1 ∧ ((∃ q, s.1 = .prog q) ∨ ∃ r, s.1 = .done r) := by
  generalize hs : (CallState.prog p, m0) = s0 at h
  induction h with
  | refl => subst hs; exact ⟨by simp [progWeight], .inl ⟨p, rfl⟩⟩
  | tail _ h ih =>
    obtain ⟨ih1, ih2⟩ := ih hs
    cases h with
    | load hr => refine ⟨?_, .inl ⟨_, rfl⟩⟩; simp only [progWeight, GoM.cost, hr, if_true] at ih1 ⊢; omega
    | store hr => refine ⟨?_, .inl ⟨_, rfl⟩⟩; simp only [progWeight, GoM.cost, hr, if_true] at ih1 ⊢; omega
    | loadPanic hr => refine ⟨?_, .inr ⟨_, rfl⟩⟩; simp only [progWeight] at ih1 ⊢; omega
    | storePanic hr => refine ⟨?_, .inr ⟨_, rfl⟩⟩; simp only [progWeight] at ih1 ⊢; omega
    | ret => refine ⟨?_, .inr ⟨_, rfl⟩⟩; simp only [progWeight] at ih1 ⊢; omega
    | stop hs => refine ⟨?_, .inr ⟨_, rfl⟩⟩; simp only [progWeight] at ih1 ⊢; omega
    | _ => simp at ih2

theorem prog_progress {p : GoM Unit} {m : List F64} (h : (p.run m).1 ≠ .hang) : ∃ s, CallState.Step (.prog p, m) s := by
  cases p with
  | ret a => exact ⟨_, .ret⟩
  | load i k =>
    cases hr : GoM.inRange i m.length with
    | true => exact ⟨_, .load hr⟩
    | false => exact ⟨_, .loadPanic hr⟩
  | store i v k =>
    cases hr : GoM.inRange i m.length with
    | true => exact ⟨_, .store hr⟩
    | false => exact ⟨_, .storePanic hr⟩
  | stop s => exact ⟨_, .stop fun hs => h (by subst hs; rfl)⟩

/-- the states of a call that uses a worker pool -/
def DenseState (J : Job Unit) (m0 : List F64) (n : Nat) : CallState × List F64 → Prop
  | (.densePool J' pc ws, m) => J' = J ∧ PState.Steps J n (.start m0) ⟨pc, ws, m⟩
  | (.done _, _) => ∃ k s, n = k + 1 ∧ PState.Steps J k (.start m0) s
  | _ => False

theorem dense_state {J : Job Unit} {m0 : List F64} {n : Nat} {s : CallState × List F64}
    (h : CallState.Steps n (.densePool J (.spawning 0) [], m0) s) : DenseState J m0 n s := by
  generalize hs : (CallState.densePool J (.spawning 0) [], m0) = s0 at h
  induction h with
  | refl => subst hs; exact ⟨rfl, .refl _⟩
  | tail _ h ih =>
    have ih := ih hs
    cases h with
    | dense h => obtain ⟨rfl, h1⟩ := ih; exact ⟨rfl, .tail h1 h⟩
    | denseRet => obtain ⟨rfl, h1⟩ := ih; exact ⟨_, _, rfl, h1⟩
    | densePanic => obtain ⟨rfl, h1⟩ := ih; exact ⟨_, _, rfl, h1⟩
    | _ => exact ih.elim

/-- the states of a call that uses a worker pool -/
def CsrState (J : Job (List F64)) (m0 : List F64) (n : Nat) : CallState × List F64 → Prop
  | (.csrPool J' pc ws, m) => J' = J ∧ PState.Steps J n (.start m0) ⟨pc, ws, m⟩
  | (.done _, _) => ∃ k s, n = k + 1 ∧ PState.Steps J k (.start m0) s
  | _ => False

theorem csr_state {J : Job (List F64)} {m0 : List F64} {n : Nat} {s : CallState × List F64}
    (h : CallState.Steps n (.csrPool J (.spawning 0) [], m0) s) : CsrState J m0 n s := by
  generalize hs : (CallState.csrPool J (.spawning 0) [], m0) = s0 at h
  induction h with
  | refl => subst hs; exact ⟨rfl, .refl _⟩
  | tail _ h ih =>
    have ih := ih hs
    cases h with
    | csr h => obtain ⟨rfl, h1⟩ := ih; exact ⟨rfl, .tail h1 h⟩
    | csrRet => obtain ⟨rfl, h1⟩ := ih; exact ⟨_, _, rfl, h1⟩
    | csrPanic => obtain ⟨rfl, h1⟩ := ih; exact ⟨_, _, rfl, h1⟩
    | _ => exact ih.elim

/-- a call that succeeds alone has no other outcome -/
theorem alone_unique {P : Platform} {c : Call} {before after : List F64} (h : SucceedsAlone P before after c) {r : Res Unit} {m : List F64}
    (ha : Alone P before r m c) : r = .ok ⟨⟩ ∧ m = after := by
  cases c with
  | predict e fvals n =>
    have h : _ = _ := h
    have ha : _ = _ := ha
    rw [h] at ha
    exact ⟨(Prod.mk.inj ha).1.symm, (Prod.mk.inj ha).2.symm⟩
  | dense e vals nrows ncols n nt =>
    obtain ⟨hf, r, c, w, rfl, rfl, hw, h1, h2, h3⟩ := h
    exact Prod.mk.inj ((C16_dense_deterministic P e hf w r c hw h1 h2 vals before after n nt h3 _).1 ha)
  | csr e indptr cols vals n nt =>
    obtain ⟨hf, r, w, nf, hp, hw, hnf, hna, h1, h2, h3⟩ := h
    exact Prod.mk.inj ((C17_csr_deterministic P e hf w r nf hw ⟨hnf, hna⟩ h1 h2 indptr cols hp vals before after n nt h3 _).1 ha)

/-- programs: progress and a bound -/
theorem prog_runs {P : Platform} {c : Call} {before after : List F64} (h : SucceedsAlone P before after c) {p : GoM Unit}
    (hst : c.start P before.length = .prog p) :
    (∀ n s, CallState.Steps n (c.start P before.length, before) s → (∃ r, s.1 = .done r) ∨ ∃ s', CallState.Step s s') ∧
    ∃ N, ∀ n s, CallState.Steps n (c.start P before.length, before) s → n ≤ N := by
  refine ⟨fun n s hs => ?_, GoM.cost p before + 1, fun n s hs => ?_⟩
  · have hi := callInv_steps hs
    rw [hst] at hs
    obtain ⟨-, h2⟩ := prog_bounded hs
    obtain ⟨s1, m⟩ := s
    rcases h2 with ⟨q, hq⟩ | hd
    · right
      simp only at hq
      subst hq
      refine prog_progress ?_
      rw [(alone_unique h hi).1]
      simp
    · exact .inl hd
  · rw [hst] at hs
    have := (prog_bounded hs).1
    omega

theorem call_runs {P : Platform} {c : Call} {before after : List F64} (h : SucceedsAlone P before after c) :
    (∀ n s, CallState.Steps n (c.start P before.length, before) s → (∃ r, s.1 = .done r) ∨ ∃ s', CallState.Step s s') ∧
    ∃ N, ∀ n s, CallState.Steps n (c.start P before.length, before) s → n ≤ N := by
  cases c with
  | predict e fvals n => exact prog_runs h rfl
  | dense e vals nrows ncols req nt =>
    cases hc : e.denseChecks nrows ncols req before.length with
    | ok k =>
      cases hp : plan P nrows nt with
      | sequential => exact prog_runs h (by simp only [Call.start, hc, hp]; rfl)
      | parallel t b =>
        have hst : Call.start P before.length (.dense e vals nrows ncols req nt) =
            .densePool (e.denseJob P vals ncols k nrows.toNat t b) (.spawning 0) [] := by simp only [Call.start, hc, hp]
        obtain ⟨hf, r, c, w, rfl, rfl, hw, h1, h2, h3⟩ := id h
        obtain ⟨g1, N, g2⟩ := C19_dense_terminates P e hf w r c hw h1 h2 vals before after req nt k t b h3 hc hp
        rw [hst, Int.toNat_natCast]
        refine ⟨fun n s hs => ?_, N + 1, fun n s hs => ?_⟩
        · obtain ⟨s, m⟩ := s
          have := dense_state hs
          cases s with
          | done r => exact .inl ⟨r, rfl⟩
          | densePool J' pc ws =>
            right
            obtain ⟨rfl, h4⟩ := this
            rcases g1 _ _ h4 with h5 | ⟨⟨pc', ws', m'⟩, h5⟩
            · simp only at h5
              subst h5
              exact ⟨_, .denseRet⟩
            · exact ⟨_, .dense h5⟩
          | prog p => exact this.elim
          | csrPool J' pc ws => exact this.elim
        · obtain ⟨s, m⟩ := s
          have := dense_state hs
          cases s with
          | done r =>
            obtain ⟨k', s', rfl, h4⟩ := this
            have := g2 _ _ h4
            omega
          | densePool J' pc ws => have := g2 _ _ this.2; omega
          | prog p => exact this.elim
          | csrPool J' pc ws => exact this.elim
    | err t => exact prog_runs h (by simp only [Call.start, hc]; rfl)
    | panic => exact prog_runs h (by simp only [Call.start, hc]; rfl)
    | hang => exact prog_runs h (by simp only [Call.start, hc]; rfl)
  | csr e indptr cols vals req nt =>
    cases hc : e.csrChecks ((indptr.length : Int) - 1) req before.length with
    | ok k =>
      cases hp : plan P ((indptr.length : Int) - 1) nt with
      | sequential => exact prog_runs h (by simp only [Call.start, hc, hp]; rfl)
      | parallel t b =>
        have hst : Call.start P before.length (.csr e indptr cols vals req nt) =
            .csrPool (e.csrJob P indptr cols vals k ((indptr.length : Int) - 1).toNat t b) (.spawning 0) [] := by
          simp only [Call.start, hc, hp]
        obtain ⟨hf, r, w, nf, hl, hw, hnf, hna, h1, h2, h3⟩ := id h
        have hr : (indptr.length : Int) - 1 = (r : Nat) := by omega
        rw [hr] at hc hp hst
        obtain ⟨g1, N, g2⟩ := C19_csr_terminates P e hf w r nf hw ⟨hnf, hna⟩ h1 h2 indptr cols hl vals before after req nt k t b h3 hc hp
        rw [hst, Int.toNat_natCast]
        refine ⟨fun n s hs => ?_, N + 1, fun n s hs => ?_⟩
        · obtain ⟨s, m⟩ := s
          have := csr_state hs
          cases s with
          | done r => exact .inl ⟨r, rfl⟩
          | csrPool J' pc ws =>
            right
            obtain ⟨rfl, h4⟩ := this
            rcases g1 _ _ h4 with h5 | ⟨⟨pc', ws', m'⟩, h5⟩
            · simp only at h5
              subst h5
              exact ⟨_, .csrRet⟩
            · exact ⟨_, .csr h5⟩
          | prog p => exact this.elim
          | densePool J' pc ws => exact this.elim
        · obtain ⟨s, m⟩ := s
          have := csr_state hs
          cases s with
          | done r =>
            obtain ⟨k', s', rfl, h4⟩ := this
            have := g2 _ _ h4
            omega
          | csrPool J' pc ws => have := g2 _ _ this.2; omega
          | prog p => exact this.elim
          | densePool J' pc ws => exact this.elim
    | err t => exact prog_runs h (by simp only [Call.start, hc]; rfl)
    | panic => exact prog_runs h (by simp only [Call.start, hc]; rfl)
    | hang => exact prog_runs h (by simp only [Call.start, hc]; rfl)

/-- a bound for every element gives a bound for the sum -/
theorem exists_sum_bound (Q : Nat → Nat → Prop) : ∀ l : Nat, (∀ i < l, ∃ N, ∀ k, Q i k → k ≤ N) →
    ∃ N, ∀ ns : List Nat, ns.length = l → (∀ (i k : Nat), ns[i]? = some k → Q i k) → ns.sum ≤ N
  | 0, _ => ⟨0, fun ns hl _ => by rw [List.length_eq_zero_iff.1 hl]; simp⟩
  | l + 1, h => by
    obtain ⟨N, hN⟩ := exists_sum_bound Q l fun i hi => h i (by omega)
    obtain ⟨M, hM⟩ := h l (by omega)
    refine ⟨N + M, fun ns hl hq => ?_⟩
    have hs : ns = ns.take l ++ [ns[l]] := by
      conv_lhs => rw [← List.take_append_drop l ns]
      rw [List.drop_eq_getElem_cons (by omega), List.drop_eq_nil_of_le (by omega)]
    have h1 := hN (ns.take l) (by rw [List.length_take]; omega) fun i k hk => by
      rw [List.getElem?_take] at hk
      split at hk
      · exact hq i k hk
      · cases hk
    have h2 := hM ns[l] (hq l _ (List.getElem?_eq_getElem (by omega)))
    rw [hs, List.sum_append]
    simp only [List.sum_cons, List.sum_nil]
    omega

/-- C77: if each of the calls succeeds when it is made alone, then however their steps are interleaved: no state is stuck before all
calls have returned; the number of steps is bounded; and each call that has returned has returned nil and left in its slice what it leaves
there alone. -/
theorem C77_all_return (P : Platform) (cs : List (Call × Nat × Nat)) (m0 : List F64) (after : Nat → List F64) (ha : Apart (starting P cs))
    (hin : Inside (starting P cs) m0.length)
    (hs : ∀ (i : Nat) (c : Call) (off len : Nat), cs[i]? = some (c, off, len) → SucceedsAlone P ((m0.drop off).take len) (after i) c) :
    (∀ (n : Nat) (ts : List Thread) (m : List F64), World.Steps n (starting P cs, m0) (ts, m) →
      (∀ (i : Nat) (c : Call) (off len : Nat), cs[i]? = some (c, off, len) → ∃ s, ts[i]? = some ⟨off, len, s⟩ ∧
        ∀ r, s = .done r → r = .ok ⟨⟩ ∧ (m.drop off).take len = after i) ∧
      ((∀ t ∈ ts, t.st = .done (.ok ⟨⟩)) ∨ ∃ w, World.Step (ts, m) w)) ∧
    ∃ N, ∀ n w, World.Steps n (starting P cs, m0) w → n ≤ N := by
  have hget : ∀ (i : Nat) (t : Thread), (starting P cs)[i]? = some t → ∃ c, cs[i]? = some (c, t.off, t.len) ∧ t.st = c.start P t.len := by
    intro i t hi
    unfold starting at hi
    rw [List.getElem?_map] at hi
    cases hc : cs[i]? with
    | none => rw [hc] at hi; cases hi
    | some c =>
      rw [hc] at hi
      have := Option.some.inj hi
      subst this
      exact ⟨c.1, rfl, rfl⟩
  have hrun : ∀ (i : Nat) (t : Thread), (starting P cs)[i]? = some t →
      (∀ n s, CallState.Steps n (t.st, t.view m0) s → (∃ r, s.1 = .done r) ∨ ∃ s', CallState.Step s s') ∧
      ∃ N, ∀ n s, CallState.Steps n (t.st, t.view m0) s → n ≤ N := by
    intro i t hi
    obtain ⟨c, h1, h2⟩ := hget i t hi
    have h3 := call_runs (hs i c _ _ h1)
    have hl : ((m0.drop t.off).take t.len).length = t.len := Thread.view_length (hin _ (List.mem_of_getElem? hi))
    rw [hl, ← h2] at h3
    exact h3
  constructor
  · intro n ts m h
    have hind := (C77_independent P cs m0 ha hin n ts m h).1
    have hfirst : ∀ (i : Nat) (c : Call) (off len : Nat), cs[i]? = some (c, off, len) → ∃ s, ts[i]? = some ⟨off, len, s⟩ ∧
        ∀ r, s = .done r → r = .ok ⟨⟩ ∧ (m.drop off).take len = after i := by
      intro i c off len hc
      obtain ⟨s, h1, h2⟩ := hind i c off len hc
      exact ⟨s, h1, fun r hr => alone_unique (hs i c off len hc) (h2 r hr)⟩
    refine ⟨hfirst, ?_⟩
    by_cases hall : ∀ t ∈ ts, t.st = .done (.ok ⟨⟩)
    · exact .inl hall
    · right
      push Not at hall
      obtain ⟨t, ht, hne⟩ := hall
      obtain ⟨i, hi⟩ := List.mem_iff_getElem?.1 ht
      obtain ⟨ns, hinv⟩ := worldInv_steps ha hin h
      have hlt : i < (starting P cs).length := by rw [← hinv.threads]; exact (List.getElem?_eq_some_iff.1 hi).1
      have h0 := List.getElem?_eq_getElem hlt
      generalize (starting P cs)[i] = T at h0
      obtain ⟨s, k, g1, g2, g3⟩ := hinv.alone i T h0
      have : t = ⟨T.off, T.len, s⟩ := Option.some.inj (hi.symm.trans g1)
      subst this
      rcases (hrun i T h0).1 _ _ g3 with ⟨r, hr⟩ | ⟨⟨s', w⟩, hstep⟩
      · obtain ⟨c, h1, h2⟩ := hget i T h0
        obtain ⟨s1, h3, h4⟩ := hfirst i c _ _ h1
        simp only at hr
        subst hr
        have hs1 : s1 = .done r := by
          have := Option.some.inj (h3.symm.trans g1)
          injection this
        obtain ⟨rfl, _⟩ := h4 r hs1
        exact absurd rfl hne
      · exact ⟨_, .step hi hstep⟩
  · obtain ⟨N, hN⟩ := exists_sum_bound (fun i k => ∀ t : Thread, (starting P cs)[i]? = some t → ∃ s, CallState.Steps k (t.st, t.view m0) s)
      (starting P cs).length fun i hi => by
        have h0 := List.getElem?_eq_getElem hi
        obtain ⟨N, hN⟩ := (hrun i _ h0).2
        exact ⟨N, fun k hk => by obtain ⟨s, h⟩ := hk _ h0; exact hN _ _ h⟩
    refine ⟨N, fun n w h => ?_⟩
    obtain ⟨ns, hinv⟩ := worldInv_steps ha hin h
    rw [← hinv.sum]
    refine hN ns hinv.count fun i k hk t ht => ?_
    obtain ⟨s, k', g1, g2, g3⟩ := hinv.alone i t ht
    rw [hk] at g2
    have := Option.some.inj g2
    subst this
    exact ⟨_, g3⟩

/-! ### concrete calls -/

namespace CallsExample

open PredictExample BatchExample

/-- Predict into elements 1 and 2; PredictDense of 17 rows with 4 threads into elements 4 to 38 -/
def calls : List (Call × Nat × Nat) :=
  [(.predict lg [F64.ofNat 7, F64.zero] 0, 1, 2), (.dense lg vals (17 : Nat) (2 : Nat) 0 4, 4, 35)]

def memory : List F64 := [F64.one, F64.nan, F64.nan, F64.one] ++ buf ++ [F64.one]

def afterwards (i : Nat) : List F64 := if i = 0 then [F64.ofNat 202, F64.ofNat 2020] else result

/-- the hypotheses of C77 hold for two calls, one of which starts two workers -/
example : Apart (starting Platform.demo calls) ∧ Inside (starting Platform.demo calls) memory.length ∧
    ∀ (i : Nat) (c : Call) (off len : Nat), calls[i]? = some (c, off, len) →
      SucceedsAlone Platform.demo ((memory.drop off).take len) (afterwards i) c := by
  refine ⟨?_, ?_, ?_⟩
  · intro i j t u hi hj hne
    match i, j with
    | 0, 0 => exact absurd rfl hne
    | 0, 1 =>
      simp only [starting, calls, List.map_cons, List.map_nil, List.getElem?_cons_zero, List.getElem?_cons_succ, Option.some.injEq] at hi hj
      subst hi hj
      exact .inl (by decide)
    | 1, 0 =>
      simp only [starting, calls, List.map_cons, List.map_nil, List.getElem?_cons_zero, List.getElem?_cons_succ, Option.some.injEq] at hi hj
      subst hi hj
      exact .inr (by decide)
    | 1, 1 => exact absurd rfl hne
    | i + 2, _ => simp [starting, calls] at hi
    | _, j + 2 => simp [starting, calls] at hj
  · intro t ht
    simp only [starting, calls, List.map_cons, List.map_nil, List.mem_cons, List.not_mem_nil, or_false] at ht
    rcases ht with rfl | rfl
    · decide
    · decide
  · intro i c off len hi
    match i with
    | 0 =>
      simp only [calls, List.getElem?_cons_zero, Option.some.injEq] at hi
      cases hi
      show (lg.predict _ _ _ _).run _ = _
      decide +kernel
    | 1 =>
      simp only [calls, List.getElem?_cons_zero, List.getElem?_cons_succ, Option.some.injEq] at hi
      cases hi
      refine ⟨lg_fits, 17, 2, 2, rfl, rfl, rfl, by decide, by decide, ?_⟩
      have : (memory.drop 4).take 35 = buf := by decide +kernel
      rw [this]
      exact seq_dense
    | i + 2 => simp [calls] at hi

/-- the step of a call that runs in its caller's goroutine, as a function -/
def next : CallState × List F64 → Option (CallState × List F64)
  | (.prog (.load i k), m) => if GoM.inRange i m.length then some (.prog (k (m.getD i.toNat .zero)), m) else none
  | (.prog (.store i v k), m) => if GoM.inRange i m.length then some (.prog k, m.set i.toNat v) else none
  | (.prog (.ret ⟨⟩), m) => some (.done (.ok ⟨⟩), m)
  | _ => none

theorem next_step {s t : CallState × List F64} (h : next s = some t) : CallState.Step s t := by
  unfold next at h
  split at h
  · split at h
    · rename_i hr; cases h; exact .load hr
    · cases h
  · split at h
    · rename_i hr; cases h; exact .store hr
    · cases h
  · cases h; exact .ret
  · cases h

/-- the calls take steps in the given order -/
def follow : List Nat → List Thread × List F64 → Option (List Thread × List F64)
  | [], w => some w
  | i :: is, (ts, m) =>
    match ts[i]? with
    | none => none
    | some t =>
      match next (t.st, t.view m) with
      | none => none
      | some (s, w) => follow is (ts.set i ⟨t.off, t.len, s⟩, t.put m w)

theorem follow_steps : ∀ (is : List Nat) (n : Nat) (w0 w w' : List Thread × List F64), World.Steps n w0 w → follow is w = some w' →
    ∃ k, World.Steps k w0 w'
  | [], n, w0, w, w', h, hf => by cases hf; exact ⟨n, h⟩
  | i :: is, n, w0, (ts, m), w', h, hf => by
    unfold follow at hf
    split at hf
    · cases hf
    · rename_i t ht
      split at hf
      · cases hf
      · rename_i s w hs
        exact follow_steps is (n + 1) w0 _ w' (.tail h (.step ht (next_step hs))) hf

/-- two calls of Predict with the same row into the same slice -/
def overlapping : List (Call × Nat × Nat) :=
  [(.predict lg [F64.ofNat 7, F64.zero] 0, 0, 2), (.predict lg [F64.ofNat 7, F64.zero] 0, 0, 2)]

/-- one call is interrupted after it has cleared the slice -/
def schedule : List Nat := List.replicate 2 0 ++ List.replicate 11 1 ++ List.replicate 9 0

def isDone : Thread → Bool
  | ⟨_, _, .done (.ok ⟨⟩)⟩ => true
  | _ => false

/-- C77 needs slices that do not overlap: two equal calls that share one slice may both succeed and leave twice the prediction. -/
theorem C77_shared_slice : ∃ n ts m, World.Steps n (starting Platform.demo overlapping, [F64.nan, F64.nan]) (ts, m) ∧
    ts.all isDone = true ∧ m = [F64.ofNat 404, F64.ofNat 4040] ∧
    (lg.predict Platform.demo [F64.ofNat 7, F64.zero] 0 2).run [F64.nan, F64.nan] = (.ok ⟨⟩, [F64.ofNat 202, F64.ofNat 2020]) := by
  have h : (match follow schedule (starting Platform.demo overlapping, [F64.nan, F64.nan]) with
      | some (ts, m) => ts.all isDone && m == [F64.ofNat 404, F64.ofNat 4040]
      | none => false) = true := by decide +kernel
  split at h
  · rename_i ts m hf
    obtain ⟨k, hk⟩ := follow_steps schedule 0 _ _ _ (.refl _) hf
    simp only [Bool.and_eq_true, beq_iff_eq] at h
    exact ⟨k, ts, m, hk, h.1, h.2, by decide +kernel⟩
  · cases h

end CallsExample

end Leaves
