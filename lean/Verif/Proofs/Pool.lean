import Verif.Proofs.GoM
import Verif.Model.Parallel

/-! The worker pool: an invariant over all interleavings, progress and termination. -/

namespace Leaves

namespace GoM

variable {α β : Type}

/-- every value the program can return, whatever it loads, satisfies `Q` -/
def Rets (Q : α → Prop) : GoM α → Prop
  | .ret a => Q a
  | .load _ k => ∀ v, Rets Q (k v)
  | .store _ _ k => Rets Q k
  | .stop _ => True

theorem Rets.bind {Q : α → Prop} {R : β → Prop} {p : GoM α} {f : α → GoM β} (hp : Rets Q p) (hf : ∀ a, Q a → Rets R (f a)) :
    Rets R (p >>= f) := by
  induction p with
  | ret a => exact hf a hp
  | load i k ih => exact fun v => ih v (hp v)
  | store i v k ih => exact ih hp
  | stop s => trivial

theorem Rets.triv (p : GoM α) : Rets (fun _ => True) p := by
  induction p with
  | ret a => trivial
  | load i k ih => exact fun v => ih v
  | store i v k ih => exact ih
  | stop s => trivial

theorem Rets.mono {Q R : α → Prop} {p : GoM α} (h : ∀ a, Q a → R a) (hp : Rets Q p) : Rets R p := by
  induction p with
  | ret a => exact h a hp
  | load i k ih => exact fun v => ih v (hp v)
  | store i v k ih => exact ih hp
  | stop s => trivial

theorem Rets.ofRes {Q : α → Prop} {r : Res α} (h : ∀ a, r = .ok a → Q a) : Rets Q (ofRes r) := by
  cases r with
  | ok a => exact h a rfl
  | err t => trivial
  | panic => trivial
  | hang => trivial

theorem Rets.run {Q : α → Prop} {p : GoM α} (hp : Rets Q p) {m m' : List F64} {a : α} (h : p.run m = (.ok a, m')) : Q a := by
  induction p generalizing m with
  | ret b => simp only [GoM.run, Prod.mk.injEq, Res.ok.injEq] at h; exact h.1 ▸ hp
  | load i k ih =>
    rw [GoM.run] at h
    split at h
    · exact ih _ (hp _) h
    · simp at h
  | store i v k ih =>
    rw [GoM.run] at h
    split at h
    · exact ih hp h
    · simp at h
  | stop s => cases s <;> simp [GoM.run, Stop.toRes] at h

/-- number of accesses in a run, counting a final abnormal stop -/
def cost : GoM α → List F64 → Nat
  | .ret _, _ => 0
  | .load i k, m => if inRange i m.length then cost (k (m.getD i.toNat .zero)) m + 1 else 1
  | .store i v k, m => if inRange i m.length then cost k (m.set i.toNat v) + 1 else 1
  | .stop _, _ => 1

theorem cost_frame {lo hi : Int} (p : GoM α) (hp : Within lo hi p) {m m' : List F64} (h : Agree lo hi m m') :
    cost p m = cost p m' := by
  induction p generalizing m m' with
  | ret a => rfl
  | load i k ih =>
    obtain ⟨h1, h2, h3⟩ := hp
    rw [cost, cost, h.1]
    split
    · rename_i hr
      rw [inRange_iff] at hr
      have : m.getD i.toNat .zero = m'.getD i.toNat .zero := by
        rw [List.getD_eq_getElem?_getD, List.getD_eq_getElem?_getD, h.2 i.toNat (by omega) (by omega)]
      rw [this, ih _ (h3 _) h]
    · rfl
  | store i v k ih =>
    obtain ⟨h1, h2, h3⟩ := hp
    rw [cost, cost, h.1]
    split
    · rw [ih h3 (h.set _ _)]
    · rfl
  | stop s => rfl

end GoM

open GoM

/-- what the pool needs to know about its tasks: batch `b` works in its own window and leaves the local state as it was -/
structure PoolOK {σ : Type} (J : Job σ) (s0 : σ) (lo hi : Nat → Int) : Prop where
  init : ∀ s, J.init = .ok s → s = s0
  within : ∀ b < J.nBatches, Within (lo b) (hi b) (J.task (b * batchSize) s0)
  rets : ∀ b < J.nBatches, Rets (fun s => s = s0) (J.task (b * batchSize) s0)
  disj : ∀ b b', b < b' → b' < J.nBatches → hi b ≤ lo b'

section
variable {σ : Type} (J : Job σ) (s0 : σ) (lo hi : Nat → Int) (m0 : List F64)

/-- batch `b` executed alone on the original memory -/
def batchRun (b : Nat) : Res σ × List F64 := (J.task (b * batchSize) s0).run m0

/-- what the invariant says about a worker -/
def WorkerOK (sent : Nat) (mem : List F64) (own : Option Nat) : Worker σ → Prop
  | .created => own = none
  | .idle s => s = s0 ∧ own = none
  | .exited => own = none
  | .busy p => ∃ b, own = some b ∧ b < sent ∧ Within (lo b) (hi b) p ∧ Rets (fun s => s = s0) p ∧
      (p.run mem).1 = (batchRun J s0 m0 b).1 ∧ Agree (lo b) (hi b) (p.run mem).2 (batchRun J s0 m0 b).2

/-- what the invariant says about the calling goroutine -/
def MainOK (sent : Nat) (ws : List (Worker σ)) : MainPc → Prop
  | .spawning i => sent = 0 ∧ ws.length = i ∧ i ≤ J.nThreads ∧ .exited ∉ ws
  | .sending i => sent = i ∧ ws.length = J.nThreads ∧ .exited ∉ ws
  | .waiting => sent = J.nBatches ∧ ws.length = J.nThreads
  | .returned => sent = J.nBatches ∧ ws.length = J.nThreads ∧ ∀ w ∈ ws, w = .exited
  | .crashed => J.init = .panic ∨ ∃ b < J.nBatches, (batchRun J s0 m0 b).1 = .panic

/-- the invariant, for `sent` batches handed out and batch owners `own` -/
structure Inv (s : PState σ) (sent : Nat) (own : Nat → Option Nat) : Prop where
  len : s.mem.length = m0.length
  sent_le : sent ≤ J.nBatches
  main : MainOK J s0 m0 sent s.workers s.main
  workers : ∀ w x, s.workers[w]? = some x → WorkerOK J s0 lo hi m0 sent s.mem (own w) x
  none_out : ∀ w, s.workers.length ≤ w → own w = none
  inj : ∀ w w' b, own w = some b → own w' = some b → w = w'
  pending : ∀ b, sent ≤ b → b < J.nBatches → Agree (lo b) (hi b) s.mem m0
  finished : ∀ b < sent, (∀ w, own w ≠ some b) →
    (batchRun J s0 m0 b).1 = .ok s0 ∧ Agree (lo b) (hi b) s.mem (batchRun J s0 m0 b).2
  outside : ∀ i : Nat, (∀ b < J.nBatches, ¬ (lo b ≤ (i : Int) ∧ (i : Int) < hi b)) → s.mem[i]? = m0[i]?

end

section
variable {σ : Type} {J : Job σ} {s0 : σ} {lo hi : Nat → Int} {m0 : List F64}

theorem PoolOK.outside_of (hp : PoolOK J s0 lo hi) {b b' : Nat} (hb : b < J.nBatches) (hb' : b' < J.nBatches) (hne : b ≠ b')
    {i : Int} (h : lo b ≤ i ∧ i < hi b) : i < lo b' ∨ hi b' ≤ i := by
  rcases Nat.lt_or_gt_of_ne hne with h' | h'
  · have := hp.disj b b' h' hb'; omega
  · have := hp.disj b' b h' hb; omega

theorem Inv.start (m0 : List F64) : Inv J s0 lo hi m0 (.start m0) 0 (fun _ => none) where
  len := rfl
  sent_le := Nat.zero_le _
  main := ⟨rfl, rfl, Nat.zero_le _, by simp [PState.start]⟩
  workers := by intro w x h; simp [PState.start] at h
  none_out := fun _ _ => rfl
  inj := by intro w w' b h; simp at h
  pending := fun b _ _ => Agree.refl _ _ _
  finished := by intro b h; omega
  outside := fun _ _ => rfl

theorem mem_set {α : Type} {l : List α} {w : Nat} {x y : α} (h : x ∈ l.set w y) : x = y ∨ x ∈ l := by
  rcases List.mem_or_eq_of_mem_set h with h | h
  · exact Or.inr h
  · exact Or.inl h

theorem main_set {sent : Nat} {ws : List (Worker σ)} {pc : MainPc} {w : Nat} {y : Worker σ} (h : MainOK J s0 m0 sent ws pc)
    (hpc : pc ≠ .returned) (hy : y ≠ .exited) : MainOK J s0 m0 sent (ws.set w y) pc := by
  have key : .exited ∉ ws → .exited ∉ ws.set w y := by
    intro hh hm
    rcases mem_set hm with he | he
    · exact hy he.symm
    · exact hh he
  cases pc with
  | spawning i => exact ⟨h.1, by simpa using h.2.1, h.2.2.1, key h.2.2.2⟩
  | sending i => exact ⟨h.1, by simpa using h.2.1, key h.2.2⟩
  | waiting => exact ⟨h.1, by simpa using h.2⟩
  | returned => exact absurd rfl hpc
  | crashed => exact h

theorem Inv.not_returned {pc : MainPc} {ws : List (Worker σ)} {m : List F64} {sent : Nat} {own : Nat → Option Nat}
    (h : Inv J s0 lo hi m0 ⟨pc, ws, m⟩ sent own) {w : Nat} {x : Worker σ} (hw : ws[w]? = some x) (hx : x ≠ .exited) :
    pc ≠ .returned := by
  rintro rfl
  exact hx (h.main.2.2 _ (List.mem_of_getElem? hw))

/-- replacing a worker, memory unchanged -/
theorem Inv.set_worker {pc : MainPc} {ws : List (Worker σ)} {m : List F64} {sent : Nat} {own : Nat → Option Nat}
    (h : Inv J s0 lo hi m0 ⟨pc, ws, m⟩ sent own) {w : Nat} {x y : Worker σ} (hw : ws[w]? = some x) (hx : x ≠ .exited)
    (hy : y ≠ .exited) (hok : WorkerOK J s0 lo hi m0 sent m (own w) y) : Inv J s0 lo hi m0 ⟨pc, ws.set w y, m⟩ sent own where
  len := h.len
  sent_le := h.sent_le
  main := main_set h.main (h.not_returned hw hx) hy
  workers := by
    intro w' x' hw'
    simp only at hw'
    rw [List.getElem?_set] at hw'
    by_cases he : w = w'
    · subst he
      obtain ⟨hlt, _⟩ := List.getElem?_eq_some_iff.1 hw
      rw [if_pos rfl, if_pos hlt] at hw'
      cases hw'
      exact hok
    · rw [if_neg he] at hw'
      exact h.workers w' x' hw'
  none_out := by intro w' hw'; exact h.none_out w' (by simpa using hw')
  inj := h.inj
  pending := h.pending
  finished := h.finished
  outside := h.outside

theorem batch_panic {sent : Nat} {m : List F64} {own : Option Nat} {p : GoM σ} {m' : List F64}
    (h : WorkerOK J s0 lo hi m0 sent m own (.busy p)) (hs : sent ≤ J.nBatches) (hp : p.run m = (.panic, m')) :
    ∃ b < J.nBatches, (batchRun J s0 m0 b).1 = .panic := by
  obtain ⟨b, _, h2, _, _, h5, _⟩ := h
  exact ⟨b, by omega, by rw [← h5, hp]⟩

theorem Inv.crash {pc : MainPc} {ws : List (Worker σ)} {m : List F64} {sent : Nat} {own : Nat → Option Nat}
    (h : Inv J s0 lo hi m0 ⟨pc, ws, m⟩ sent own) (hc : J.init = .panic ∨ ∃ b < J.nBatches, (batchRun J s0 m0 b).1 = .panic) :
    Inv J s0 lo hi m0 ⟨.crashed, ws, m⟩ sent own :=
  { h with main := hc }

/-- every step of every goroutine keeps the invariant -/
theorem Inv.step (hp : PoolOK J s0 lo hi) {s t : PState σ} {sent : Nat} {own : Nat → Option Nat}
    (h : Inv J s0 lo hi m0 s sent own) (hs : PState.Step J s t) : ∃ sent' own', Inv J s0 lo hi m0 t sent' own' := by
  cases hs with
  | @spawn i ws m hi' =>
    obtain ⟨h1, h2, h3, h4⟩ := h.main
    refine ⟨sent, own, { h with main := ?_, workers := ?_, none_out := ?_ }⟩
    · refine ⟨h1, by simpa using h2, hi', ?_⟩
      simp only [List.mem_append, List.mem_singleton, not_or]
      exact ⟨h4, by simp⟩
    · intro w x hw
      simp only at hw
      by_cases hlt : w < ws.length
      · rw [List.getElem?_append_left hlt] at hw
        exact h.workers w x hw
      · rw [List.getElem?_append_right (by omega)] at hw
        have hx : x = .created := by
          have := List.mem_of_getElem? hw
          simpa using this
        subst hx
        exact h.none_out w (by simp only; omega)
    · intro w hw
      simp only [List.length_append, List.length_singleton] at hw
      exact h.none_out w (by simp only; omega)
  | @spawned i ws m hi' =>
    obtain ⟨h1, h2, h3, h4⟩ := h.main
    simp only at h2
    exact ⟨sent, own, { h with main := ⟨h1, by simp only; omega, h4⟩ }⟩
  | @begin pc ws m w s hw hi' hc =>
    have hown : own w = none := h.workers w _ hw
    exact ⟨sent, own, h.set_worker hw (by simp) (by simp) ⟨hp.init s hi', hown⟩⟩
  | beginPanic hw hi' hc => exact ⟨sent, own, h.crash (Or.inl hi')⟩
  | @handOver i ws m w s hi' hw =>
    obtain ⟨h1, h2, h3⟩ := h.main
    obtain ⟨h4, h5⟩ := h.workers w _ hw
    subst h1 h4
    obtain ⟨hlt, _⟩ := List.getElem?_eq_some_iff.1 hw
    have hbusy : ∀ w', own w' ≠ some sent := by
      intro w' hw'
      by_cases hl : w' < ws.length
      · have := h.workers w' ws[w'] (by simp [hl])
        revert this
        cases hx : ws[w'] with
        | created => intro hh; rw [show own w' = none from hh] at hw'; cases hw'
        | idle s => intro hh; rw [hh.2] at hw'; cases hw'
        | exited => intro hh; rw [show own w' = none from hh] at hw'; cases hw'
        | busy p =>
          rintro ⟨b, g1, g2, _⟩
          rw [hw'] at g1
          cases g1
          omega
      · rw [h.none_out w' (by simp only; omega)] at hw'; cases hw'
    have hag := h.pending sent (Nat.le_refl _) hi'
    have hfr := run_frame _ (hp.within sent hi') hag
    refine ⟨sent + 1, Function.update own w (some sent), { h with sent_le := hi', main := ⟨rfl, by simpa using h2, ?_⟩, workers := ?_, none_out := ?_, inj := ?_, pending := ?_, finished := ?_ }⟩
    · intro hm
      rcases mem_set hm with he | he
      · cases he
      · exact h3 he
    · intro w' x' hw'
      simp only at hw'
      rw [List.getElem?_set] at hw'
      by_cases he : w = w'
      · subst he
        rw [if_pos rfl, if_pos hlt] at hw'
        cases hw'
        rw [Function.update_self]
        exact ⟨sent, rfl, by omega, hp.within sent hi', hp.rets sent hi', hfr.1, hfr.2⟩
      · rw [if_neg he] at hw'
        rw [Function.update_of_ne (Ne.symm he)]
        have := h.workers w' x' hw'
        cases x' with
        | busy p =>
          obtain ⟨b, g1, g2, g3⟩ := this
          exact ⟨b, g1, by omega, g3⟩
        | _ => exact this
    · intro w' hw'
      simp only [List.length_set] at hw'
      rw [Function.update_of_ne (by omega)]
      exact h.none_out w' hw'
    · intro w1 w2 b g1 g2
      by_cases e1 : w1 = w
      · by_cases e2 : w2 = w
        · rw [e1, e2]
        · subst e1
          rw [Function.update_self] at g1
          rw [Function.update_of_ne e2] at g2
          cases g1
          exact absurd g2 (hbusy w2)
      · rw [Function.update_of_ne e1] at g1
        by_cases e2 : w2 = w
        · subst e2
          rw [Function.update_self] at g2
          cases g2
          exact absurd g1 (hbusy w1)
        · rw [Function.update_of_ne e2] at g2
          exact h.inj w1 w2 b g1 g2
    · intro b g1 g2; exact h.pending b (by omega) g2
    · intro b g1 g2
      have hb : b ≠ sent := by
        rintro rfl
        exact g2 w (by rw [Function.update_self])
      refine h.finished b (by omega) fun w' hw' => ?_
      by_cases e : w' = w
      · subst e; rw [h5] at hw'; cases hw'
      · exact g2 w' (by rw [Function.update_of_ne e]; exact hw')
  | @close i ws m hi' =>
    obtain ⟨h1, h2, h3⟩ := h.main
    have := h.sent_le
    exact ⟨sent, own, { h with main := ⟨by omega, h2⟩ }⟩
  | @exit ws m w s hw =>
    obtain ⟨h1, h2⟩ := h.main
    obtain ⟨h4, h5⟩ := h.workers w _ hw
    obtain ⟨hlt, _⟩ := List.getElem?_eq_some_iff.1 hw
    refine ⟨sent, own, { h with main := ⟨h1, by simpa using h2⟩, workers := ?_, none_out := ?_ }⟩
    · intro w' x' hw'
      simp only at hw'
      rw [List.getElem?_set] at hw'
      by_cases he : w = w'
      · subst he
        rw [if_pos rfl, if_pos hlt] at hw'
        cases hw'
        exact h5
      · rw [if_neg he] at hw'
        exact h.workers w' x' hw'
    · intro w' hw'; exact h.none_out w' (by simpa using hw')
  | @ret ws m hall =>
    obtain ⟨h1, h2⟩ := h.main
    refine ⟨sent, own, { h with main := ⟨h1, h2, fun w hw => ?_⟩ }⟩
    have := hall w hw
    cases w <;> simp_all
  | @done pc ws m w s hw hc =>
    have hnr := h.not_returned hw (by simp)
    obtain ⟨b, g1, g2, g3, g4, g5, g6⟩ := h.workers w _ hw
    obtain ⟨hlt, _⟩ := List.getElem?_eq_some_iff.1 hw
    have g4 : s = s0 := g4
    subst g4
    refine ⟨sent, Function.update own w none, { h with main := main_set h.main hnr (by simp), workers := ?_, none_out := ?_, inj := ?_, finished := ?_ }⟩
    · intro w' x' hw'
      simp only at hw'
      rw [List.getElem?_set] at hw'
      by_cases he : w = w'
      · subst he
        rw [if_pos rfl, if_pos hlt] at hw'
        cases hw'
        exact ⟨rfl, by rw [Function.update_self]⟩
      · rw [if_neg he] at hw'
        rw [Function.update_of_ne (Ne.symm he)]
        exact h.workers w' x' hw'
    · intro w' hw'
      simp only [List.length_set] at hw'
      rw [Function.update_of_ne (by omega)]
      exact h.none_out w' hw'
    · intro w1 w2 b' e1 e2
      have k1 : w1 ≠ w := by rintro rfl; rw [Function.update_self] at e1; cases e1
      have k2 : w2 ≠ w := by rintro rfl; rw [Function.update_self] at e2; cases e2
      rw [Function.update_of_ne k1] at e1
      rw [Function.update_of_ne k2] at e2
      exact h.inj w1 w2 b' e1 e2
    · intro b' hb' hno
      by_cases e : b' = b
      · subst e
        exact ⟨g5.symm, g6⟩
      · refine h.finished b' hb' fun w' hw' => ?_
        by_cases k : w' = w
        · subst k; rw [g1] at hw'; cases hw'; exact e rfl
        · exact hno w' (by rw [Function.update_of_ne k]; exact hw')
  | @load pc ws m w i k hw hc hr =>
    obtain ⟨b, g1, g2, g3, g4, g5, g6⟩ := h.workers w _ hw
    rw [GoM.run, if_pos hr] at g5 g6
    exact ⟨sent, own, h.set_worker hw (by simp) (by simp) ⟨b, g1, g2, g3.2.2 _, g4 _, g5, g6⟩⟩
  | @store pc ws m w i v k hw hc hr =>
    have hnr := h.not_returned hw (by simp)
    obtain ⟨b, g1, g2, g3, g4, g5, g6⟩ := h.workers w _ hw
    obtain ⟨hlt, _⟩ := List.getElem?_eq_some_iff.1 hw
    rw [GoM.run, if_pos hr] at g5 g6
    rw [inRange_iff] at hr
    obtain ⟨g31, g32, g33⟩ := g3
    have hsent := h.sent_le
    have hnat : (i.toNat : Int) = i := by omega
    have hother : ∀ b', b' < J.nBatches → b' ≠ b → (i.toNat : Int) < lo b' ∨ hi b' ≤ (i.toNat : Int) := by
      intro b' hb' hne
      rw [hnat]
      exact hp.outside_of (by omega) hb' (Ne.symm hne) ⟨g31, g32⟩
    refine ⟨sent, own, { len := by simpa using h.len, sent_le := h.sent_le, main := main_set h.main hnr (by simp), workers := ?_, none_out := ?_, inj := h.inj, pending := ?_, finished := ?_, outside := ?_ }⟩
    · intro w' x' hw'
      simp only at hw'
      rw [List.getElem?_set] at hw'
      by_cases he : w = w'
      · subst he
        rw [if_pos rfl, if_pos hlt] at hw'
        cases hw'
        exact ⟨b, g1, g2, g33, g4, g5, g6⟩
      · rw [if_neg he] at hw'
        have := h.workers w' x' hw'
        cases x' with
        | busy p =>
          obtain ⟨b', k1, k2, k3, k4, k5, k6⟩ := this
          have hne : b' ≠ b := by rintro rfl; exact he (h.inj w w' b' g1 k1)
          have hfr := run_frame p k3 (Agree.set_out m v (hother b' (by omega) hne))
          exact ⟨b', k1, k2, k3, k4, by rw [← hfr.1]; exact k5, hfr.2.symm.trans k6⟩
        | _ => exact this
    · intro w' hw'; exact h.none_out w' (by simpa using hw')
    · intro b' k1 k2
      exact (Agree.set_out m v (hother b' k2 (by omega))).symm.trans (h.pending b' k1 k2)
    · intro b' k1 k2
      have hne : b' ≠ b := by rintro rfl; exact k2 w g1
      obtain ⟨k3, k4⟩ := h.finished b' k1 k2
      exact ⟨k3, (Agree.set_out m v (hother b' (by omega) hne)).symm.trans k4⟩
    · intro j hj
      have : i.toNat ≠ j := by
        rintro rfl
        exact hj b (by omega) (by omega)
      show (m.set i.toNat v)[j]? = _
      rw [List.getElem?_set_ne this]
      exact h.outside j hj
  | @loadPanic pc ws m w i k hw hc hr =>
    refine ⟨sent, own, h.crash (Or.inr (batch_panic (h.workers w _ hw) h.sent_le (m' := m) ?_))⟩
    rw [GoM.run, if_neg (by simp [hr])]
  | @storePanic pc ws m w i v k hw hc hr =>
    refine ⟨sent, own, h.crash (Or.inr (batch_panic (h.workers w _ hw) h.sent_le (m' := m) ?_))⟩
    rw [GoM.run, if_neg (by simp [hr])]
  | @panic pc ws m w hw hc =>
    exact ⟨sent, own, h.crash (Or.inr (batch_panic (h.workers w _ hw) h.sent_le (m' := m) rfl))⟩

theorem Inv.steps (hp : PoolOK J s0 lo hi) {n : Nat} {s : PState σ} (h : PState.Steps J n (.start m0) s) :
    ∃ sent own, Inv J s0 lo hi m0 s sent own := by
  generalize hst : PState.start m0 = st at h
  induction h with
  | refl => subst hst; exact ⟨0, _, Inv.start m0⟩
  | tail h1 h2 ih =>
    obtain ⟨sent, own, hi⟩ := ih hst
    exact hi.step hp h2

/-- whenever the pool has returned, memory holds the batches' results -/
theorem pool_returned (hp : PoolOK J s0 lo hi) {n : Nat} {s : PState σ} (h : PState.Steps J n (.start m0) s)
    (hr : s.main = .returned) :
    s.mem.length = m0.length ∧
    (∀ b < J.nBatches, (batchRun J s0 m0 b).1 = .ok s0 ∧ Agree (lo b) (hi b) s.mem (batchRun J s0 m0 b).2) ∧
    ∀ i : Nat, (∀ b < J.nBatches, ¬ (lo b ≤ (i : Int) ∧ (i : Int) < hi b)) → s.mem[i]? = m0[i]? := by
  obtain ⟨sent, own, hinv⟩ := Inv.steps hp h
  have hm := hinv.main
  rw [hr] at hm
  obtain ⟨h1, h2, h3⟩ := hm
  refine ⟨hinv.len, fun b hb => hinv.finished b (by omega) fun w hw => ?_, hinv.outside⟩
  by_cases hl : w < s.workers.length
  · have := hinv.workers w s.workers[w] (by simp [hl])
    rw [h3 _ (List.getElem_mem hl)] at this
    rw [show own w = none from this] at hw
    cases hw
  · rw [hinv.none_out w (by omega)] at hw; cases hw

/-- the pool crashes only when a batch does -/
theorem pool_crashed (hp : PoolOK J s0 lo hi) {n : Nat} {s : PState σ} (h : PState.Steps J n (.start m0) s)
    (hr : s.main = .crashed) : J.init = .panic ∨ ∃ b < J.nBatches, (batchRun J s0 m0 b).1 = .panic := by
  obtain ⟨sent, own, hinv⟩ := Inv.steps hp h
  have hm := hinv.main
  rwa [hr] at hm

/-- the element a program touches next -/
def GoM.next {α : Type} : GoM α → Option Int
  | .load i _ => some i
  | .store i _ _ => some i
  | _ => none

/-- two workers never have the same next element; when the call has returned no worker is running -/
theorem pool_race (hp : PoolOK J s0 lo hi) {n : Nat} {s : PState σ} (h : PState.Steps J n (.start m0) s)
    {w w' : Nat} {p p' : GoM σ} (hw : s.workers[w]? = some (.busy p)) (hw' : s.workers[w']? = some (.busy p')) (hne : w ≠ w')
    {i : Int} (hi1 : p.next = some i) : p'.next ≠ some i := by
  obtain ⟨sent, own, hinv⟩ := Inv.steps hp h
  obtain ⟨b, g1, g2, g3, _⟩ := hinv.workers w _ hw
  obtain ⟨b', k1, k2, k3, _⟩ := hinv.workers w' _ hw'
  have hb : b ≠ b' := by rintro rfl; exact hne (hinv.inj w w' b g1 k1)
  have hs := hinv.sent_le
  have acc : ∀ {lo hi : Int} {q : GoM σ} {i : Int}, Within lo hi q → q.next = some i → lo ≤ i ∧ i < hi := by
    intro lo hi q i hq hn
    cases q with
    | load j k => simp only [GoM.next, Option.some.injEq] at hn; subst hn; exact ⟨hq.1, hq.2.1⟩
    | store j v k => simp only [GoM.next, Option.some.injEq] at hn; subst hn; exact ⟨hq.1, hq.2.1⟩
    | ret a => simp [GoM.next] at hn
    | stop s => simp [GoM.next] at hn
  intro hi2
  have a1 := acc g3 hi1
  have a2 := acc k3 hi2
  have := hp.outside_of (by omega) (by omega) hb a1
  omega

/-- progress: if every batch succeeds, the pool is never stuck -/
theorem pool_progress (hp : PoolOK J s0 lo hi) (hinit : J.init = .ok s0) (hth : 0 < J.nThreads)
    (hok : ∀ b < J.nBatches, (batchRun J s0 m0 b).1 = .ok s0) {n : Nat} {s : PState σ} (h : PState.Steps J n (.start m0) s) :
    s.main = .returned ∨ ∃ t, PState.Step J s t := by
  obtain ⟨sent, own, hinv⟩ := Inv.steps hp h
  obtain ⟨pc, ws, m⟩ := s
  simp only
  have hs := hinv.sent_le
  have hnc : pc ≠ .crashed := by
    rintro rfl
    rcases hinv.main with h1 | ⟨b, h1, h2⟩
    · rw [hinit] at h1; cases h1
    · rw [hok b h1] at h2; cases h2
  -- a worker that is not idle or exited can move
  have hbusy : ∀ (w : Nat) (p : GoM σ), ws[w]? = some (Worker.busy p) → ∃ t, PState.Step J ⟨pc, ws, m⟩ t := by
    intro w p hw
    obtain ⟨b, g1, g2, g3, g4, g5, g6⟩ := hinv.workers w _ hw
    rw [hok b (by omega)] at g5
    cases p with
    | ret a => exact ⟨_, .done hw hnc⟩
    | load i k =>
      by_cases hr : inRange i m.length = true
      · exact ⟨_, .load hw hnc hr⟩
      · exact ⟨_, .loadPanic hw hnc (by simpa using hr)⟩
    | store i v k =>
      by_cases hr : inRange i m.length = true
      · exact ⟨_, .store hw hnc hr⟩
      · exact ⟨_, .storePanic hw hnc (by simpa using hr)⟩
    | stop s => cases s <;> simp [GoM.run, Stop.toRes] at g5
  have hmove : ∀ (w : Nat) (x : Worker σ), ws[w]? = some x → (∃ s, x = .idle s) ∨ x = .exited ∨ ∃ t, PState.Step J ⟨pc, ws, m⟩ t := by
    intro w x hw
    cases x with
    | created => exact Or.inr (Or.inr ⟨_, .begin hw hinit hnc⟩)
    | idle s => exact Or.inl ⟨s, rfl⟩
    | exited => exact Or.inr (Or.inl rfl)
    | busy p => exact Or.inr (Or.inr (hbusy w p hw))
  cases pc with
  | crashed => exact absurd rfl hnc
  | returned => exact Or.inl rfl
  | spawning i =>
    right
    by_cases hi' : i < J.nThreads
    · exact ⟨_, .spawn hi'⟩
    · exact ⟨_, .spawned hi'⟩
  | sending i =>
    right
    by_cases hi' : i < J.nBatches
    · obtain ⟨h1, h2, h3⟩ := hinv.main
      have hl : 0 < ws.length := by simp only at h2; omega
      have hw : ws[0]? = some ws[0] := by simp [hl]
      rcases hmove 0 _ hw with ⟨s, hh⟩ | hh | hh
      · rw [hh] at hw
        exact ⟨_, .handOver hi' hw⟩
      · exact absurd (hh ▸ List.getElem_mem hl) h3
      · exact hh
    · exact ⟨_, .close hi'⟩
  | waiting =>
    right
    by_cases hall : ∀ w ∈ ws, w matches Worker.exited
    · exact ⟨_, .ret hall⟩
    · push Not at hall
      obtain ⟨x, hx, hne⟩ := hall
      obtain ⟨w, hw⟩ := List.mem_iff_getElem?.1 hx
      rcases hmove w x hw with ⟨s, rfl⟩ | rfl | hh
      · exact ⟨_, .exit hw⟩
      · simp at hne
      · exact hh

/-! ### termination -/

/-- steps left for a worker -/
def Worker.weight (m : List F64) : Worker σ → Nat
  | .created => 2
  | .idle _ => 1
  | .busy p => cost p m + 2
  | .exited => 0

/-- steps left for the caller and the batches not handed out yet -/
def MainPc.weight (J : Job σ) (c : Nat → Nat) : MainPc → Nat
  | .spawning i => 3 * (J.nThreads - i) + 3 + ((List.range J.nBatches).map fun b => c b + 2).sum
  | .sending i => 2 + ((List.range (J.nBatches - i)).map fun b => c (i + b) + 2).sum
  | .waiting => 1
  | .returned => 0
  | .crashed => 0

/-- bound on the number of steps left -/
def PState.weight (J : Job σ) (c : Nat → Nat) (s : PState σ) : Nat :=
  s.main.weight J c + (s.workers.map (Worker.weight s.mem)).sum

theorem sum_set {α : Type} {f g : α → Nat} : ∀ {ws : List α} {w : Nat} {x y : α}, ws[w]? = some x →
    (∀ w' x', w' ≠ w → ws[w']? = some x' → g x' = f x') →
      ((ws.set w y).map g).sum + f x = (ws.map f).sum + g y := by
  intro ws
  induction ws with
  | nil => intro w x y h; simp at h
  | cons a ws ih =>
    intro w x y h hf
    cases w with
    | zero =>
      simp only [List.getElem?_cons_zero, Option.some.injEq] at h
      subst h
      have : ws.map g = ws.map f := by
        apply List.map_congr_left
        intro x' hx'
        obtain ⟨w', hw'⟩ := List.mem_iff_getElem?.1 hx'
        exact hf (w' + 1) x' (by omega) (by simpa using hw')
      simp only [List.set_cons_zero, List.map_cons, List.sum_cons, this]
      omega
    | succ w =>
      simp only [List.getElem?_cons_succ] at h
      have h1 := ih (y := y) h (fun w' x' hne hw' => hf (w' + 1) x' (by omega) (by simpa using hw'))
      have h2 := hf 0 a (by omega) (by simp)
      simp only [List.set_cons_succ, List.map_cons, List.sum_cons]
      omega

theorem weight_step (hp : PoolOK J s0 lo hi) {s t : PState σ} {sent : Nat} {own : Nat → Option Nat}
    (h : Inv J s0 lo hi m0 s sent own) (hs : PState.Step J s t) :
    t.weight J (fun b => cost (J.task (b * batchSize) s0) m0) < s.weight J (fun b => cost (J.task (b * batchSize) s0) m0) := by
  have crash : ∀ {pc : MainPc} {ws : List (Worker σ)} {m : List F64} {w : Nat} {x : Worker σ},
      Inv J s0 lo hi m0 ⟨pc, ws, m⟩ sent own → ws[w]? = some x → x ≠ .exited → pc ≠ .crashed →
      PState.weight J (fun b => cost (J.task (b * batchSize) s0) m0) ⟨.crashed, ws, m⟩ <
        PState.weight J (fun b => cost (J.task (b * batchSize) s0) m0) ⟨pc, ws, m⟩ := by
    intro pc ws m w x h hw hx hc
    have := h.not_returned hw hx
    unfold PState.weight
    simp only
    cases pc <;> simp_all [MainPc.weight]
  have move : ∀ {pc : MainPc} {ws : List (Worker σ)} {m : List F64} {w : Nat} {x y : Worker σ}, ws[w]? = some x →
      y.weight m < x.weight m →
      PState.weight J (fun b => cost (J.task (b * batchSize) s0) m0) ⟨pc, ws.set w y, m⟩ <
        PState.weight J (fun b => cost (J.task (b * batchSize) s0) m0) ⟨pc, ws, m⟩ := by
    intro pc ws m w x y hw hlt
    have := sum_set (f := Worker.weight m) (g := Worker.weight m) (y := y) hw (fun _ _ _ _ => rfl)
    unfold PState.weight
    simp only
    omega
  cases hs with
  | @spawn i ws m hi' =>
    unfold PState.weight
    simp only [MainPc.weight, List.map_append, List.sum_append, List.map_cons, List.map_nil, List.sum_cons, List.sum_nil, Worker.weight]
    omega
  | @spawned i ws m hi' =>
    unfold PState.weight
    simp only [MainPc.weight, Nat.sub_zero, Nat.zero_add]
    omega
  | @begin pc ws m w s hw hi' hc => exact move hw (by simp [Worker.weight])
  | beginPanic hw hi' hc => exact crash h hw (by simp) hc
  | @handOver i ws m w s hi' hw =>
    obtain ⟨h1, h2, h3⟩ := h.main
    obtain ⟨h4, h5⟩ := h.workers w _ hw
    subst h1 h4
    have hc := cost_frame _ (hp.within sent hi') (h.pending sent (Nat.le_refl _) hi')
    have := sum_set (f := Worker.weight m) (g := Worker.weight m) (y := .busy (J.task (sent * batchSize) s)) hw (fun _ _ _ _ => rfl)
    unfold PState.weight
    simp only [MainPc.weight]
    rw [show J.nBatches - sent = (J.nBatches - (sent + 1)) + 1 by omega, List.range_succ_eq_map]
    simp only [List.map_cons, List.sum_cons, List.map_map, Nat.add_zero]
    simp only [Worker.weight] at this
    simp only at hc
    rw [hc] at this
    have he : ((fun b => cost (J.task ((sent + b) * batchSize) s) m0 + 2) ∘ Nat.succ) =
        fun b => cost (J.task ((sent + 1 + b) * batchSize) s) m0 + 2 := by
      funext b
      simp only [Function.comp, Nat.succ_eq_add_one]
      rw [show sent + (b + 1) = sent + 1 + b by omega]
    rw [he]
    omega
  | @close i ws m hi' =>
    unfold PState.weight
    simp only [MainPc.weight]
    omega
  | @exit ws m w s hw => exact move hw (by simp [Worker.weight])
  | @ret ws m hall =>
    unfold PState.weight
    simp only [MainPc.weight]
    omega
  | @done pc ws m w s hw hc => exact move hw (by simp [Worker.weight, cost])
  | @load pc ws m w i k hw hc hr =>
    refine move hw ?_
    simp only [Worker.weight]
    rw [cost, if_pos hr]
    omega
  | @store pc ws m w i v k hw hc hr =>
    obtain ⟨b, g1, g2, g3, g4, g5, g6⟩ := h.workers w _ hw
    obtain ⟨g31, g32, g33⟩ := g3
    have hr' := inRange_iff.1 hr
    have hsent := h.sent_le
    have hsum := sum_set (f := Worker.weight m) (g := Worker.weight (m.set i.toNat v)) (y := .busy k) hw (by
      intro w' x' hne hw'
      cases x' with
      | busy p =>
        obtain ⟨b', k1, k2, k3, _⟩ := h.workers w' _ hw'
        have hb : b ≠ b' := by rintro rfl; exact hne (h.inj w w' b g1 k1).symm
        have hout := hp.outside_of (by omega) (by omega) hb ⟨g31, g32⟩
        simp only [Worker.weight]
        rw [cost_frame p k3 (Agree.set_out m (j := i.toNat) v (by omega))]
      | _ => rfl)
    unfold PState.weight
    simp only
    have : Worker.weight (m.set i.toNat v) (.busy k) < Worker.weight m (.busy (.store i v k)) := by
      simp only [Worker.weight]
      rw [cost, if_pos hr]
      omega
    omega
  | loadPanic hw hc hr => exact crash h hw (by simp) hc
  | storePanic hw hc hr => exact crash h hw (by simp) hc
  | panic hw hc => exact crash h hw (by simp) hc

/-- every execution is finite, with a bound that does not depend on the schedule -/
theorem pool_bounded (hp : PoolOK J s0 lo hi) (m0 : List F64) : ∃ N, ∀ n s, PState.Steps J n (.start m0) s → n ≤ N := by
  refine ⟨(PState.start m0).weight J (fun b => cost (J.task (b * batchSize) s0) m0), fun n s h => ?_⟩
  suffices n + s.weight J (fun b => cost (J.task (b * batchSize) s0) m0) ≤
      (PState.start m0).weight J (fun b => cost (J.task (b * batchSize) s0) m0) by omega
  generalize hst : PState.start m0 = st at h
  induction h with
  | refl => omega
  | tail h1 h2 ih =>
    have ih := ih hst
    subst hst
    obtain ⟨sent, own, hinv⟩ := Inv.steps hp h1
    have := weight_step hp hinv h2
    omega

/-- if every batch succeeds, the pool can return -/
theorem pool_returns (hp : PoolOK J s0 lo hi) (hinit : J.init = .ok s0) (hth : 0 < J.nThreads)
    (hok : ∀ b < J.nBatches, (batchRun J s0 m0 b).1 = .ok s0) :
    ∃ n s, PState.Steps J n (.start m0) s ∧ s.main = .returned := by
  obtain ⟨N, hN⟩ := pool_bounded hp m0
  by_contra hno
  push Not at hno
  have : ∀ n, ∃ s, PState.Steps J n (.start m0) s := by
    intro n
    induction n with
    | zero => exact ⟨_, .refl _⟩
    | succ n ih =>
      obtain ⟨s, hs⟩ := ih
      rcases pool_progress hp hinit hth hok hs with hr | ⟨t, ht⟩
      · exact absurd hr (hno n s hs)
      · exact ⟨t, .tail hs ht⟩
  obtain ⟨s, hs⟩ := this (N + 1)
  have := hN _ _ hs
  omega

end

end Leaves
