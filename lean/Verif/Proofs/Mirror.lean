import Verif.Props.Alias

/-! Lemmas for C101: a pool of workers on a slice of an array does what it does on a memory of its own. -/

namespace Leaves

open Spec GoM

/-- `b`, on an array with the contents `m0` outside `p`, does what `a` does with the elements of `p` alone -/
inductive Mirrors {α : Type} (p : Win) (m0 : List F64) : GoM α → GoM α → Prop where
  | ret (a : α) : Mirrors p m0 (.ret a) (.ret a)
  | stop (s : Stop) : Mirrors p m0 (.stop s) (.stop s)
  | peek {i : Int} {a : GoM α} {k : F64 → GoM α} (h0 : 0 ≤ i) (h1 : i < m0.length) (h2 : i < p.off ∨ (p.off : Int) + p.len ≤ i)
      (h : Mirrors p m0 a (k (m0.getD i.toNat .zero))) : Mirrors p m0 a (.load i k)
  | load {i : Int} {k k' : F64 → GoM α} (hi : 0 ≤ i ∧ i < p.len) (h : ∀ v, Mirrors p m0 (k v) (k' v)) :
      Mirrors p m0 (.load i k) (.load (p.off + i) k')
  | store {i : Int} {v : F64} {k k' : GoM α} (hi : 0 ≤ i ∧ i < p.len) (h : Mirrors p m0 k k') :
      Mirrors p m0 (.store i v k) (.store (p.off + i) v k')
  | loadOut {i : Int} {k : F64 → GoM α} (hi : inRange i p.len = false) : Mirrors p m0 (.load i k) (.stop .panic)
  | storeOut {i : Int} {v : F64} {k : GoM α} (hi : inRange i p.len = false) : Mirrors p m0 (.store i v k) (.stop .panic)

namespace Mirrors

variable {p : Win} {m0 : List F64}

theorem bind {α β : Type} {a b : GoM α} {f g : α → GoM β} (h : Mirrors p m0 a b) (hf : ∀ x, Mirrors p m0 (f x) (g x)) :
    Mirrors p m0 (a >>= f) (b >>= g) := by
  induction h with
  | ret a => exact hf a
  | stop s => exact .stop s
  | peek h0 h1 h2 _ ih => exact .peek h0 h1 h2 ih
  | load hi _ ih => exact .load hi ih
  | store hi _ ih => exact .store hi ih
  | loadOut hi => exact .loadOut hi
  | storeOut hi => exact .storeOut hi

theorem ofRes {α : Type} (r : Res α) : Mirrors p m0 (GoM.ofRes r) (GoM.ofRes r) := by
  cases r with
  | ok a => exact .ret a
  | err t => exact .stop _
  | panic => exact .stop _
  | hang => exact .stop _

theorem forRange {a b : Nat → GoM Unit} (h : ∀ k, Mirrors p m0 (a k) (b k)) : ∀ c s, Mirrors p m0 (GoM.forRange a s c) (GoM.forRange b s c)
  | 0, _ => .ret _
  | c + 1, s => (h s).bind fun _ => forRange h c (s + 1)

theorem forState {σ : Type} {a b : Nat → σ → GoM σ} (h : ∀ k st, Mirrors p m0 (a k st) (b k st)) :
    ∀ c s st, Mirrors p m0 (GoM.forState a s c st) (GoM.forState b s c st)
  | 0, _, _ => .ret _
  | c + 1, s, st => (h s st).bind fun _ => forState h c (s + 1) _

theorem embed {α : Type} : ∀ a : GoM α, Mirrors p m0 a (p.embed a)
  | .ret a => .ret a
  | .stop s => .stop s
  | .load i k => by
    unfold Win.embed
    split
    · next h => exact .load (inRange_iff.1 h) fun v => embed (k v)
    · next h => exact .loadOut (by simpa using h)
  | .store i v k => by
    unfold Win.embed
    split
    · next h => exact .store (inRange_iff.1 h) (embed k)
    · next h => exact .storeOut (by simpa using h)

theorem get (i : Int) : Mirrors p m0 (GoM.get i) (p.get i) := embed (GoM.get i)
theorem set (i : Int) (v : F64) : Mirrors p m0 (GoM.set i v) (p.set i v) := embed (GoM.set i v)

/-- reading from a slice apart -/
theorem apart {f : Win} (hd : Separate p f) (hf : f.off + f.len ≤ m0.length) (i : Int) :
    Mirrors p m0 (GoM.ofRes (Res.idxI (elems f m0) i)) (f.get i) := by
  unfold Win.get
  by_cases h : inRange i f.len = true
  · rw [if_pos h]
    obtain ⟨h0, h1⟩ := inRange_iff.1 h
    have : Res.idxI (elems f m0) i = .ok (m0.getD ((f.off : Int) + i).toNat .zero) := by
      unfold Res.idxI
      rw [if_neg (by omega)]
      refine Res.idx_eq_ok.2 ?_
      rw [elems_get, if_pos (by omega), List.getD_eq_getElem?_getD, show ((f.off : Int) + i).toNat = f.off + i.toNat by omega,
        List.getElem?_eq_getElem (by omega)]
      rfl
    rw [this]
    exact .peek (by omega) (by omega) (by rcases hd with hd | hd <;> omega) (.ret _)
  · rw [if_neg h]
    have : Res.idxI (elems f m0) i = .panic := by
      rw [inRange_iff] at h
      unfold Res.idxI
      split
      · rfl
      · unfold Res.idx
        rw [elems_get, if_neg (by omega)]
    rw [this]
    exact .stop _

theorem apartNat {f : Win} (hd : Separate p f) (hf : f.off + f.len ≤ m0.length) (i : Nat) :
    Mirrors p m0 (GoM.ofRes (Res.idx (elems f m0) i)) (f.get i) := by
  have := apart hd hf (i : Int)
  unfold Res.idxI at this
  rwa [if_neg (by omega), Int.toNat_natCast] at this

theorem run {α : Type} (hp : p.off + p.len ≤ m0.length) {a b : GoM α} (h : Mirrors p m0 a b) :
    ∀ s : List F64, s.length = p.len → b.run (replaced p m0 s) = ((a.run s).1, replaced p m0 (a.run s).2) := by
  induction h with
  | ret a => exact fun s _ => rfl
  | stop x => exact fun s _ => rfl
  | @peek i a k h0 h1 h2 _ ih =>
    intro s hs
    rw [run_load ⟨h0, by rw [replaced_length hs hp]; exact h1⟩, ← ih s hs]
    congr 1
    rw [List.getD_eq_getElem?_getD, List.getD_eq_getElem?_getD, replaced_get hs hp, if_neg (by omega)]
  | @load i k k' hi _ ih =>
    intro s hs
    rw [run_load ⟨by omega, by rw [replaced_length hs hp]; omega⟩, run_load (by rw [hs]; exact hi), ← ih _ s hs, elems_getD hi,
      elems_replaced hs hp]
  | @store i v k k' hi _ ih =>
    intro s hs
    have hl : (s.set i.toNat v).length = p.len := by rw [List.length_set, hs]
    rw [run_store ⟨by omega, by rw [replaced_length hs hp]; omega⟩, run_store (by rw [hs]; exact hi), ← ih _ hl,
      replaced_set v (by rw [replaced_length hs hp]; exact hp) hi, elems_replaced hs hp, replaced_replaced hs hl hp]
  | loadOut hi =>
    intro s hs
    rw [run_load_out (by rw [hs, hi]; exact Bool.false_ne_true)]
    rfl
  | storeOut hi =>
    intro s hs
    rw [run_store_out (by rw [hs, hi]; exact Bool.false_ne_true)]
    rfl

end Mirrors

/-! ### workers -/

/-- the same, for goroutines -/
inductive WMirrors {σ : Type} (p : Win) (m0 : List F64) : Worker σ → Worker σ → Prop where
  | created : WMirrors p m0 .created .created
  | idle (s : σ) : WMirrors p m0 (.idle s) (.idle s)
  | busy {a b : GoM σ} (h : Mirrors p m0 a b) : WMirrors p m0 (.busy a) (.busy b)
  | exited : WMirrors p m0 .exited .exited

/-- the same, for states -/
structure SMirrors {σ : Type} (p : Win) (m0 : List F64) (S T : PState σ) : Prop where
  main : T.main = S.main
  workers : List.Forall₂ (WMirrors p m0) S.workers T.workers
  len : S.mem.length = p.len
  mem : T.mem = replaced p m0 S.mem

/-- the same, for jobs -/
structure JMirrors {σ : Type} (p : Win) (m0 : List F64) (J J' : Job σ) : Prop where
  threads : J'.nThreads = J.nThreads
  batches : J'.nBatches = J.nBatches
  init : J'.init = J.init
  task : ∀ i s, Mirrors p m0 (J.task i s) (J'.task i s)

theorem forall₂_get {α β : Type} {R : α → β → Prop} {l : List α} {l' : List β} (h : List.Forall₂ R l l') {n : Nat} {y : β} (hy : l'[n]? = some y) :
    ∃ x, l[n]? = some x ∧ R x y := by
  induction h generalizing n with
  | nil => simp at hy
  | cons h _ ih =>
    cases n with
    | zero => cases hy; exact ⟨_, rfl, h⟩
    | succ n => exact ih hy

theorem forall₂_get' {α β : Type} {R : α → β → Prop} {l : List α} {l' : List β} (h : List.Forall₂ R l l') {n : Nat} {x : α} (hx : l[n]? = some x) :
    ∃ y, l'[n]? = some y ∧ R x y := by
  induction h generalizing n with
  | nil => simp at hx
  | cons h _ ih =>
    cases n with
    | zero => cases hx; exact ⟨_, rfl, h⟩
    | succ n => exact ih hx

theorem forall₂_set {α β : Type} {R : α → β → Prop} {l : List α} {l' : List β} (h : List.Forall₂ R l l') {x : α} {y : β} (hxy : R x y) (n : Nat) :
    List.Forall₂ R (l.set n x) (l'.set n y) := by
  induction h generalizing n with
  | nil => exact .nil
  | cons h h' ih =>
    cases n with
    | zero => exact .cons hxy h'
    | succ n => exact .cons h (ih n)

/-- replacing only the mirroring worker -/
theorem forall₂_set_right {α β : Type} {R : α → β → Prop} {l : List α} {l' : List β} (h : List.Forall₂ R l l') {x : α} {y : β} {n : Nat}
    (hx : l[n]? = some x) (hxy : R x y) : List.Forall₂ R l (l'.set n y) := by
  induction h generalizing n with
  | nil => simp at hx
  | cons h h' ih =>
    cases n with
    | zero => cases hx; exact .cons hxy h'
    | succ n => exact .cons h (ih hx)

theorem forall₂_append {α β : Type} {R : α → β → Prop} {l : List α} {l' : List β} (h : List.Forall₂ R l l') {x : α} {y : β} (hxy : R x y) :
    List.Forall₂ R (l ++ [x]) (l' ++ [y]) := by
  induction h with
  | nil => exact .cons hxy .nil
  | cons h _ ih => exact .cons h ih

section
variable {σ : Type} {p : Win} {m0 : List F64} {J J' : Job σ}

/-- every step on the array is one or no step on the slice -/
theorem SMirrors.step (hp : p.off + p.len ≤ m0.length) (hJ : JMirrors p m0 J J') {S T T' : PState σ} (h : SMirrors p m0 S T)
    (st : PState.Step J' T T') : ∃ S', (S' = S ∨ PState.Step J S S') ∧ SMirrors p m0 S' T' := by
  obtain ⟨pc, ws, m⟩ := S
  obtain ⟨h1, h2, h3, h4⟩ := h
  have hlen := replaced_length h3 hp
  cases st with
  | @spawn i ws' m' hi =>
    cases (show MainPc.spawning i = pc from h1)
    exact ⟨_, .inr (.spawn (hJ.threads ▸ hi)), rfl, forall₂_append h2 .created, h3, h4⟩
  | @spawned i ws' m' hi =>
    cases (show MainPc.spawning i = pc from h1)
    exact ⟨_, .inr (.spawned (hJ.threads ▸ hi)), rfl, h2, h3, h4⟩
  | @begin pc' ws' m' w s hw hs hc =>
    cases (show pc' = pc from h1)
    obtain ⟨x, hx, hxy⟩ := forall₂_get h2 hw
    cases hxy
    exact ⟨_, .inr (.begin hx (hJ.init ▸ hs) hc), rfl, forall₂_set h2 (.idle s) w, h3, h4⟩
  | @beginPanic pc' ws' m' w hw hs hc =>
    cases (show pc' = pc from h1)
    obtain ⟨x, hx, hxy⟩ := forall₂_get h2 hw
    cases hxy
    exact ⟨_, .inr (.beginPanic hx (hJ.init ▸ hs) hc), rfl, h2, h3, h4⟩
  | @handOver i ws' m' w s hi hw =>
    cases (show MainPc.sending i = pc from h1)
    obtain ⟨x, hx, hxy⟩ := forall₂_get h2 hw
    cases hxy
    exact ⟨_, .inr (.handOver (hJ.batches ▸ hi) hx), rfl, forall₂_set h2 (.busy (hJ.task _ s)) w, h3, h4⟩
  | @close i ws' m' hi =>
    cases (show MainPc.sending i = pc from h1)
    exact ⟨_, .inr (.close (hJ.batches ▸ hi)), rfl, h2, h3, h4⟩
  | @exit ws' m' w s hw =>
    cases (show MainPc.waiting = pc from h1)
    obtain ⟨x, hx, hxy⟩ := forall₂_get h2 hw
    cases hxy
    exact ⟨_, .inr (.exit hx), rfl, forall₂_set h2 .exited w, h3, h4⟩
  | @ret ws' m' hall =>
    cases (show MainPc.waiting = pc from h1)
    refine ⟨_, .inr (.ret fun x hx => ?_), rfl, h2, h3, h4⟩
    obtain ⟨n, hn⟩ := List.mem_iff_getElem?.1 hx
    obtain ⟨y, hy, hxy⟩ := forall₂_get' h2 hn
    have := hall y (List.mem_of_getElem? hy)
    cases hxy <;> simp_all
  | @done pc' ws' m' w s hw hc =>
    cases (show pc' = pc from h1)
    obtain ⟨x, hx, hxy⟩ := forall₂_get h2 hw
    cases hxy with
    | busy hb =>
      cases hb
      exact ⟨_, .inr (.done hx hc), rfl, forall₂_set h2 (.idle s) w, h3, h4⟩
  | @load pc' ws' m' w i k hw hc hr =>
    cases (show pc' = pc from h1)
    obtain ⟨x, hx, hxy⟩ := forall₂_get h2 hw
    cases (show m' = replaced p m0 m from h4)
    cases hxy with
    | @busy a b hb =>
      generalize hL : GoM.load i k = L at hb
      cases hb with
      | ret => cases hL
      | stop => cases hL
      | store => cases hL
      | loadOut => cases hL
      | storeOut => cases hL
      | @peek i' a k' g0 g1 g2 g =>
        cases hL
        refine ⟨_, .inl rfl, rfl, ?_, h3, rfl⟩
        have e : (replaced p m0 m).getD i.toNat .zero = m0.getD i.toNat .zero := by
          rw [List.getD_eq_getElem?_getD, List.getD_eq_getElem?_getD, replaced_get h3 hp, if_neg (by omega)]
        rw [e]
        exact forall₂_set_right h2 hx (.busy g)
      | @load j kk kk' gi g =>
        cases hL
        refine ⟨_, .inr (.load hx hc (by rw [show m.length = p.len from h3]; exact inRange_iff.2 gi)), rfl, ?_, h3, rfl⟩
        rw [elems_getD gi, elems_replaced h3 hp]
        exact forall₂_set h2 (.busy (g _)) w
  | @store pc' ws' m' w i v k hw hc hr =>
    cases (show pc' = pc from h1)
    obtain ⟨x, hx, hxy⟩ := forall₂_get h2 hw
    cases (show m' = replaced p m0 m from h4)
    cases hxy with
    | @busy a b hb =>
      generalize hL : GoM.store i v k = L at hb
      cases hb with
      | ret => cases hL
      | stop => cases hL
      | load => cases hL
      | peek => cases hL
      | loadOut => cases hL
      | storeOut => cases hL
      | @store j v' kk kk' gi g =>
        cases hL
        have hl : (m.set j.toNat v).length = p.len := by rw [List.length_set]; exact h3
        refine ⟨_, .inr (.store hx hc (by rw [show m.length = p.len from h3]; exact inRange_iff.2 gi)), rfl, forall₂_set h2 (.busy g) w, hl, ?_⟩
        show (replaced p m0 m).set _ v = _
        rw [replaced_set v (by rw [replaced_length h3 hp]; exact hp) gi, elems_replaced h3 hp, replaced_replaced h3 hl hp]
  | @loadPanic pc' ws' m' w i k hw hc hr =>
    cases (show pc' = pc from h1)
    obtain ⟨x, hx, hxy⟩ := forall₂_get h2 hw
    cases (show m' = replaced p m0 m from h4)
    exfalso
    rw [show (replaced p m0 m).length = m0.length from hlen] at hr
    cases hxy with
    | @busy a b hb =>
      generalize hL : GoM.load i k = L at hb
      cases hb with
      | ret => cases hL
      | stop => cases hL
      | store => cases hL
      | loadOut => cases hL
      | storeOut => cases hL
      | @peek i' a k' g0 g1 g2 g =>
        cases hL
        rw [inRange_iff.2 ⟨g0, g1⟩] at hr
        cases hr
      | @load j kk kk' gi g =>
        cases hL
        rw [inRange_iff.2 ⟨by omega, by omega⟩] at hr
        cases hr
  | @storePanic pc' ws' m' w i v k hw hc hr =>
    cases (show pc' = pc from h1)
    obtain ⟨x, hx, hxy⟩ := forall₂_get h2 hw
    cases (show m' = replaced p m0 m from h4)
    exfalso
    rw [show (replaced p m0 m).length = m0.length from hlen] at hr
    cases hxy with
    | @busy a b hb =>
      generalize hL : GoM.store i v k = L at hb
      cases hb with
      | ret => cases hL
      | stop => cases hL
      | load => cases hL
      | peek => cases hL
      | loadOut => cases hL
      | storeOut => cases hL
      | @store j v' kk kk' gi g =>
        cases hL
        rw [inRange_iff.2 ⟨by omega, by omega⟩] at hr
        cases hr
  | @panic pc' ws' m' w hw hc =>
    cases (show pc' = pc from h1)
    obtain ⟨x, hx, hxy⟩ := forall₂_get h2 hw
    cases hxy with
    | @busy a b hb =>
      generalize hL : (GoM.stop .panic : GoM σ) = L at hb
      cases hb with
      | ret => cases hL
      | load => cases hL
      | peek => cases hL
      | store => cases hL
      | stop s =>
        cases hL
        exact ⟨_, .inr (.panic hx hc), rfl, h2, h3, h4⟩
      | loadOut hi =>
        exact ⟨_, .inr (.loadPanic hx hc (by rw [show m.length = p.len from h3]; exact hi)), rfl, h2, h3, h4⟩
      | storeOut hi =>
        exact ⟨_, .inr (.storePanic hx hc (by rw [show m.length = p.len from h3]; exact hi)), rfl, h2, h3, h4⟩

theorem SMirrors.start (hp : p.off + p.len ≤ m0.length) : SMirrors (σ := σ) p m0 (.start (elems p m0)) (.start m0) :=
  ⟨rfl, .nil, elems_length hp, (replaced_self hp).symm⟩

theorem SMirrors.steps (hp : p.off + p.len ≤ m0.length) (hJ : JMirrors p m0 J J') {n : Nat} {T : PState σ} (st : PState.Steps J' n (.start m0) T) :
    ∃ k S, PState.Steps J k (.start (elems p m0)) S ∧ SMirrors p m0 S T := by
  generalize h0 : PState.start m0 = T0 at st
  induction st with
  | refl => exact ⟨0, _, .refl _, h0 ▸ SMirrors.start hp⟩
  | tail _ st ih =>
    obtain ⟨k, S, h1, h2⟩ := ih h0
    obtain ⟨S', h3, h4⟩ := h2.step hp hJ st
    rcases h3 with rfl | h3
    · exact ⟨k, _, h1, h4⟩
    · exact ⟨k + 1, S', h1.tail h3, h4⟩

theorem PState.Steps.trans {n k : Nat} {s t u : PState σ} (h : Steps J n s t) (h' : Steps J k t u) : Steps J (n + k) s u := by
  induction h' with
  | refl => exact h
  | tail _ st ih => exact (ih h).tail st

/-- the steps on the array before the next one that is a step on the slice: `b'` does not read outside the slice now -/
theorem SMirrors.silent (hp : p.off + p.len ≤ m0.length) {a b : GoM σ} (hb : Mirrors p m0 a b) {S T : PState σ} (h : SMirrors p m0 S T)
    (hc : S.main ≠ .crashed) {w : Nat} (ha : S.workers[w]? = some (.busy a)) (hw : T.workers[w]? = some (.busy b)) :
    ∃ n T' b', PState.Steps J' n T T' ∧ SMirrors p m0 S T' ∧ T'.workers[w]? = some (.busy b') ∧ Mirrors p m0 a b' ∧
      ∀ i k, b' = .load i k → (p.off : Int) ≤ i ∧ i < p.off + p.len := by
  induction hb generalizing T with
  | ret x => exact ⟨0, T, _, .refl _, h, hw, .ret x, fun i k e => nomatch e⟩
  | stop x => exact ⟨0, T, _, .refl _, h, hw, .stop x, fun i k e => nomatch e⟩
  | load hi g ih => exact ⟨0, T, _, .refl _, h, hw, .load hi g, fun i k e => by cases e; omega⟩
  | store hi g ih => exact ⟨0, T, _, .refl _, h, hw, .store hi g, fun i k e => nomatch e⟩
  | loadOut hi => exact ⟨0, T, _, .refl _, h, hw, .loadOut hi, fun i k e => nomatch e⟩
  | storeOut hi => exact ⟨0, T, _, .refl _, h, hw, .storeOut hi, fun i k e => nomatch e⟩
  | @peek i a k h0 h1 h2 g ih =>
    obtain ⟨e1, e2, e3, e4⟩ := h
    have hr : inRange i T.mem.length = true := by rw [e4, replaced_length e3 hp]; exact inRange_iff.2 ⟨h0, h1⟩
    have st : PState.Step J' ⟨T.main, T.workers, T.mem⟩ ⟨T.main, T.workers.set w (.busy (k (T.mem.getD i.toNat .zero))), T.mem⟩ :=
      .load hw (e1 ▸ hc) hr
    have ev : T.mem.getD i.toNat .zero = m0.getD i.toNat .zero := by
      rw [e4, List.getD_eq_getElem?_getD, List.getD_eq_getElem?_getD, replaced_get e3 hp, if_neg (by omega)]
    rw [ev] at st
    have hl : w < T.workers.length := (List.getElem?_eq_some_iff.1 hw).1
    obtain ⟨n, T', b', k1, k2, k3, k4, k5⟩ := ih (T := ⟨T.main, T.workers.set w (.busy (k (m0.getD i.toNat .zero))), T.mem⟩)
      ⟨e1, forall₂_set_right e2 ha (.busy g), e3, e4⟩ ha (by simp [hl])
    exact ⟨_, T', b', ((PState.Steps.refl (J := J') T).tail st).trans k1, k2, k3, k4, k5⟩

/-- every step on the slice is one or more steps on the array -/
theorem SMirrors.back (hp : p.off + p.len ≤ m0.length) (hJ : JMirrors p m0 J J') {S S' T : PState σ} (h : SMirrors p m0 S T)
    (st : PState.Step J S S') : ∃ n T', PState.Steps J' n T T' ∧ SMirrors p m0 S' T' := by
  have one : ∀ {T T' : PState σ}, PState.Step J' T T' → PState.Steps J' 1 T T' := fun st => (PState.Steps.refl _).tail st
  cases st with
  | @spawn i ws m hi =>
    obtain ⟨pc, ws', m'⟩ := T
    obtain ⟨h1, h2, h3, h4⟩ := h
    cases (show pc = _ from h1)
    exact ⟨_, _, one (.spawn (hJ.threads ▸ hi)), rfl, forall₂_append h2 .created, h3, h4⟩
  | @spawned i ws m hi =>
    obtain ⟨pc, ws', m'⟩ := T
    obtain ⟨h1, h2, h3, h4⟩ := h
    cases (show pc = _ from h1)
    exact ⟨_, _, one (.spawned (hJ.threads ▸ hi)), rfl, h2, h3, h4⟩
  | @begin pc ws m w s hw hs hc =>
    obtain ⟨pc', ws', m'⟩ := T
    obtain ⟨h1, h2, h3, h4⟩ := h
    cases (show pc' = pc from h1)
    obtain ⟨x, hx, hxy⟩ := forall₂_get' h2 hw
    cases hxy
    exact ⟨_, _, one (.begin hx (hJ.init ▸ hs) hc), rfl, forall₂_set h2 (.idle s) w, h3, h4⟩
  | @beginPanic pc ws m w hw hs hc =>
    obtain ⟨pc', ws', m'⟩ := T
    obtain ⟨h1, h2, h3, h4⟩ := h
    cases (show pc' = pc from h1)
    obtain ⟨x, hx, hxy⟩ := forall₂_get' h2 hw
    cases hxy
    exact ⟨_, _, one (.beginPanic hx (hJ.init ▸ hs) hc), rfl, h2, h3, h4⟩
  | @handOver i ws m w s hi hw =>
    obtain ⟨pc', ws', m'⟩ := T
    obtain ⟨h1, h2, h3, h4⟩ := h
    cases (show pc' = _ from h1)
    obtain ⟨x, hx, hxy⟩ := forall₂_get' h2 hw
    cases hxy
    exact ⟨_, _, one (.handOver (hJ.batches ▸ hi) hx), rfl, forall₂_set h2 (.busy (hJ.task _ s)) w, h3, h4⟩
  | @close i ws m hi =>
    obtain ⟨pc', ws', m'⟩ := T
    obtain ⟨h1, h2, h3, h4⟩ := h
    cases (show pc' = _ from h1)
    exact ⟨_, _, one (.close (hJ.batches ▸ hi)), rfl, h2, h3, h4⟩
  | @exit ws m w s hw =>
    obtain ⟨pc', ws', m'⟩ := T
    obtain ⟨h1, h2, h3, h4⟩ := h
    cases (show pc' = _ from h1)
    obtain ⟨x, hx, hxy⟩ := forall₂_get' h2 hw
    cases hxy
    exact ⟨_, _, one (.exit hx), rfl, forall₂_set h2 .exited w, h3, h4⟩
  | @ret ws m hall =>
    obtain ⟨pc', ws', m'⟩ := T
    obtain ⟨h1, h2, h3, h4⟩ := h
    cases (show pc' = _ from h1)
    refine ⟨_, _, one (.ret fun x hx => ?_), rfl, h2, h3, h4⟩
    obtain ⟨n, hn⟩ := List.mem_iff_getElem?.1 hx
    obtain ⟨y, hy, hxy⟩ := forall₂_get h2 hn
    have := hall y (List.mem_of_getElem? hy)
    cases hxy <;> simp_all
  | @done pc ws m w s hw hc =>
    obtain ⟨y, hy, hxy⟩ := forall₂_get' h.workers hw
    cases hxy with
    | busy hb =>
      obtain ⟨n, ⟨pc', ws', m'⟩, b', k1, ⟨h1, h2, h3, h4⟩, k3, k4, k5⟩ := SMirrors.silent (J' := J') hp hb h hc hw hy
      cases (show pc' = pc from h1)
      cases k4 with
      | ret => exact ⟨_, _, k1.tail (.done k3 hc), rfl, forall₂_set h2 (.idle s) w, h3, h4⟩
      | peek g0 g1 g2 g => have := k5 _ _ rfl; omega
  | @load pc ws m w i k hw hc hr =>
    obtain ⟨y, hy, hxy⟩ := forall₂_get' h.workers hw
    cases hxy with
    | busy hb =>
      obtain ⟨n, ⟨pc', ws', m'⟩, b', k1, ⟨h1, h2, h3, h4⟩, k3, k4, k5⟩ := SMirrors.silent (J' := J') hp hb h hc hw hy
      cases (show pc' = pc from h1)
      cases (show m' = replaced p m0 m from h4)
      cases k4 with
      | peek g0 g1 g2 g => have := k5 _ _ rfl; omega
      | load gi g =>
        refine ⟨_, _, k1.tail (.load k3 hc (by rw [replaced_length h3 hp]; exact inRange_iff.2 ⟨by omega, by omega⟩)), rfl, ?_, h3, rfl⟩
        rw [elems_getD gi, elems_replaced h3 hp]
        exact forall₂_set h2 (.busy (g _)) w
      | loadOut hi =>
        rw [show m.length = p.len from h3, hi] at hr
        cases hr
  | @store pc ws m w i v k hw hc hr =>
    obtain ⟨y, hy, hxy⟩ := forall₂_get' h.workers hw
    cases hxy with
    | busy hb =>
      obtain ⟨n, ⟨pc', ws', m'⟩, b', k1, ⟨h1, h2, h3, h4⟩, k3, k4, k5⟩ := SMirrors.silent (J' := J') hp hb h hc hw hy
      cases (show pc' = pc from h1)
      cases (show m' = replaced p m0 m from h4)
      cases k4 with
      | peek g0 g1 g2 g => have := k5 _ _ rfl; omega
      | store gi g =>
        have hl : (m.set i.toNat v).length = p.len := by rw [List.length_set]; exact h3
        refine ⟨_, _, k1.tail (.store k3 hc (by rw [replaced_length h3 hp]; exact inRange_iff.2 ⟨by omega, by omega⟩)), rfl,
          forall₂_set h2 (.busy g) w, hl, ?_⟩
        show (replaced p m0 m).set _ v = _
        rw [replaced_set v (by rw [replaced_length h3 hp]; exact hp) gi, elems_replaced h3 hp, replaced_replaced h3 hl hp]
      | storeOut hi =>
        rw [show m.length = p.len from h3, hi] at hr
        cases hr
  | @loadPanic pc ws m w i k hw hc hr =>
    obtain ⟨y, hy, hxy⟩ := forall₂_get' h.workers hw
    cases hxy with
    | busy hb =>
      obtain ⟨n, ⟨pc', ws', m'⟩, b', k1, ⟨h1, h2, h3, h4⟩, k3, k4, k5⟩ := SMirrors.silent (J' := J') hp hb h hc hw hy
      cases (show pc' = pc from h1)
      rw [show m.length = p.len from h3] at hr
      cases k4 with
      | peek g0 g1 g2 g => have := k5 _ _ rfl; omega
      | load gi g => rw [inRange_iff.2 gi] at hr; cases hr
      | loadOut hi => exact ⟨_, _, k1.tail (.panic k3 hc), rfl, h2, h3, h4⟩
  | @storePanic pc ws m w i v k hw hc hr =>
    obtain ⟨y, hy, hxy⟩ := forall₂_get' h.workers hw
    cases hxy with
    | busy hb =>
      obtain ⟨n, ⟨pc', ws', m'⟩, b', k1, ⟨h1, h2, h3, h4⟩, k3, k4, k5⟩ := SMirrors.silent (J' := J') hp hb h hc hw hy
      cases (show pc' = pc from h1)
      rw [show m.length = p.len from h3] at hr
      cases k4 with
      | peek g0 g1 g2 g => have := k5 _ _ rfl; omega
      | store gi g => rw [inRange_iff.2 gi] at hr; cases hr
      | storeOut hi => exact ⟨_, _, k1.tail (.panic k3 hc), rfl, h2, h3, h4⟩
  | @panic pc ws m w hw hc =>
    obtain ⟨y, hy, hxy⟩ := forall₂_get' h.workers hw
    cases hxy with
    | busy hb =>
      obtain ⟨n, ⟨pc', ws', m'⟩, b', k1, ⟨h1, h2, h3, h4⟩, k3, k4, k5⟩ := SMirrors.silent (J' := J') hp hb h hc hw hy
      cases (show pc' = pc from h1)
      cases k4 with
      | peek g0 g1 g2 g => have := k5 _ _ rfl; omega
      | stop => exact ⟨_, _, k1.tail (.panic k3 hc), rfl, h2, h3, h4⟩

theorem SMirrors.backs (hp : p.off + p.len ≤ m0.length) (hJ : JMirrors p m0 J J') {n : Nat} {S : PState σ}
    (st : PState.Steps J n (.start (elems p m0)) S) : ∃ k T, PState.Steps J' k (.start m0) T ∧ SMirrors p m0 S T := by
  generalize h0 : PState.start (elems p m0) = S0 at st
  induction st with
  | refl => exact ⟨0, _, .refl _, h0 ▸ SMirrors.start hp⟩
  | tail _ st ih =>
    obtain ⟨k, T, h1, h2⟩ := ih h0
    obtain ⟨n', T', h3, h4⟩ := h2.back hp hJ st
    exact ⟨_, T', h1.trans h3, h4⟩

/-- the possible results are the same -/
theorem par_mirrors (hp : p.off + p.len ≤ m0.length) (hJ : JMirrors p m0 J J') (out : Res Unit × List F64) :
    ParResult J' m0 out ↔ ∃ w, ParResult J (elems p m0) (out.1, w) ∧ out.2 = replaced p m0 w := by
  constructor
  · intro h
    cases h with
    | ok st hr =>
      obtain ⟨k, S, h1, h2⟩ := SMirrors.steps hp hJ st
      exact ⟨S.mem, .ok h1 (h2.main ▸ hr), h2.mem⟩
    | panic st hr =>
      obtain ⟨k, S, h1, h2⟩ := SMirrors.steps hp hJ st
      exact ⟨S.mem, .panic h1 (h2.main ▸ hr), h2.mem⟩
  · rintro ⟨w, h, hw⟩
    obtain ⟨r, m⟩ := out
    rw [show m = replaced p m0 w from hw]
    cases h with
    | ok st hr =>
      obtain ⟨k, T, h1, h2⟩ := SMirrors.backs hp hJ st
      rw [← h2.mem]
      exact .ok h1 (h2.main.trans hr)
    | panic st hr =>
      obtain ⟨k, T, h1, h2⟩ := SMirrors.backs hp hJ st
      rw [← h2.mem]
      exact .panic h1 (h2.main.trans hr)

end

end Leaves
