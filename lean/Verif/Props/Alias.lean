import Verif.Props.Calls
import Verif.Spec.Alias

/-!
# C78: the row and the predictions in one array

Predict does what it does with a row of its own if the two slices do not overlap, and also if they do when the model has a
transformation; without one it may compute something else.
-/

namespace Leaves

open Spec GoM

theorem elems_length {s : Win} {m : List F64} (hb : s.off + s.len ≤ m.length) : (elems s m).length = s.len :=
  Thread.view_length (t := ⟨s.off, s.len, .done .panic⟩) hb

theorem replaced_length {s : Win} {m w : List F64} (hl : w.length = s.len) (hb : s.off + s.len ≤ m.length) : (replaced s m w).length = m.length :=
  Thread.put_length (t := ⟨s.off, s.len, .done .panic⟩) hl hb

theorem elems_replaced {s : Win} {m w : List F64} (hl : w.length = s.len) (hb : s.off + s.len ≤ m.length) : elems s (replaced s m w) = w :=
  Thread.view_put (t := ⟨s.off, s.len, .done .panic⟩) hl hb

theorem elems_replaced_other {s t : Win} {m w : List F64} (hl : w.length = s.len) (hb : s.off + s.len ≤ m.length) (hd : Separate s t) :
    elems t (replaced s m w) = elems t m :=
  Thread.view_put_other (t := ⟨s.off, s.len, .done .panic⟩) (u := ⟨t.off, t.len, .done .panic⟩) hl hb hd

theorem replaced_get {s : Win} {m w : List F64} (hl : w.length = s.len) (hb : s.off + s.len ≤ m.length) (k : Nat) :
    (replaced s m w)[k]? = if s.off ≤ k ∧ k < s.off + s.len then w[k - s.off]? else m[k]? :=
  Thread.put_get (t := ⟨s.off, s.len, .done .panic⟩) hl hb k

theorem elems_get (s : Win) (m : List F64) (k : Nat) : (elems s m)[k]? = if k < s.len then m[s.off + k]? else none :=
  Thread.view_get ⟨s.off, s.len, .done .panic⟩ m k

theorem replaced_self {s : Win} {m : List F64} (hb : s.off + s.len ≤ m.length) : replaced s m (elems s m) = m := by
  apply List.ext_getElem?
  intro k
  rw [replaced_get (elems_length hb) hb, elems_get]
  split
  · rw [if_pos (by omega)]
    congr 1
    omega
  · rfl

theorem replaced_replaced {s : Win} {m w w' : List F64} (hl : w.length = s.len) (hl' : w'.length = s.len) (hb : s.off + s.len ≤ m.length) :
    replaced s (replaced s m w) w' = replaced s m w' := by
  have hb' : s.off + s.len ≤ (replaced s m w).length := by rw [replaced_length hl hb]; exact hb
  apply List.ext_getElem?
  intro k
  rw [replaced_get hl' hb', replaced_get hl hb, replaced_get hl' hb]
  split <;> rfl

/-! ### simulation -/

/-- `b`, on a memory with the given row in `f`, does what `a` does with the elements of `p` alone -/
def Sim {α : Type} (f p : Win) (row : List F64) (a b : GoM α) : Prop :=
  ∀ m : List F64, f.off + f.len ≤ m.length → p.off + p.len ≤ m.length → elems f m = row →
    b.run m = ((a.run (elems p m)).1, replaced p m (a.run (elems p m)).2)

theorem Sim.pure {α : Type} {f p : Win} {row : List F64} (a : α) : Sim f p row (.ret a) (.ret a) := by
  intro m _ hp _
  show (Res.ok a, m) = (Res.ok a, _)
  rw [show ((GoM.ret a).run (elems p m)).2 = elems p m from rfl, replaced_self hp]

theorem Sim.stop {α : Type} {f p : Win} {row : List F64} (s : Stop) : Sim (α := α) f p row (.stop s) (.stop s) := by
  intro m _ hp _
  show (s.toRes, m) = (s.toRes, replaced p m (elems p m))
  rw [replaced_self hp]

theorem Sim.ofRes {α : Type} {f p : Win} {row : List F64} (r : Res α) : Sim f p row (ofRes r) (ofRes r) := by
  cases r with
  | ok a => exact Sim.pure a
  | err t => exact Sim.stop _
  | panic => exact Sim.stop _
  | hang => exact Sim.stop _

theorem Sim.bind {α β : Type} {f p : Win} {row : List F64} (hd : Separate p f) {a b : GoM α} {k l : α → GoM β} (h : Sim f p row a b)
    (hk : ∀ x, Sim f p row (k x) (l x)) : Sim f p row (a >>= k) (b >>= l) := by
  intro m hf hp hr
  have h1 := h m hf hp hr
  have hlen := run_length a (elems p m)
  rw [run_bind, run_bind, h1]
  rcases ha : a.run (elems p m) with ⟨r, w⟩
  rw [ha] at hlen
  have hl : w.length = p.len := by rw [hlen, elems_length hp]
  cases r with
  | ok x =>
    simp only [andThen_ok]
    have h2 := hk x (replaced p m w) (by rw [replaced_length hl hp]; exact hf) (by rw [replaced_length hl hp]; exact hp)
      (by rw [elems_replaced_other hl hp hd]; exact hr)
    rw [elems_replaced hl hp] at h2
    have hl2 := run_length (k x) w
    rw [h2, replaced_replaced hl (by rw [hl2, hl]) hp]
  | err t => rfl
  | panic => rfl
  | hang => rfl

theorem Sim.forRange {f p : Win} {row : List F64} (hd : Separate p f) {a b : Nat → GoM Unit} (h : ∀ k, Sim f p row (a k) (b k)) :
    ∀ (c s : Nat), Sim f p row (forRange a s c) (forRange b s c)
  | 0, _ => Sim.pure _
  | c + 1, s => by
    unfold GoM.forRange
    exact (h s).bind hd fun _ => Sim.forRange hd h c (s + 1)

theorem run_load {α : Type} {i : Int} {k : F64 → GoM α} {m : List F64} (h : 0 ≤ i ∧ i < m.length) :
    (GoM.load i k).run m = (k (m.getD i.toNat .zero)).run m := by
  rw [run, if_pos (inRange_iff.2 h)]

theorem run_store {α : Type} {i : Int} {v : F64} {k : GoM α} {m : List F64} (h : 0 ≤ i ∧ i < m.length) :
    (GoM.store i v k).run m = k.run (m.set i.toNat v) := by
  rw [run, if_pos (inRange_iff.2 h)]

theorem run_load_out {α : Type} {i : Int} {k : F64 → GoM α} {m : List F64} (h : ¬ inRange i m.length = true) :
    (GoM.load i k).run m = (.panic, m) := by
  rw [run, if_neg h]

theorem run_store_out {α : Type} {i : Int} {v : F64} {k : GoM α} {m : List F64} (h : ¬ inRange i m.length = true) :
    (GoM.store i v k).run m = (.panic, m) := by
  rw [run, if_neg h]

theorem replaced_set {p : Win} {m : List F64} {i : Int} (v : F64) (hp : p.off + p.len ≤ m.length) (h : 0 ≤ i ∧ i < p.len) :
    m.set ((p.off : Int) + i).toNat v = replaced p m ((elems p m).set i.toNat v) := by
  have hl := elems_length hp
  apply List.ext_getElem?
  intro k
  rw [replaced_get (by rw [List.length_set, hl]) hp, List.getElem?_set, List.getElem?_set, elems_get, hl]
  by_cases hk : p.off ≤ k ∧ k < p.off + p.len
  · rw [if_pos hk]
    by_cases hk' : ((p.off : Int) + i).toNat = k
    · rw [if_pos hk', if_pos (by omega), if_pos (by omega), if_pos (by omega)]
    · rw [if_neg hk', if_neg (by omega), if_pos (by omega)]
      congr 1
      omega
  · rw [if_neg hk, if_neg (by omega)]

theorem elems_getD {p : Win} {m : List F64} {i : Int} (h : 0 ≤ i ∧ i < p.len) :
    m.getD ((p.off : Int) + i).toNat .zero = (elems p m).getD i.toNat .zero := by
  rw [List.getD_eq_getElem?_getD, List.getD_eq_getElem?_getD, elems_get, if_pos (by omega)]
  congr 2
  omega

/-- a program moved to the place of the slice -/
theorem Sim.embed {α : Type} {p : Win} {m : List F64} (hp : p.off + p.len ≤ m.length) : ∀ (a : GoM α),
    (p.embed a).run m = ((a.run (elems p m)).1, replaced p m (a.run (elems p m)).2)
  | .ret a => by
    show (Res.ok a, m) = (Res.ok a, replaced p m (elems p m))
    rw [replaced_self hp]
  | .stop s => by
    show (s.toRes, m) = (s.toRes, replaced p m (elems p m))
    rw [replaced_self hp]
  | .load i k => by
    have hl := elems_length hp
    unfold Win.embed
    by_cases h : inRange i p.len = true
    · have h' := inRange_iff.1 h
      rw [if_pos h, run_load ⟨by omega, by omega⟩, run_load (by rw [hl]; exact h'), elems_getD h']
      exact Sim.embed hp (k _)
    · rw [if_neg h, run_load_out (by rw [hl]; exact h)]
      show (Res.panic, m) = (Res.panic, replaced p m (elems p m))
      rw [replaced_self hp]
  | .store i v k => by
    have hl := elems_length hp
    unfold Win.embed
    by_cases h : inRange i p.len = true
    · have h' := inRange_iff.1 h
      have hl' : ((elems p m).set i.toNat v).length = p.len := by rw [List.length_set, hl]
      have hb' : p.off + p.len ≤ (replaced p m ((elems p m).set i.toNat v)).length := by rw [replaced_length hl' hp]; exact hp
      rw [if_pos h, run_store ⟨by omega, by omega⟩, run_store (by rw [hl]; exact h'), replaced_set v hp h',
        Sim.embed hb' k, elems_replaced hl' hp, replaced_replaced hl' (by rw [run_length, hl']) hp]
    · rw [if_neg h, run_store_out (by rw [hl]; exact h)]
      show (Res.panic, m) = (Res.panic, replaced p m (elems p m))
      rw [replaced_self hp]

theorem Sim.set {f p : Win} {row : List F64} (i : Int) (v : F64) : Sim f p row (GoM.set i v) (p.set i v) :=
  fun _ _ hp _ => Sim.embed hp (GoM.set i v)

theorem Sim.get {f p : Win} {row : List F64} (i : Int) : Sim f p row (GoM.get i) (p.get i) :=
  fun _ _ hp _ => Sim.embed hp (GoM.get i)

theorem row_get {f : Win} {m : List F64} (hf : f.off + f.len ≤ m.length) (i : Nat) : (f.get i).run m = (Res.idx (elems f m) i, m) := by
  unfold Win.get GoM.get
  by_cases h : inRange (i : Int) f.len = true
  · have h' := inRange_iff.1 h
    rw [if_pos h, run, if_pos (inRange_iff.2 ⟨by omega, by omega⟩), Res.idx_eq_ok.2 (show (elems f m)[i]? = some (m.getD ((f.off : Int) + i).toNat .zero) by
      rw [elems_get, if_pos (by omega), List.getD_eq_getElem?_getD, show ((f.off : Int) + i).toNat = f.off + i by omega,
        List.getElem?_eq_getElem (by omega)]; rfl)]
    rfl
  · rw [if_neg h]
    show (Res.panic, m) = _
    have : Res.idx (elems f m) i = .panic := by
      unfold Res.idx
      rw [elems_get, if_neg (by rw [inRange_iff] at h; omega)]
    rw [this]

theorem Sim.row {f p : Win} {row : List F64} (i : Nat) : Sim f p row (GoM.ofRes (Res.idx row i)) (f.get i) := by
  intro m hf hp hr
  rw [row_get hf, hr, run_ofRes, replaced_self hp]

theorem ofRes_bind' {α β : Type} (r : Res α) (k : α → Res β) : GoM.ofRes (r >>= k) = GoM.ofRes r >>= fun a => GoM.ofRes (k a) := by
  cases r <;> rfl

theorem predictLoop_sim {f p : Win} {row : List F64} (hd : Separate p f) (P : Platform) (t : LgTree) :
    ∀ fuel idx, Sim f p row (GoM.ofRes (t.predictLoop P row fuel idx)) (t.predictLoopM P f fuel idx)
  | 0, _ => Sim.stop _
  | fuel + 1, idx => by
    unfold LgTree.predictLoop LgTree.predictLoopM
    rw [ofRes_bind']
    refine (Sim.ofRes _).bind hd fun node => ?_
    rw [ofRes_bind']
    refine (Sim.row _).bind hd fun fval => ?_
    rw [ofRes_bind']
    refine (Sim.ofRes _).bind hd fun left => ?_
    cases left with
    | true =>
      simp only [if_true]
      split
      · rw [ofRes_bind']
        exact (Sim.ofRes _).bind hd fun v => Sim.pure _
      · exact predictLoop_sim hd P t fuel _
    | false =>
      simp only [Bool.false_eq_true, if_false]
      split
      · rw [ofRes_bind']
        exact (Sim.ofRes _).bind hd fun v => Sim.pure _
      · exact predictLoop_sim hd P t fuel _

theorem tree_sim {f p : Win} {row : List F64} (hd : Separate p f) (P : Platform) (t : LgTree) :
    Sim f p row (GoM.ofRes (t.predict P row)) (t.predictM P f) := by
  unfold LgTree.predict LgTree.predictM
  split
  · rw [ofRes_bind']
    exact (Sim.ofRes _).bind hd fun v => Sim.pure _
  · exact predictLoop_sim hd P t _ _

theorem inner_sim {f p : Win} {row : List F64} (hd : Separate p f) (P : Platform) (n start : Int) : ∀ b : Base,
    Sim f p row (b.predictInner P row n start) (b.predictInnerM P f n p start)
  | .lg e => by
    show Sim f p row (e.predictInner P row n start) (e.predictInnerM P f n p start)
    unfold LgEnsemble.predictInner LgEnsemble.predictInnerM
    refine (Sim.forRange hd (fun k => Sim.set _ _) _ _).bind hd fun _ => Sim.forRange hd (fun i => Sim.forRange hd (fun k => ?_) _ _) _ _
    exact (Sim.ofRes _).bind hd fun t => (tree_sim hd P t).bind hd fun x => (Sim.get _).bind hd fun old => Sim.set _ _
  | .xg e => by
    show Sim f p row (e.predictInner P row n start) (e.predictInnerM P f n p start)
    unfold XgEnsemble.predictInner XgEnsemble.predictInnerM
    refine (Sim.forRange hd (fun k => Sim.set _ _) _ _).bind hd fun _ => Sim.forRange hd (fun i => Sim.forRange hd (fun k => ?_) _ _) _ _
    exact (Sim.ofRes _).bind hd fun t => (tree_sim hd P t).bind hd fun x => (Sim.get _).bind hd fun old => (Sim.ofRes _).bind hd fun w => Sim.set _ _
  | .lin e => by
    show Sim f p row (e.predictInner P row n start) (e.predictInnerM P f p start)
    unfold XgLinear.predictInner XgLinear.predictInnerM
    refine Sim.forRange hd (fun k => ?_) _ _
    refine (Sim.ofRes _).bind hd fun w => (Sim.set _ _).bind hd fun _ => Sim.forRange hd (fun i => ?_) _ _
    exact (Sim.get _).bind hd fun old => (Sim.row _).bind hd fun x => (Sim.ofRes _).bind hd fun w => Sim.set _ _
  | .wrap b _ => inner_sim hd P n start b

theorem leaf_sim {f p : Win} {row : List F64} (hd : Separate p f) (P : Platform) (n start : Int) : ∀ b : Base,
    Sim f p row (b.predictLeafIndicesInner P row n start) (b.predictLeafIndicesInnerM P f n p start)
  | .lg e => by
    show Sim f p row (leafIndicesInner P _ _ row n start) (leafIndicesInnerM P _ _ f n p start)
    unfold leafIndicesInner leafIndicesInnerM
    refine (Sim.forRange hd (fun k => Sim.set _ _) _ _).bind hd fun _ => Sim.forRange hd (fun i => Sim.forRange hd (fun k => ?_) _ _) _ _
    exact (Sim.ofRes _).bind hd fun t => (tree_sim hd P t).bind hd fun x => Sim.set _ _
  | .xg e => by
    show Sim f p row (leafIndicesInner P _ _ row n start) (leafIndicesInnerM P _ _ f n p start)
    unfold leafIndicesInner leafIndicesInnerM
    refine (Sim.forRange hd (fun k => Sim.set _ _) _ _).bind hd fun _ => Sim.forRange hd (fun i => Sim.forRange hd (fun k => ?_) _ _) _ _
    exact (Sim.ofRes _).bind hd fun t => (tree_sim hd P t).bind hd fun x => Sim.set _ _
  | .lin e => Sim.pure _
  | .wrap b _ => leaf_sim hd P n start b

theorem read_run {f : Win} {m : List F64} (hf : f.off + f.len ≤ m.length) : ∀ c i, i + c = f.len →
    (f.read i c).run m = (.ok ((elems f m).drop i), m)
  | 0, i, h => by
    rw [List.drop_eq_nil_of_le (by rw [elems_length hf]; omega)]
    rfl
  | c + 1, i, h => by
    have hi : i < (elems f m).length := by rw [elems_length hf]; omega
    have h1 : (f.get i).run m = (.ok (elems f m)[i], m) := by
      rw [row_get hf, Res.idx_eq_ok.2 (List.getElem?_eq_getElem hi)]
    unfold Win.read
    rw [run_bind, h1]
    simp only [andThen_ok]
    rw [run_bind, read_run hf c (i + 1) (by omega)]
    simp only [andThen_ok]
    rw [List.drop_eq_getElem_cons hi]
    rfl

/-- the row is only read, before anything is stored -/
theorem transformed_run {f p : Win} {m : List F64} (P : Platform) (e : Ensemble) (n start : Int) (hf : f.off + f.len ≤ m.length)
    (hp : p.off + p.len ≤ m.length) (h1 : e.transform.type ≠ TransformType.raw) (h2 : e.transform.type ≠ TransformType.leafIndex) :
    (e.predictInnerAndTransformM P f n p start).run m =
      (((e.predictInnerAndTransform P (elems f m) n start).run (elems p m)).1,
        replaced p m ((e.predictInnerAndTransform P (elems f m) n start).run (elems p m)).2) := by
  unfold Ensemble.predictInnerAndTransformM Ensemble.predictInnerAndTransform
  rw [if_neg h1, if_neg h2, if_neg h1, if_neg h2, run_bind, read_run hf _ 0 (by omega), List.drop_zero]
  simp only [andThen_ok]
  rw [run_bind, run_bind, run_ofRes, run_ofRes]
  cases makeSlice e.nRawOutputGroups F64.zero with
  | ok init =>
    simp only [andThen_ok]
    rw [run_bind, run_bind, run_ofRes, run_ofRes]
    cases (e.base.predictInner P (elems f m) n 0).runLocal init with
    | ok raw =>
      simp only [andThen_ok]
      rw [run_bind, run_bind, Sim.embed hp]
      rcases (e.transform.apply P raw start).run (elems p m) with ⟨r, w⟩
      cases r <;> rfl
    | err t => exact Prod.ext rfl (replaced_self hp).symm
    | panic => exact Prod.ext rfl (replaced_self hp).symm
    | hang => exact Prod.ext rfl (replaced_self hp).symm
  | err t => exact Prod.ext rfl (replaced_self hp).symm
  | panic => exact Prod.ext rfl (replaced_self hp).symm
  | hang => exact Prod.ext rfl (replaced_self hp).symm

theorem inner_run {f p : Win} {m : List F64} (P : Platform) (e : Ensemble) (n start : Int) (hf : f.off + f.len ≤ m.length)
    (hp : p.off + p.len ≤ m.length)
    (h : Separate p f ∨ e.transform.type ≠ TransformType.raw ∧ e.transform.type ≠ TransformType.leafIndex) :
    (e.predictInnerAndTransformM P f n p start).run m =
      (((e.predictInnerAndTransform P (elems f m) n start).run (elems p m)).1,
        replaced p m ((e.predictInnerAndTransform P (elems f m) n start).run (elems p m)).2) := by
  by_cases h1 : e.transform.type = TransformType.raw
  · have hd : Separate p f := h.resolve_right fun h => h.1 h1
    unfold Ensemble.predictInnerAndTransformM Ensemble.predictInnerAndTransform
    rw [if_pos h1, if_pos h1]
    exact inner_sim hd P n start e.base m hf hp rfl
  · by_cases h2 : e.transform.type = TransformType.leafIndex
    · have hd : Separate p f := h.resolve_right fun h => h.2 h2
      unfold Ensemble.predictInnerAndTransformM Ensemble.predictInnerAndTransform
      rw [if_neg h1, if_neg h1, if_pos h2, if_pos h2]
      exact leaf_sim hd P n start e.base m hf hp rfl
    · exact transformed_run P e n start hf hp h1 h2

/-- **C78.** Let the row and the predictions be slices of one array, which do not overlap, or may overlap if the model has a
transformation (logistic, exponential or softmax). Then Predict has the outcome it has with these elements in slices of their own, and
the array changes where the predictions are, to what they become there.

Full statement: the same for overlapping slices and every model. That is false: see `AliasExample.C78_overlap`. -/
theorem C78_partial (P : Platform) (e : Ensemble) (req : Int) (f p : Win) (mem : List F64) (hf : f.off + f.len ≤ mem.length)
    (hp : p.off + p.len ≤ mem.length)
    (h : Separate p f ∨ e.transform.type ≠ TransformType.raw ∧ e.transform.type ≠ TransformType.leafIndex) :
    ((e.predictM P f req p).run mem).1 = ((e.predict P (elems f mem) req p.len).run (elems p mem)).1 ∧
    ((e.predictM P f req p).run mem).2 = replaced p mem ((e.predict P (elems f mem) req p.len).run (elems p mem)).2 := by
  have key : (e.predictM P f req p).run mem =
      (((e.predict P (elems f mem) req p.len).run (elems p mem)).1,
        replaced p mem ((e.predict P (elems f mem) req p.len).run (elems p mem)).2) := by
    unfold Ensemble.predictM Ensemble.predict
    rw [elems_length hf]
    split
    · exact Sim.stop (f := f) _ mem hf hp rfl
    · split
      · exact Sim.stop (f := f) _ mem hf hp rfl
      · rw [run_bind, run_bind, run_ofRes, run_ofRes]
        cases e.base.adjustNEstimators req with
        | ok n =>
          simp only [andThen_ok]
          rw [run_bind, run_bind, run_ofRes, run_ofRes]
          cases e.checkNEstimators n with
          | ok _ =>
            simp only [andThen_ok]
            exact inner_run P e n 0 hf hp h
          | err t => exact Prod.ext rfl (replaced_self hp).symm
          | panic => exact Prod.ext rfl (replaced_self hp).symm
          | hang => exact Prod.ext rfl (replaced_self hp).symm
        | err t => exact Prod.ext rfl (replaced_self hp).symm
        | panic => exact Prod.ext rfl (replaced_self hp).symm
        | hang => exact Prod.ext rfl (replaced_self hp).symm
  rw [key]
  exact ⟨rfl, rfl⟩

/-- **C78.** Without overlap Predict leaves the row as it was. -/
theorem C78_row_unchanged_partial (P : Platform) (e : Ensemble) (req : Int) (f p : Win) (mem : List F64) (hf : f.off + f.len ≤ mem.length)
    (hp : p.off + p.len ≤ mem.length) (h : Separate p f) : elems f ((e.predictM P f req p).run mem).2 = elems f mem := by
  rw [(C78_partial P e req f p mem hf hp (.inl h)).2]
  exact elems_replaced_other (by rw [run_length, elems_length hp]) hp h

/-! ### nothing else is written -/

/-- stores only inside the slice -/
def StoresIn {α : Type} (p : Win) : GoM α → Prop
  | .ret _ => True
  | .load _ k => ∀ v, StoresIn p (k v)
  | .store i _ k => (p.off ≤ i ∧ i < p.off + p.len) ∧ StoresIn p k
  | .stop _ => True

theorem StoresIn.run {α : Type} {p : Win} {k : Nat} (hk : ¬ (p.off ≤ k ∧ k < p.off + p.len)) : ∀ {a : GoM α}, StoresIn p a →
    ∀ m : List F64, (a.run m).2[k]? = m[k]?
  | .ret _, _, _ => rfl
  | .stop _, _, _ => rfl
  | .load i c, h, m => by
    rw [GoM.run]
    split
    · exact StoresIn.run hk (h _) m
    · rfl
  | .store i v c, h, m => by
    rw [GoM.run]
    split
    · rw [StoresIn.run hk h.2, List.getElem?_set, if_neg]
      have := h.1
      omega
    · rfl

theorem StoresIn.bind {α β : Type} {p : Win} {c : α → GoM β} (hc : ∀ x, StoresIn p (c x)) : ∀ {a : GoM α}, StoresIn p a →
    StoresIn p (a >>= c)
  | .ret x, _ => hc x
  | .stop _, _ => trivial
  | .load _ _, h => fun v => StoresIn.bind hc (h v)
  | .store _ _ _, h => ⟨h.1, StoresIn.bind hc h.2⟩

theorem StoresIn.ret {α : Type} {p : Win} (x : α) : StoresIn p (GoM.ret x) := trivial

theorem StoresIn.ofRes {α : Type} {p : Win} (r : Res α) : StoresIn p (GoM.ofRes r) := by
  cases r <;> exact trivial

theorem StoresIn.forRange {p : Win} {a : Nat → GoM Unit} (h : ∀ k, StoresIn p (a k)) : ∀ (c s : Nat), StoresIn p (forRange a s c)
  | 0, _ => trivial
  | c + 1, s => by
    unfold GoM.forRange
    exact StoresIn.bind (fun _ => StoresIn.forRange h c (s + 1)) (h s)

theorem StoresIn.get {p : Win} (f : Win) (i : Int) : StoresIn p (f.get i) := by
  unfold Win.get
  split
  · exact fun _ => trivial
  · trivial

theorem StoresIn.set {p : Win} (i : Int) (v : F64) : StoresIn p (p.set i v) := by
  unfold Win.set
  split
  next h =>
    have := inRange_iff.1 h
    exact ⟨⟨by omega, by omega⟩, trivial⟩
  · trivial

theorem StoresIn.embed {α : Type} {p : Win} : ∀ a : GoM α, StoresIn p (p.embed a)
  | .ret _ => trivial
  | .stop _ => trivial
  | .load i k => by
    unfold Win.embed
    split
    · exact fun v => StoresIn.embed (k v)
    · trivial
  | .store i v k => by
    unfold Win.embed
    split
    next h =>
      have := inRange_iff.1 h
      exact ⟨⟨by omega, by omega⟩, StoresIn.embed k⟩
    · trivial

theorem StoresIn.read {p f : Win} : ∀ c i, StoresIn p (f.read i c)
  | 0, _ => trivial
  | c + 1, i => (StoresIn.get f i).bind fun _ => (StoresIn.read c (i + 1)).bind fun _ => StoresIn.ret _

theorem StoresIn.loop {p f : Win} (P : Platform) (t : LgTree) : ∀ fuel idx, StoresIn p (t.predictLoopM P f fuel idx)
  | 0, _ => trivial
  | fuel + 1, idx => by
    unfold LgTree.predictLoopM
    refine (StoresIn.ofRes _).bind fun node => (StoresIn.get _ _).bind fun fval => (StoresIn.ofRes _).bind fun left => ?_
    cases left <;> simp only [if_true, Bool.false_eq_true, if_false] <;> split <;>
      first
      | exact (StoresIn.ofRes _).bind fun _ => StoresIn.ret _
      | exact StoresIn.loop P t fuel _

theorem StoresIn.tree {p f : Win} (P : Platform) (t : LgTree) : StoresIn p (t.predictM P f) := by
  unfold LgTree.predictM
  split
  · exact (StoresIn.ofRes _).bind fun _ => StoresIn.ret _
  · exact StoresIn.loop P t _ _

theorem StoresIn.inner {p f : Win} (P : Platform) (n start : Int) : ∀ b : Base, StoresIn p (b.predictInnerM P f n p start)
  | .lg _ => (StoresIn.forRange (fun _ => StoresIn.set _ _) _ _).bind fun _ => StoresIn.forRange (fun _ => StoresIn.forRange (fun _ =>
      (StoresIn.ofRes _).bind fun t => (StoresIn.tree P t).bind fun _ => (StoresIn.get _ _).bind fun _ => StoresIn.set _ _) _ _) _ _
  | .xg _ => (StoresIn.forRange (fun _ => StoresIn.set _ _) _ _).bind fun _ => StoresIn.forRange (fun _ => StoresIn.forRange (fun _ =>
      (StoresIn.ofRes _).bind fun t => (StoresIn.tree P t).bind fun _ => (StoresIn.get _ _).bind fun _ => (StoresIn.ofRes _).bind fun _ =>
        StoresIn.set _ _) _ _) _ _
  | .lin _ => StoresIn.forRange (fun _ => (StoresIn.ofRes _).bind fun _ => (StoresIn.set _ _).bind fun _ => StoresIn.forRange (fun _ =>
      (StoresIn.get _ _).bind fun _ => (StoresIn.get _ _).bind fun _ => (StoresIn.ofRes _).bind fun _ => StoresIn.set _ _) _ _) _ _
  | .wrap b _ => StoresIn.inner P n start b

theorem StoresIn.leaves {p f : Win} (P : Platform) (n start : Int) : ∀ b : Base, StoresIn p (b.predictLeafIndicesInnerM P f n p start)
  | .lg _ => (StoresIn.forRange (fun _ => StoresIn.set _ _) _ _).bind fun _ => StoresIn.forRange (fun _ => StoresIn.forRange (fun _ =>
      (StoresIn.ofRes _).bind fun t => (StoresIn.tree P t).bind fun _ => StoresIn.set _ _) _ _) _ _
  | .xg _ => (StoresIn.forRange (fun _ => StoresIn.set _ _) _ _).bind fun _ => StoresIn.forRange (fun _ => StoresIn.forRange (fun _ =>
      (StoresIn.ofRes _).bind fun t => (StoresIn.tree P t).bind fun _ => StoresIn.set _ _) _ _) _ _
  | .lin _ => trivial
  | .wrap b _ => StoresIn.leaves P n start b

/-- **C78.** With every model, overlap or not, and whatever the outcome, Predict leaves every element of the array outside the predictions
as it was. -/
theorem C78_nothing_else (P : Platform) (e : Ensemble) (req : Int) (f p : Win) (mem : List F64) (k : Nat)
    (hk : k < p.off ∨ p.off + p.len ≤ k) : ((e.predictM P f req p).run mem).2[k]? = mem[k]? := by
  refine StoresIn.run (p := p) (by omega) ?_ mem
  unfold Ensemble.predictM
  split
  · trivial
  · split
    · trivial
    · refine (StoresIn.ofRes _).bind fun n => (StoresIn.ofRes _).bind fun _ => ?_
      unfold Ensemble.predictInnerAndTransformM
      split
      · exact StoresIn.inner P n _ e.base
      · split
        · exact StoresIn.leaves P n _ e.base
        · exact (StoresIn.read _ _).bind fun _ => (StoresIn.ofRes _).bind fun _ => (StoresIn.ofRes _).bind fun _ =>
            (StoresIn.embed _).bind fun _ => StoresIn.ret _

namespace AliasExample

open PredictExample

/-- a row and room for two predictions in one array -/
def mem : List F64 := [.ofNat 7, .zero, .one, .one]

example : Separate ⟨2, 2⟩ ⟨0, 2⟩ := Or.inr (by decide)

/-- separate slices -/
theorem separate : ((lg.predictM Platform.demo ⟨0, 2⟩ 0 ⟨2, 2⟩).run mem) = (.ok ⟨⟩, [.ofNat 7, .zero, .ofNat 202, .ofNat 2020]) := by
  decide +kernel

/-- **C78.** The same model asked to put its raw scores over the row: the scores are other ones. -/
theorem C78_overlap :
    ((lg.predictM Platform.demo ⟨0, 2⟩ 0 ⟨0, 2⟩).run mem) ≠
      (((lg.predict Platform.demo (elems ⟨0, 2⟩ mem) 0 2).run (elems ⟨0, 2⟩ mem)).1,
        replaced ⟨0, 2⟩ mem ((lg.predict Platform.demo (elems ⟨0, 2⟩ mem) 0 2).run (elems ⟨0, 2⟩ mem)).2) ∧
    ((lg.predictM Platform.demo ⟨0, 2⟩ 0 ⟨0, 2⟩).run mem) = (.ok ⟨⟩, [.ofNat 101, .ofNat 2010, .one, .one]) := by
  decide +kernel

end AliasExample

end Leaves
