import Verif.Proofs.Convert
import Verif.Model.GoM

/-! Reasoning about programs over the shared slice: sequential semantics, footprints, frames. -/

namespace Leaves
namespace GoM

variable {α β : Type}

@[simp] theorem pure_eq (a : α) : (pure a : GoM α) = .ret a := rfl
@[simp] theorem ret_bind (a : α) (f : α → GoM β) : (GoM.ret a >>= f) = f a := rfl
@[simp] theorem stop_bind (s : Stop) (f : α → GoM β) : (GoM.stop s >>= f) = .stop s := rfl
@[simp] theorem load_bind (i : Int) (k : F64 → GoM α) (f : α → GoM β) :
    (GoM.load i k >>= f) = .load i (fun v => k v >>= f) := rfl
@[simp] theorem store_bind (i : Int) (v : F64) (k : GoM α) (f : α → GoM β) :
    (GoM.store i v k >>= f) = .store i v (k >>= f) := rfl
@[simp] theorem ofRes_ok (a : α) : ofRes (.ok a) = .ret a := rfl
@[simp] theorem ofRes_err (t : String) : ofRes (.err t : Res α) = .stop (.err t) := rfl
@[simp] theorem ofRes_panic : ofRes (.panic : Res α) = .stop .panic := rfl
@[simp] theorem ofRes_hang : ofRes (.hang : Res α) = .stop .hang := rfl

protected theorem bind_assoc {γ : Type} (p : GoM α) (f : α → GoM β) (g : β → GoM γ) :
    (p >>= f) >>= g = p >>= fun a => f a >>= g := by
  induction p with
  | ret a => rfl
  | load i k ih => simp only [load_bind]; congr 1; funext v; exact ih v
  | store i v k ih => simp only [store_bind]; congr 1
  | stop s => rfl

protected theorem bind_ret (p : GoM α) : p >>= GoM.ret = p := by
  induction p with
  | ret a => rfl
  | load i k ih => simp only [load_bind]; congr 1; funext v; exact ih v
  | store i v k ih => simp only [store_bind]; congr 1
  | stop s => rfl

instance : LawfulMonad GoM.{0} := LawfulMonad.mk'
  (id_map := by intro α x; exact GoM.bind_ret x)
  (pure_bind := by intros; rfl)
  (bind_assoc := fun p f g => GoM.bind_assoc p f g)

/-- continue an outcome -/
def andThen (r : Res α × List F64) (f : α → GoM β) : Res β × List F64 :=
  match r with
  | (.ok a, m) => (f a).run m
  | (.err t, m) => (.err t, m)
  | (.panic, m) => (.panic, m)
  | (.hang, m) => (.hang, m)

@[simp] theorem andThen_ok (a : α) (m : List F64) (f : α → GoM β) : andThen (.ok a, m) f = (f a).run m := rfl
@[simp] theorem andThen_err (t : String) (m : List F64) (f : α → GoM β) : andThen (.err t, m) f = (.err t, m) := rfl
@[simp] theorem andThen_panic (m : List F64) (f : α → GoM β) : andThen (.panic, m) f = (.panic, m) := rfl
@[simp] theorem andThen_hang (m : List F64) (f : α → GoM β) : andThen (.hang, m) f = (.hang, m) := rfl

theorem run_bind (p : GoM α) (f : α → GoM β) (m : List F64) : (p >>= f).run m = andThen (p.run m) f := by
  induction p generalizing m with
  | ret a => rfl
  | load i k ih =>
    simp only [load_bind, run]
    split
    · exact ih _ _
    · rfl
  | store i v k ih =>
    simp only [store_bind, run]
    split
    · exact ih _
    · rfl
  | stop s => cases s <;> rfl

@[simp] theorem run_ret (a : α) (m : List F64) : (GoM.ret a).run m = (.ok a, m) := rfl

theorem run_ofRes (r : Res α) (m : List F64) : (ofRes r).run m = (r, m) := by cases r <;> rfl

theorem inRange_iff {i : Int} {n : Nat} : inRange i n = true ↔ 0 ≤ i ∧ i < n := by simp [inRange]

theorem run_get {i : Int} {m : List F64} (h : 0 ≤ i ∧ i < m.length) :
    (get i).run m = (.ok (m.getD i.toNat .zero), m) := by
  unfold get; rw [run, if_pos (inRange_iff.2 h)]; rfl

theorem run_set {i : Int} {v : F64} {m : List F64} (h : 0 ≤ i ∧ i < m.length) :
    (set i v).run m = (.ok ⟨⟩, m.set i.toNat v) := by
  unfold set; rw [run, if_pos (inRange_iff.2 h)]; rfl

theorem run_bind_ok {p : GoM α} {f : α → GoM β} {m m' : List F64} {b : β} :
    (p >>= f).run m = (.ok b, m') ↔ ∃ a m1, p.run m = (.ok a, m1) ∧ (f a).run m1 = (.ok b, m') := by
  rw [run_bind]
  rcases h : p.run m with ⟨r, m1⟩
  cases r <;> simp

/-- memory keeps its length -/
theorem run_length (p : GoM α) (m : List F64) : (p.run m).2.length = m.length := by
  induction p generalizing m with
  | ret a => rfl
  | load i k ih => rw [run]; split
                   · exact ih _ _
                   · rfl
  | store i v k ih => rw [run]; split
                      · rw [ih]; simp
                      · rfl
  | stop s => rfl

/-! ### footprints -/

/-- all accesses of the program lie in `[lo, hi)`, whatever values it loads -/
def Within (lo hi : Int) : GoM α → Prop
  | .ret _ => True
  | .load i k => lo ≤ i ∧ i < hi ∧ ∀ v, Within lo hi (k v)
  | .store i _ k => lo ≤ i ∧ i < hi ∧ Within lo hi k
  | .stop _ => True

theorem Within.bind {lo hi : Int} {p : GoM α} {f : α → GoM β} (hp : Within lo hi p) (hf : ∀ a, Within lo hi (f a)) :
    Within lo hi (p >>= f) := by
  induction p with
  | ret a => exact hf a
  | load i k ih => exact ⟨hp.1, hp.2.1, fun v => ih v (hp.2.2 v)⟩
  | store i v k ih => exact ⟨hp.1, hp.2.1, ih hp.2.2⟩
  | stop s => trivial

theorem Within.mono {lo hi lo' hi' : Int} {p : GoM α} (h1 : lo' ≤ lo) (h2 : hi ≤ hi') (hp : Within lo hi p) :
    Within lo' hi' p := by
  induction p with
  | ret a => trivial
  | load i k ih => exact ⟨h1.trans hp.1, lt_of_lt_of_le hp.2.1 h2, fun v => ih v (hp.2.2 v)⟩
  | store i v k ih => exact ⟨h1.trans hp.1, lt_of_lt_of_le hp.2.1 h2, ih hp.2.2⟩
  | stop s => trivial

theorem Within.ofRes {lo hi : Int} (r : Res α) : Within lo hi (ofRes r) := by cases r <;> trivial
theorem Within.get {lo hi i : Int} (h : lo ≤ i ∧ i < hi) : Within lo hi (get i) := ⟨h.1, h.2, fun _ => trivial⟩
theorem Within.set {lo hi i : Int} {v : F64} (h : lo ≤ i ∧ i < hi) : Within lo hi (set i v) := ⟨h.1, h.2, trivial⟩
theorem Within.ret {lo hi : Int} (a : α) : Within lo hi (GoM.ret a) := trivial

theorem Within.forRange {lo hi : Int} {body : Nat → GoM Unit} {s c : Nat}
    (h : ∀ k, s ≤ k → k < s + c → Within lo hi (body k)) : Within lo hi (forRange body s c) := by
  induction c generalizing s with
  | zero => trivial
  | succ c ih =>
    exact (h s (Nat.le_refl _) (by omega)).bind fun _ => ih fun k h1 h2 => h k (by omega) (by omega)

theorem Within.forState {σ : Type} {lo hi : Int} {body : Nat → σ → GoM σ} {s c : Nat} {st : σ}
    (h : ∀ k, s ≤ k → k < s + c → ∀ st, Within lo hi (body k st)) : Within lo hi (forState body s c st) := by
  induction c generalizing s st with
  | zero => trivial
  | succ c ih =>
    exact (h s (Nat.le_refl _) (by omega) st).bind fun _ => ih fun k h1 h2 => h k (by omega) (by omega)

/-- memories that agree on `[lo, hi)` -/
def Agree (lo hi : Int) (m m' : List F64) : Prop :=
  m.length = m'.length ∧ ∀ i : Nat, lo ≤ (i : Int) → (i : Int) < hi → m[i]? = m'[i]?

theorem Agree.refl (lo hi : Int) (m : List F64) : Agree lo hi m m := ⟨rfl, fun _ _ _ => rfl⟩
theorem Agree.symm {lo hi : Int} {m m' : List F64} (h : Agree lo hi m m') : Agree lo hi m' m :=
  ⟨h.1.symm, fun i h1 h2 => (h.2 i h1 h2).symm⟩
theorem Agree.trans {lo hi : Int} {m m' m'' : List F64} (h : Agree lo hi m m') (h' : Agree lo hi m' m'') :
    Agree lo hi m m'' := ⟨h.1.trans h'.1, fun i h1 h2 => (h.2 i h1 h2).trans (h'.2 i h1 h2)⟩
theorem Agree.mono {lo hi lo' hi' : Int} {m m' : List F64} (h1 : lo ≤ lo') (h2 : hi' ≤ hi) (h : Agree lo hi m m') :
    Agree lo' hi' m m' := ⟨h.1, fun i a b => h.2 i (by omega) (by omega)⟩

theorem Agree.set {lo hi : Int} {m m' : List F64} (h : Agree lo hi m m') (j : Nat) (v : F64) :
    Agree lo hi (m.set j v) (m'.set j v) := by
  refine ⟨by simp [h.1], fun i h1 h2 => ?_⟩
  rw [List.getElem?_set, List.getElem?_set, h.2 i h1 h2, h.1]

theorem Agree.set_out {lo hi : Int} (m : List F64) {j : Nat} (v : F64) (hj : (j : Int) < lo ∨ hi ≤ j) :
    Agree lo hi m (m.set j v) := by
  refine ⟨by simp, fun i h1 h2 => ?_⟩
  rw [List.getElem?_set_ne (by omega)]

/-- the frame rule: the outcome depends only on the footprint, and nothing else changes -/
theorem run_frame {lo hi : Int} (p : GoM α) (hp : Within lo hi p) {m m' : List F64} (h : Agree lo hi m m') :
    (p.run m).1 = (p.run m').1 ∧ Agree lo hi (p.run m).2 (p.run m').2 := by
  induction p generalizing m m' with
  | ret a => exact ⟨rfl, h⟩
  | load i k ih =>
    obtain ⟨h1, h2, h3⟩ := hp
    rw [run, run, h.1]
    split
    · rename_i hr
      rw [inRange_iff] at hr
      have : m.getD i.toNat .zero = m'.getD i.toNat .zero := by
        rw [List.getD_eq_getElem?_getD, List.getD_eq_getElem?_getD, h.2 i.toNat (by omega) (by omega)]
      rw [this]
      exact ih _ (h3 _) h
    · exact ⟨rfl, h⟩
  | store i v k ih =>
    obtain ⟨h1, h2, h3⟩ := hp
    rw [run, run, h.1]
    split
    · exact ih h3 (h.set _ _)
    · exact ⟨rfl, h⟩
  | stop s => exact ⟨rfl, h⟩

theorem run_out {lo hi : Int} (p : GoM α) (hp : Within lo hi p) (m : List F64) (i : Nat) (hi' : (i : Int) < lo ∨ hi ≤ i) :
    (p.run m).2[i]? = m[i]? := by
  induction p generalizing m with
  | ret a => rfl
  | load j k ih =>
    rw [run]; split
    · exact ih _ (hp.2.2 _) m
    · rfl
  | store j v k ih =>
    rw [run]; split
    · rename_i hr
      rw [inRange_iff] at hr
      rw [ih hp.2.2, List.getElem?_set_ne (by have := hp.1; have := hp.2.1; omega)]
    · rfl
  | stop s => rfl

/-! ### shifting all indices -/

/-- the program with all its indices moved by `d` -/
def shift (d : Int) : GoM α → GoM α
  | .ret a => .ret a
  | .load i k => .load (d + i) (fun v => shift d (k v))
  | .store i v k => .store (d + i) v (shift d k)
  | .stop s => .stop s

theorem shift_bind (d : Int) (p : GoM α) (f : α → GoM β) : shift d (p >>= f) = shift d p >>= fun a => shift d (f a) := by
  induction p with
  | ret a => rfl
  | load i k ih => simp only [load_bind, shift]; congr 1; funext v; exact ih v
  | store i v k ih => simp only [store_bind, shift]; congr 1
  | stop s => rfl

@[simp] theorem shift_ofRes (d : Int) (r : Res α) : shift d (ofRes r) = ofRes r := by cases r <;> rfl
@[simp] theorem shift_get (d i : Int) : shift d (get i) = get (d + i) := rfl
@[simp] theorem shift_set (d i : Int) (v : F64) : shift d (set i v) = set (d + i) v := rfl
@[simp] theorem shift_ret (d : Int) (a : α) : shift d (GoM.ret a) = .ret a := rfl

theorem shift_forRange (d : Int) (body : Nat → GoM Unit) (s c : Nat) :
    shift d (forRange body s c) = forRange (fun k => shift d (body k)) s c := by
  induction c generalizing s with
  | zero => rfl
  | succ c ih => rw [forRange, forRange, shift_bind]; congr 1; funext _; exact ih _

/-- a shifted program works on its window as the program does on a slice of its own -/
theorem run_shift (p : GoM α) (w : List F64) (hp : Within 0 w.length p) (pre post : List F64) :
    (shift pre.length p).run (pre ++ w ++ post) = ((p.run w).1, pre ++ (p.run w).2 ++ post) := by
  induction p generalizing w with
  | ret a => rfl
  | load i k ih =>
    obtain ⟨h1, h2, h3⟩ := hp
    rw [shift, run, run, if_pos (inRange_iff.2 ⟨by omega, by simp; omega⟩), if_pos (inRange_iff.2 ⟨h1, h2⟩)]
    have : (pre ++ w ++ post).getD ((pre.length : Int) + i).toNat .zero = w.getD i.toNat .zero := by
      rw [List.getD_eq_getElem?_getD, List.getD_eq_getElem?_getD,
        show ((pre.length : Int) + i).toNat = pre.length + i.toNat by omega, List.append_assoc,
        List.getElem?_append_right (by omega), Nat.add_sub_cancel_left, List.getElem?_append_left (by omega)]
    rw [this]
    exact ih _ w (h3 _)
  | store i v k ih =>
    obtain ⟨h1, h2, h3⟩ := hp
    rw [shift, run, run, if_pos (inRange_iff.2 ⟨by omega, by simp; omega⟩), if_pos (inRange_iff.2 ⟨h1, h2⟩)]
    have : (pre ++ w ++ post).set ((pre.length : Int) + i).toNat v = pre ++ w.set i.toNat v ++ post := by
      rw [show ((pre.length : Int) + i).toNat = pre.length + i.toNat by omega, List.append_assoc,
        List.set_append_right _ _ (by omega), Nat.add_sub_cancel_left, List.set_append_left _ _ (by omega),
        List.append_assoc]
    rw [this]
    exact ih _ (by simpa using h3)
  | stop s => rfl

/-! ### loops over a vector -/

/-- the vector of the first `n` values of `a` -/
def vec (n : Nat) (a : Nat → F64) : List F64 := (List.range n).map a

@[simp] theorem vec_length (n : Nat) (a : Nat → F64) : (vec n a).length = n := by simp [vec]

theorem vec_getElem? {n : Nat} {a : Nat → F64} {k : Nat} (h : k < n) : (vec n a)[k]? = some (a k) := by
  simp [vec, h]

theorem vec_getD {n : Nat} {a : Nat → F64} {k : Nat} (h : k < n) (d : F64) : (vec n a).getD k d = a k := by
  rw [List.getD_eq_getElem?_getD, vec_getElem? h]; rfl

theorem vec_set (n : Nat) (a : Nat → F64) (k : Nat) (v : F64) : (vec n a).set k v = vec n (Function.update a k v) := by
  apply List.ext_getElem?
  intro i
  rw [List.getElem?_set]
  by_cases hi : i < n
  · rw [vec_getElem? (a := Function.update a k v) hi]
    by_cases hk : k = i
    · subst hk; simp [hi]
    · simp [hk, vec_getElem? hi, Function.update_of_ne (Ne.symm hk)]
  · have h1 : (vec n a)[i]? = none := List.getElem?_eq_none (by simp; omega)
    have h2 : (vec n (Function.update a k v))[i]? = none := List.getElem?_eq_none (by simp; omega)
    rw [h1, h2]; simp; omega

theorem vec_congr {n : Nat} {a b : Nat → F64} (h : ∀ k < n, a k = b k) : vec n a = vec n b := by
  unfold vec; apply List.map_congr_left; intro k hk; exact h k (List.mem_range.1 hk)

theorem exists_vec (m : List F64) : ∃ a, m = vec m.length a := by
  refine ⟨fun k => m.getD k .zero, ?_⟩
  apply List.ext_getElem?
  intro i
  by_cases hi : i < m.length
  · rw [vec_getElem? hi, List.getD_eq_getElem?_getD, List.getElem?_eq_getElem hi]; rfl
  · rw [List.getElem?_eq_none (by omega), List.getElem?_eq_none (by simp; omega)]

/-- a loop whose iterations update one cell each -/
theorem run_forRange_cells {n : Nat} (body : Nat → GoM Unit) (g : Nat → F64 → F64) :
    ∀ (c s : Nat) (a : Nat → F64), s + c ≤ n →
      (∀ k, s ≤ k → k < s + c → ∀ a, (body k).run (vec n a) = (.ok ⟨⟩, vec n (Function.update a k (g k (a k))))) →
      (forRange body s c).run (vec n a) =
        (.ok ⟨⟩, vec n fun k => if s ≤ k ∧ k < s + c then g k (a k) else a k) := by
  intro c
  induction c with
  | zero =>
    intro s a _ _
    rw [forRange, run_ret]
    congr 1
    apply vec_congr
    intro k _
    rw [if_neg (by omega)]
  | succ c ih =>
    intro s a hn hb
    rw [forRange, run_bind, hb s (Nat.le_refl _) (by omega), andThen_ok,
      ih (s + 1) _ (by omega) (fun k h1 h2 => hb k (by omega) (by omega))]
    congr 1
    apply vec_congr
    intro k _
    by_cases hk : k = s
    · subst hk
      rw [if_neg (by omega), if_pos (by omega)]; simp
    · rw [Function.update_of_ne hk]
      by_cases h : s + 1 ≤ k ∧ k < s + 1 + c
      · rw [if_pos h, if_pos (by omega)]
      · rw [if_neg h, if_neg (by omega)]

/-- the whole vector -/
theorem run_forRange_vec {n : Nat} (body : Nat → GoM Unit) (g : Nat → F64 → F64) (a : Nat → F64)
    (hb : ∀ k, k < n → ∀ a, (body k).run (vec n a) = (.ok ⟨⟩, vec n (Function.update a k (g k (a k))))) :
    (forRange body 0 n).run (vec n a) = (.ok ⟨⟩, vec n fun k => g k (a k)) := by
  rw [run_forRange_cells body g n 0 a (by omega) (fun k _ h => hb k (by omega))]
  congr 1
  apply vec_congr
  intro k hk
  rw [if_pos (by omega)]

/-- fold over `start, start+1, …, start+count-1` -/
def foldRange {σ : Type} (f : Nat → σ → σ) : (start count : Nat) → σ → σ
  | _, 0, a => a
  | s, c + 1, a => foldRange f (s + 1) c (f s a)

/-- a loop of vector updates -/
theorem run_forRange_fold {n : Nat} (body : Nat → GoM Unit) (f : Nat → Nat → F64 → F64) :
    ∀ (c s : Nat) (a : Nat → F64),
      (∀ i, s ≤ i → i < s + c → ∀ a, (body i).run (vec n a) = (.ok ⟨⟩, vec n fun k => f i k (a k))) →
      (forRange body s c).run (vec n a) = (.ok ⟨⟩, vec n fun k => foldRange (fun i => f i k) s c (a k)) := by
  intro c
  induction c with
  | zero => intro s a _; rfl
  | succ c ih =>
    intro s a hb
    rw [forRange, run_bind, hb s (Nat.le_refl _) (by omega), andThen_ok,
      ih (s + 1) _ (fun k h1 h2 => hb k (by omega) (by omega))]
    rfl

/-- if a loop returns normally, so does every iteration (from some memory of the same length) -/
theorem forRange_ok {body : Nat → GoM Unit} : ∀ {c s : Nat} {m m' : List F64},
    (forRange body s c).run m = (.ok ⟨⟩, m') → ∀ k, s ≤ k → k < s + c →
      ∃ m1 m2, m1.length = m.length ∧ (body k).run m1 = (.ok ⟨⟩, m2) := by
  intro c
  induction c with
  | zero => intro s m m' _ k h1 h2; omega
  | succ c ih =>
    intro s m m' h k h1 h2
    rw [forRange, run_bind_ok] at h
    obtain ⟨_, m1, hb, hr⟩ := h
    by_cases hk : k = s
    · subst hk; exact ⟨m, m1, rfl, hb⟩
    · obtain ⟨m2, m3, hl, hm⟩ := ih hr k (by omega) (by omega)
      refine ⟨m2, m3, ?_, hm⟩
      rw [hl]
      have := run_length (body s) m
      rw [hb] at this
      exact this

theorem forRange_add (body : Nat → GoM Unit) (s a b : Nat) :
    forRange body s (a + b) = forRange body s a >>= fun _ => forRange body (s + a) b := by
  induction a generalizing s with
  | zero => simp [forRange]
  | succ a ih =>
    rw [show a + 1 + b = (a + b) + 1 by omega, forRange, forRange, GoM.bind_assoc]
    congr 1
    funext _
    rw [ih, show s + 1 + a = s + (a + 1) by omega]

theorem forState_add {σ : Type} (body : Nat → σ → GoM σ) (s a b : Nat) (st : σ) :
    forState body s (a + b) st = forState body s a st >>= fun st => forState body (s + a) b st := by
  induction a generalizing s st with
  | zero => simp [forState]
  | succ a ih =>
    rw [show a + 1 + b = (a + b) + 1 by omega, forState, forState, GoM.bind_assoc]
    congr 1
    funext st'
    rw [ih, show s + 1 + a = s + (a + 1) by omega]

end GoM
end Leaves
