import Verif.Proofs.Ensemble

/-! `predictInnerAndTransform` and `Predict` compute the specified output, on any window of any slice. -/

namespace Leaves

open Spec GoM

/-! ### every kind of model -/

theorem lin_numFeature {P : Platform} {e : XgLinear} {fvals : List F64} {G : Nat} (hG : e.nRawOutputGroups = G)
    (hG0 : 0 < G) {n : Int} {m m' : List F64} (h : (e.predictInner P fvals n 0).run m = (.ok ⟨⟩, m')) :
    ∃ F : Nat, e.numFeature = F := by
  unfold XgLinear.predictInner at h
  rw [hG, Int.toNat_natCast] at h
  obtain ⟨m2, m3, _, h2⟩ := forRange_ok h 0 (Nat.zero_le _) (by omega)
  rw [run_bind_ok] at h2
  obtain ⟨b, m4, hb, h2⟩ := h2
  rw [run_ofRes] at hb
  have hb := (Prod.mk.inj hb).1
  by_cases hn : 0 ≤ e.numFeature
  · exact ⟨e.numFeature.toNat, by omega⟩
  · exfalso
    have h1 : (G : Int) * e.numFeature < 0 := Int.mul_neg_of_pos_of_neg (by omega) (by omega)
    unfold Res.idxI at hb
    rw [if_pos (by simpa using h1)] at hb
    cases hb

theorem raw_local {P : Platform} {b : Base} {fvals : List F64} {G n : Nat} (hG : b.nRawOutputGroups = G) (hG0 : 0 < G)
    {w0 w : List F64} (hw : w0.length = G) :
    (b.predictInner P fvals n 0).run w0 = (.ok ⟨⟩, w) ↔ IsRaw P b fvals n w := by
  obtain ⟨a, ha⟩ := exists_vec w0
  rw [hw] at ha
  subst ha
  induction b with
  | wrap b t ih => exact ih hG
  | lg e =>
    have hG' : e.nRawOutputGroups = G := hG
    show (e.predictInner P fvals n 0).run _ = _ ↔ ∃ _, _
    constructor
    · intro h
      obtain ⟨v, hv⟩ := lg_inner_conv hG' h
      rw [lg_inner_run hG' hv] at h
      exact ⟨G, v, hG', hv, (Prod.mk.inj h).2.symm⟩
    · rintro ⟨G', v, hg, hv, rfl⟩
      have : G' = G := by omega
      subst this
      exact lg_inner_run hG' hv a
  | xg e =>
    have hG' : e.nRawOutputGroups = G := hG
    show (e.predictInner P fvals n 0).run _ = _ ↔ ∃ _, _
    constructor
    · intro h
      obtain ⟨v, c, hv, hc⟩ := xg_inner_conv hG' h
      rw [xg_inner_run hG' hv hc] at h
      exact ⟨G, v, c, hG', hv, hc, (Prod.mk.inj h).2.symm⟩
    · rintro ⟨G', v, c, hg, hv, hc, rfl⟩
      have : G' = G := by omega
      subst this
      exact xg_inner_run hG' hv hc a
  | lin e =>
    have hG' : e.nRawOutputGroups = G := hG
    show (e.predictInner P fvals n 0).run _ = _ ↔ ∃ _, _
    constructor
    · intro h
      obtain ⟨F, hF⟩ := lin_numFeature hG' hG0 h
      obtain ⟨x, c, bias, hx, hc, hb⟩ := lin_inner_conv hG' hG0 hF h
      rw [lin_inner_run hG' hF hx hc hb] at h
      exact ⟨G, F, x, c, bias, hG', hF, hx, hc, hb, (Prod.mk.inj h).2.symm⟩
    · rintro ⟨G', F, x, c, bias, hg, hF, hx, hc, hb, rfl⟩
      have : G' = G := by omega
      subst this
      exact lin_inner_run hG' hF hx hc hb n a

theorem raw_within (P : Platform) {b : Base} (fvals : List F64) {G : Nat} (n : Int) (hG : b.nRawOutputGroups = G) :
    Within 0 G (b.predictInner P fvals n 0) := by
  induction b with
  | wrap b t ih => exact ih hG
  | lg e => exact lg_inner_within P fvals n hG
  | xg e => exact xg_inner_within P fvals n hG
  | lin e => exact lin_inner_within P fvals n hG

theorem raw_shift (P : Platform) (b : Base) (fvals : List F64) (n s : Int) :
    b.predictInner P fvals n s = shift s (b.predictInner P fvals n 0) := by
  induction b with
  | wrap b t ih => exact ih
  | lg e => exact lg_inner_shift P e fvals n s
  | xg e => exact xg_inner_shift P e fvals n s
  | lin e => exact lin_inner_shift P e fvals n s

theorem IsRaw.length {P : Platform} {b : Base} {fvals : List F64} {G n : Nat} (hG : b.nRawOutputGroups = G)
    {w : List F64} (h : IsRaw P b fvals n w) : w.length = G := by
  induction b with
  | wrap b t ih => exact ih hG h
  | lg e =>
    obtain ⟨G', v, hg, _, rfl⟩ := h
    have hG' : e.nRawOutputGroups = G := hG
    simp; omega
  | xg e =>
    obtain ⟨G', v, c, hg, _, _, rfl⟩ := h
    have hG' : e.nRawOutputGroups = G := hG
    simp; omega
  | lin e =>
    obtain ⟨G', F, x, c, bias, hg, _, _, _, _, rfl⟩ := h
    have hG' : e.nRawOutputGroups = G := hG
    simp; omega

theorem leaf_local_aux {P : Platform} {trees : List LgTree} {fvals : List F64} {G n : Nat}
    {w0 w : List F64} (hw : w0.length = G * n) :
    (leafIndicesInner P trees G fvals n 0).run w0 = (.ok ⟨⟩, w) ↔ ∃ l, TreeLeaves P trees G n fvals l ∧
      w.length = G * n ∧ ∀ i < n, ∀ k < G, w[k * n + i]? = some (F64.ofNat (l i k)) := by
  obtain ⟨a, ha⟩ := exists_vec w0
  rw [hw] at ha
  subst ha
  constructor
  · intro h
    obtain ⟨l, hl⟩ := leaf_inner_conv h
    obtain ⟨b, hb, hb'⟩ := leaf_inner_run hl a
    rw [hb] at h
    have h := (Prod.mk.inj h).2
    subst h
    refine ⟨l, hl, by simp, fun i hi k hk => ?_⟩
    rw [vec_getElem? (cell_lt hk hi), hb' i hi k hk]
  · rintro ⟨l, hl, hlen, hv⟩
    obtain ⟨b, hb, hb'⟩ := leaf_inner_run hl a
    rw [hb]
    congr 1
    apply List.ext_getElem?
    intro j
    by_cases hj : j < G * n
    · have hn : 0 < n := by
        rcases Nat.eq_zero_or_pos n with h0 | h0
        · subst h0; simp at hj
        · exact h0
      have h1 : j % n < n := Nat.mod_lt _ hn
      have h2 : j / n < G := Nat.div_lt_of_lt_mul (by rw [Nat.mul_comm]; exact hj)
      have h3 : j / n * n + j % n = j := by rw [Nat.mul_comm]; exact Nat.div_add_mod j n
      have := hv _ h1 _ h2
      rw [h3] at this
      rw [this, vec_getElem? hj, ← h3, hb' _ h1 _ h2, h3]
    · rw [List.getElem?_eq_none (by simp; omega), List.getElem?_eq_none (by omega)]

theorem leaf_local {P : Platform} {b : Base} {fvals : List F64} {G n : Nat} (hG : b.nRawOutputGroups = G)
    (hb : ∀ l, core b ≠ .lin l) {w0 w : List F64} (hw : w0.length = G * n) :
    (b.predictLeafIndicesInner P fvals n 0).run w0 = (.ok ⟨⟩, w) ↔ IsLeafVec P b fvals n w := by
  induction b with
  | wrap b t ih => exact ih hG hb
  | lg e =>
    have hG' : e.nRawOutputGroups = G := hG
    show (leafIndicesInner P e.trees e.nRawOutputGroups fvals n 0).run _ = _ ↔ ∃ _, _
    rw [hG', leaf_local_aux hw]
    constructor
    · rintro ⟨l, h⟩; exact ⟨G, l, rfl, h⟩
    · rintro ⟨G', l, hg, h⟩
      have : G' = G := by omega
      subst this
      exact ⟨l, h⟩
  | xg e =>
    have hG' : e.nRawOutputGroups = G := hG
    show (leafIndicesInner P e.trees e.nRawOutputGroups fvals n 0).run _ = _ ↔ ∃ _, _
    rw [hG', leaf_local_aux hw]
    constructor
    · rintro ⟨l, h⟩; exact ⟨G, l, rfl, h⟩
    · rintro ⟨G', l, hg, h⟩
      have : G' = G := by omega
      subst this
      exact ⟨l, h⟩
  | lin e => exact absurd rfl (hb e)

theorem leaf_within (P : Platform) {b : Base} (fvals : List F64) {G n : Nat} (hG : b.nRawOutputGroups = G) :
    Within 0 (G * n : Nat) (b.predictLeafIndicesInner P fvals n 0) := by
  induction b with
  | wrap b t ih => exact ih hG
  | lg e =>
    have hG' : e.nRawOutputGroups = G := hG
    show Within _ _ (leafIndicesInner P e.trees e.nRawOutputGroups fvals n 0)
    rw [hG']; exact leaf_inner_within P _ fvals G n
  | xg e =>
    have hG' : e.nRawOutputGroups = G := hG
    show Within _ _ (leafIndicesInner P e.trees e.nRawOutputGroups fvals n 0)
    rw [hG']; exact leaf_inner_within P _ fvals G n
  | lin e => trivial

theorem leaf_shift (P : Platform) (b : Base) (fvals : List F64) (n s : Int) :
    b.predictLeafIndicesInner P fvals n s = shift s (b.predictLeafIndicesInner P fvals n 0) := by
  induction b with
  | wrap b t ih => exact ih
  | lg e => exact leaf_inner_shift P _ fvals _ n s
  | xg e => exact leaf_inner_shift P _ fvals _ n s
  | lin e => rfl

theorem IsLeafVec.length {P : Platform} {b : Base} {fvals : List F64} {G n : Nat} (hG : b.nRawOutputGroups = G)
    {w : List F64} (h : IsLeafVec P b fvals n w) : w.length = G * n := by
  induction b with
  | wrap b t ih => exact ih hG h
  | lg e =>
    obtain ⟨G', l, hg, _, hl, _⟩ := h
    have hG' : e.nRawOutputGroups = G := hG
    rw [hl]; congr 1; omega
  | xg e =>
    obtain ⟨G', l, hg, _, hl, _⟩ := h
    have hG' : e.nRawOutputGroups = G := hG
    rw [hl]; congr 1; omega
  | lin e => exact h.elim

/-! ### transformations -/

theorem copyLoop_shift (s : Int) (w : List F64) (i : Nat) :
    Transform.copyLoop s i w = shift s (Transform.copyLoop 0 i w) := by
  induction w generalizing i with
  | nil => rfl
  | cons v w ih =>
    simp only [Transform.copyLoop, shift_bind, shift_set, Int.zero_add]
    congr 1
    funext _
    exact ih _

theorem copyLoop_within (w : List F64) (i : Nat) : Within 0 (i + w.length) (Transform.copyLoop 0 i w) := by
  induction w generalizing i with
  | nil => trivial
  | cons v w ih =>
    refine Within.bind (Within.set (by simp)) fun _ => ?_
    have := ih (i + 1)
    exact this.mono (Int.le_refl _) (by simp; omega)

theorem copyLoop_run (w : List F64) (pre post : List F64) (h : post.length = w.length) :
    (Transform.copyLoop 0 pre.length w).run (pre ++ post) = (.ok ⟨⟩, pre ++ w) := by
  induction w generalizing pre post with
  | nil => rw [List.length_eq_zero_iff.1 h]; rfl
  | cons v w ih =>
    obtain ⟨x, post, rfl⟩ : ∃ x p, post = x :: p := by
      cases post with
      | nil => simp at h
      | cons x p => exact ⟨x, p, rfl⟩
    rw [Transform.copyLoop, run_bind, run_set (by simp), andThen_ok, Int.zero_add, Int.toNat_natCast,
      List.set_append_right _ _ (Nat.le_refl _), Nat.sub_self, List.set_cons_zero]
    have := ih (pre ++ [v]) post (by simpa using h)
    simpa using this

theorem softmaxFill_shift (P : Platform) (s : Int) (w : List F64) (i : Nat) (sum : F64) :
    Transform.softmaxFill P s i w sum = shift s (Transform.softmaxFill P 0 i w sum) := by
  induction w generalizing i sum with
  | nil => rfl
  | cons v w ih =>
    simp only [Transform.softmaxFill, shift_bind, shift_set, Int.zero_add]
    congr 1
    funext _
    exact ih _ _

theorem softmaxFill_within (P : Platform) (w : List F64) (i : Nat) (sum : F64) :
    Within 0 (i + w.length) (Transform.softmaxFill P 0 i w sum) := by
  induction w generalizing i sum with
  | nil => trivial
  | cons v w ih =>
    refine Within.bind (Within.set (by simp)) fun _ => ?_
    have := ih (i + 1) (F64.add sum (P.exp v))
    exact this.mono (Int.le_refl _) (by simp; omega)

theorem softmaxFill_run (P : Platform) (w : List F64) (pre post : List F64) (sum : F64) (h : post.length = w.length) :
    (Transform.softmaxFill P 0 pre.length w sum).run (pre ++ post) =
      (.ok ((w.map P.exp).foldl F64.add sum), pre ++ w.map P.exp) := by
  induction w generalizing pre post sum with
  | nil => rw [List.length_eq_zero_iff.1 h]; rfl
  | cons v w ih =>
    obtain ⟨x, post, rfl⟩ : ∃ x p, post = x :: p := by
      cases post with
      | nil => simp at h
      | cons x p => exact ⟨x, p, rfl⟩
    rw [Transform.softmaxFill, run_bind, run_set (by simp), andThen_ok, Int.zero_add, Int.toNat_natCast,
      List.set_append_right _ _ (Nat.le_refl _), Nat.sub_self, List.set_cons_zero]
    have := ih (pre ++ [P.exp v]) post (F64.add sum (P.exp v)) (by simpa using h)
    simpa using this

theorem softmaxSlice_shift (P : Platform) (s : Int) (w : List F64) :
    Transform.softmaxSlice P w s = shift s (Transform.softmaxSlice P w 0) := by
  unfold Transform.softmaxSlice
  rw [softmaxFill_shift, shift_bind]
  congr 1
  funext sum
  split
  · simp only [shift_forRange, shift_bind, shift_get, shift_set, Int.zero_add]
  · rfl

theorem softmaxSlice_within (P : Platform) (w : List F64) : Within 0 w.length (Transform.softmaxSlice P w 0) := by
  unfold Transform.softmaxSlice
  have := softmaxFill_within P w 0 F64.zero
  refine Within.bind (this.mono (Int.le_refl _) (by simp)) fun sum => ?_
  dsimp only
  split
  · exact Within.forRange fun k _ hk => Within.bind (Within.get (by omega)) fun _ => Within.set (by omega)
  · trivial

theorem softmaxSlice_run (P : Platform) (w w0 : List F64) (h : w0.length = w.length) :
    (Transform.softmaxSlice P w 0).run w0 = (.ok ⟨⟩, softmaxOf P w) := by
  unfold Transform.softmaxSlice softmaxOf
  have := softmaxFill_run P w [] w0 F64.zero h
  simp only [List.nil_append, List.length_nil] at this
  rw [run_bind, this, andThen_ok]
  dsimp only
  cases hs : F64.feq (List.foldl F64.add F64.zero (List.map P.exp w)) F64.zero
  · rw [if_pos (by rfl), if_neg (by simp)]
    obtain ⟨a, ha⟩ := exists_vec (w.map P.exp)
    rw [ha]
    simp only [List.length_map]
    rw [run_forRange_vec (n := w.length) _
      (fun _ y => F64.mul y (F64.div F64.one (List.foldl F64.add F64.zero (vec w.length a))))]
    · congr 1
      simp [vec]
    · intro k hk a'
      rw [run_bind, get_cell hk, andThen_ok, set_cell hk]
  · rw [if_neg (by simp), if_pos (by rfl)]
    rfl

theorem apply_shift (P : Platform) (t : Transform) (w : List F64) (s : Int) :
    t.apply P w s = shift s (t.apply P w 0) := by
  cases t with
  | raw n => simp only [Transform.apply]; rw [copyLoop_shift, shift_bind]; rfl
  | leafIndex n => simp only [Transform.apply]; rw [copyLoop_shift, shift_bind]; rfl
  | logistic =>
    match w with
    | [] => rfl
    | [x] => simp [Transform.apply, shift_bind]
    | _ :: _ :: _ => rfl
  | exponential =>
    match w with
    | [] => rfl
    | [x] => simp [Transform.apply, shift_bind]
    | _ :: _ :: _ => rfl
  | softmax n =>
    simp only [Transform.apply]
    split
    · rfl
    · rw [softmaxSlice_shift, shift_bind]; rfl

theorem apply_within (P : Platform) (t : Transform) (w : List F64) : Within 0 w.length (t.apply P w 0) := by
  cases t with
  | raw n =>
    exact Within.bind (by have := copyLoop_within w 0; exact this.mono (Int.le_refl _) (by simp)) fun _ => trivial
  | leafIndex n =>
    exact Within.bind (by have := copyLoop_within w 0; exact this.mono (Int.le_refl _) (by simp)) fun _ => trivial
  | logistic =>
    match w with
    | [] => trivial
    | [x] => exact ⟨by simp, by simp, trivial⟩
    | _ :: _ :: _ => trivial
  | exponential =>
    match w with
    | [] => trivial
    | [x] => exact ⟨by simp, by simp, trivial⟩
    | _ :: _ :: _ => trivial
  | softmax n =>
    simp only [Transform.apply]
    split
    · trivial
    · exact Within.bind (softmaxSlice_within P w) fun _ => trivial

/-- a transformation that fits stores its result -/
theorem apply_run {P : Platform} {t : Transform} {w out : List F64} (h : IsTransformed P t w out) {w0 : List F64}
    (hw : w0.length = w.length) : (t.apply P w 0).run w0 = (.ok true, out) := by
  cases t with
  | raw n =>
    have hr := copyLoop_run w [] w0 hw
    simp only [List.nil_append, List.length_nil] at hr
    show (Transform.copyLoop 0 0 w >>= _).run w0 = _
    rw [run_bind, hr, show out = w from h]; rfl
  | leafIndex n =>
    have hr := copyLoop_run w [] w0 hw
    simp only [List.nil_append, List.length_nil] at hr
    show (Transform.copyLoop 0 0 w >>= _).run w0 = _
    rw [run_bind, hr, show out = w from h]; rfl
  | logistic =>
    obtain ⟨x, rfl, rfl⟩ := h
    obtain ⟨y, rfl⟩ := List.length_eq_one_iff.1 hw
    rfl
  | exponential =>
    obtain ⟨x, rfl, rfl⟩ := h
    obtain ⟨y, rfl⟩ := List.length_eq_one_iff.1 hw
    rfl
  | softmax n =>
    obtain ⟨h1, rfl⟩ := h
    simp only [Transform.apply]
    rw [if_neg (by omega), run_bind, softmaxSlice_run P w w0 hw]
    rfl

theorem IsTransformed.length {P : Platform} {t : Transform} {w out : List F64} (h : IsTransformed P t w out) :
    out.length = w.length := by
  cases t with
  | raw n => rw [show out = w from h]
  | leafIndex n => rw [show out = w from h]
  | logistic => obtain ⟨x, rfl, rfl⟩ := h; rfl
  | exponential => obtain ⟨x, rfl, rfl⟩ := h; rfl
  | softmax n =>
    obtain ⟨_, rfl⟩ := h
    unfold softmaxOf
    dsimp only
    split <;> simp

theorem IsTransformed.exists_of {P : Platform} {e : Ensemble} (hf : Fits e) {w : List F64}
    (hw : (w.length : Int) = e.base.nRawOutputGroups) : ∃ out, IsTransformed P e.transform w out := by
  obtain ⟨G, total, hG, hG0, _, ht⟩ := hf
  obtain ⟨b, t⟩ := e
  have hl : w.length = G := by simp only at hG hw; omega
  cases t with
  | raw n => exact ⟨w, rfl⟩
  | leafIndex n => exact ⟨w, rfl⟩
  | logistic =>
    have ht : G = 1 := ht
    subst ht
    obtain ⟨x, rfl⟩ := List.length_eq_one_iff.1 hl
    exact ⟨_, x, rfl, rfl⟩
  | exponential =>
    have ht : G = 1 := ht
    subst ht
    obtain ⟨x, rfl⟩ := List.length_eq_one_iff.1 hl
    exact ⟨_, x, rfl, rfl⟩
  | softmax n =>
    have ht : n = G := ht
    exact ⟨_, by omega, rfl⟩

theorem IsTransformed.unique {P : Platform} {t : Transform} {w out out' : List F64} (h : IsTransformed P t w out)
    (h' : IsTransformed P t w out') : out = out' := by
  have h1 := apply_run h (w0 := w) rfl
  have h2 := apply_run h' (w0 := w) rfl
  rw [h1] at h2
  exact (Prod.mk.inj h2).2

/-! ### predictInnerAndTransform -/

theorem runLocal_ok {α : Type} {p : GoM α} {m m' : List F64} : p.runLocal m = .ok m' ↔ ∃ a, p.run m = (.ok a, m') := by
  unfold runLocal
  rcases p.run m with ⟨r, m1⟩
  cases r <;> simp

theorem Within.ofRes_bind {α β : Type} {lo hi : Int} {r : Res α} {f : α → GoM β} (h : ∀ a, r = .ok a → Within lo hi (f a)) :
    Within lo hi (ofRes r >>= f) := by
  cases r with
  | ok a => exact h a rfl
  | err t => trivial
  | panic => trivial
  | hang => trivial

/-- number of values stored with `n` estimators by a model with `G` raw scores -/
def width (e : Ensemble) (G n : Nat) : Nat :=
  match e.transform with
  | .leafIndex _ => G * n
  | _ => G

theorem pit_raw {P : Platform} {b : Base} {k : Int} (fvals : List F64) (n s : Int) :
    (Ensemble.mk b (.raw k)).predictInnerAndTransform P fvals n s = b.predictInner P fvals n s := rfl

theorem pit_leaf {P : Platform} {b : Base} {k : Int} (fvals : List F64) (n s : Int) :
    (Ensemble.mk b (.leafIndex k)).predictInnerAndTransform P fvals n s = b.predictLeafIndicesInner P fvals n s := rfl

/-- the transformations other than raw and leaf index -/
def Transform.proper : Transform → Prop
  | .raw _ => False
  | .leafIndex _ => False
  | _ => True

theorem pit_proper {P : Platform} {b : Base} {t : Transform} (ht : t.proper) (fvals : List F64) (n s : Int) :
    (Ensemble.mk b t).predictInnerAndTransform P fvals n s = (do
      let init ← ofRes (makeSlice b.nRawOutputGroups F64.zero)
      let rawPredictions ← ofRes ((b.predictInner P fvals n 0).runLocal init)
      let _ ← t.apply P rawPredictions s
      return ⟨⟩) := by
  cases t with
  | raw _ => exact ht.elim
  | leafIndex _ => exact ht.elim
  | logistic => rfl
  | exponential => rfl
  | softmax n => rfl

theorem output_proper {P : Platform} {b : Base} {t : Transform} (ht : t.proper) {fvals : List F64} {n : Nat} {out : List F64} :
    IsOutput P ⟨b, t⟩ fvals n out ↔ ∃ w, IsRaw P b fvals n w ∧ IsTransformed P t w out := by
  cases t with
  | raw _ => exact ht.elim
  | leafIndex _ => exact ht.elim
  | logistic => rfl
  | exponential => rfl
  | softmax n => rfl

theorem width_proper {b : Base} {t : Transform} (ht : t.proper) (G n : Nat) : width ⟨b, t⟩ G n = G := by
  cases t with
  | raw _ => exact ht.elim
  | leafIndex _ => exact ht.elim
  | logistic => rfl
  | exponential => rfl
  | softmax n => rfl

theorem makeSlice_ok {α : Type} {n : Nat} (a : α) : makeSlice (n : Int) a = .ok (List.replicate n a) := by
  unfold makeSlice
  rw [if_neg (by omega), Int.toNat_natCast]

theorem pit_shift (P : Platform) (e : Ensemble) (fvals : List F64) (n s : Int) :
    e.predictInnerAndTransform P fvals n s = shift s (e.predictInnerAndTransform P fvals n 0) := by
  unfold Ensemble.predictInnerAndTransform
  split
  · exact raw_shift ..
  · split
    · exact leaf_shift ..
    · simp only [shift_bind, shift_ofRes]
      congr 1
      funext init
      congr 1
      funext w
      rw [apply_shift]
      rfl

theorem pit_within (P : Platform) {e : Ensemble} (fvals : List F64) {G : Nat} (n : Nat) (hG : e.base.nRawOutputGroups = G) :
    Within 0 (width e G n) (e.predictInnerAndTransform P fvals n 0) := by
  obtain ⟨b, t⟩ := e
  simp only at hG
  by_cases hp : t.proper
  · rw [width_proper hp, pit_proper hp, hG, makeSlice_ok]
    refine Within.ofRes_bind fun _ h => ?_
    cases h
    refine Within.ofRes_bind fun w h => ?_
    obtain ⟨_, h⟩ := runLocal_ok.1 h
    have hl := run_length (b.predictInner P fvals n 0) (List.replicate G F64.zero)
    rw [h] at hl
    simp only [List.length_replicate] at hl
    rw [← hl]
    exact Within.bind (apply_within P t w) fun _ => trivial
  · cases t with
    | raw k => exact raw_within P fvals n hG
    | leafIndex k => exact leaf_within P fvals hG
    | _ => exact absurd trivial hp

theorem output_length {P : Platform} {e : Ensemble} {fvals : List F64} {G n : Nat} (hG : e.base.nRawOutputGroups = G)
    {out : List F64} (h : IsOutput P e fvals n out) : out.length = width e G n := by
  obtain ⟨b, t⟩ := e
  by_cases hp : t.proper
  · obtain ⟨w, h1, h2⟩ := (output_proper hp).1 h
    rw [width_proper hp, IsTransformed.length h2, IsRaw.length hG h1]
  · cases t with
    | raw k =>
      obtain ⟨w, h1, h2⟩ := h
      rw [show out = w from h2]
      exact IsRaw.length hG h1
    | leafIndex k => exact IsLeafVec.length hG h
    | _ => exact absurd trivial hp

theorem pit_local {P : Platform} {e : Ensemble} (hf : Fits e) {fvals : List F64} {G n : Nat} (hG : e.base.nRawOutputGroups = G)
    {w0 out : List F64} (hw : w0.length = width e G n) :
    (e.predictInnerAndTransform P fvals n 0).run w0 = (.ok ⟨⟩, out) ↔ IsOutput P e fvals n out := by
  have hf' := hf
  obtain ⟨G', total, hG', hG0, _, ht⟩ := hf'
  have : G' = G := by omega
  subst this
  obtain ⟨b, t⟩ := e
  simp only at hG
  by_cases hp : t.proper
  · rw [width_proper hp] at hw
    rw [pit_proper hp, output_proper hp, hG, makeSlice_ok, ofRes_ok, ret_bind]
    constructor
    · intro h
      rw [run_bind_ok] at h
      obtain ⟨w, m1, h1, h⟩ := h
      rw [run_ofRes] at h1
      obtain ⟨h2, h0⟩ := Prod.mk.inj h1
      subst h0
      obtain ⟨_, h2⟩ := runLocal_ok.1 h2
      have hraw := (raw_local hG hG0 (by simp)).1 h2
      have hl := IsRaw.length hG hraw
      obtain ⟨out', ho⟩ := IsTransformed.exists_of (P := P) hf (w := w) (by simp only; omega)
      rw [run_bind, apply_run ho (by omega)] at h
      simp only [andThen_ok, pure_eq, run_ret, Prod.mk.injEq, true_and] at h
      subst h
      exact ⟨w, hraw, ho⟩
    · rintro ⟨w, h1, h2⟩
      have hl := IsRaw.length hG h1
      rw [runLocal_ok.2 ⟨_, (raw_local hG hG0 (by simp)).2 h1⟩, ofRes_ok, ret_bind, run_bind, apply_run h2 (by omega)]
      rfl
  · cases t with
    | raw k =>
      rw [pit_raw]
      show _ ↔ ∃ w, IsRaw P b fvals n w ∧ out = w
      rw [raw_local hG hG0 hw]
      simp
    | leafIndex k =>
      rw [pit_leaf]
      exact leaf_local hG ht.2 hw
    | _ => exact absurd trivial hp

theorem IsOutput.unique {P : Platform} {e : Ensemble} (hf : Fits e) {fvals : List F64} {n : Nat} {out out' : List F64}
    (h : IsOutput P e fvals n out) (h' : IsOutput P e fvals n out') : out = out' := by
  obtain ⟨G, _, hG, _⟩ := id hf
  have h1 := (pit_local hf hG (w0 := List.replicate (width e G n) F64.zero) (by simp)).2 h
  have h2 := (pit_local hf hG (w0 := List.replicate (width e G n) F64.zero) (by simp)).2 h'
  rw [h1] at h2
  exact (Prod.mk.inj h2).2

theorem stored_iff {pre w post out m' : List F64} (h : out.length = w.length) :
    Stored (pre ++ w ++ post) pre.length out m' ↔ m' = pre ++ out ++ post := by
  constructor
  · rintro ⟨_, h2, h3⟩
    apply List.ext_getElem?
    intro j
    rw [h3 j]
    by_cases h4 : pre.length ≤ j
    · by_cases h5 : j < pre.length + out.length
      · rw [if_pos ⟨h4, h5⟩, List.append_assoc, List.getElem?_append_right h4, List.getElem?_append_left (by omega)]
      · rw [if_neg (by omega), List.append_assoc, List.append_assoc, List.getElem?_append_right h4,
          List.getElem?_append_right (by omega), List.getElem?_append_right h4, List.getElem?_append_right (by omega), h]
    · rw [if_neg (by omega), List.append_assoc, List.append_assoc, List.getElem?_append_left (by omega),
        List.getElem?_append_left (by omega)]
  · rintro rfl
    refine ⟨by simp; omega, by simp; omega, fun j => ?_⟩
    by_cases h4 : pre.length ≤ j
    · by_cases h5 : j < pre.length + out.length
      · rw [if_pos ⟨h4, h5⟩, List.append_assoc, List.getElem?_append_right h4, List.getElem?_append_left (by omega)]
      · rw [if_neg (by omega), List.append_assoc, List.append_assoc, List.getElem?_append_right h4,
          List.getElem?_append_right (by omega), List.getElem?_append_right h4, List.getElem?_append_right (by omega), h]
    · rw [if_neg (by omega), List.append_assoc, List.append_assoc, List.getElem?_append_left (by omega),
        List.getElem?_append_left (by omega)]

/-- cut a window out of a slice -/
theorem cut {m : List F64} {s k : Nat} (h : s + k ≤ m.length) :
    ∃ pre w post, m = pre ++ w ++ post ∧ pre.length = s ∧ w.length = k := by
  refine ⟨m.take s, (m.drop s).take k, m.drop (s + k), ?_, by simp; omega, by simp; omega⟩
  rw [List.append_assoc, ← List.drop_drop, List.take_append_drop, List.take_append_drop]

/-- outcome and memory of a prediction into a window -/
theorem pit_run {P : Platform} {e : Ensemble} {fvals : List F64} {G n : Nat} (hG : e.base.nRawOutputGroups = G)
    {pre w post : List F64} (hw : w.length = width e G n) :
    (e.predictInnerAndTransform P fvals n (pre.length : Nat)).run (pre ++ w ++ post) =
      (((e.predictInnerAndTransform P fvals n 0).run w).1,
        pre ++ ((e.predictInnerAndTransform P fvals n 0).run w).2 ++ post) := by
  rw [pit_shift]
  exact run_shift _ w (by rw [hw]; exact pit_within P fvals n hG) pre post

theorem pit_spec {P : Platform} {e : Ensemble} (hf : Fits e) {fvals : List F64} {G n : Nat} (hG : e.base.nRawOutputGroups = G)
    {s : Nat} {m m' : List F64} (hm : s + width e G n ≤ m.length) :
    (e.predictInnerAndTransform P fvals n (s : Int)).run m = (.ok ⟨⟩, m') ↔
      ∃ out, IsOutput P e fvals n out ∧ Stored m s out m' := by
  obtain ⟨pre, w, post, rfl, rfl, hw⟩ := cut hm
  rw [pit_run hG hw]
  constructor
  · intro h
    obtain ⟨h1, h2⟩ := Prod.mk.inj h
    have ho := (pit_local hf hG (out := ((e.predictInnerAndTransform P fvals n 0).run w).2) hw).1 (by rw [← h1])
    exact ⟨_, ho, (stored_iff (by rw [output_length hG ho, hw])).2 h2.symm⟩
  · rintro ⟨out, ho, hs⟩
    rw [stored_iff (by rw [output_length hG ho, hw])] at hs
    rw [(pit_local hf hG hw).2 ho, hs]

end Leaves
