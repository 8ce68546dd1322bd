import Verif.Proofs.Mirror
import Verif.Props.Batch

/-!
# C101: the matrix and the predictions in one array

PredictDense and PredictCSR do what they do with a matrix of their own if the slices of values and predictions do not overlap, with any
number of threads. Predictions in place of the matrix work one row after the other if the model has a transformation and does not give
more numbers than it takes; several threads may compute something else.
-/

namespace Leaves

open Spec GoM

/-! ### the programs -/

section
variable {p f : Win} {m0 : List F64} (hd : Separate p f) (hf : f.off + f.len ≤ m0.length)
include hd hf

theorem loop_mirrors (P : Platform) (t : LgTree) : ∀ fuel idx,
    Mirrors p m0 (GoM.ofRes (t.predictLoop P (elems f m0) fuel idx)) (t.predictLoopM P f fuel idx)
  | 0, _ => .stop _
  | fuel + 1, idx => by
    unfold LgTree.predictLoop LgTree.predictLoopM
    rw [ofRes_bind']
    refine (Mirrors.ofRes _).bind fun node => ?_
    rw [ofRes_bind']
    refine (Mirrors.apartNat hd hf _).bind fun fval => ?_
    rw [ofRes_bind']
    refine (Mirrors.ofRes _).bind fun left => ?_
    cases left with
    | true =>
      simp only [if_true]
      split
      · rw [ofRes_bind']
        exact (Mirrors.ofRes _).bind fun v => .ret _
      · exact loop_mirrors P t fuel _
    | false =>
      simp only [Bool.false_eq_true, if_false]
      split
      · rw [ofRes_bind']
        exact (Mirrors.ofRes _).bind fun v => .ret _
      · exact loop_mirrors P t fuel _

theorem tree_mirrors (P : Platform) (t : LgTree) : Mirrors p m0 (GoM.ofRes (t.predict P (elems f m0))) (t.predictM P f) := by
  unfold LgTree.predict LgTree.predictM
  split
  · rw [ofRes_bind']
    exact (Mirrors.ofRes _).bind fun v => .ret _
  · exact loop_mirrors hd hf P t _ _

theorem inner_mirrors (P : Platform) (n start : Int) : ∀ b : Base,
    Mirrors p m0 (b.predictInner P (elems f m0) n start) (b.predictInnerM P f n p start)
  | .lg _ => (Mirrors.forRange (fun _ => Mirrors.set _ _) _ _).bind fun _ => Mirrors.forRange (fun _ => Mirrors.forRange (fun _ =>
      (Mirrors.ofRes _).bind fun t => (tree_mirrors hd hf P t).bind fun _ => (Mirrors.get _).bind fun _ => Mirrors.set _ _) _ _) _ _
  | .xg _ => (Mirrors.forRange (fun _ => Mirrors.set _ _) _ _).bind fun _ => Mirrors.forRange (fun _ => Mirrors.forRange (fun _ =>
      (Mirrors.ofRes _).bind fun t => (tree_mirrors hd hf P t).bind fun _ => (Mirrors.get _).bind fun _ => (Mirrors.ofRes _).bind fun _ =>
        Mirrors.set _ _) _ _) _ _
  | .lin _ => Mirrors.forRange (fun _ => (Mirrors.ofRes _).bind fun _ => (Mirrors.set _ _).bind fun _ => Mirrors.forRange (fun _ =>
      (Mirrors.get _).bind fun _ => (Mirrors.apartNat hd hf _).bind fun _ => (Mirrors.ofRes _).bind fun _ => Mirrors.set _ _) _ _) _ _
  | .wrap b _ => inner_mirrors P n start b

theorem leaf_mirrors (P : Platform) (n start : Int) : ∀ b : Base,
    Mirrors p m0 (b.predictLeafIndicesInner P (elems f m0) n start) (b.predictLeafIndicesInnerM P f n p start)
  | .lg _ => (Mirrors.forRange (fun _ => Mirrors.set _ _) _ _).bind fun _ => Mirrors.forRange (fun _ => Mirrors.forRange (fun _ =>
      (Mirrors.ofRes _).bind fun t => (tree_mirrors hd hf P t).bind fun _ => Mirrors.set _ _) _ _) _ _
  | .xg _ => (Mirrors.forRange (fun _ => Mirrors.set _ _) _ _).bind fun _ => Mirrors.forRange (fun _ => Mirrors.forRange (fun _ =>
      (Mirrors.ofRes _).bind fun t => (tree_mirrors hd hf P t).bind fun _ => Mirrors.set _ _) _ _) _ _
  | .lin _ => .ret _
  | .wrap b _ => leaf_mirrors P n start b

theorem read_mirrors : ∀ c i, i + c = f.len → Mirrors p m0 (.ret ((elems f m0).drop i)) (f.read i c)
  | 0, i, h => by
    rw [List.drop_eq_nil_of_le (by rw [elems_length hf]; omega)]
    exact .ret _
  | c + 1, i, h => by
    have hi : i < (elems f m0).length := by rw [elems_length hf]; omega
    have h1 := Mirrors.apartNat hd hf i
    rw [Res.idx_eq_ok.2 (List.getElem?_eq_getElem hi)] at h1
    rw [List.drop_eq_getElem_cons hi]
    exact h1.bind (f := fun x => .ret (x :: (elems f m0).drop (i + 1))) fun x =>
      (read_mirrors c (i + 1) (by omega)).bind (f := fun xs => .ret (x :: xs)) fun xs => .ret _

theorem pit_mirrors (P : Platform) (e : Ensemble) (n start : Int) :
    Mirrors p m0 (e.predictInnerAndTransform P (elems f m0) n start) (e.predictInnerAndTransformM P f n p start) := by
  unfold Ensemble.predictInnerAndTransform Ensemble.predictInnerAndTransformM
  split
  · exact inner_mirrors hd hf P n start e.base
  · split
    · exact leaf_mirrors hd hf P n start e.base
    · refine (read_mirrors hd hf f.len 0 (by omega)).bind (f := fun row => do
        let init ← GoM.ofRes (makeSlice e.nRawOutputGroups F64.zero)
        let rawPredictions ← GoM.ofRes ((e.base.predictInner P row n 0).runLocal init)
        let _ ← e.transform.apply P rawPredictions start
        return PUnit.unit) fun row => ?_
      exact (Mirrors.ofRes _).bind fun init => (Mirrors.ofRes _).bind fun raw => (Mirrors.embed _).bind fun _ => .ret _

end

/-- the row in the matrix -/
theorem elems_elems (v : Win) (m : List F64) {lo hi : Nat} (h : hi ≤ v.len) :
    elems ⟨v.off + lo, hi - lo⟩ m = ((elems v m).drop lo).take (hi - lo) := by
  apply List.ext_getElem?
  intro k
  rw [elems_get, List.getElem?_take, List.getElem?_drop, elems_get]
  dsimp only
  split
  · rw [if_pos (by omega), Nat.add_assoc]
  · rfl

section
variable {p v : Win} {m0 : List F64} (hd : Separate p v) (hv : v.off + v.len ≤ m0.length)
include hd hv

theorem denseRow_mirrors (P : Platform) (e : Ensemble) (ncols n : Int) (i : Nat) :
    Mirrors p m0 (e.denseRow P (elems v m0) ncols n i) (e.denseRowM P v ncols n p i) := by
  unfold Ensemble.denseRow Ensemble.denseRowM Ensemble.denseRowSlice
  dsimp only
  rw [elems_length hv]
  split
  · exact .stop _
  · next h =>
    push Not at h
    obtain ⟨h1, h2, h3⟩ := h
    rw [← elems_elems v m0 (by omega)]
    refine pit_mirrors ?_ ?_ P e n _
    · unfold Separate at hd ⊢
      dsimp only
      omega
    · dsimp only
      omega

theorem fillRow_mirrors (cols : List Int) : ∀ (count : Nat) (j : Int) (fvals : List F64),
    Mirrors p m0 (GoM.ofRes (Ensemble.fillRow cols (elems v m0) j count fvals)) (Ensemble.fillRowM cols v j count fvals)
  | 0, _, _ => .ret _
  | count + 1, j, fvals => by
    unfold Ensemble.fillRow Ensemble.fillRowM
    rw [ofRes_bind']
    refine (Mirrors.ofRes _).bind fun c => ?_
    split
    · rw [ofRes_bind']
      refine (Mirrors.apart hd hv j).bind fun x => ?_
      split
      · exact .stop _
      · exact fillRow_mirrors cols count _ _
    · exact fillRow_mirrors cols count _ _

theorem csrRow_mirrors (P : Platform) (e : Ensemble) (indptr cols : List Int) (n : Int) (i : Nat) (fvals : List F64) :
    Mirrors p m0 (e.csrRow P indptr cols (elems v m0) n i fvals) (e.csrRowM P indptr cols v n p i fvals) := by
  unfold Ensemble.csrRow Ensemble.csrRowM
  exact (Mirrors.ofRes _).bind fun a => (Mirrors.ofRes _).bind fun b => (fillRow_mirrors hd hv cols _ _ _).bind fun row =>
    (Mirrors.embed _).bind fun _ => .ret _

end

/-! ### slices that do not overlap -/

/-- **C101, dense.** If the predictions do not overlap the matrix, PredictDense has exactly the outcomes that it has with a matrix and
predictions of their own, and changes nothing but the predictions: with any number of threads, under every schedule, whether it
succeeds, returns an error or panics. -/
theorem C101_dense (P : Platform) (e : Ensemble) (v p : Win) (mem : List F64) (nrows ncols req nt : Int)
    (hv : v.off + v.len ≤ mem.length) (hp : p.off + p.len ≤ mem.length) (hd : Separate p v) (out : Res Unit × List F64) :
    e.PredictDenseM P v nrows ncols p req nt mem out ↔
      ∃ w, e.PredictDense P (elems v mem) nrows ncols (elems p mem) req nt (out.1, w) ∧ out.2 = replaced p mem w := by
  obtain ⟨r, m⟩ := out
  have stay : ∀ (x : Res Unit), (r, m) = (x, mem) ↔ ∃ w, (r, w) = (x, elems p mem) ∧ m = replaced p mem w := by
    intro x
    constructor
    · rintro h
      cases h
      exact ⟨_, rfl, (replaced_self hp).symm⟩
    · rintro ⟨w, h, h'⟩
      cases h
      rw [h', replaced_self hp]
  unfold Ensemble.PredictDenseM Ensemble.PredictDense
  rw [elems_length hp]
  cases e.denseChecks nrows ncols req p.len with
  | err t => exact stay _
  | panic => exact stay _
  | hang => exact stay _
  | ok n =>
    dsimp only
    cases plan P nrows nt with
    | sequential =>
      have hm := Mirrors.run hp (Mirrors.forRange (denseRow_mirrors hd hv P e ncols n) (nrows.toNat - 0) 0) (elems p mem) (elems_length hp)
      rw [replaced_self hp] at hm
      dsimp only
      unfold Ensemble.denseRowsM Ensemble.denseRows
      rw [hm]
      constructor
      · intro h
        cases h
        exact ⟨_, rfl, rfl⟩
      · rintro ⟨w, h, h'⟩
        rw [← h]
        exact Prod.ext rfl h'
    | parallel t b =>
      dsimp only
      exact par_mirrors (J := e.denseJob P (elems v mem) ncols n nrows.toNat t b) (J' := e.denseJobM P v ncols n p nrows.toNat t b) hp ⟨rfl, rfl, rfl, fun i s => Mirrors.forRange (denseRow_mirrors hd hv P e ncols n) _ _⟩ (r, m)

/-- **C101, CSR.** The same for the values of a sparse matrix. -/
theorem C101_csr (P : Platform) (e : Ensemble) (indptr cols : List Int) (v p : Win) (mem : List F64) (req nt : Int)
    (hv : v.off + v.len ≤ mem.length) (hp : p.off + p.len ≤ mem.length) (hd : Separate p v) (out : Res Unit × List F64) :
    e.PredictCSRM P indptr cols v p req nt mem out ↔
      ∃ w, e.PredictCSR P indptr cols (elems v mem) (elems p mem) req nt (out.1, w) ∧ out.2 = replaced p mem w := by
  obtain ⟨r, m⟩ := out
  have stay : ∀ (x : Res Unit), (r, m) = (x, mem) ↔ ∃ w, (r, w) = (x, elems p mem) ∧ m = replaced p mem w := by
    intro x
    constructor
    · rintro h
      cases h
      exact ⟨_, rfl, (replaced_self hp).symm⟩
    · rintro ⟨w, h, h'⟩
      cases h
      rw [h', replaced_self hp]
  unfold Ensemble.PredictCSRM Ensemble.PredictCSR
  dsimp only
  rw [elems_length hp]
  cases e.csrChecks ((indptr.length : Int) - 1) req p.len with
  | err t => exact stay _
  | panic => exact stay _
  | hang => exact stay _
  | ok n =>
    dsimp only
    cases plan P ((indptr.length : Int) - 1) nt with
    | sequential =>
      have hM : Mirrors p mem (e.csrSequential P indptr cols (elems v mem) n) (e.csrSequentialM P indptr cols v n p) :=
        (Mirrors.ofRes _).bind fun fvals => (Mirrors.forState (csrRow_mirrors hd hv P e indptr cols n) _ _ _).bind fun _ => .ret _
      have hm := Mirrors.run hp hM (elems p mem) (elems_length hp)
      rw [replaced_self hp] at hm
      dsimp only
      rw [hm]
      constructor
      · intro h
        cases h
        exact ⟨_, rfl, rfl⟩
      · rintro ⟨w, h, h'⟩
        rw [← h]
        exact Prod.ext rfl h'
    | parallel t b =>
      dsimp only
      exact par_mirrors (J := e.csrJob P indptr cols (elems v mem) n ((indptr.length : Int) - 1).toNat t b) (J' := e.csrJobM P indptr cols v n p ((indptr.length : Int) - 1).toNat t b) hp ⟨rfl, rfl, rfl, fun i s => Mirrors.forState (csrRow_mirrors hd hv P e indptr cols n) _ _ _⟩ (r, m)

/-! ### in place -/

theorem within_shift {α : Type} {lo hi d : Int} {q : GoM α} (h : Within lo hi q) : Within (d + lo) (d + hi) (shift d q) := by
  induction q with
  | ret a => trivial
  | load j k ih => exact ⟨by have := h.1; omega, by have := h.2.1; omega, fun v => ih v (h.2.2 v)⟩
  | store j v k ih => exact ⟨by have := h.1; omega, by have := h.2.1; omega, ih h.2.2⟩
  | stop s => trivial

theorem proper_within (P : Platform) {b : Base} {t : Transform} (ht : t.proper) (fvals : List F64) {G : Nat} (n start : Int)
    (hG : b.nRawOutputGroups = G) : Within start (start + G) ((Ensemble.mk b t).predictInnerAndTransform P fvals n start) := by
  rw [pit_shift]
  have : Within 0 G ((Ensemble.mk b t).predictInnerAndTransform P fvals n 0) := by
    rw [pit_proper ht, hG, makeSlice_ok]
    refine Within.ofRes_bind fun _ h => ?_
    cases h
    refine Within.ofRes_bind fun w h => ?_
    obtain ⟨_, h⟩ := runLocal_ok.1 h
    have hl := run_length (b.predictInner P fvals n 0) (List.replicate G F64.zero)
    rw [h] at hl
    simp only [List.length_replicate] at hl
    rw [← hl]
    exact Within.bind (apply_within P t w) fun _ => trivial
  exact (within_shift (d := start) this).mono (by omega) (by omega)

theorem denseRow_within (P : Platform) {b : Base} {t : Transform} (ht : t.proper) (vals : List F64) {G : Nat} (ncols n : Int) (i : Nat)
    (hG : b.nRawOutputGroups = G) (hw : (Ensemble.mk b t).nOutputGroups = G) :
    Within (i * G) ((i + 1) * G) ((Ensemble.mk b t).denseRow P vals ncols n i) := by
  unfold Ensemble.denseRow
  refine Within.ofRes_bind fun fvals _ => ?_
  have := proper_within P ht fvals n ((i : Int) * (Ensemble.mk b t).nOutputGroups) hG
  rw [hw] at this ⊢
  exact this.mono le_rfl (by rw [Int.add_mul]; omega)

/-- one row after the other: the rows that are still to be read have not been overwritten -/
theorem in_place_rows (P : Platform) {b : Base} {t : Transform} (ht : t.proper) {G : Nat} {ncols : Int} (n : Int)
    (hG : b.nRawOutputGroups = G) (hw : (Ensemble.mk b t).nOutputGroups = G) {v p : Win} {mem : List F64}
    (hv : v.off + v.len ≤ mem.length) (hp : p.off + p.len ≤ mem.length) (ho : p.off ≤ v.off) (hc : (G : Int) ≤ ncols) :
    ∀ (c s : Nat) (w : List F64), w.length = p.len → (∀ j, s * G ≤ j → w[j]? = (elems p mem)[j]?) →
      (forRange ((Ensemble.mk b t).denseRowM P v ncols n p) s c).run (replaced p mem w) =
        (((forRange ((Ensemble.mk b t).denseRow P (elems v mem) ncols n) s c).run w).1,
          replaced p mem ((forRange ((Ensemble.mk b t).denseRow P (elems v mem) ncols n) s c).run w).2)
  | 0, _, _, _, _ => rfl
  | c + 1, s, w, hl, hj => by
    have hrow : ((Ensemble.mk b t).denseRowM P v ncols n p s).run (replaced p mem w) =
        ((((Ensemble.mk b t).denseRow P (elems v mem) ncols n s).run w).1,
          replaced p mem (((Ensemble.mk b t).denseRow P (elems v mem) ncols n s).run w).2) := by
      unfold Ensemble.denseRow Ensemble.denseRowM Ensemble.denseRowSlice
      dsimp only
      rw [elems_length hv]
      split
      · rfl
      · next h =>
        push Not at h
        obtain ⟨h1, h2, h3⟩ := h
        have hlen := replaced_length hl hp
        have hlo : s * G ≤ ((s : Int) * ncols).toNat := by
          have : (s : Int) * G ≤ s * ncols := Int.mul_le_mul_of_nonneg_left hc (by omega)
          have : ((s * G : Nat) : Int) = (s : Int) * G := by push_cast; ring
          omega
        have he : elems ⟨v.off + ((s : Int) * ncols).toNat, (((s : Int) + 1) * ncols).toNat - ((s : Int) * ncols).toNat⟩ (replaced p mem w) =
            elems ⟨v.off + ((s : Int) * ncols).toNat, (((s : Int) + 1) * ncols).toNat - ((s : Int) * ncols).toNat⟩ mem := by
          apply List.ext_getElem?
          intro k
          rw [elems_get, elems_get]
          dsimp only
          split
          · rw [replaced_get hl hp]
            split
            · rw [hj _ (by omega), elems_get, if_pos (by omega)]
              congr 1
              omega
            · rfl
          · rfl
        have hr := transformed_run (f := ⟨v.off + ((s : Int) * ncols).toNat, (((s : Int) + 1) * ncols).toNat - ((s : Int) * ncols).toNat⟩)
          (p := p) (m := replaced p mem w) P ⟨b, t⟩ n ((s : Int) * (Ensemble.mk b t).nOutputGroups) (by rw [hlen]; dsimp only; omega)
          (by rw [hlen]; exact hp) (by cases t <;> first | exact ht.elim | exact nofun) (by cases t <;> first | exact ht.elim | exact nofun)
        rw [hr, he, elems_replaced hl hp, ← elems_elems v mem (by omega), replaced_replaced hl (by rw [run_length, hl]) hp]
        rfl
    rw [forRange, forRange, run_bind, run_bind, hrow]
    have hout := run_out _ (denseRow_within P ht (elems v mem) ncols n s hG hw) w
    have hlen := run_length ((Ensemble.mk b t).denseRow P (elems v mem) ncols n s) w
    rcases hres : ((Ensemble.mk b t).denseRow P (elems v mem) ncols n s).run w with ⟨r, w'⟩
    rw [hres] at hout hlen
    cases r with
    | ok x =>
      simp only [andThen_ok]
      refine in_place_rows P ht n hG hw hv hp ho hc c (s + 1) w' (by rw [hlen, hl]) fun j hj' => ?_
      have : ((s : Int) + 1) * G = (((s + 1) * G : Nat) : Int) := by push_cast; ring
      rw [hout j (.inr (by omega)), hj j (le_trans (Nat.mul_le_mul_right _ (by omega)) hj')]
    | err t => rfl
    | panic => rfl
    | hang => rfl

/-- **C101, in place.** Without concurrency (at most 16 rows, or 0 or 1 threads) the predictions may overlap the matrix, even take its
place, if the model has a transformation, gives at most as many numbers for a row as the row has, and the predictions do not begin behind
the matrix: the outcome is the one with a matrix and predictions of their own. -/
theorem C101_in_place (P : Platform) (e : Ensemble) (v p : Win) (mem : List F64) (nrows ncols req nt : Int)
    (hv : v.off + v.len ≤ mem.length) (hp : p.off + p.len ≤ mem.length) (hfit : Fits e)
    (h1 : e.transform.type ≠ TransformType.raw) (h2 : e.transform.type ≠ TransformType.leafIndex)
    (hseq : nrows ≤ 16 ∨ nt = 0 ∨ nt = 1) (ho : p.off ≤ v.off) (hc : e.nOutputGroups ≤ ncols) (out : Res Unit × List F64) :
    e.PredictDenseM P v nrows ncols p req nt mem out ↔
      ∃ w, e.PredictDense P (elems v mem) nrows ncols (elems p mem) req nt (out.1, w) ∧ out.2 = replaced p mem w := by
  obtain ⟨r, m⟩ := out
  have stay : ∀ (x : Res Unit), (r, m) = (x, mem) ↔ ∃ w, (r, w) = (x, elems p mem) ∧ m = replaced p mem w := by
    intro x
    constructor
    · rintro h
      cases h
      exact ⟨_, rfl, (replaced_self hp).symm⟩
    · rintro ⟨w, h, h'⟩
      cases h
      rw [h', replaced_self hp]
  obtain ⟨b, t⟩ := e
  have ht : t.proper := by cases t <;> trivial
  obtain ⟨G, total, hG, _, _, hfit⟩ := hfit
  change b.nRawOutputGroups = G at hG
  have hw : (Ensemble.mk b t).nOutputGroups = G := by
    cases t <;> first | exact ht.elim | (dsimp only at hfit; subst hfit; rfl)
  have hplan : plan P nrows nt = .sequential := by
    unfold plan
    exact if_pos hseq
  unfold Ensemble.PredictDenseM Ensemble.PredictDense
  rw [elems_length hp, hplan]
  cases (Ensemble.mk b t).denseChecks nrows ncols req p.len with
  | err t => exact stay _
  | panic => exact stay _
  | hang => exact stay _
  | ok n =>
    have hc' : (G : Int) ≤ ncols := by rw [← hw]; exact hc
    have hm := in_place_rows P ht n hG hw hv hp ho hc' (nrows.toNat - 0) 0 (elems p mem) (elems_length hp) fun _ _ => rfl
    rw [replaced_self hp] at hm
    dsimp only
    unfold Ensemble.denseRowsM Ensemble.denseRows
    rw [hm]
    constructor
    · intro h
      cases h
      exact ⟨_, rfl, rfl⟩
    · rintro ⟨w, h, h'⟩
      rw [← h]
      exact Prod.ext rfl h'

/-! ### nothing else -/

theorem StoresIn.forState {σ : Type} {p : Win} {a : Nat → σ → GoM σ} (h : ∀ k s, StoresIn p (a k s)) :
    ∀ (c s : Nat) (st : σ), StoresIn p (forState a s c st)
  | 0, _, st => StoresIn.ret st
  | c + 1, s, st => (h s st).bind fun st' => StoresIn.forState h c (s + 1) st'

theorem StoresIn.pit {p f : Win} (P : Platform) (e : Ensemble) (n start : Int) : StoresIn p (e.predictInnerAndTransformM P f n p start) := by
  unfold Ensemble.predictInnerAndTransformM
  split
  · exact StoresIn.inner P n _ e.base
  · split
    · exact StoresIn.leaves P n _ e.base
    · exact (StoresIn.read _ _).bind fun _ => (StoresIn.ofRes _).bind fun _ => (StoresIn.ofRes _).bind fun _ =>
        (StoresIn.embed _).bind fun _ => StoresIn.ret _

theorem StoresIn.denseRow {p v : Win} (P : Platform) (e : Ensemble) (ncols n : Int) (i : Nat) : StoresIn p (e.denseRowM P v ncols n p i) := by
  unfold Ensemble.denseRowM
  dsimp only
  split
  · trivial
  · exact StoresIn.pit P e n _

theorem StoresIn.fillRow {p v : Win} (cols : List Int) : ∀ (count : Nat) (j : Int) (fvals : List F64),
    StoresIn p (Ensemble.fillRowM cols v j count fvals)
  | 0, _, _ => trivial
  | count + 1, j, fvals => by
    unfold Ensemble.fillRowM
    refine (StoresIn.ofRes _).bind fun c => ?_
    split
    · refine (StoresIn.get v j).bind fun x => ?_
      split
      · trivial
      · exact StoresIn.fillRow cols count _ _
    · exact StoresIn.fillRow cols count _ _

theorem StoresIn.csrRow {p v : Win} (P : Platform) (e : Ensemble) (indptr cols : List Int) (n : Int) (i : Nat) (fvals : List F64) :
    StoresIn p (e.csrRowM P indptr cols v n p i fvals) :=
  (StoresIn.ofRes _).bind fun _ => (StoresIn.ofRes _).bind fun _ => (StoresIn.fillRow cols _ _ _).bind fun _ =>
    (StoresIn.embed _).bind fun _ => StoresIn.ret _

theorem steps_storesIn {σ : Type} {J : Job σ} {p : Win} (hJ : ∀ i s, StoresIn p (J.task i s)) {k : Nat} (hk : k < p.off ∨ p.off + p.len ≤ k)
    {m0 : List F64} {n : Nat} {s : PState σ} (st : PState.Steps J n (.start m0) s) :
    (∀ w ∈ s.workers, ∀ q, w = Worker.busy q → StoresIn p q) ∧ s.mem[k]? = m0[k]? := by
  generalize hs : PState.start m0 = s0 at st
  induction st with
  | refl =>
    subst hs
    exact ⟨fun w hw => absurd hw List.not_mem_nil, rfl⟩
  | tail _ step ih =>
    obtain ⟨ih, hm⟩ := ih hs
    have other : ∀ {ws : List (Worker σ)} {w : Nat} {x : Worker σ}, (∀ w ∈ ws, ∀ q, w = Worker.busy q → StoresIn p q) →
        (∀ q, x = Worker.busy q → StoresIn p q) → ∀ y ∈ ws.set w x, ∀ q, y = Worker.busy q → StoresIn p q := by
      intro ws w x h hx y hy q hq
      rcases List.mem_or_eq_of_mem_set hy with h' | h'
      · exact h y h' q hq
      · exact hx q (h' ▸ hq)
    cases step with
    | spawn h =>
      refine ⟨fun w hw q hq => ?_, hm⟩
      rcases List.mem_append.1 hw with h' | h'
      · exact ih w h' q hq
      · rw [List.mem_singleton.1 h'] at hq
        cases hq
    | spawned h => exact ⟨ih, hm⟩
    | begin hw hs hc => exact ⟨other ih nofun, hm⟩
    | beginPanic hw hs hc => exact ⟨ih, hm⟩
    | handOver h hw => exact ⟨other ih fun q hq => by cases hq; exact hJ _ _, hm⟩
    | close h => exact ⟨ih, hm⟩
    | exit hw => exact ⟨other ih nofun, hm⟩
    | ret h => exact ⟨ih, hm⟩
    | done hw hc => exact ⟨other ih nofun, hm⟩
    | load hw hc hr => exact ⟨other ih fun q hq => by cases hq; exact (ih _ (List.mem_of_getElem? hw) _ rfl) _, hm⟩
    | store hw hc hr =>
      have h := ih _ (List.mem_of_getElem? hw) _ rfl
      refine ⟨other ih fun q hq => by cases hq; exact h.2, ?_⟩
      have h1 := h.1
      dsimp only at hm ⊢
      rw [List.getElem?_set_ne (by omega), hm]
    | loadPanic hw hc hr => exact ⟨ih, hm⟩
    | storePanic hw hc hr => exact ⟨ih, hm⟩
    | panic hw hc => exact ⟨ih, hm⟩

theorem par_storesIn {σ : Type} {J : Job σ} {p : Win} (hJ : ∀ i s, StoresIn p (J.task i s)) {k : Nat} (hk : k < p.off ∨ p.off + p.len ≤ k)
    {m0 : List F64} {out : Res Unit × List F64} (h : ParResult J m0 out) : out.2[k]? = m0[k]? := by
  cases h with
  | ok h hr => exact (steps_storesIn hJ hk h).2
  | panic h hr => exact (steps_storesIn hJ hk h).2

/-- **C101, nothing else.** With every model, overlap or not, any number of threads and whatever the outcome, PredictDense leaves every
element of the array outside the predictions as it was. -/
theorem C101_dense_nothing_else (P : Platform) (e : Ensemble) (v p : Win) (mem : List F64) (nrows ncols req nt : Int)
    {out : Res Unit × List F64} (h : e.PredictDenseM P v nrows ncols p req nt mem out) (k : Nat)
    (hk : k < p.off ∨ p.off + p.len ≤ k) : out.2[k]? = mem[k]? := by
  unfold Ensemble.PredictDenseM at h
  split at h
  · split at h
    · rw [h]
      exact StoresIn.run (by omega) (StoresIn.forRange (StoresIn.denseRow P e ncols _) _ _) mem
    · exact par_storesIn (fun i s => StoresIn.forRange (StoresIn.denseRow P e ncols _) _ _) hk h
  · rw [h]
  · rw [h]
  · rw [h]

/-- **C101, nothing else.** The same for PredictCSR. -/
theorem C101_csr_nothing_else (P : Platform) (e : Ensemble) (indptr cols : List Int) (v p : Win) (mem : List F64) (req nt : Int)
    {out : Res Unit × List F64} (h : e.PredictCSRM P indptr cols v p req nt mem out) (k : Nat)
    (hk : k < p.off ∨ p.off + p.len ≤ k) : out.2[k]? = mem[k]? := by
  unfold Ensemble.PredictCSRM at h
  dsimp only at h
  split at h
  · split at h
    · rw [h]
      exact StoresIn.run (by omega) ((StoresIn.ofRes _).bind fun _ =>
        (StoresIn.forState (StoresIn.csrRow P e indptr cols _) _ _ _).bind fun _ => StoresIn.ret _) mem
    · exact par_storesIn (fun i s => StoresIn.forState (StoresIn.csrRow P e indptr cols _) _ _ _) hk h
  · rw [h]
  · rw [h]
  · rw [h]

/-! ### several threads in place -/

/-- a worker may finish its batch before anything else happens -/
theorem worker_runs {σ : Type} {J : Job σ} {pc : MainPc} {w : Nat} {s : σ} (hc : pc ≠ .crashed) : ∀ (q : GoM σ) (ws : List (Worker σ)) (m m' : List F64),
    ws[w]? = some (Worker.busy q) → q.run m = (.ok s, m') → ∃ n, PState.Steps J n ⟨pc, ws, m⟩ ⟨pc, ws.set w (Worker.idle s), m'⟩
  | .ret a, ws, m, m', hw, h => by
    cases h
    exact ⟨1, .tail (.refl _) (.done hw hc)⟩
  | .stop x, ws, m, m', hw, h => by
    cases x <;> cases h
  | .load i k, ws, m, m', hw, h => by
    have hlt : w < ws.length := (List.getElem?_eq_some_iff.1 hw).1
    by_cases hr : inRange i m.length = true
    · rw [GoM.run, if_pos hr] at h
      obtain ⟨n, hn⟩ := worker_runs hc (k (m.getD i.toNat .zero)) (ws.set w (Worker.busy (k (m.getD i.toNat .zero)))) m m'
        (by rw [List.getElem?_set_self hlt]) h
      rw [List.set_set] at hn
      exact ⟨_, PState.Steps.trans (.tail (.refl _) (.load hw hc hr)) hn⟩
    · rw [GoM.run, if_neg hr] at h
      cases h
  | .store i v k, ws, m, m', hw, h => by
    have hlt : w < ws.length := (List.getElem?_eq_some_iff.1 hw).1
    by_cases hr : inRange i m.length = true
    · rw [GoM.run, if_pos hr] at h
      obtain ⟨n, hn⟩ := worker_runs hc k (ws.set w (Worker.busy k)) (m.set i.toNat v) m' (by rw [List.getElem?_set_self hlt]) h
      rw [List.set_set] at hn
      exact ⟨_, PState.Steps.trans (.tail (.refl _) (.store hw hc hr)) hn⟩
    · rw [GoM.run, if_neg hr] at h
      cases h

/-- two workers and two batches: the second batch may be finished before the first is begun -/
theorem second_first {σ : Type} {J : Job σ} {s0 s1 s2 : σ} {m m1 m2 : List F64} (ht : J.nThreads = 2) (hb : J.nBatches = 2)
    (hi : J.init = .ok s0) (h1 : (J.task 16 s0).run m = (.ok s1, m1)) (h2 : (J.task 0 s0).run m1 = (.ok s2, m2)) :
    ParResult J m (.ok ⟨⟩, m2) := by
  have a : PState.Steps J 7 (.start m) ⟨.sending 2, [.busy (J.task 0 s0), .busy (J.task 16 s0)], m⟩ :=
    .tail (.tail (.tail (.tail (.tail (.tail (.tail (.refl _) (.spawn (by omega))) (.spawn (by omega))) (.spawned (by omega)))
      (.begin (w := 0) rfl hi nofun)) (.begin (w := 1) rfl hi nofun)) (.handOver (w := 0) (by omega) rfl)) (.handOver (w := 1) (by omega) rfl)
  obtain ⟨n1, b⟩ := worker_runs (J := J) (pc := .sending 2) (w := 1) nofun (J.task 16 s0) [.busy (J.task 0 s0), .busy (J.task 16 s0)] m m1 rfl h1
  obtain ⟨n2, c⟩ := worker_runs (J := J) (pc := .sending 2) (w := 0) nofun (J.task 0 s0) [.busy (J.task 0 s0), .idle s1] m1 m2 rfl h2
  have d : PState.Steps J 4 ⟨.sending 2, [.idle s2, .idle s1], m2⟩ ⟨.returned, [.exited, .exited], m2⟩ :=
    .tail (.tail (.tail (.tail (.refl _) (.close (by omega))) (.exit (w := 0) rfl)) (.exit (w := 1) rfl)) (.ret (by simp))
  exact .ok (((a.trans b).trans c).trans d) rfl

namespace AliasBatchExample

open PredictExample AliasExample

/-- one tree and the exponential transformation: 0 if the first feature is at most 5 and 1 otherwise (on the demo platform) -/
def ex : Ensemble := ⟨.lg { lgm with trees := [stump (F64.neg (F64.ofNat 5000)) F64.zero], nRawOutputGroups := 1 }, .exponential⟩

theorem ex_fits : Fits ex := ⟨1, 1, rfl, by decide, ⟨1, rfl, by decide, by decide⟩, rfl⟩

/-- 17 rows 9, 0 -/
def big : List F64 := (List.replicate 17 [F64.ofNat 9, F64.zero]).flatten

/-- the prediction is 1 for every row, also in place with one thread -/
theorem in_place : ex.PredictDenseM Platform.demo ⟨0, 34⟩ 17 2 ⟨0, 17⟩ 0 1 big (.ok ⟨⟩, List.replicate 17 F64.one ++ big.drop 17) := by
  unfold Ensemble.PredictDenseM
  rw [show ex.denseChecks 17 2 0 (⟨0, 17⟩ : Win).len = .ok 1 by decide +kernel, show plan Platform.demo 17 1 = .sequential by decide +kernel]
  dsimp only
  decide +kernel

theorem alone : ex.PredictDense Platform.demo big (17 : Nat) (2 : Nat) (elems ⟨0, 17⟩ big) 0 1 (.ok ⟨⟩, List.replicate 17 F64.one) :=
  (dense_seq (n := 1) (by decide +kernel) (by decide +kernel)).2 (by decide +kernel)

/-- **C101, in place with two threads.** The same call with two threads may return without an error and have 0 as the prediction of the
ninth row: the prediction of the seventeenth row has been stored over it. -/
theorem C101_threads : ∃ out, ex.PredictDenseM Platform.demo ⟨0, 34⟩ 17 2 ⟨0, 17⟩ 0 2 big (.ok ⟨⟩, out) ∧ out[8]? = some F64.zero ∧
    ∀ w, ex.PredictDense Platform.demo (elems ⟨0, 34⟩ big) 17 2 (elems ⟨0, 17⟩ big) 0 2 (.ok ⟨⟩, w) → w[8]? = some F64.one := by
  refine ⟨List.replicate 8 F64.one ++ [F64.zero] ++ List.replicate 8 F64.one ++ big.drop 17, ?_, by decide +kernel, fun w hw => ?_⟩
  · unfold Ensemble.PredictDenseM
    rw [show ex.denseChecks 17 2 0 (⟨0, 17⟩ : Win).len = .ok 1 by decide +kernel,
      show plan Platform.demo 17 2 = .parallel 2 2 by decide +kernel]
    exact second_first (s0 := ⟨⟩) (s1 := ⟨⟩) (s2 := ⟨⟩) (m1 := big.set 16 F64.one) rfl rfl rfl (by decide +kernel) (by decide +kernel)
  · have := dense_outcome ex_fits (w := 1) (r := 17) (ncols := 2) rfl (by decide) (by decide) (m' := List.replicate 17 F64.one) alone hw
    cases this
    rfl

/-- **C101, predictions behind the matrix.** One thread: the prediction of the first row is stored over the second row. -/
theorem C101_behind : ex.PredictDenseM Platform.demo ⟨0, 4⟩ 2 2 ⟨2, 2⟩ 0 1 (big.take 4) (.ok ⟨⟩, [F64.ofNat 9, F64.zero, F64.one, F64.zero]) ∧
    ex.PredictDense Platform.demo (elems ⟨0, 4⟩ (big.take 4)) 2 2 (elems ⟨2, 2⟩ (big.take 4)) 0 1 (.ok ⟨⟩, [F64.one, F64.one]) := by
  constructor
  · unfold Ensemble.PredictDenseM
    rw [show ex.denseChecks 2 2 0 (⟨2, 2⟩ : Win).len = .ok 1 by decide +kernel, show plan Platform.demo 2 1 = .sequential by decide +kernel]
    dsimp only
    decide +kernel
  · exact (dense_seq (n := 1) (by decide +kernel) (by decide +kernel)).2 (by decide +kernel)

/-- the hypotheses of C101_in_place -/
example : Fits ex ∧ ex.transform.type ≠ TransformType.raw ∧ ex.transform.type ≠ TransformType.leafIndex ∧ ex.nOutputGroups ≤ 2 :=
  ⟨ex_fits, by decide, by decide, by decide⟩

/-- two groups and the softmax transformation -/
def soft : Ensemble := ⟨.lg { lgm with
  trees := [stump (F64.neg (F64.ofNat 5000)) F64.zero, stump F64.zero (F64.neg (F64.ofNat 5000))], maxFeatureIdx := 0 }, .softmax 2⟩

theorem soft_fits : Fits soft := ⟨2, 1, rfl, by decide, ⟨2, rfl, by decide, by decide⟩, rfl⟩

/-- **C101, more predictions than features.** Two predictions for rows of one feature, from the same place: the second row is overwritten. -/
theorem C101_wide :
    soft.PredictDenseM Platform.demo ⟨0, 2⟩ 2 1 ⟨0, 4⟩ 0 1 (List.replicate 4 (F64.ofNat 9)) (.ok ⟨⟩, [F64.one, F64.zero, F64.zero, F64.one]) ∧
    soft.PredictDense Platform.demo (List.replicate 2 (F64.ofNat 9)) 2 1 (List.replicate 4 (F64.ofNat 9)) 0 1
      (.ok ⟨⟩, [F64.one, F64.zero, F64.one, F64.zero]) := by
  constructor
  · unfold Ensemble.PredictDenseM
    rw [show soft.denseChecks 2 1 0 (⟨0, 4⟩ : Win).len = .ok 1 by decide +kernel, show plan Platform.demo 2 1 = .sequential by decide +kernel]
    dsimp only
    decide +kernel
  · exact (dense_seq (n := 1) (by decide +kernel) (by decide +kernel)).2 (by decide +kernel)

/-- slices that do not overlap, 17 rows, two threads: the predictions behind the matrix in one array (C101_dense) -/
example : ∀ out, ex.PredictDenseM Platform.demo ⟨0, 34⟩ 17 2 ⟨34, 17⟩ 0 2 (big ++ List.replicate 17 F64.nan) out →
    out = (.ok ⟨⟩, big ++ List.replicate 17 F64.one) := by
  intro out h
  obtain ⟨w, h, h'⟩ := (C101_dense _ _ _ _ _ _ _ _ _ (by decide) (by decide) (.inr (by decide)) _).1 h
  have := dense_outcome ex_fits (w := 1) (r := 17) (ncols := 2) rfl (by decide) (by decide) (m' := List.replicate 17 F64.one)
    ((dense_seq (n := 1) (by decide +kernel) (by decide +kernel)).2 (by decide +kernel)) h
  obtain ⟨r, m⟩ := out
  cases this
  rw [show m = _ from h']
  decide +kernel

/-- the same for a sparse matrix of two rows: its values are 9 and 3 (C101_csr) -/
example : ex.PredictCSRM Platform.demo [0, 1, 2] [0, 0] ⟨0, 2⟩ ⟨2, 2⟩ 0 1 [F64.ofNat 9, F64.ofNat 3, F64.nan, F64.nan]
    (.ok ⟨⟩, [F64.ofNat 9, F64.ofNat 3, F64.one, F64.zero]) :=
  (C101_csr _ _ _ _ _ _ _ _ _ (by decide) (by decide) (.inr (by decide)) _).2 ⟨[F64.one, F64.zero],
    (csr_seq (n := 1) (by decide +kernel) (by decide +kernel)).2 (by decide +kernel), by decide +kernel⟩

/-- **C101, sparse in place.** The values of the second row are overwritten before they are read if the predictions begin behind those
of the first. -/
theorem C101_csr_behind : ex.PredictCSRM Platform.demo [0, 1, 2] [0, 0] ⟨0, 2⟩ ⟨1, 2⟩ 0 1 [F64.ofNat 9, F64.ofNat 9, F64.nan]
      (.ok ⟨⟩, [F64.ofNat 9, F64.one, F64.zero]) ∧
    ex.PredictCSR Platform.demo [0, 1, 2] [0, 0] [F64.ofNat 9, F64.ofNat 9] [F64.ofNat 9, F64.nan] 0 1 (.ok ⟨⟩, [F64.one, F64.one]) := by
  constructor
  · unfold Ensemble.PredictCSRM
    dsimp only
    rw [show ex.csrChecks ((([0, 1, 2] : List Int).length : Int) - 1) 0 2 = .ok 1 by decide +kernel,
      show plan Platform.demo ((([0, 1, 2] : List Int).length : Int) - 1) 1 = .sequential by decide +kernel]
    dsimp only
    decide +kernel
  · exact (csr_seq (n := 1) (by decide +kernel) (by decide +kernel)).2 (by decide +kernel)

end AliasBatchExample

end Leaves
