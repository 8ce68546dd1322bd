import Verif.Proofs.Rows

/-! `PredictDense` and `PredictCSR` specified. -/

namespace Leaves

open Spec GoM

/-! ### dense rows -/

theorem denseRowSlice_iff {vals : List F64} {ncols i : Nat} (hc : 0 < ncols) {row : List F64} :
    Ensemble.denseRowSlice vals ncols i = .ok row ↔ DenseRow vals ncols i row := by
  unfold Ensemble.denseRowSlice DenseRow
  have h1 : ((i : Int) * (ncols : Int)) = ((i * ncols : Nat) : Int) := by push_cast; rfl
  have h2 : ((i : Int) + 1) * (ncols : Int) = ((i * ncols + ncols : Nat) : Int) := by push_cast; ring
  dsimp only
  rw [h1, h2]
  generalize i * ncols = s
  by_cases hl : s + ncols ≤ vals.length
  · rw [if_neg (by omega)]
    simp only [Int.toNat_natCast, Nat.add_sub_cancel_left, Res.ok.injEq]
    constructor
    · rintro rfl
      refine ⟨by simp; omega, fun j hj => ⟨vals[s + j], by simp, ?_⟩⟩
      rw [List.getElem?_take, if_pos hj, List.getElem?_drop]
      simp
    · rintro ⟨h3, h4⟩
      apply List.ext_getElem?
      intro j
      rw [List.getElem?_take]
      by_cases hj : j < ncols
      · obtain ⟨x, h5, h6⟩ := h4 j hj
        rw [if_pos hj, List.getElem?_drop, h5, h6]
      · rw [if_neg hj, List.getElem?_eq_none (by omega)]
  · rw [if_pos (by omega)]
    constructor
    · intro h; cases h
    · rintro ⟨_, h4⟩
      obtain ⟨x, h5, _⟩ := h4 (ncols - 1) (by omega)
      obtain ⟨h6, _⟩ := List.getElem?_eq_some_iff.1 h5
      omega

/-! ### sparse rows -/

/-- what `fillRow` needs of entry `j` -/
def EntryOK (cols : List Int) (vals : List F64) (nf : Nat) (j : Int) : Prop :=
  0 ≤ j ∧ ∃ c, cols[j.toNat]? = some c ∧ (c < nf → 0 ≤ c ∧ ∃ v, vals[j.toNat]? = some v)

theorem fillRow_length {cols : List Int} {vals : List F64} : ∀ {n : Nat} {j : Int} {fvals row : List F64},
    Ensemble.fillRow cols vals j n fvals = .ok row → row.length = fvals.length := by
  intro n
  induction n with
  | zero => intro j fvals row h; simp only [Ensemble.fillRow, Res.ok.injEq] at h; rw [h]
  | succ n ih =>
    intro j fvals row h
    rw [Ensemble.fillRow] at h
    obtain ⟨c, _, h⟩ := Res.bind_eq_ok.1 h
    split at h
    · obtain ⟨v, _, h⟩ := Res.bind_eq_ok.1 h
      split at h
      · cases h
      · rw [ih h]; simp
    · exact ih h

theorem idxI_eq_ok {α : Type} {l : List α} {i : Int} {a : α} : Res.idxI l i = .ok a ↔ 0 ≤ i ∧ l[i.toNat]? = some a := by
  unfold Res.idxI
  split
  · constructor
    · intro h; cases h
    · rintro ⟨h, _⟩; omega
  · rw [Res.idx_eq_ok]
    exact ⟨fun h => ⟨by omega, h⟩, fun h => h.2⟩

/-- the last entry wins -/
theorem fillRow_spec {cols : List Int} {vals : List F64} : ∀ {n : Nat} {j : Int} {fvals row : List F64},
    Ensemble.fillRow cols vals j n fvals = .ok row →
      (∀ j', j ≤ j' → j' < j + n → EntryOK cols vals fvals.length j') ∧
      ∀ k < fvals.length,
        (∃ j' : Nat, j ≤ j' ∧ j' < j + n ∧ cols[j']? = some (k : Int) ∧ row[k]? = vals[j']? ∧
          ∀ j'' : Nat, j' < j'' → j'' < j + n → cols[j'']? ≠ some (k : Int)) ∨
        ((∀ j' : Nat, j ≤ j' → j' < j + n → cols[j']? ≠ some (k : Int)) ∧ row[k]? = fvals[k]?) := by
  intro n
  induction n with
  | zero =>
    intro j fvals row h
    simp only [Ensemble.fillRow, Res.ok.injEq] at h
    subst h
    exact ⟨fun j' h1 h2 => by omega, fun k hk => Or.inr ⟨fun j' h1 h2 => by omega, rfl⟩⟩
  | succ n ih =>
    intro j fvals row h
    rw [Ensemble.fillRow] at h
    obtain ⟨c, hc, h⟩ := Res.bind_eq_ok.1 h
    obtain ⟨hj0, hc⟩ := idxI_eq_ok.1 hc
    have hjn : ((j.toNat : Nat) : Int) = j := Int.toNat_of_nonneg hj0
    split at h
    · rename_i hlt
      obtain ⟨v, hv, h⟩ := Res.bind_eq_ok.1 h
      obtain ⟨_, hv⟩ := idxI_eq_ok.1 hv
      split at h
      · cases h
      · rename_i hneg
        obtain ⟨h1, h2⟩ := ih h
        simp only [List.length_set] at h1 h2
        refine ⟨fun j' g1 g2 => ?_, fun k hk => ?_⟩
        · by_cases he : j' = j
          · subst he
            exact ⟨hj0, c, hc, fun _ => ⟨by omega, v, hv⟩⟩
          · exact h1 j' (by omega) (by omega)
        · rcases h2 k hk with ⟨j', g1, g2, g3, g4, g5⟩ | ⟨g1, g2⟩
          · exact Or.inl ⟨j', by omega, by omega, g3, g4, fun j'' a1 a2 => g5 j'' a1 (by omega)⟩
          · by_cases hck : c = (k : Int)
            · subst hck
              refine Or.inl ⟨j.toNat, by omega, by omega, hc, ?_, fun j'' a1 a2 => g1 j'' (by omega) (by omega)⟩
              rw [g2, hv, Int.toNat_natCast, List.getElem?_set_self hk]
            · refine Or.inr ⟨fun j' a1 a2 => ?_, ?_⟩
              · by_cases he : (j' : Int) = j
                · have : j' = j.toNat := by omega
                  subst this
                  rw [hc]
                  simpa using hck
                · exact g1 j' (by omega) (by omega)
              · rw [g2, List.getElem?_set_ne (by omega)]
    · rename_i hge
      obtain ⟨h1, h2⟩ := ih h
      refine ⟨fun j' g1 g2 => ?_, fun k hk => ?_⟩
      · by_cases he : j' = j
        · subst he
          exact ⟨hj0, c, hc, fun hh => absurd hh hge⟩
        · exact h1 j' (by omega) (by omega)
      · rcases h2 k hk with ⟨j', g1, g2, g3, g4, g5⟩ | ⟨g1, g2⟩
        · exact Or.inl ⟨j', by omega, by omega, g3, g4, fun j'' a1 a2 => g5 j'' a1 (by omega)⟩
        · refine Or.inr ⟨fun j' a1 a2 => ?_, g2⟩
          by_cases he : (j' : Int) = j
          · have : j' = j.toNat := by omega
            subst this
            rw [hc]
            intro hh
            simp only [Option.some.injEq] at hh
            omega
          · exact g1 j' (by omega) (by omega)

theorem fillRow_exists {cols : List Int} {vals : List F64} : ∀ {n : Nat} {j : Int} {fvals : List F64},
    (∀ j', j ≤ j' → j' < j + n → EntryOK cols vals fvals.length j') → ∃ row, Ensemble.fillRow cols vals j n fvals = .ok row := by
  intro n
  induction n with
  | zero => intro j fvals _; exact ⟨fvals, rfl⟩
  | succ n ih =>
    intro j fvals h
    obtain ⟨hj0, c, hc, hcv⟩ := h j (by omega) (by omega)
    rw [Ensemble.fillRow, idxI_eq_ok.2 ⟨hj0, hc⟩, Res.ok_bind]
    by_cases hlt : c < fvals.length
    · obtain ⟨h0, v, hv⟩ := hcv hlt
      rw [if_pos hlt, idxI_eq_ok.2 ⟨hj0, hv⟩, Res.ok_bind, if_neg (by omega)]
      exact ih fun j' g1 g2 => by
        rw [List.length_set]; exact h j' (by omega) (by omega)
    · rw [if_neg hlt]
      exact ih fun j' g1 g2 => h j' (by omega) (by omega)

/-- the row buffer filled for row `i` -/
def csrRowOf (indptr cols : List Int) (vals : List F64) (fvals : List F64) (i : Nat) : Res (List F64) := do
  let start ← Res.idx indptr i
  let end_ ← Res.idx indptr (i + 1)
  Ensemble.fillRow cols vals start (end_ - start).toNat fvals

theorem SparseRow.unique {indptr cols : List Int} {vals : List F64} {nf : Nat} {d : F64} {i : Nat} {row row' : List F64}
    (h : SparseRow indptr cols vals nf d i row) (h' : SparseRow indptr cols vals nf d i row') : row = row' := by
  obtain ⟨a, b, h1, h2, _, h3, h4⟩ := h
  obtain ⟨a', b', h1', h2', _, h3', h4'⟩ := h'
  rw [h1] at h1'
  rw [h2] at h2'
  cases h1'
  cases h2'
  apply List.ext_getElem?
  intro k
  by_cases hk : k < nf
  · rcases h4 k hk with ⟨j, g1, g2, g3, g4, g5⟩ | ⟨g1, g2⟩
    · rcases h4' k hk with ⟨j', k1, k2, k3, k4, k5⟩ | ⟨k1, k2⟩
      · have : j = j' := by
          rcases Nat.lt_trichotomy j j' with hlt | he | hlt
          · exact absurd k3 (g5 j' hlt k2)
          · exact he
          · exact absurd g3 (k5 j hlt g2)
        subst this
        rw [g4, k4]
      · exact absurd g3 (k1 j g1 g2)
    · rcases h4' k hk with ⟨j', k1, k2, k3, k4, k5⟩ | ⟨k1, k2⟩
      · exact absurd k3 (g1 j' k1 k2)
      · rw [g2, k2]
  · rw [List.getElem?_eq_none (by omega), List.getElem?_eq_none (by omega)]

theorem csrRowOf_iff {indptr cols : List Int} {vals : List F64} {nf : Nat} {d : F64} {i : Nat} {row : List F64} :
    csrRowOf indptr cols vals (List.replicate nf d) i = .ok row ↔ SparseRow indptr cols vals nf d i row := by
  have fwd : ∀ row, csrRowOf indptr cols vals (List.replicate nf d) i = .ok row → SparseRow indptr cols vals nf d i row := by
    intro row h
    unfold csrRowOf at h
    obtain ⟨a, ha, h⟩ := Res.bind_eq_ok.1 h
    obtain ⟨b, hb, h⟩ := Res.bind_eq_ok.1 h
    have hl := fillRow_length h
    obtain ⟨h1, h2⟩ := fillRow_spec h
    simp only [List.length_replicate] at hl h1 h2
    refine ⟨a, b, Res.idx_eq_ok.1 ha, Res.idx_eq_ok.1 hb, fun j g1 g2 => h1 j g1 (by omega), hl, fun k hk => ?_⟩
    rcases h2 k hk with ⟨j, g1, g2, g3, g4, g5⟩ | ⟨g1, g2⟩
    · exact Or.inl ⟨j, g1, by omega, g3, g4, fun j' a1 a2 => g5 j' a1 (by omega)⟩
    · exact Or.inr ⟨fun j a1 a2 => g1 j a1 (by omega), by rw [g2]; simp [hk]⟩
  refine ⟨fwd row, fun h => ?_⟩
  obtain ⟨a, b, h1, h2, h3, h4, h5⟩ := id h
  have hex : ∃ row', csrRowOf indptr cols vals (List.replicate nf d) i = .ok row' := by
    unfold csrRowOf
    rw [Res.idx_eq_ok.2 h1, Res.ok_bind, Res.idx_eq_ok.2 h2, Res.ok_bind]
    exact fillRow_exists fun j g1 g2 => by
      rw [List.length_replicate]; exact h3 j g1 (by omega)
  obtain ⟨row', hr⟩ := hex
  rw [hr, SparseRow.unique h (fwd row' hr)]

theorem reset_eq (b : Base) (fvals : List F64) : b.resetFVals fvals = List.replicate fvals.length (dflt b) := by
  induction b with
  | wrap b t ih => exact ih
  | lg e => show fvals.map _ = _; exact List.map_const'
  | xg e => show fvals.map _ = _; exact List.map_const'
  | lin e => show fvals.map _ = _; exact List.map_const'

theorem newFVals_eq {P : Platform} {e : Ensemble} {nf : Nat} (h : e.nFeatures = nf ∧ nf * 8 ≤ P.maxAlloc) :
    e.newFVals P = .ok (List.replicate nf (dflt e.base)) := by
  unfold Ensemble.newFVals allocCheck
  rw [h.1, if_neg (by omega), Res.ok_bind, Res.pure_eq, reset_eq, List.length_replicate, Int.toNat_natCast]

theorem ofRes_bind {α β : Type} (r : Res α) (f : α → Res β) : ofRes (r >>= f) = ofRes r >>= fun a => ofRes (f a) := by
  cases r <;> rfl

theorem csrRow_rets (P : Platform) (e : Ensemble) (indptr cols : List Int) (vals : List F64) (n : Int) (i nf : Nat) (d : F64)
    (hd : d = dflt e.base) :
    Rets (fun st => st = List.replicate nf d) (e.csrRow P indptr cols vals n i (List.replicate nf d)) := by
  unfold Ensemble.csrRow
  refine Rets.bind (Rets.triv _) fun a _ => Rets.bind (Rets.triv _) fun b _ => ?_
  refine Rets.bind (Q := fun l => l.length = nf) (Rets.ofRes fun l hl => by rw [fillRow_length hl]; simp) fun fv hfv => ?_
  refine Rets.bind (Rets.triv _) fun _ _ => ?_
  show e.base.resetFVals fv = _
  rw [reset_eq, hfv, hd]

theorem csrRow_prog (P : Platform) (e : Ensemble) (indptr cols : List Int) (vals : List F64) (n : Int) (i : Nat) (fvals : List F64) :
    (e.csrRow P indptr cols vals n i fvals >>= fun _ => .ret ⟨⟩) = rowProg P e n (csrRowOf indptr cols vals fvals) i := by
  unfold Ensemble.csrRow rowProg csrRowOf
  simp only [ofRes_bind, GoM.bind_assoc, pure_eq, ret_bind]
  congr 1
  funext a
  congr 1
  funext b
  congr 1
  funext f
  exact GoM.bind_ret _

theorem csrInner_eq (P : Platform) {e : Ensemble} (indptr cols : List Int) (vals : List F64) (n : Int) (s t nf : Nat) :
    e.predictCSRInner P indptr cols vals s t n (List.replicate nf (dflt e.base)) =
      forRange (rowProg P e n (csrRowOf indptr cols vals (List.replicate nf (dflt e.base)))) s (t - s) >>=
        fun _ => .ret (List.replicate nf (dflt e.base)) := by
  unfold Ensemble.predictCSRInner
  rw [forState_const (fun i _ _ => csrRow_rets P e indptr cols vals n i nf _ rfl)]
  congr 2
  funext i
  exact csrRow_prog ..

/-! ### the plan -/

theorem plan_parallel {P : Platform} {r : Nat} {nt t b : Int} (hr : r ≤ 2 ^ 53) (h : plan P r nt = .parallel t b) :
    0 < t.toNat ∧ b.toNat = (r + 15) / 16 ∧ r ≤ b.toNat * 16 := by
  unfold plan at h
  split at h
  · cases h
  · rename_i hc
    dsimp only at h
    rw [nBatchesOf_eq P hr] at h
    unfold batchSize at hc
    have hg : 0 < P.gomaxprocs := Nat.succ_pos _
    generalize hx : (if nt > (P.gomaxprocs : Int) ∨ nt < 1 then (P.gomaxprocs : Int) else nt) = x at h
    have hx0 : 0 < x := by
      rw [← hx]
      split <;> omega
    clear hx
    simp only [Plan.parallel.injEq] at h
    obtain ⟨h1, h2⟩ := h
    split at h1 <;> omega

/-! ### the two batch predictions -/

theorem checks_of {e : Ensemble} {total n : Nat} {req : Int} (ht : IsTotal e.base total) (hu : Used req total n)
    (hl : e.isLeaf → n = total) {α : Type} (f : Int → Res α) :
    (do let nEstimators ← e.base.adjustNEstimators req
        let _ ← e.checkNEstimators nEstimators
        f nEstimators) = f n := by
  rw [adjust_of ht hu, Res.ok_bind, check_of ht hl, Res.ok_bind]

theorem checks_err {e : Ensemble} {total n : Nat} {req : Int} (ht : IsTotal e.base total) (hu : Used req total n)
    (hl : e.isLeaf) (hn : n ≠ total) {α : Type} (f : Int → Res α) :
    ∃ tag, (do let nEstimators ← e.base.adjustNEstimators req
               let _ ← e.checkNEstimators nEstimators
               f nEstimators) = .err tag := by
  obtain ⟨tag, hc⟩ := check_err ht hl hn
  exact ⟨tag, by rw [adjust_of ht hu, Res.ok_bind, hc, Res.err_bind]⟩

theorem dense_rowPool (P : Platform) (e : Ensemble) (vals : List F64) (ncols n : Int) (r : Nat) (t b : Int) :
    RowPool (e.denseJob P vals ncols n r t b) ⟨⟩ (rowProg P e n (Ensemble.denseRowSlice vals ncols)) r where
  init := fun _ _ => rfl
  task := by
    intro k
    show forRange _ _ _ = _
    rw [batch_rows]
    exact (GoM.bind_ret (forRange (rowProg P e n (Ensemble.denseRowSlice vals ncols)) (k * 16) (min 16 (r - k * 16)))).symm

theorem csr_rowPool (P : Platform) (e : Ensemble) (indptr cols : List Int) (vals : List F64) (n : Int) (r : Nat) (t b : Int)
    {nf : Nat} (hnf : e.nFeatures = nf ∧ nf * 8 ≤ P.maxAlloc) :
    RowPool (e.csrJob P indptr cols vals n r t b) (List.replicate nf (dflt e.base))
      (rowProg P e n (csrRowOf indptr cols vals (List.replicate nf (dflt e.base)))) r where
  init := by
    intro s hs
    have := newFVals_eq hnf
    rw [show (e.csrJob P indptr cols vals n r t b).init = e.newFVals P from rfl, this] at hs
    cases hs
    rfl
  task := by
    intro k
    show e.predictCSRInner P indptr cols vals _ _ n _ = _
    rw [csrInner_eq, batch_rows]
    rfl

/-- what a successful batch prediction amounts to -/
def BatchOK (P : Platform) (e : Ensemble) (req : Int) (rows : Nat → List F64 → Prop) (w r : Nat) (m m' : List F64) : Prop :=
  ∃ total n, IsTotal e.base total ∧ Used req total n ∧ (e.isLeaf → n = total) ∧
    ∃ outs, (∀ i < r, ∃ row, rows i row ∧ IsOutput P e row n (outs i)) ∧ StoredRows m w r outs m'

theorem dense_iff {P : Platform} {e : Ensemble} (hf : Fits e) {w r ncols : Nat} (hw : e.nOutputGroups = w) (hrange : w * r < 2 ^ 63)
    (hr : r ≤ 2 ^ 53) {vals m m' : List F64} {req nt : Int} :
    e.PredictDense P vals r ncols m req nt (.ok ⟨⟩, m') ↔
      0 < ncols ∧ e.nFeatures ≤ ncols ∧ BatchOK P e req (DenseRow vals ncols) w r m m' := by
  obtain ⟨G, total, hG, hG0, ht, hm⟩ := id hf
  obtain ⟨n, hu⟩ := Used.exists req total
  have hcast : e.nOutputGroups * (r : Int) = ((r * w : Nat) : Int) := by rw [hw]; push_cast; ring
  have hwr : r * w < 2 ^ 63 := by rw [Nat.mul_comm]; exact hrange
  unfold Ensemble.PredictDense Ensemble.denseChecks
  rw [hcast, wrap64_id (by omega) (by omega)]
  by_cases hlen : r * w ≤ m.length
  · rw [if_neg (by omega)]
    by_cases hc : 0 < ncols ∧ e.nFeatures ≤ ncols
    · rw [if_neg (by omega)]
      by_cases hl : e.isLeaf → n = total
      · have hck := checks_of ht hu hl (fun k => (Res.ok k : Res Int))
        simp only [Res.pure_eq]
        rw [hck]
        simp only
        have hrows : (forRange (rowProg P e n (Ensemble.denseRowSlice vals ncols)) 0 r).run m = (.ok ⟨⟩, m') ↔
            0 < ncols ∧ e.nFeatures ≤ ncols ∧ BatchOK P e req (DenseRow vals ncols) w r m m' := by
          rw [rows_spec hf hG ht (Used.le hu) hl hw hlen]
          simp only [denseRowSlice_iff hc.1]
          constructor
          · rintro ⟨outs, h1, h2⟩
            exact ⟨hc.1, hc.2, total, n, ht, hu, hl, outs, h1, h2⟩
          · rintro ⟨_, _, total', n', ht', hu', _, outs, h1, h2⟩
            have := IsTotal.unique ht ht'
            subst this
            have := Used.unique hu hu'
            subst this
            exact ⟨outs, h1, h2⟩
        have hW : 0 ≤ e.nOutputGroups := by omega
        have hwin := row_within P hf hG ht (Used.le hu) (Ensemble.denseRowSlice vals ncols)
        cases hp : plan P r nt with
        | sequential =>
          simp only
          rw [← hrows]
          exact eq_comm
        | parallel t b =>
          obtain ⟨h1, _, h2⟩ := plan_parallel hr hp
          simp only
          rw [← hrows]
          exact (dense_rowPool P e vals ncols n r t b).iff hW hwin h2 rfl h1
      · push Not at hl
        obtain ⟨tag, he⟩ := checks_err ht hu hl.1 hl.2 (fun k => (Res.ok k : Res Int))
        simp only [Res.pure_eq]
        rw [he]
        simp only
        constructor
        · intro h; cases (Prod.mk.inj h).1
        · rintro ⟨_, _, total', n', ht', hu', hl', _⟩
          have := IsTotal.unique ht ht'
          subst this
          have := Used.unique hu hu'
          subst this
          exact absurd (hl' hl.1) hl.2
    · rw [if_pos (by omega)]
      simp only
      constructor
      · intro h; cases (Prod.mk.inj h).1
      · rintro ⟨h1, h2, _⟩; exact absurd ⟨h1, h2⟩ hc
  · rw [if_pos (by omega)]
    simp only
    constructor
    · intro h; cases (Prod.mk.inj h).1
    · rintro ⟨_, _, _, _, _, _, _, outs, _, h1, _⟩; exact absurd h1 hlen

theorem csrSequential_run {P : Platform} {e : Ensemble} {nf : Nat} (hnf : e.nFeatures = nf ∧ nf * 8 ≤ P.maxAlloc) {indptr cols : List Int} {vals : List F64}
    {n : Int} {m m' : List F64} :
    (e.csrSequential P indptr cols vals n).run m = (.ok ⟨⟩, m') ↔
      (forRange (rowProg P e n (csrRowOf indptr cols vals (List.replicate nf (dflt e.base)))) 0 (indptr.length - 1)).run m =
        (.ok ⟨⟩, m') := by
  unfold Ensemble.csrSequential
  rw [newFVals_eq hnf, ofRes_ok, ret_bind, csrInner_eq, Nat.sub_zero, GoM.bind_assoc, run_bind_ok]
  constructor
  · rintro ⟨_, m1, h1, h2⟩
    simp only [ret_bind, pure_eq, run_ret, Prod.mk.injEq, true_and] at h2
    subst h2
    exact h1
  · intro h
    exact ⟨_, m', h, rfl⟩

theorem csr_iff {P : Platform} {e : Ensemble} (hf : Fits e) {w r nf : Nat} (hw : e.nOutputGroups = w) (hnf : e.nFeatures = nf ∧ nf * 8 ≤ P.maxAlloc)
    (hrange : w * r < 2 ^ 63) (hr : r ≤ 2 ^ 53) {indptr cols : List Int} (hlenp : indptr.length = r + 1)
    {vals m m' : List F64} {req nt : Int} :
    e.PredictCSR P indptr cols vals m req nt (.ok ⟨⟩, m') ↔
      BatchOK P e req (SparseRow indptr cols vals nf (dflt e.base)) w r m m' := by
  obtain ⟨G, total, hG, hG0, ht, hm⟩ := id hf
  obtain ⟨n, hu⟩ := Used.exists req total
  have hcast : e.nOutputGroups * (r : Int) = ((r * w : Nat) : Int) := by rw [hw]; push_cast; ring
  have hwr : r * w < 2 ^ 63 := by rw [Nat.mul_comm]; exact hrange
  unfold Ensemble.PredictCSR Ensemble.csrChecks
  dsimp only
  rw [hlenp, show (((r + 1 : Nat) : Int) - 1) = (r : Int) by push_cast; ring]
  rw [hcast, wrap64_id (by omega) (by omega)]
  by_cases hlen : r * w ≤ m.length
  · rw [if_neg (by omega)]
    by_cases hl : e.isLeaf → n = total
    · have hck := checks_of ht hu hl (fun k => (Res.ok k : Res Int))
      simp only [Res.pure_eq]
      rw [hck]
      simp only
      have hrows : (forRange (rowProg P e n (csrRowOf indptr cols vals (List.replicate nf (dflt e.base)))) 0 r).run m = (.ok ⟨⟩, m') ↔
          BatchOK P e req (SparseRow indptr cols vals nf (dflt e.base)) w r m m' := by
        rw [rows_spec hf hG ht (Used.le hu) hl hw hlen]
        simp only [csrRowOf_iff]
        constructor
        · rintro ⟨outs, h1, h2⟩
          exact ⟨total, n, ht, hu, hl, outs, h1, h2⟩
        · rintro ⟨total', n', ht', hu', _, outs, h1, h2⟩
          have := IsTotal.unique ht ht'
          subst this
          have := Used.unique hu hu'
          subst this
          exact ⟨outs, h1, h2⟩
      have hW : 0 ≤ e.nOutputGroups := by omega
      have hwin := row_within P hf hG ht (Used.le hu) (csrRowOf indptr cols vals (List.replicate nf (dflt e.base)))
      cases hp : plan P r nt with
      | sequential =>
        simp only
        rw [← hrows, eq_comm, csrSequential_run hnf, hlenp, Nat.add_sub_cancel]
      | parallel t b =>
        obtain ⟨h1, _, h2⟩ := plan_parallel hr hp
        simp only
        rw [← hrows]
        exact (csr_rowPool P e indptr cols vals n r t b hnf).iff hW hwin h2 (newFVals_eq hnf) h1
    · push Not at hl
      obtain ⟨tag, he⟩ := checks_err ht hu hl.1 hl.2 (fun k => (Res.ok k : Res Int))
      simp only [Res.pure_eq]
      rw [he]
      simp only
      constructor
      · intro h; cases (Prod.mk.inj h).1
      · rintro ⟨total', n', ht', hu', hl', _⟩
        have := IsTotal.unique ht ht'
        subst this
        have := Used.unique hu hu'
        subst this
        exact absurd (hl' hl.1) hl.2
  · rw [if_pos (by omega)]
    simp only
    constructor
    · intro h; cases (Prod.mk.inj h).1
    · rintro ⟨_, _, _, _, _, outs, _, h1, _⟩; exact absurd h1 hlen

/-! ### executions -/

theorem dense_reduce {P : Platform} {e : Ensemble} {w r ncols total n : Nat} (hw : e.nOutputGroups = w) (hrange : w * r < 2 ^ 63)
    {vals m : List F64} {req nt : Int} (hlen : r * w ≤ m.length) (hc : 0 < ncols ∧ e.nFeatures ≤ ncols) (ht : IsTotal e.base total)
    (hu : Used req total n) (hl : e.isLeaf → n = total) {out : Res Unit × List F64} :
    e.PredictDense P vals r ncols m req nt out ↔
      match plan P r nt with
      | .sequential => out = (forRange (rowProg P e n (Ensemble.denseRowSlice vals ncols)) 0 r).run m
      | .parallel t b => ParResult (e.denseJob P vals ncols n r t b) m out := by
  have hcast : e.nOutputGroups * (r : Int) = ((r * w : Nat) : Int) := by rw [hw]; push_cast; ring
  have hwr : r * w < 2 ^ 63 := by rw [Nat.mul_comm]; exact hrange
  unfold Ensemble.PredictDense Ensemble.denseChecks
  rw [hcast, wrap64_id (by omega) (by omega), if_neg (by omega), if_neg (by omega)]
  have hck := checks_of ht hu hl (fun k => (Res.ok k : Res Int))
  simp only [Res.pure_eq]
  rw [hck]
  rfl

theorem csr_reduce {P : Platform} {e : Ensemble} {w r total n : Nat} (hw : e.nOutputGroups = w) (hrange : w * r < 2 ^ 63)
    {indptr cols : List Int} (hlenp : indptr.length = r + 1)
    {vals m : List F64} {req nt : Int} (hlen : r * w ≤ m.length) (ht : IsTotal e.base total)
    (hu : Used req total n) (hl : e.isLeaf → n = total) {out : Res Unit × List F64} :
    e.PredictCSR P indptr cols vals m req nt out ↔
      match plan P r nt with
      | .sequential => out = (e.csrSequential P indptr cols vals n).run m
      | .parallel t b => ParResult (e.csrJob P indptr cols vals n r t b) m out := by
  have hcast : e.nOutputGroups * (r : Int) = ((r * w : Nat) : Int) := by rw [hw]; push_cast; ring
  have hwr : r * w < 2 ^ 63 := by rw [Nat.mul_comm]; exact hrange
  unfold Ensemble.PredictCSR Ensemble.csrChecks
  dsimp only
  rw [hlenp, show (((r + 1 : Nat) : Int) - 1) = (r : Int) by push_cast; ring, hcast, wrap64_id (by omega) (by omega), if_neg (by omega)]
  have hck := checks_of ht hu hl (fun k => (Res.ok k : Res Int))
  simp only [Res.pure_eq]
  rw [hck]
  rfl

theorem dense_outcome {P : Platform} {e : Ensemble} (hf : Fits e) {w r ncols : Nat} (hw : e.nOutputGroups = w) (hrange : w * r < 2 ^ 63)
    (hr : r ≤ 2 ^ 53) {vals m m' : List F64} {req nt : Int} (h1 : e.PredictDense P vals r ncols m req 1 (.ok ⟨⟩, m'))
    {out : Res Unit × List F64} (h : e.PredictDense P vals r ncols m req nt out) : out = (.ok ⟨⟩, m') := by
  obtain ⟨hc1, hc2, total, n, ht, hu, hl, outs, _, hs⟩ := (dense_iff hf hw hrange hr).1 h1
  obtain ⟨G, _, hG, _⟩ := id hf
  rw [dense_reduce hw hrange hs.1 ⟨hc1, hc2⟩ ht hu hl] at h h1
  rw [show plan P r 1 = .sequential from by unfold plan; rw [if_pos (by simp)]] at h1
  simp only at h1
  have hwin := row_within P hf hG ht (Used.le hu) (Ensemble.denseRowSlice vals ncols)
  cases hp : plan P r nt with
  | sequential => rw [hp] at h; rw [h, ← h1]
  | parallel t b =>
    rw [hp] at h
    simp only at h
    obtain ⟨g1, _, g2⟩ := plan_parallel hr hp
    have hpool := dense_rowPool P e vals ncols n r t b
    generalize hJ : e.denseJob P vals ncols n r t b = J at h hpool
    have hb : r ≤ J.nBatches * 16 := by rw [← hJ]; exact g2
    have hi : J.init = .ok ⟨⟩ := by rw [← hJ]; rfl
    obtain ⟨o, m2⟩ := out
    cases h with
    | @ok k s hs hret =>
      have := hpool.result (by omega) hwin hb (ParResult.ok hs hret)
      rw [← h1] at this
      rw [(Prod.mk.inj this).2]
    | @panic k s hs hret => exact absurd (ParResult.panic hs hret) (hpool.no_panic (by omega) hwin hi h1.symm)

theorem csr_outcome {P : Platform} {e : Ensemble} (hf : Fits e) {w r nf : Nat} (hw : e.nOutputGroups = w) (hnf : e.nFeatures = nf ∧ nf * 8 ≤ P.maxAlloc)
    (hrange : w * r < 2 ^ 63)
    (hr : r ≤ 2 ^ 53) {indptr cols : List Int} (hlenp : indptr.length = r + 1) {vals m m' : List F64} {req nt : Int}
    (h1 : e.PredictCSR P indptr cols vals m req 1 (.ok ⟨⟩, m'))
    {out : Res Unit × List F64} (h : e.PredictCSR P indptr cols vals m req nt out) : out = (.ok ⟨⟩, m') := by
  obtain ⟨total, n, ht, hu, hl, outs, _, hs⟩ := (csr_iff hf hw hnf hrange hr hlenp).1 h1
  obtain ⟨G, _, hG, _⟩ := id hf
  rw [csr_reduce hw hrange hlenp hs.1 ht hu hl] at h h1
  rw [show plan P r 1 = .sequential from by unfold plan; rw [if_pos (by simp)]] at h1
  simp only at h1
  have hwin := row_within P hf hG ht (Used.le hu) (csrRowOf indptr cols vals (List.replicate nf (dflt e.base)))
  cases hp : plan P r nt with
  | sequential => rw [hp] at h; rw [h, ← h1]
  | parallel t b =>
    rw [hp] at h
    simp only at h
    rw [eq_comm, csrSequential_run hnf, hlenp, Nat.add_sub_cancel] at h1
    obtain ⟨g1, _, g2⟩ := plan_parallel hr hp
    have hpool := csr_rowPool P e indptr cols vals n r t b hnf
    have hi : (e.csrJob P indptr cols vals n r t b).init = .ok (List.replicate nf (dflt e.base)) := newFVals_eq hnf
    have hb : r ≤ (e.csrJob P indptr cols vals n r t b).nBatches * 16 := g2
    generalize hJ : e.csrJob P indptr cols vals n r t b = J at h hpool hi hb
    obtain ⟨o, m2⟩ := out
    cases h with
    | @ok k s hs hret =>
      have := hpool.result (by omega) hwin hb (ParResult.ok hs hret)
      rw [h1] at this
      rw [(Prod.mk.inj this).2]
    | @panic k s hs hret => exact absurd (ParResult.panic hs hret) (hpool.no_panic (by omega) hwin hi h1)

/-- what the argument checks establish -/
theorem denseChecks_ok {e : Ensemble} (hf : Fits e) {r ncols req : Int} {len : Nat} {n : Int} (h : e.denseChecks r ncols req len = .ok n) :
    ∃ total n', IsTotal e.base total ∧ Used req total n' ∧ n = (n' : Int) ∧ (e.isLeaf → n' = total) ∧ ncols ≠ 0 ∧ e.nFeatures ≤ ncols ∧
      wrap64 (e.nOutputGroups * r) ≤ len := by
  obtain ⟨G, total, hG, hG0, ht, hm⟩ := id hf
  obtain ⟨n', hu⟩ := Used.exists req total
  unfold Ensemble.denseChecks at h
  split at h
  · cases h
  · split at h
    · cases h
    · rename_i h1 h2
      rw [adjust_of ht hu, Res.ok_bind] at h
      by_cases hl : e.isLeaf → n' = total
      · rw [check_of ht hl, Res.ok_bind] at h
        cases h
        exact ⟨total, n', ht, hu, rfl, hl, by omega, by omega, by omega⟩
      · push Not at hl
        obtain ⟨tag, he⟩ := check_err ht hl.1 hl.2
        rw [he] at h
        cases h

theorem csrChecks_ok {e : Ensemble} (hf : Fits e) {r req : Int} {len : Nat} {n : Int} (h : e.csrChecks r req len = .ok n) :
    ∃ total n', IsTotal e.base total ∧ Used req total n' ∧ n = (n' : Int) ∧ (e.isLeaf → n' = total) ∧
      wrap64 (e.nOutputGroups * r) ≤ len := by
  obtain ⟨G, total, hG, hG0, ht, hm⟩ := id hf
  obtain ⟨n', hu⟩ := Used.exists req total
  unfold Ensemble.csrChecks at h
  split at h
  · cases h
  · rename_i h1
    rw [adjust_of ht hu, Res.ok_bind] at h
    by_cases hl : e.isLeaf → n' = total
    · rw [check_of ht hl, Res.ok_bind] at h
      cases h
      exact ⟨total, n', ht, hu, rfl, hl, by omega⟩
    · push Not at hl
      obtain ⟨tag, he⟩ := check_err ht hl.1 hl.2
      rw [he] at h
      cases h

/-- no worker is left when the call returns -/
theorem pool_no_worker_left {σ : Type} {J : Job σ} {s0 : σ} {lo hi : Nat → Int} {m0 : List F64} (hp : PoolOK J s0 lo hi) {n : Nat}
    {s : PState σ} (h : PState.Steps J n (.start m0) s) (hr : s.main = .returned) : ∀ x ∈ s.workers, x = .exited := by
  obtain ⟨sent, own, hinv⟩ := Inv.steps hp h
  have hm := hinv.main
  rw [hr] at hm
  exact hm.2.2

/-- a slice of exactly the output width receives exactly the output -/
theorem predict_exact {P : Platform} {e : Ensemble} (hf : Fits e) {w : Nat} (hw : e.nOutputGroups = w) (hlt : w < 2 ^ 63)
    {row : List F64} {req : Int} {buf out : List F64} (hb : buf.length = w) :
    (e.predict P row req w).run buf = (.ok ⟨⟩, out) ↔
      e.nFeatures ≤ row.length ∧ ∃ total n, IsTotal e.base total ∧ Used req total n ∧ (e.isLeaf → n = total) ∧ IsOutput P e row n out := by
  obtain ⟨G, _, hG, _⟩ := id hf
  rw [← hb, predict_spec hf (by omega)]
  constructor
  · rintro ⟨_, h2, total, n, ht, hu, hl, o, ho, h3, h4, h5⟩
    have hlen := output_length hG ho
    have hwf := width_full hf hG ht hl
    have : o = out := by
      apply List.ext_getElem?
      intro j
      rw [h5]
      split
      · simp
      · rw [List.getElem?_eq_none (by omega), List.getElem?_eq_none (by omega)]
    exact ⟨h2, total, n, ht, hu, hl, this ▸ ho⟩
  · rintro ⟨h2, total, n, ht, hu, hl, ho⟩
    have hlen := output_length hG ho
    have hwf := width_full hf hG ht hl
    refine ⟨by omega, h2, total, n, ht, hu, hl, out, ho, by omega, by omega, fun j => ?_⟩
    split
    · simp
    · rw [List.getElem?_eq_none (by omega), List.getElem?_eq_none (by omega)]

theorem fits_of_total {e : Ensemble} (hf : Fits e) : ∃ total, IsTotal e.base total := by
  obtain ⟨_, total, _, _, ht, _⟩ := hf
  exact ⟨total, ht⟩

end Leaves
