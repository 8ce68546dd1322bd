import Verif.Proofs.PredictSpec

/-! `Predict`: argument checks and the number of estimators. -/

namespace Leaves

open Spec GoM

theorem goDiv_nat {a G : Nat} (h : 0 < G) : goDiv (a : Int) (G : Int) = .ok ((a / G : Nat) : Int) := by
  unfold goDiv
  rw [if_neg (by omega), Int.tdiv_eq_ediv_of_nonneg (by omega)]
  rfl

theorem nEstimators_of {b : Base} {total : Nat} (h : IsTotal b total) : b.nEstimators = .ok (total : Int) := by
  induction b with
  | wrap b t ih => exact ih h
  | lg e =>
    obtain ⟨G, h1, h2, rfl⟩ := h
    show e.nEstimators = _
    rw [LgEnsemble.nEstimators, h1, goDiv_nat h2]
  | xg e =>
    obtain ⟨G, h1, h2, rfl⟩ := h
    show e.nEstimators = _
    rw [XgEnsemble.nEstimators, h1, goDiv_nat h2]
  | lin e =>
    have h : total = 1 := h
    subst h; rfl

theorem IsTotal.unique {b : Base} {t t' : Nat} (h : IsTotal b t) (h' : IsTotal b t') : t = t' := by
  have h1 := nEstimators_of h
  rw [nEstimators_of h'] at h1
  simp at h1
  omega

theorem adjustN_used {req : Int} {total n : Nat} (h : Used req total n) : adjustN req total = n := by
  unfold Used at h
  unfold adjustN Util.minInt
  split at h <;> split <;> (try split) <;> omega

theorem Used.exists (req : Int) (total : Nat) : ∃ n, Used req total n := by
  unfold Used
  split
  · exact ⟨req.toNat, by omega⟩
  · exact ⟨total, rfl⟩

theorem Used.unique {req : Int} {total n n' : Nat} (h : Used req total n) (h' : Used req total n') : n = n' := by
  unfold Used at h h'
  split at h <;> rename_i hc
  · rw [if_pos hc] at h'; omega
  · rw [if_neg hc] at h'; omega

theorem Used.le {req : Int} {total n : Nat} (h : Used req total n) : n ≤ total := by
  unfold Used at h
  split at h <;> omega

theorem adjust_of {b : Base} {req : Int} {total n : Nat} (h : IsTotal b total) (hu : Used req total n) :
    b.adjustNEstimators req = .ok (n : Int) := by
  induction b with
  | wrap b t ih => exact ih h
  | lg e =>
    have := nEstimators_of h
    show (do return adjustN req (← e.nEstimators)) = _
    rw [show e.nEstimators = _ from this, Res.ok_bind, adjustN_used hu]; rfl
  | xg e =>
    have := nEstimators_of h
    show (do return adjustN req (← e.nEstimators)) = _
    rw [show e.nEstimators = _ from this, Res.ok_bind, adjustN_used hu]; rfl
  | lin e =>
    have h : total = 1 := h
    subst h
    unfold Used at hu
    rw [if_neg (by omega)] at hu
    subst hu; rfl

theorem goDiv_ne_err (a b : Int) (tag : String) : goDiv a b ≠ .err tag := by
  unfold goDiv; split <;> simp

theorem adjust_ne_err (b : Base) (req : Int) (tag : String) : b.adjustNEstimators req ≠ .err tag := by
  induction b with
  | wrap b t ih => exact ih
  | lg e =>
    show (do return adjustN req (← e.nEstimators)) ≠ _
    have := goDiv_ne_err e.trees.length e.nRawOutputGroups tag
    unfold LgEnsemble.nEstimators
    revert this
    cases goDiv e.trees.length e.nRawOutputGroups <;> simp
  | xg e =>
    show (do return adjustN req (← e.nEstimators)) ≠ _
    have := goDiv_ne_err e.trees.length e.nRawOutputGroups tag
    unfold XgEnsemble.nEstimators
    revert this
    cases goDiv e.trees.length e.nRawOutputGroups <;> simp
  | lin e => simp [Base.adjustNEstimators]

/-- is it a leaf-index view? -/
def Ensemble.isLeaf (e : Ensemble) : Prop := e.transform.type = TransformType.leafIndex

theorem isLeaf_iff {e : Ensemble} : e.isLeaf ↔ ∃ k, e.transform = .leafIndex k := by
  obtain ⟨b, t⟩ := e
  cases t <;> simp [Ensemble.isLeaf, Transform.type, TransformType.leafIndex, TransformType.raw, TransformType.logistic,
    TransformType.softmax, TransformType.exponential]

theorem check_of {e : Ensemble} {total n : Nat} (h : IsTotal e.base total) (hl : e.isLeaf → n = total) :
    e.checkNEstimators n = .ok ⟨⟩ := by
  unfold Ensemble.checkNEstimators
  split
  · rename_i hh
    rw [hl hh]
    show (e.base.nEstimators >>= _) = _
    rw [nEstimators_of h, Res.ok_bind, if_neg (by simp)]
  · rfl

theorem check_err {e : Ensemble} {total n : Nat} (h : IsTotal e.base total) (hl : e.isLeaf) (hn : n ≠ total) :
    ∃ tag, e.checkNEstimators n = .err tag := by
  unfold Ensemble.checkNEstimators
  rw [if_pos (show e.transform.type = TransformType.leafIndex from hl)]
  refine ⟨"while predicting leaf indices all estimators should be used", ?_⟩
  show (e.base.nEstimators >>= _) = _
  rw [nEstimators_of h, Res.ok_bind, if_pos (by omega)]

theorem wrap64_id {i : Int} (h1 : -2 ^ 63 ≤ i) (h2 : i < 2 ^ 63) : wrap64 i = i := by
  unfold wrap64
  exact Int.bmod_eq_of_le (by omega) (by omega)

/-- the width that `NOutputGroups` promises -/
theorem width_eq {e : Ensemble} (hf : Fits e) {G total : Nat} (hG : e.base.nRawOutputGroups = G) (ht : IsTotal e.base total) :
    (width e G total : Int) = e.nOutputGroups := by
  obtain ⟨G', total', hG', hG0, ht', hm⟩ := hf
  have : G' = G := by omega
  subst this
  have := IsTotal.unique ht ht'
  subst this
  obtain ⟨b, t⟩ := e
  cases t with
  | raw n => exact hm.symm
  | logistic => have hm : G' = 1 := hm; subst hm; rfl
  | exponential => have hm : G' = 1 := hm; subst hm; rfl
  | softmax n => exact hm.symm
  | leafIndex n =>
    have := hm.1
    show ((G' * total : Nat) : Int) = n
    push_cast
    omega

theorem width_mono {e : Ensemble} {G n n' : Nat} (h : n ≤ n') : width e G n ≤ width e G n' := by
  obtain ⟨b, t⟩ := e
  cases t with
  | leafIndex k => exact Nat.mul_le_mul_left _ h
  | _ => exact Nat.le_refl _

/-- the checks passed -/
theorem predict_unfold {P : Platform} {e : Ensemble} {fvals : List F64} {req : Int} {len total n : Nat}
    (hrange : e.nOutputGroups < 2 ^ 63) (hpos : 0 ≤ e.nOutputGroups) (hlen : e.nOutputGroups ≤ len) (hfeat : e.nFeatures ≤ fvals.length)
    (ht : IsTotal e.base total) (hu : Used req total n) (hl : e.isLeaf → n = total) :
    e.predict P fvals req len = e.predictInnerAndTransform P fvals n 0 := by
  unfold Ensemble.predict
  rw [Int.mul_one, wrap64_id (by omega) hrange, if_neg (by omega), if_neg (by omega), adjust_of ht hu, ofRes_ok, ret_bind,
    check_of ht hl, ofRes_ok, ret_bind]

theorem predict_spec {P : Platform} {e : Ensemble} (hf : Fits e) (hrange : e.nOutputGroups < 2 ^ 63) {fvals : List F64}
    {req : Int} {m m' : List F64} :
    (e.predict P fvals req m.length).run m = (.ok ⟨⟩, m') ↔
      e.nOutputGroups ≤ m.length ∧ e.nFeatures ≤ fvals.length ∧ ∃ total n, IsTotal e.base total ∧ Used req total n ∧
        (e.isLeaf → n = total) ∧ ∃ out, IsOutput P e fvals n out ∧ Stored m 0 out m' := by
  obtain ⟨G, total, hG, hG0, ht, hm⟩ := id hf
  have hw := width_eq hf hG ht
  obtain ⟨n, hu⟩ := Used.exists req total
  constructor
  · intro h
    by_cases hlen : e.nOutputGroups ≤ m.length
    · by_cases hfeat : e.nFeatures ≤ fvals.length
      · by_cases hl : e.isLeaf → n = total
        · rw [predict_unfold hrange (by omega) hlen hfeat ht hu hl] at h
          have hmono := width_mono (e := e) (G := G) (Used.le hu)
          have := (pit_spec (P := P) hf hG (fvals := fvals) (s := 0) (n := n) (m := m) (m' := m') (by omega)).1 h
          exact ⟨hlen, hfeat, total, n, ht, hu, hl, this⟩
        · exfalso
          push Not at hl
          obtain ⟨tag, hc⟩ := check_err ht hl.1 hl.2
          unfold Ensemble.predict at h
          rw [Int.mul_one, wrap64_id (by omega) hrange, if_neg (by omega), if_neg (by omega), adjust_of ht hu, ofRes_ok, ret_bind,
            hc] at h
          cases (Prod.mk.inj h).1
      · exfalso
        unfold Ensemble.predict at h
        rw [Int.mul_one, wrap64_id (by omega) hrange, if_neg (by omega), if_pos (by omega)] at h
        cases (Prod.mk.inj h).1
    · exfalso
      unfold Ensemble.predict at h
      rw [Int.mul_one, wrap64_id (by omega) hrange, if_pos (by omega)] at h
      cases (Prod.mk.inj h).1
  · rintro ⟨hlen, hfeat, total', n', ht', hu', hl, out, ho, hs⟩
    have := IsTotal.unique ht' ht
    subst this
    rw [predict_unfold hrange (by omega) hlen hfeat ht' hu' hl]
    have hmono := width_mono (e := e) (G := G) (Used.le hu')
    exact (pit_spec (P := P) hf hG (s := 0) (by omega)).2 ⟨out, ho, hs⟩

/-- all rejections happen before anything is stored -/
theorem predict_rejects {P : Platform} {e : Ensemble} (hf : Fits e) (hrange : e.nOutputGroups < 2 ^ 63) {fvals : List F64}
    {req : Int} {m : List F64} {total n : Nat} (ht : IsTotal e.base total) (hu : Used req total n)
    (h : e.nOutputGroups > m.length ∨ e.nFeatures > fvals.length ∨ (e.isLeaf ∧ n ≠ total)) :
    ∃ tag, (e.predict P fvals req m.length).run m = (.err tag, m) := by
  obtain ⟨G, total', hG, hG0, ht', hm⟩ := id hf
  have hw := width_eq hf hG ht'
  unfold Ensemble.predict
  rw [Int.mul_one, wrap64_id (by omega) hrange]
  split
  · exact ⟨_, rfl⟩
  · split
    · exact ⟨_, rfl⟩
    · rw [adjust_of ht hu, ofRes_ok, ret_bind]
      rcases h with h | h | h
      · omega
      · omega
      · obtain ⟨tag, hc⟩ := check_err ht h.1 h.2
        rw [hc]
        exact ⟨tag, rfl⟩

/-! ### no error is returned once storing has begun -/

theorem LgTree.predict_ne_err (P : Platform) (t : LgTree) (fvals : List F64) (tag : String) : t.predict P fvals ≠ .err tag := by
  have idx_ne {α : Type} (l : List α) (i : Nat) : Res.idx l i ≠ .err tag := by
    unfold Res.idx; split <;> simp
  have bind_ne {α β : Type} {r : Res α} {f : α → Res β} (h : r ≠ .err tag) (hf : ∀ a, f a ≠ .err tag) : (r >>= f) ≠ .err tag := by
    cases r <;> simp_all
  have hfind : ∀ i pos, t.findInBitset i pos ≠ .err tag := by
    intro i pos
    unfold LgTree.findInBitset
    refine bind_ne (idx_ne _ _) fun _ => bind_ne (idx_ne _ _) fun _ => ?_
    split
    · simp
    · exact bind_ne (idx_ne _ _) fun _ => by simp
  have hcat : ∀ nd x, t.categoricalDecision P nd x ≠ .err tag := by
    intro nd x
    unfold LgTree.categoricalDecision
    dsimp only
    split
    · simp
    · split
      · simp
      · split
        · simp
        · split
          · simp
          · exact hfind _ _
  have hdec : ∀ nd x, t.decision P nd x ≠ .err tag := by
    intro nd x
    unfold LgTree.decision
    split
    · exact hcat nd x
    · simp
  have hloop : ∀ fuel idx, t.predictLoop P fvals fuel idx ≠ .err tag := by
    intro fuel
    induction fuel with
    | zero => intro idx; simp [LgTree.predictLoop]
    | succ fuel ih =>
      intro idx
      rw [LgTree.predictLoop]
      refine bind_ne (idx_ne _ _) fun _ => bind_ne (idx_ne _ _) fun _ => bind_ne (hdec _ _) fun _ => ?_
      split
      · split
        · exact bind_ne (idx_ne _ _) fun _ => by simp
        · exact ih _
      · split
        · exact bind_ne (idx_ne _ _) fun _ => by simp
        · exact ih _
  unfold LgTree.predict
  split
  · exact bind_ne (idx_ne _ _) fun _ => by simp
  · exact hloop _ _

/-- the program never stops with an error -/
def NoErr {α : Type} : GoM α → Prop
  | .ret _ => True
  | .load _ k => ∀ v, NoErr (k v)
  | .store _ _ k => NoErr k
  | .stop s => ∀ tag, s ≠ .err tag

namespace NoErr
variable {α β : Type}

theorem bind {p : GoM α} {f : α → GoM β} (hp : NoErr p) (hf : ∀ a, NoErr (f a)) : NoErr (p >>= f) := by
  induction p with
  | ret a => exact hf a
  | load i k ih => exact fun v => ih v (hp v)
  | store i v k ih => exact ih hp
  | stop s => exact hp

theorem ofRes {r : Res α} (h : ∀ tag, r ≠ .err tag) : NoErr (ofRes r) := by
  cases r with
  | ok a => trivial
  | err t => exact absurd rfl (h t)
  | panic => intro tag h; cases h
  | hang => intro tag h; cases h

theorem forRange {body : Nat → GoM Unit} {s c : Nat} (h : ∀ k, NoErr (body k)) : NoErr (forRange body s c) := by
  induction c generalizing s with
  | zero => trivial
  | succ c ih => exact (h s).bind fun _ => ih

theorem run {p : GoM α} (hp : NoErr p) (m : List F64) (tag : String) : (p.run m).1 ≠ .err tag := by
  induction p generalizing m with
  | ret a => simp [GoM.run]
  | load i k ih => rw [GoM.run]; split
                   · exact ih _ (hp _) m
                   · simp
  | store i v k ih => rw [GoM.run]; split
                      · exact ih hp _
                      · simp
  | stop s => cases s with
    | err t => exact absurd rfl (hp t)
    | panic => simp [GoM.run, Stop.toRes]
    | hang => simp [GoM.run, Stop.toRes]

end NoErr

theorem idx_ne_err {α : Type} (l : List α) (i : Nat) (tag : String) : Res.idx l i ≠ .err tag := by
  unfold Res.idx; split <;> simp

theorem idxI_ne_err {α : Type} (l : List α) (i : Int) (tag : String) : Res.idxI l i ≠ .err tag := by
  unfold Res.idxI; split
  · simp
  · exact idx_ne_err _ _ _

theorem inner_noErr (P : Platform) (b : Base) (fvals : List F64) (n s : Int) : NoErr (b.predictInner P fvals n s) := by
  induction b with
  | wrap b t ih => exact ih
  | lg e =>
    refine NoErr.bind (NoErr.forRange fun _ => trivial) fun _ => NoErr.forRange fun i => NoErr.forRange fun k => ?_
    refine NoErr.bind (NoErr.ofRes (idxI_ne_err _ _)) fun t => NoErr.bind (NoErr.ofRes (t.predict_ne_err P fvals)) fun x => ?_
    exact fun _ => trivial
  | xg e =>
    refine NoErr.bind (NoErr.forRange fun _ => trivial) fun _ => NoErr.forRange fun i => NoErr.forRange fun k => ?_
    refine NoErr.bind (NoErr.ofRes (idxI_ne_err _ _)) fun t => NoErr.bind (NoErr.ofRes (t.predict_ne_err P fvals)) fun x => ?_
    exact NoErr.bind (fun _ => trivial) fun _ => NoErr.bind (NoErr.ofRes (idxI_ne_err _ _)) fun _ => trivial
  | lin e =>
    refine NoErr.forRange fun k => NoErr.bind (NoErr.ofRes (idxI_ne_err _ _)) fun w => NoErr.bind trivial fun _ => ?_
    refine NoErr.forRange fun i => NoErr.bind (fun _ => trivial) fun _ => NoErr.bind (NoErr.ofRes (idx_ne_err _ _)) fun _ => ?_
    exact NoErr.bind (NoErr.ofRes (idxI_ne_err _ _)) fun _ => trivial

theorem leafInner_noErr (P : Platform) (b : Base) (fvals : List F64) (n s : Int) :
    NoErr (b.predictLeafIndicesInner P fvals n s) := by
  have aux : ∀ trees G, NoErr (leafIndicesInner P trees G fvals n s) := by
    intro trees G
    refine NoErr.bind (NoErr.forRange fun _ => trivial) fun _ => NoErr.forRange fun i => NoErr.forRange fun k => ?_
    refine NoErr.bind (NoErr.ofRes (idxI_ne_err _ _)) fun t => NoErr.bind (NoErr.ofRes (t.predict_ne_err P fvals)) fun x => ?_
    trivial
  induction b with
  | wrap b t ih => exact ih
  | lg e => exact aux _ _
  | xg e => exact aux _ _
  | lin e => trivial

theorem apply_noErr (P : Platform) (t : Transform) (w : List F64) (s : Int) : NoErr (t.apply P w s) := by
  have hcopy : ∀ (w : List F64) (i : Nat), NoErr (Transform.copyLoop s i w) := by
    intro w
    induction w with
    | nil => intro i; trivial
    | cons v w ih => intro i; exact NoErr.bind trivial fun _ => ih _
  have hfill : ∀ (w : List F64) (i : Nat) (sum : F64), NoErr (Transform.softmaxFill P s i w sum) := by
    intro w
    induction w with
    | nil => intro i sum; trivial
    | cons v w ih => intro i sum; exact NoErr.bind trivial fun _ => ih _ _
  cases t with
  | raw n => exact NoErr.bind (hcopy _ _) fun _ => trivial
  | leafIndex n => exact NoErr.bind (hcopy _ _) fun _ => trivial
  | logistic =>
    match w with
    | [] => trivial
    | [x] => trivial
    | _ :: _ :: _ => trivial
  | exponential =>
    match w with
    | [] => trivial
    | [x] => trivial
    | _ :: _ :: _ => trivial
  | softmax n =>
    simp only [Transform.apply]
    split
    · trivial
    · refine NoErr.bind (NoErr.bind (hfill _ _ _) fun sum => ?_) fun _ => trivial
      split
      · exact NoErr.forRange fun k => NoErr.bind (fun _ => trivial) fun _ => trivial
      · trivial

theorem pit_noErr (P : Platform) (e : Ensemble) (fvals : List F64) (n s : Int) :
    NoErr (e.predictInnerAndTransform P fvals n s) := by
  unfold Ensemble.predictInnerAndTransform
  split
  · exact inner_noErr ..
  · split
    · exact leafInner_noErr ..
    · refine NoErr.bind (NoErr.ofRes ?_) fun init => NoErr.bind (NoErr.ofRes ?_) fun w => NoErr.bind (apply_noErr ..) fun _ => trivial
      · intro tag; unfold makeSlice; split <;> simp
      · intro tag h
        unfold runLocal at h
        have := NoErr.run (inner_noErr P e.base fvals n 0) init tag
        split at h <;> simp_all

end Leaves
