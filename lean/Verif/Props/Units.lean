import Verif.Spec.Units
import Verif.Props.Meaning
import Verif.Props.Prune
import Verif.Props.Columns

/-! # C131: features may be measured in other units -/

namespace Leaves
open Spec GoM XgBin

theorem dense_measured {S : Nat → F64 → Prop} {g : Nat → F64 → F64} {vals vals' : List F64} {ncols i : Nat}
    (hv : ∀ f < ncols, ∃ x, vals[i * ncols + f]? = some x ∧ S f x ∧ vals'[i * ncols + f]? = some (g f x)) :
    ∃ row row', DenseRow vals ncols i row ∧ DenseRow vals' ncols i row' ∧ Measured S g row row' := by
  have hv' : ∀ f, ∃ x, f < ncols → vals[i * ncols + f]? = some x ∧ S f x ∧ vals'[i * ncols + f]? = some (g f x) := by
    intro f
    by_cases hf : f < ncols
    · obtain ⟨x, h⟩ := hv f hf
      exact ⟨x, fun _ => h⟩
    · exact ⟨.nan, fun h => absurd h hf⟩
  choose a ha using hv'
  refine ⟨(List.range ncols).map a, (List.range ncols).map fun f => g f (a f), ⟨by simp, fun j hj => ?_⟩, ⟨by simp, fun j hj => ?_⟩, by simp, fun f x hx => ?_⟩
  · exact ⟨a j, (ha j hj).1, by simp [hj]⟩
  · exact ⟨g j (a j), (ha j hj).2.2, by simp [hj]⟩
  · by_cases hf : f < ncols
    · simp [hf] at hx
      subst hx
      exact ⟨(ha f hf).2.1, by simp [hf]⟩
    · rw [List.getElem?_eq_none (by simpa using hf)] at hx
      cases hx

theorem sparse_measured {S : Nat → F64 → Prop} {g : Nat → F64 → F64} {indptr cols : List Int} {vals vals' row : List F64} {nf i : Nat} {d : F64}
    (hd : ∀ f < nf, S f d ∧ g f d = d)
    (hv : ∀ j f : Nat, f < nf → cols[j]? = some (f : Int) → ∃ x, vals[j]? = some x ∧ S f x ∧ vals'[j]? = some (g f x))
    (h : SparseRow indptr cols vals nf d i row) : ∃ row', SparseRow indptr cols vals' nf d i row' ∧ Measured S g row row' := by
  obtain ⟨a, b, h1, h2, h3, h4, h5⟩ := h
  have hget : ∀ k < nf, ∃ x, row[k]? = some x ∧ S k x ∧
      ((List.range nf).map fun f => g f (row.getD f F64.zero))[k]? = some (g k x) := by
    intro k hk
    have hr : row[k]? = some row[k] := List.getElem?_eq_getElem (by rw [h4]; exact hk)
    refine ⟨_, hr, ?_, by simp [hk, h4]⟩
    rcases h5 k hk with ⟨j, -, -, hc, hx, -⟩ | ⟨-, hx⟩
    · obtain ⟨x, e1, e2, -⟩ := hv j k hk hc
      rw [hr, e1] at hx
      rwa [Option.some.inj hx]
    · rw [hr] at hx
      rw [Option.some.inj hx]
      exact (hd k hk).1
  refine ⟨(List.range nf).map fun f => g f (row.getD f F64.zero), ⟨a, b, h1, h2, fun j ja jb => ?_, by simp, fun k hk => ?_⟩, by simp [h4], fun f x hx => ?_⟩
  · obtain ⟨g1, c, g2, g3⟩ := h3 j ja jb
    refine ⟨g1, c, g2, fun hc => ?_⟩
    obtain ⟨g4, -⟩ := g3 hc
    obtain ⟨x, -, -, e3⟩ := hv j.toNat c.toNat (by omega) (by rw [g2]; congr 1; omega)
    exact ⟨g4, _, e3⟩
  · obtain ⟨x, e1, e2, e3⟩ := hget k hk
    rw [e3]
    rcases h5 k hk with ⟨j, ja, jb, hc, hx, hl⟩ | ⟨hno, hx⟩
    · refine .inl ⟨j, ja, jb, hc, ?_, hl⟩
      obtain ⟨y, f1, f2, f3⟩ := hv j k hk hc
      rw [e1, f1] at hx
      rw [f3, Option.some.inj hx]
    · refine .inr ⟨hno, ?_⟩
      rw [e1] at hx
      rw [Option.some.inj hx, (hd k hk).2]
  · by_cases hf : f < nf
    · obtain ⟨y, e1, e2, e3⟩ := hget f hf
      rw [e1] at hx
      cases hx
      exact ⟨e2, e3⟩
    · rw [List.getElem?_eq_none (by rw [h4]; omega)] at hx
      cases hx

theorem sparse_unmeasured {S : Nat → F64 → Prop} {g : Nat → F64 → F64} {indptr cols : List Int} {vals vals' row' : List F64} {nf i : Nat} {d : F64}
    (hv : ∀ j f : Nat, f < nf → cols[j]? = some (f : Int) → ∃ x, vals[j]? = some x ∧ S f x ∧ vals'[j]? = some (g f x))
    (h : SparseRow indptr cols vals' nf d i row') : ∃ row, SparseRow indptr cols vals nf d i row := by
  obtain ⟨a, b, h1, h2, h3, h4, h5⟩ := h
  have hx : ∀ k, ∃ x, k < nf →
      (∃ j : Nat, a ≤ j ∧ j < b ∧ cols[j]? = some (k : Int) ∧ some x = vals[j]? ∧ ∀ j' : Nat, j < j' → j' < b → cols[j']? ≠ some (k : Int)) ∨
      ((∀ j : Nat, a ≤ j → j < b → cols[j]? ≠ some (k : Int)) ∧ some x = some d) := by
    intro k
    by_cases hk : k < nf
    · rcases h5 k hk with ⟨j, ja, jb, hc, -, hl⟩ | ⟨hno, -⟩
      · obtain ⟨x, e1, -⟩ := hv j k hk hc
        exact ⟨x, fun _ => .inl ⟨j, ja, jb, hc, e1.symm, hl⟩⟩
      · exact ⟨d, fun _ => .inr ⟨hno, rfl⟩⟩
    · exact ⟨d, fun h => absurd h hk⟩
  choose x hx using hx
  refine ⟨(List.range nf).map x, a, b, h1, h2, fun j ja jb => ?_, by simp, fun k hk => ?_⟩
  · obtain ⟨g1, c, g2, g3⟩ := h3 j ja jb
    refine ⟨g1, c, g2, fun hc => ?_⟩
    obtain ⟨g4, -⟩ := g3 hc
    obtain ⟨y, e1, -⟩ := hv j.toNat c.toNat (by omega) (by rw [g2]; congr 1; omega)
    exact ⟨g4, _, e1⟩
  · have : ((List.range nf).map x)[k]? = some (x k) := by simp [hk]
    rw [this]
    exact hx k hk

theorem denseRow_unique {vals row row' : List F64} {ncols i : Nat} (h : DenseRow vals ncols i row) (h' : DenseRow vals ncols i row') : row = row' := by
  refine List.ext_getElem? fun k => ?_
  by_cases hk : k < ncols
  · obtain ⟨x, h1, h2⟩ := h.2 k hk
    obtain ⟨y, h3, h4⟩ := h'.2 k hk
    rw [h1] at h3
    cases h3
    rw [h2, h4]
  · rw [List.getElem?_eq_none (by rw [h.1]; omega), List.getElem?_eq_none (by rw [h'.1]; omega)]

theorem SameInUnits.of_rows {P : Platform} {S : Nat → F64 → Prop} {g : Nat → F64 → F64} {e e' : Ensemble} {req : Int} (hf : Fits e) (hf' : Fits e')
    (hw : e.nOutputGroups = e'.nOutputGroups) (hn : e.nFeatures = e'.nFeatures) (hd : dflt e.base = dflt e'.base)
    (h : ∀ row row' m m', Measured S g row row' →
      ((e.predict P row req m.length).run m = (.ok ⟨⟩, m') ↔ (e'.predict P row' req m.length).run m = (.ok ⟨⟩, m'))) :
    SameInUnits P S g e e' req := by
  obtain ⟨w, hw1⟩ := Int.eq_ofNat_of_zero_le hf.width_nonneg
  have hw2 : e'.nOutputGroups = w := by rw [← hw, hw1]
  refine ⟨h, ?_, ?_⟩
  · intro vals vals' m m' r ncols nt nt' hr hwr hr2 hv
    have hwr' : w * r < 2 ^ 63 := by rw [hw1] at hwr; exact_mod_cast hwr
    constructor
    · intro hp
      obtain ⟨outs, s, g⟩ := C14_dense_is_rowwise P e hf w r ncols hw1 hwr' hr2 vals m m' req nt hp
      have hc : 0 < ncols := ((dense_iff hf hw1 hwr' hr2).1 hp).1
      refine C14_rowwise_is_dense P e' hf' w r ncols hw2 hwr' hr2 hr hc vals' m m' req nt' outs s fun i hi => ?_
      obtain ⟨row, g1, g2⟩ := g i hi
      obtain ⟨row0, row', g3, g4, g5⟩ := dense_measured (hv i hi)
      obtain rfl := denseRow_unique g1 g3
      refine ⟨row', List.replicate w F64.zero, g4, by simp, ?_⟩
      simpa using (h row row' (List.replicate w F64.zero) (outs i) g5).1 (by simpa using g2 (List.replicate w F64.zero) (by simp))
    · intro hp
      obtain ⟨outs, s, g⟩ := C14_dense_is_rowwise P e' hf' w r ncols hw2 hwr' hr2 vals' m m' req nt' hp
      have hc : 0 < ncols := ((dense_iff hf' hw2 hwr' hr2).1 hp).1
      refine C14_rowwise_is_dense P e hf w r ncols hw1 hwr' hr2 hr hc vals m m' req nt outs s fun i hi => ?_
      obtain ⟨row', g1, g2⟩ := g i hi
      obtain ⟨row, row0, g3, g4, g5⟩ := dense_measured (hv i hi)
      obtain rfl := denseRow_unique g1 g4
      refine ⟨row, List.replicate w F64.zero, g3, by simp, ?_⟩
      simpa using (h row row' (List.replicate w F64.zero) (outs i) g5).2 (by simpa using g2 (List.replicate w F64.zero) (by simp))
  · intro indptr cols vals vals' m m' r nf nt nt' hr hwr hr2 hip hnf hmem hdf hv
    have hwr' : w * r < 2 ^ 63 := by rw [hw1] at hwr; exact_mod_cast hwr
    constructor
    · intro hp
      obtain ⟨outs, s, g⟩ := C15_csr_is_rowwise P e hf w r nf hw1 ⟨hnf, hmem⟩ hwr' hr2 indptr cols hip vals m m' req nt hp
      refine C15_rowwise_is_csr P e' hf' w r nf hw2 ⟨hn ▸ hnf, hmem⟩ hwr' hr2 hr indptr _ hip vals' m m' req nt' outs s fun i hi => ?_
      obtain ⟨row, g1, g2⟩ := g i hi
      obtain ⟨row', g3, g4⟩ := sparse_measured hdf hv g1
      refine ⟨row', List.replicate w F64.zero, hd ▸ g3, by simp, ?_⟩
      simpa using (h row row' (List.replicate w F64.zero) (outs i) g4).1 (by simpa using g2 (List.replicate w F64.zero) (by simp))
    · intro hp
      obtain ⟨outs, s, g⟩ := C15_csr_is_rowwise P e' hf' w r nf hw2 ⟨hn ▸ hnf, hmem⟩ hwr' hr2 indptr cols hip vals' m m' req nt' hp
      refine C15_rowwise_is_csr P e hf w r nf hw1 ⟨hnf, hmem⟩ hwr' hr2 hr indptr _ hip vals m m' req nt outs s fun i hi => ?_
      obtain ⟨row', g1, g2⟩ := g i hi
      obtain ⟨row, g3⟩ := sparse_unmeasured (d := dflt e.base) hv (hd ▸ g1)
      obtain ⟨row0, g4, g5⟩ := sparse_measured hdf hv g3
      obtain rfl := SparseRow.unique (hd ▸ g1) g4
      refine ⟨row, List.replicate w F64.zero, g3, by simp, ?_⟩
      simpa using (h row row' (List.replicate w F64.zero) (outs i) g5).2 (by simpa using g2 (List.replicate w F64.zero) (by simp))

theorem numLeft_units {S : F64 → Prop} {g : F64 → F64} {r : NumRule} {x : F64} (hg : Converts S g) (ht : S r.threshold) (hx : S x)
    (hz : r.missing = .zero → ∀ x, S x → (Within (-zeroBound) zeroBound x ↔ Within (-zeroBound) zeroBound (g x)))
    (hn : r.missing = .none → S .nan → (Le .zero r.threshold ↔ Le .zero (g r.threshold))) :
    NumLeft r x ↔ NumLeft { r with threshold := g r.threshold } (g x) := by
  have hm : IsMissing r.missing x ↔ IsMissing r.missing (g x) := by
    unfold IsMissing
    split
    · rfl
    · rename_i e
      rw [hg.nan x hx, hz e x hx]
    · exact (hg.nan x hx).symm
  unfold NumLeft
  dsimp only
  rw [← hm]
  refine or_congr_right (and_congr_right fun hnm => ?_)
  by_cases hxn : x = .nan
  · rw [if_pos hxn, if_pos ((hg.nan x hx).2 hxn)]
    subst hxn
    refine hn ?_ hx
    cases hr : r.missing with
    | none => rfl
    | zero => rw [hr] at hnm; exact absurd (.inl rfl) hnm
    | nan => rw [hr] at hnm; exact absurd rfl hnm
  · rw [if_neg hxn, if_neg (fun h => hxn ((hg.nan x hx).1 h))]
    exact hg.order _ _ hx ht

theorem measured_iff {S : Nat → F64 → Prop} {g : Nat → F64 → F64} {row row' : List F64} (h : Measured S g row row') {f : Nat} {p q : F64 → Prop}
    (hpq : ∀ x, S f x → (p x ↔ q (g f x))) : (∃ x, row[f]? = some x ∧ p x) ↔ ∃ x, row'[f]? = some x ∧ q x := by
  constructor
  · rintro ⟨x, h1, h2⟩
    obtain ⟨h3, h4⟩ := h.2 f x h1
    exact ⟨_, h4, (hpq x h3).1 h2⟩
  · rintro ⟨y, h1, h2⟩
    have hf : f < row.length := by rw [← h.1]; exact (List.getElem?_eq_some_iff.1 h1).1
    have hr : row[f]? = some row[f] := List.getElem?_eq_getElem hf
    obtain ⟨h3, h4⟩ := h.2 f _ hr
    rw [h1] at h4
    cases h4
    exact ⟨_, hr, (hpq _ h3).2 h2⟩

theorem inUnits_value {S : Nat → F64 → Prop} {g : Nat → F64 → F64} {d d' : TreeDesc} {out : F64 → Int} {row row' : List F64} {w : F64}
    (h : d.InUnits S g d') (hm : Measured S g row row') : d.Value out row w ↔ d'.Value out row' w := by
  have tw := twin_walk h (goes := Goes out (LgSplit d.arrays) row) (goes' := Goes out (LgSplit d'.arrays) row') (fun i j hs b => by
    rcases hs with ⟨f, r, h1, h2, h3, h4, h5, h6⟩ | ⟨f, mi, s, h1, h2, h3⟩
    · rw [goes_of_split h1, goes_of_split h2]
      exact measured_iff hm fun x hx => iff_congr Iff.rfl (numLeft_units h4 h3 hx h5 h6)
    · rw [goes_of_split h1, goes_of_split h2]
      exact measured_iff hm fun x hx => by rw [h3 x])
  rw [value_form, value_form]
  constructor
  · rintro ⟨i, hw, hi⟩
    obtain ⟨k, hk, hv⟩ := tw.1 i hw
    exact ⟨k, hk, hv ▸ hi⟩
  · rintro ⟨k, hw, hi⟩
    obtain ⟨i, hk, hv⟩ := tw.2 k hw
    exact ⟨i, hk, hv.trans hi⟩

/-- **C131, LightGBM.** A text file whose thresholds have been converted to other units predicts for converted rows what the original one predicts for the
original rows. -/
theorem C131_text (P : Platform) (S : Nat → F64 → Prop) (g : Nat → F64 → F64) (print : F64 → Str) (text text' rest0 rest0' rest rest' : Str) (header header' : List Str)
    (e0 e0' e1 e1' : Bool) (bs bs' : List (List Str)) (ds ds' : List TreeDesc) (K N : Nat) (M : Int) (avg : Bool)
    (hK : 1 ≤ K ∧ K < 2 ^ 63) (hN : 1 ≤ N) (hlen : ds.length = N * K) (hlen' : ds'.length = N * K)
    (hok : ∀ d ∈ ds, d.OK P.parseFloat print ∧ d.inner * 24 ≤ P.maxAlloc) (hok' : ∀ d ∈ ds', d.OK P.parseFloat print ∧ d.inner * 24 ≤ P.maxAlloc)
    (hh : FileBlock text header rest0 e0) (hhl : HeaderLines header K M ds.length avg)
    (hb : FileBlocks rest0 bs rest e1) (hbl : List.Forall₂ (TreeLines print) ds bs)
    (hh' : FileBlock text' header' rest0' e0') (hhl' : HeaderLines header' K M ds'.length avg)
    (hb' : FileBlocks rest0' bs' rest' e1') (hbl' : List.Forall₂ (TreeLines print) ds' bs')
    (hp : ∀ (q : Nat) (d d' : TreeDesc), ds[q]? = some d → ds'[q]? = some d' → d.InUnits S g d') :
    ∃ e e', lgEnsembleFromReader P ⟨text, false⟩ false = .ok (e, ⟨rest, false⟩) ∧
      lgEnsembleFromReader P ⟨text', false⟩ false = .ok (e', ⟨rest', false⟩) ∧ ∀ req, SameInUnits P S g e e' req := by
  obtain ⟨e, l1, f1, -, t1, w1, n1, -, p1⟩ := C39_text_file P print text rest0 rest header e0 e1 bs ds K N M avg hK hN hlen hh hhl hb hbl hok
  obtain ⟨e', l2, f2, -, t2, w2, n2, -, p2⟩ := C39_text_file P print text' rest0' rest' header' e0' e1' bs' ds' K N M avg hK hN hlen' hh' hhl' hb' hbl' hok'
  refine ⟨e, e', l1, l2, fun req => SameInUnits.of_rows f1 f2 (w1.trans w2.symm) (n1.trans n2.symm)
    ((lg_loaded_base l1).trans (lg_loaded_base l2).symm) fun row row' s s' hm => ?_⟩
  rw [p1, p2, n1, n2, hm.1]
  refine and_congr_right fun _ => and_congr_right fun _ => exists_congr fun n => exists_congr fun w => and_congr_right fun hu => and_congr_left' ?_
  unfold RefRaw
  refine exists_congr fun v => and_congr_left' ?_
  refine forall_congr' fun i => forall_congr' fun hi => forall_congr' fun k => forall_congr' fun hk => ?_
  have hq := tree_index (n := N) (show i < N from lt_of_lt_of_le hi (Used.le hu)) hk
  have q1 := List.getElem?_eq_getElem (l := ds) (i := i * K + k) (by rw [hlen]; exact hq)
  have q2 := List.getElem?_eq_getElem (l := ds') (i := i * K + k) (by rw [hlen']; exact hq)
  simp only [q1, q2, Option.some.injEq, exists_eq_left']
  exact inUnits_value (hp _ _ _ q1 q2) hm

theorem xgGoes_units {S : Nat → F64 → Prop} {g : Nat → F64 → F64} {ns ns' : List Node} {row row' : List F64} {i j : Nat}
    (h : XgUnitSplit S g ns ns' i j) (hm : Measured S g row row') (b : Bool) : XgGoesLe ns row i b ↔ XgGoesLe ns' row' j b := by
  obtain ⟨n, n', h1, h2, h3, h4, h5, h6⟩ := h
  have hfeat : xgFeature n' = xgFeature n := by unfold xgFeature; rw [h3]
  unfold XgGoesLe
  simp only [h1, h2, Option.some.injEq, exists_and_left, exists_eq_left', hfeat]
  refine measured_iff hm fun x hx => iff_congr Iff.rfl ?_
  by_cases hdl : XgDefaultLeft n
  · have hdl' : XgDefaultLeft n' := by unfold XgDefaultLeft at hdl ⊢; rwa [h3]
    rw [xgLeft_num (dl := true) (by simp [hdl]), xgLeft_num (dl := true) (by simp [hdl']), h4]
    exact numLeft_units h6 h5 hx (fun h => nomatch h) (fun h => nomatch h)
  · have hdl' : ¬ XgDefaultLeft n' := by unfold XgDefaultLeft at hdl ⊢; rwa [h3]
    rw [xgLeft_num (dl := false) (by simp [hdl]), xgLeft_num (dl := false) (by simp [hdl']), h4]
    exact numLeft_units h6 h5 hx (fun h => nomatch h) (fun h => nomatch h)

/-- **C131, XGBoost.** The same for 'gbtree' and 'dart' files. -/
theorem C131_xgboost (P : Platform) (S : Nat → F64 → Prop) (g : Nat → F64 → F64) (m m' : XgModel) (K N : Nat) (ok : m.OK P.maxAlloc K N) (ok' : m'.OK P.maxAlloc K N)
    (hd : m'.dart = m.dart) (hws : m'.weights = m.weights) (hs : m'.header.param.baseScore = m.header.param.baseScore)
    (hM : m'.header.param.numFeatures = m.header.param.numFeatures) (hobj : m'.header.nameObj = m.header.nameObj)
    (hp : ∀ (q : Nat) (t t' : TreeModel) (T T' : BTree), m.gbtree.trees[q]? = some t → m.shapes[q]? = some T → m'.gbtree.trees[q]? = some t' → m'.shapes[q]? = some T' →
      XgInUnits S g t.nodes t'.nodes T T') (lt : Bool) (tr : Transform) (ho : XgObjective K m.header.nameObj lt tr) (hlog : tr = .logistic → K = 1) :
    ∃ e e', (∀ rest, xgEnsembleFromReader P lt (m.image ++ rest) = .ok (e, rest)) ∧
      (∀ rest, xgEnsembleFromReader P lt (m'.image ++ rest) = .ok (e', rest)) ∧ ∀ req, SameInUnits P S g e e' req := by
  obtain ⟨hK, hN, hl⟩ := ok.counts
  obtain ⟨-, -, hl'⟩ := ok'.counts
  obtain ⟨e, l1, f1, r1, -, -, n1, -, p1⟩ := C62_xgboost_file_le P m K N ok lt tr ho hlog
  obtain ⟨e', l2, f2, r2, -, -, n2, -, p2⟩ := C62_xgboost_file_le P m' K N ok' lt tr (hobj ▸ ho) hlog
  have hdf := (xg_loaded_default ok ho l1).trans (xg_loaded_default ok' (hobj ▸ ho) l2).symm
  have hw : e.nOutputGroups = e'.nOutputGroups := by
    unfold Ensemble.nOutputGroups
    rw [r1, r2]
  have hn : e.nFeatures = e'.nFeatures := by rw [n1, n2, hM]
  refine ⟨e, e', l1, l2, fun req => SameInUnits.of_rows f1 f2 hw hn hdf fun row row' s s' hm => ?_⟩
  rw [p1, p2, hw, hn, hm.1]
  refine and_congr_right fun _ => and_congr_right fun _ => exists_congr fun n => exists_congr fun w => exists_congr fun out =>
    and_congr_right fun hu => and_congr_left' ?_
  unfold XgRefRaw XgModel.Weight
  rw [hd, hws, hs]
  refine exists_congr fun v => exists_congr fun c => and_congr_left' ?_
  refine forall_congr' fun i => forall_congr' fun hi => forall_congr' fun k => forall_congr' fun hk => ?_
  have hq := tree_index (n := N) (show i < N from lt_of_lt_of_le hi (Used.le hu)) hk
  have q1 := List.getElem?_eq_getElem (l := m.gbtree.trees) (i := i * K + k) (by rw [hl]; exact hq)
  have q2 := List.getElem?_eq_getElem (l := m.shapes) (i := i * K + k) (by rw [← ok.trees.length_eq, hl]; exact hq)
  have q1' := List.getElem?_eq_getElem (l := m'.gbtree.trees) (i := i * K + k) (by rw [hl']; exact hq)
  have q2' := List.getElem?_eq_getElem (l := m'.shapes) (i := i * K + k) (by rw [← ok'.trees.length_eq, hl']; exact hq)
  have tw := twin_walk (hp _ _ _ _ _ q1 q2 q1' q2') (goes := XgGoesLe _ row) (goes' := XgGoesLe _ row') fun i j h b => xgGoes_units h hm b
  simp only [q1, q2, q1', q2', Option.some.injEq, exists_and_left, exists_eq_left']
  constructor
  · rintro ⟨leaf, g1, n, g2, g3⟩
    obtain ⟨k', g4, n0, n', g5, g6, g7⟩ := tw.1 leaf g1
    rw [g2] at g5
    cases g5
    exact ⟨k', g4, n', g6, by rw [g7]; exact g3⟩
  · rintro ⟨leaf, g1, n', g2, g3⟩
    obtain ⟨k', g4, n, n0, g5, g6, g7⟩ := tw.2 leaf g1
    rw [g2] at g6
    cases g6
    exact ⟨k', g4, n, g5, by rw [← g7]; exact g3⟩

namespace UnitsExample
open LgExample (platform)
open LgLoadExample (print d1 d2 ds_ok plain_of)
open PruneExample (xgFile)

/-- the values of the converted feature, and the conversion to `5 x - 5` -/
def values : List F64 := .nan :: F64.const 1 2 :: (List.range 20).map F64.ofNat
def conv (x : F64) : F64 := F64.add (F64.mul (F64.ofNat 5) x) (F64.neg (F64.ofNat 5))

/-- feature `k` is converted -/
def S (k : Nat) (f : Nat) (x : F64) : Prop := f = k → x ∈ values
def g (k : Nat) (f : Nat) (x : F64) : F64 := if f = k then conv x else x

theorem converts (k : Nat) : Converts (S k k) (g k k) := by
  have h1 : ∀ x ∈ values, ∀ y ∈ values, F64.le x y = F64.le (conv x) (conv y) := by decide +kernel
  have h2 : ∀ x ∈ values, conv x = .nan ↔ x = .nan := by decide +kernel
  refine ⟨fun x y hx hy => ?_, fun x hx => ?_⟩
  · unfold g
    rw [if_pos rfl, if_pos rfl, ← F64.le_iff, ← F64.le_iff, h1 x (hx rfl) y (hy rfl)]
  · unfold g
    rw [if_pos rfl]
    exact h2 x (hx rfl)

/-- the tree of `LgExample` with converted feature 0: the thresholds 5 and 9 become 20 and 40 -/
def d5 : TreeDesc where
  numCat := 1
  inner := 3
  leafValues := [F64.ofNat 10, F64.ofNat 20, F64.ofNat 30, F64.ofNat 40]
  catThreshold := [2, 2]
  arrays := ⟨[1, -1, -3], [2, -2, -4], [10, 1, 2], [0, 1, 0], [F64.ofNat 20, F64.ofNat 0, F64.ofNat 40], [2#32, 2#32], [0, 2]⟩
  tree := .node 0 (.node 1 (.leaf 0) (.leaf 1)) (.node 2 (.leaf 2) (.leaf 3))

theorem d5_tree : LgTreeOK d5.arrays 3 d5.tree where
  shape := by
    refine .node 0 1 2 _ _ rfl rfl ?_ ?_
    · exact .node 1 (-1) (-2) _ _ rfl rfl (.leaf 0) (.leaf 1)
    · exact .node 2 (-3) (-4) _ _ rfl rfl (.leaf 2) (.leaf 3)
  distinct := by decide
  bound := by decide
  small := by norm_num
  leaves := by decide
  splits := by
    intro i hi
    have : i = 0 ∨ i = 2 ∨ i = 1 := by simpa [d5, BTree.inner] using hi
    rcases this with rfl | rfl | rfl
    · exact ⟨0, _, 10, _, .nan, rfl, rfl, rfl, by unfold MissingOf; decide, .inl ⟨by norm_num, rfl⟩⟩
    · exact ⟨0, _, 2, _, .none, rfl, rfl, rfl, by unfold MissingOf; decide, .inl ⟨by norm_num, rfl⟩⟩
    · exact ⟨1, _, 1, _, .none, rfl, rfl, rfl, by unfold MissingOf; decide, .inr ⟨by norm_num, 0, [2#32, 2#32],
        F64.isVal_ofNat (by norm_num), ⟨0, 2, rfl, rfl, by norm_num, by decide, rfl⟩, rfl⟩⟩
  cats := by
    intro i hi d thr c ws h1 h2 h3 h4 h5
    have : i = 0 ∨ i = 2 ∨ i = 1 := by simpa [d5, BTree.inner] using hi
    rcases this with rfl | rfl | rfl
    · simp [d5] at h1; subst h1; simp at h2
    · simp [d5] at h1; subst h1; simp at h2
    · simp [d5] at h3; subst h3
      have : c = 0 := by exact_mod_cast IsVal.unique h4 (F64.isVal_ofNat (n := 0) (by norm_num))
      subst this
      obtain ⟨s, e, hs, he, hse, hle, rfl⟩ := h5
      simp [d5] at hs he
      subst hs he
      exact ⟨⟨1, by decide⟩, by decide, by norm_num⟩
  words := by
    refine ⟨fun _ => 2, ?_, by decide⟩
    intro i hi d thr c ws h1 h2 h3 h4 h5
    obtain ⟨s, e, hs, he, hse, hle, rfl⟩ := h5
    have : e ≤ 2 := hle
    simp; omega

theorem d5_ok : d5.OK platform.parseFloat print where
  numCat := by decide
  leafValues := by decide
  leafText := by decide +kernel
  tree := fun _ => d5_tree
  left := fun _ => by decide
  right := fun _ => by decide
  decision := fun _ => by decide
  feature := fun _ => by decide
  threshold := fun _ => ⟨by decide, by decide +kernel⟩
  cats := fun _ => ⟨by decide, by decide⟩

theorem ds_ok' : ∀ d ∈ [d5, d2], d.OK platform.parseFloat print ∧ PlainFloats print d ∧ d.inner * 24 ≤ platform.maxAlloc := by
  intro d hd
  simp only [List.mem_cons, List.not_mem_nil, or_false] at hd
  rcases hd with rfl | rfl
  · refine ⟨d5_ok, ⟨fun x hx => plain_of ?_, fun _ x hx => plain_of ?_⟩, by decide⟩
    · revert x; decide +kernel
    · revert x; decide +kernel
  · exact ds_ok d2 (by simp)

theorem conv5 : g 0 0 (F64.ofNat 5) = F64.ofNat 20 := by decide +kernel
theorem conv9 : g 0 0 (F64.ofNat 9) = F64.ofNat 40 := by decide +kernel

theorem d1_d5 : d1.InUnits (S 0) (g 0) d5 := by
  refine .node 0 0 _ _ _ _ (.inl ?_) (.node 1 1 _ _ _ _ (.inr ?_) (.leaf 0 0 rfl) (.leaf 1 1 rfl))
    (.node 2 2 _ _ _ _ (.inl ?_) (.leaf 2 2 rfl) (.leaf 3 3 rfl))
  · refine ⟨0, ⟨.nan, true, F64.ofNat 5⟩, ⟨10, _, .nan, rfl, rfl, rfl, by unfold MissingOf; decide, .inl ⟨by norm_num, rfl⟩⟩,
      ⟨10, _, .nan, rfl, rfl, rfl, by unfold MissingOf; decide, .inl ⟨by norm_num, ?_⟩⟩, fun _ => by decide +kernel, converts 0,
      (fun h => nomatch h), (fun h => nomatch h)⟩
    dsimp only
    rw [conv5]
    rfl
  · exact ⟨1, .none, Member [2#32, 2#32], ⟨1, _, .none, rfl, rfl, rfl, by unfold MissingOf; decide, .inr ⟨by norm_num, 0, [2#32, 2#32],
      F64.isVal_ofNat (by norm_num), ⟨0, 2, rfl, rfl, by norm_num, by decide, rfl⟩, rfl⟩⟩,
      ⟨1, _, .none, rfl, rfl, rfl, by unfold MissingOf; decide, .inr ⟨by norm_num, 0, [2#32, 2#32],
        F64.isVal_ofNat (by norm_num), ⟨0, 2, rfl, rfl, by norm_num, by decide, rfl⟩, rfl⟩⟩, fun x => rfl⟩
  · refine ⟨0, ⟨.none, true, F64.ofNat 9⟩, ⟨2, _, .none, rfl, rfl, rfl, by unfold MissingOf; decide, .inl ⟨by norm_num, rfl⟩⟩,
      ⟨2, _, .none, rfl, rfl, rfl, by unfold MissingOf; decide, .inl ⟨by norm_num, ?_⟩⟩, fun _ => by decide +kernel, converts 0,
      (fun h => nomatch h), fun _ _ => ?_⟩
    · dsimp only
      rw [conv9]
      rfl
    · dsimp only
      rw [conv9, ← F64.le_iff, ← F64.le_iff]
      decide +kernel

/-- The theorem applies to the file of `LgLoadExample` and the one with converted feature 0. -/
theorem C131_text_example (avg : Bool) : ∃ e e',
    lgEnsembleFromReader platform ⟨modelText print [d1, d2] 2 1 avg ++ [], false⟩ false = .ok (e, ⟨[], false⟩) ∧
    lgEnsembleFromReader platform ⟨modelText print [d5, d2] 2 1 avg ++ [], false⟩ false = .ok (e', ⟨[], false⟩) ∧
    ∀ req, SameInUnits platform (S 0) (g 0) e e' req := by
  obtain ⟨_, _, _, h1, h2, h3, h4⟩ := modelText_blocks (M := 1) [] 2 avg (by norm_num) ds_ok
  obtain ⟨_, _, _, g1, g2, g3, g4⟩ := modelText_blocks (M := 1) [] 2 avg (by norm_num) ds_ok'
  refine C131_text platform (S 0) (g 0) print _ _ _ _ _ _ _ _ _ _ _ _ _ _ [d1, d2] [d5, d2] 2 1 1 avg (by norm_num) le_rfl rfl (by simp)
    (fun d hd => ⟨(ds_ok d hd).1, (ds_ok d hd).2.2⟩) (fun d hd => ⟨(ds_ok' d hd).1, (ds_ok' d hd).2.2⟩) h1 h2 h3 h4 g1 g2 g3 g4 ?_
  intro q d d' h h'
  match q with
  | 0 =>
    cases h
    cases h'
    exact d1_d5
  | 1 =>
    cases h
    cases h'
    exact .leaf 0 0 rfl
  | q + 2 => cases h

/-- the split of `FormatsExample` on feature 1 at 0.5, and the same at -2.5 -/
def xgTree (thr : BitVec 32) : TreeModel where
  param := ⟨1#32, 3#32, 0#32, 1#32, 2#32, 0#32, List.replicate 31 0#32⟩
  nodes := [⟨-1#32, 1#32, 2#32, 1#32, thr⟩, ⟨0#32, -1#32, -1#32, 0#32, 0x41c80000#32⟩, ⟨0#32, -1#32, -1#32, 0#32, 0x3f000000#32⟩]
  stats := List.replicate 3 ⟨0#32, 0#32, 0#32, 0#32⟩

theorem xgTree_ok (thr : BitVec 32) (h : thr = 0x3f000000#32 ∨ thr = 0xc0200000#32) : (xgFile (xgTree thr) (.node 0 (.leaf 1) (.leaf 2))).OK Platform.demo.maxAlloc 1 1 := by
  rcases h with rfl | rfl
  all_goals exact {
    header := ⟨rfl, by decide, by decide⟩
    gbtree := ⟨rfl, by decide, rfl, by
      intro t ht
      obtain rfl : t = (xgTree _, []) := by simpa [xgFile] using ht
      exact ⟨rfl, by decide, by decide, by decide, by decide⟩, rfl, by decide⟩
    name := rfl
    features := by decide
    roots := by decide
    groups := by decide
    counts := ⟨le_rfl, le_rfl, rfl⟩
    info := by
      intro i hi k hk
      obtain rfl : k = 0 := by omega
      obtain rfl : i = 0 := by omega
      exact ⟨0#32, rfl, by decide⟩
    weights := fun h => nomatch h
    alloc := by decide
    trees := .cons (.inl ⟨by decide, by decide, .node 0 _ 1 2 _ _ rfl (by decide) (by decide) (.leaf 1 _ rfl (by decide)) (.leaf 2 _ rfl (by decide)),
      by decide, rfl⟩) .nil
    treeFeatures := by decide }

/-- The theorem applies to the XGBoost files with feature 1 in the original and in the converted unit. -/
theorem C131_xgboost_example : ∃ e e',
    (∀ rest, xgEnsembleFromReader Platform.demo false ((xgFile (xgTree 0x3f000000#32) (.node 0 (.leaf 1) (.leaf 2))).image ++ rest) = .ok (e, rest)) ∧
    (∀ rest, xgEnsembleFromReader Platform.demo false ((xgFile (xgTree 0xc0200000#32) (.node 0 (.leaf 1) (.leaf 2))).image ++ rest) = .ok (e', rest)) ∧
    ∀ req, SameInUnits Platform.demo (S 1) (g 1) e e' req := by
  refine C131_xgboost Platform.demo (S 1) (g 1) _ _ 1 1 (xgTree_ok _ (.inl rfl)) (xgTree_ok _ (.inr rfl)) rfl rfl rfl rfl rfl ?_ false (.raw 1) .raw (fun h => nomatch h)
  intro q t t' T T' h1 h2 h3 h4
  match q with
  | 0 =>
    cases h1
    cases h2
    cases h3
    cases h4
    exact .node 0 0 _ _ _ _ ⟨_, _, rfl, rfl, rfl, by decide +kernel, fun _ => by decide +kernel, converts 1⟩ (.leaf 1 1 ⟨_, _, rfl, rfl, rfl⟩)
      (.leaf 2 2 ⟨_, _, rfl, rfl, rfl⟩)
  | q + 1 => cases h1

/-- a row and the converted row: feature 0 is 3 and becomes 10, feature 1 stays 33 -/
example : Measured (S 0) (g 0) [F64.ofNat 3, F64.ofNat 33] [F64.ofNat 10, F64.ofNat 33] := by
  refine ⟨rfl, fun f x hx => ?_⟩
  match f with
  | 0 =>
    cases hx
    exact ⟨fun _ => by decide +kernel, by decide +kernel⟩
  | 1 =>
    cases hx
    exact ⟨fun h => absurd h (by decide), by decide +kernel⟩
  | f + 2 => cases hx

end UnitsExample

end Leaves
