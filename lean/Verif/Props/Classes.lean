import Verif.Spec.Classes
import Verif.Props.Prefix
import Verif.Props.SameLeaves

/-! # C109: the scores of a class depend on the trees of this class only -/

namespace Leaves
open Spec GoM

theorem stored_full {m out m' : List F64} (h : Stored m 0 out m') (hl : out.length = m.length) : m' = out := by
  refine List.ext_getElem? fun j => ?_
  rw [h.2.2 j]
  by_cases hj : j < out.length
  · rw [if_pos ⟨by omega, by omega⟩, Nat.sub_zero]
  · rw [if_neg (by omega), List.getElem?_eq_none (by omega), List.getElem?_eq_none (by omega)]

theorem stored_self {m out : List F64} (hl : out.length = m.length) : Stored m 0 out out := by
  refine ⟨by omega, hl, fun j => ?_⟩
  by_cases hj : j < out.length
  · rw [if_pos ⟨by omega, by omega⟩, Nat.sub_zero]
  · rw [if_neg (by omega), List.getElem?_eq_none (by omega), List.getElem?_eq_none (by omega)]

/-- models that predict rows class by class predict matrices class by class -/
theorem classes_rows {P : Platform} {e : Ensemble} {K : Nat} {es : Nat → Ensemble} (hK : 0 < K) {req : Int}
    (h : ∀ (row m m' : List F64), (e.predict P row req m.length).run m = (.ok ⟨⟩, m') ↔
      ∃ w, w.length = K ∧ Stored m 0 w m' ∧ ∀ j < K, ∃ x, w[j]? = some x ∧ ((es j).predict P row req 1).run [F64.zero] = (.ok ⟨⟩, [x]))
    {R : Nat → List F64 → Prop} (hR : ∀ i row row', R i row → R i row' → row = row') {m m' : List F64} {r : Nat} :
    (∃ outs, StoredRows m K r outs m' ∧ ∀ i < r, ∃ row, R i row ∧
        (e.predict P row req K).run (List.replicate K F64.zero) = (.ok ⟨⟩, outs i)) ↔
    ∃ outs, StoredRows m K r outs m' ∧ ∀ j < K, ∃ s, (∃ o, StoredRows (List.replicate r F64.zero) 1 r o s ∧
        ∀ i < r, ∃ row, R i row ∧ ((es j).predict P row req 1).run (List.replicate 1 F64.zero) = (.ok ⟨⟩, o i)) ∧ ∀ i < r, s[i]? = (outs i)[j]? := by
  refine exists_congr fun outs => and_congr_right fun hst => ?_
  have one : ∀ i < r, ∀ row, (e.predict P row req K).run (List.replicate K F64.zero) = (.ok ⟨⟩, outs i) ↔
      ∀ j < K, ∃ x, (outs i)[j]? = some x ∧ ((es j).predict P row req 1).run [F64.zero] = (.ok ⟨⟩, [x]) := by
    intro i hi row
    have hl := hst.2.2.1 i hi
    have := h row (List.replicate K F64.zero) (outs i)
    rw [List.length_replicate] at this
    rw [this]
    constructor
    · rintro ⟨w, h1, h2, h3⟩
      have := stored_full h2 (by simpa using h1)
      rw [this]
      exact h3
    · intro h3
      exact ⟨outs i, hl, stored_self (by simpa using hl), h3⟩
  constructor
  · intro h1 j hj
    refine ⟨(List.range r).map fun i => (outs i).getD j F64.zero, ⟨fun i => [(outs i).getD j F64.zero], ⟨by simp, by simp, fun _ _ => rfl, ?_, ?_⟩, ?_⟩, ?_⟩
    · intro i hi k hk
      have : k = 0 := by omega
      subst this
      simp [hi]
    · intro k hk
      rw [List.getElem?_eq_none (by simpa using hk), List.getElem?_eq_none (by simpa using hk)]
    · intro i hi
      obtain ⟨row, h2, h3⟩ := h1 i hi
      obtain ⟨x, h4, h5⟩ := (one i hi row).1 h3 j hj
      refine ⟨row, h2, ?_⟩
      show _ = (_, [(outs i).getD j F64.zero])
      rw [List.getD_eq_getElem?_getD, h4]
      exact h5
    · intro i hi
      have hl := hst.2.2.1 i hi
      simp [hi, hl, hj]
  · intro h1 i hi
    obtain ⟨s, ⟨o, so, ho⟩, hs⟩ := h1 0 hK
    obtain ⟨row, hr, -⟩ := ho i hi
    refine ⟨row, hr, (one i hi row).2 fun j hj => ?_⟩
    obtain ⟨s', ⟨o', so', ho'⟩, hs'⟩ := h1 j hj
    obtain ⟨row', hr', h2⟩ := ho' i hi
    rw [hR i row' row hr' hr] at h2
    have hl := so'.2.2.1 i hi
    obtain ⟨x, hx⟩ := List.length_eq_one_iff.1 hl
    have h3 := so'.2.2.2.1 i hi 0 (by omega)
    rw [hx, Nat.mul_one, Nat.add_zero, hs' i hi] at h3
    rw [hx] at h2
    exact ⟨x, h3, h2⟩

theorem ByClass.of_rows {P : Platform} {e : Ensemble} {K : Nat} {es : Nat → Ensemble} (hK : 0 < K) (hf : Fits e) (hfs : ∀ j < K, Fits (es j))
    (hw : e.nOutputGroups = K) (hws : ∀ j < K, (es j).nOutputGroups = 1) (hn : ∀ j < K, (es j).nFeatures = e.nFeatures)
    (hd : ∀ j < K, dflt (es j).base = dflt e.base)
    (h : ∀ (row : List F64) (req : Int) (m m' : List F64), (e.predict P row req m.length).run m = (.ok ⟨⟩, m') ↔
      ∃ w, w.length = K ∧ Stored m 0 w m' ∧ ∀ j < K, ∃ x, w[j]? = some x ∧ ((es j).predict P row req 1).run [F64.zero] = (.ok ⟨⟩, [x])) :
    ByClass P e K es := by
  refine ⟨h, ?_, ?_⟩
  · intro vals m m' r ncols req nt nts hr hKr hr2
    have dense : ∀ {e : Ensemble} (_ : Fits e) {w : Nat} (_ : e.nOutputGroups = w) (_ : w * r < 2 ^ 63) (m m' : List F64) (nt : Int),
        e.PredictDense P vals r ncols m req nt (.ok ⟨⟩, m') ↔ 0 < ncols ∧ ∃ outs, StoredRows m w r outs m' ∧ ∀ i < r, ∃ row,
          DenseRow vals ncols i row ∧ (e.predict P row req w).run (List.replicate w F64.zero) = (.ok ⟨⟩, outs i) := by
      intro e hf w hw hwr m m' nt
      constructor
      · intro hp
        obtain ⟨outs, s, g⟩ := C14_dense_is_rowwise P e hf w r ncols hw hwr hr2 vals m m' req nt hp
        refine ⟨((dense_iff hf hw hwr hr2).1 hp).1, outs, s, fun i hi => ?_⟩
        obtain ⟨row, g1, g2⟩ := g i hi
        exact ⟨row, g1, g2 _ (by simp)⟩
      · rintro ⟨hc, outs, s, g⟩
        refine C14_rowwise_is_dense P e hf w r ncols hw hwr hr2 hr hc vals m m' req nt outs s fun i hi => ?_
        obtain ⟨row, g1, g2⟩ := g i hi
        exact ⟨row, _, g1, by simp, g2⟩
    have hr1 : 1 * r < 2 ^ 63 := lt_of_le_of_lt (Nat.mul_le_mul_right r hK) hKr
    rw [dense hf hw hKr, classes_rows hK (fun row m m' => h row req m m') (R := DenseRow vals ncols) fun i row row' => dense_row_unique]
    constructor
    · rintro ⟨hc, outs, hst, g⟩
      refine ⟨outs, hst, fun j hj => ?_⟩
      obtain ⟨s, g1, g2⟩ := g j hj
      exact ⟨s, (dense (hfs j hj) (hws j hj) hr1 _ _ _).2 ⟨hc, g1⟩, g2⟩
    · rintro ⟨outs, hst, g⟩
      refine ⟨?_, outs, hst, fun j hj => ?_⟩
      · obtain ⟨s, g1, -⟩ := g 0 hK
        exact ((dense (hfs 0 hK) (hws 0 hK) hr1 _ _ _).1 g1).1
      · obtain ⟨s, g1, g2⟩ := g j hj
        exact ⟨s, ((dense (hfs j hj) (hws j hj) hr1 _ _ _).1 g1).2, g2⟩
  · intro indptr cols vals m m' r nf req nt nts hr hKr hr2 hp hnf hmem
    have csr : ∀ {e' : Ensemble} (_ : Fits e') (_ : e'.nFeatures = nf) (_ : dflt e'.base = dflt e.base) {w : Nat} (_ : e'.nOutputGroups = w)
        (_ : w * r < 2 ^ 63) (m m' : List F64) (nt : Int),
        e'.PredictCSR P indptr cols vals m req nt (.ok ⟨⟩, m') ↔ ∃ outs, StoredRows m w r outs m' ∧ ∀ i < r, ∃ row,
          SparseRow indptr cols vals nf (dflt e.base) i row ∧ (e'.predict P row req w).run (List.replicate w F64.zero) = (.ok ⟨⟩, outs i) := by
      intro e' hf hn hd w hw hwr m m' nt
      constructor
      · intro h
        obtain ⟨outs, s, g⟩ := C15_csr_is_rowwise P e' hf w r nf hw ⟨hn, hmem⟩ hwr hr2 indptr cols hp vals m m' req nt h
        refine ⟨outs, s, fun i hi => ?_⟩
        obtain ⟨row, g1, g2⟩ := g i hi
        exact ⟨row, hd ▸ g1, g2 _ (by simp)⟩
      · rintro ⟨outs, s, g⟩
        refine C15_rowwise_is_csr P e' hf w r nf hw ⟨hn, hmem⟩ hwr hr2 hr indptr cols hp vals m m' req nt outs s fun i hi => ?_
        obtain ⟨row, g1, g2⟩ := g i hi
        exact ⟨row, _, hd ▸ g1, by simp, g2⟩
    have hr1 : 1 * r < 2 ^ 63 := lt_of_le_of_lt (Nat.mul_le_mul_right r hK) hKr
    rw [csr hf hnf rfl hw hKr,
      classes_rows hK (fun row m m' => h row req m m') (R := SparseRow indptr cols vals nf (dflt e.base)) fun i row row' => SparseRow.unique]
    refine exists_congr fun outs => and_congr_right fun _ => forall_congr' fun j => forall_congr' fun hj => exists_congr fun s =>
      and_congr_left' ?_
    rw [csr (hfs j hj) ((hn j hj).trans hnf) (hd j hj) (hws j hj) hr1]

/-- the row of a model of `K` classes, given what each class is -/
theorem classes_of_ref {P : Platform} {e : Ensemble} {K N : Nat} {es : Nat → Ensemble} (hK : 0 < K) {R : List F64 → Nat → List F64 → Prop}
    {Rs : Nat → List F64 → Nat → List F64 → Prop} (hn : ∀ j < K, (es j).nFeatures = e.nFeatures)
    (hR : ∀ row n w, n ≤ N → (R row n w ↔ w.length = K ∧ ∀ j < K, ∃ x, w[j]? = some x ∧ Rs j row n [x]))
    (h : ∀ (row : List F64) (req : Int) (m m' : List F64), (e.predict P row req m.length).run m = (.ok ⟨⟩, m') ↔
      K ≤ m.length ∧ e.nFeatures ≤ row.length ∧ ∃ n w, Used req N n ∧ R row n w ∧ Stored m 0 w m')
    (hs : ∀ j < K, ∀ (row : List F64) (req : Int) (m m' : List F64), ((es j).predict P row req m.length).run m = (.ok ⟨⟩, m') ↔
      1 ≤ m.length ∧ (es j).nFeatures ≤ row.length ∧ ∃ n w, Used req N n ∧ Rs j row n w ∧ Stored m 0 w m')
    (hl : ∀ j < K, ∀ row n w, Rs j row n w → w.length = 1) (row : List F64) (req : Int) (m m' : List F64) :
    (e.predict P row req m.length).run m = (.ok ⟨⟩, m') ↔
      ∃ w, w.length = K ∧ Stored m 0 w m' ∧ ∀ j < K, ∃ x, w[j]? = some x ∧ ((es j).predict P row req 1).run [F64.zero] = (.ok ⟨⟩, [x]) := by
  have one : ∀ j < K, ∀ x, ((es j).predict P row req 1).run [F64.zero] = (.ok ⟨⟩, [x]) ↔
      e.nFeatures ≤ row.length ∧ ∃ n, Used req N n ∧ Rs j row n [x] := by
    intro j hj x
    have := hs j hj row req [F64.zero] [x]
    rw [List.length_singleton, hn j hj] at this
    rw [this]
    constructor
    · rintro ⟨-, h1, n, w, h2, h3, h4⟩
      have := stored_full h4 (hl j hj row n w h3)
      exact ⟨h1, n, h2, this ▸ h3⟩
    · rintro ⟨h1, n, h2, h3⟩
      exact ⟨le_rfl, h1, n, [x], h2, h3, stored_self rfl⟩
  rw [h]
  constructor
  · rintro ⟨h1, h2, n, w, h3, h4, h5⟩
    obtain ⟨h6, h7⟩ := (hR row n w (Used.le h3)).1 h4
    refine ⟨w, h6, h5, fun j hj => ?_⟩
    obtain ⟨x, h8, h9⟩ := h7 j hj
    exact ⟨x, h8, (one j hj x).2 ⟨h2, n, h3, h9⟩⟩
  · rintro ⟨w, h1, h2, h3⟩
    obtain ⟨x, -, h4⟩ := h3 0 hK
    obtain ⟨h5, n, h6, -⟩ := (one 0 hK x).1 h4
    refine ⟨by have := h2.1; omega, h5, n, w, h6, (hR row n w (Used.le h6)).2 ⟨h1, fun j hj => ?_⟩, h2⟩
    obtain ⟨x, h7, h8⟩ := h3 j hj
    obtain ⟨-, n', h9, h10⟩ := (one j hj x).1 h8
    obtain rfl := Used.unique h6 h9
    exact ⟨x, h7, h10⟩

theorem range_map_eq_iff {K : Nat} {w : List F64} {f : Nat → F64} : w = (List.range K).map f ↔ w.length = K ∧ ∀ j < K, w[j]? = some (f j) := by
  constructor
  · rintro rfl
    exact ⟨by simp, fun j hj => by simp [hj]⟩
  · rintro ⟨h1, h2⟩
    refine List.ext_getElem? fun j => ?_
    by_cases hj : j < K
    · rw [h2 j hj]
      simp [hj]
    · rw [List.getElem?_eq_none (by omega), List.getElem?_eq_none (by simpa using hj)]

theorem refRaw_classes {P : Platform} {out : F64 → Int} {ds : List TreeDesc} {dss : Nat → List TreeDesc} {K N n : Nat} {avg : Bool}
    (hc : ∀ j < K, OfClass K j ds (dss j)) (hlen : ds.length = N * K) (hn : n ≤ N) (row w : List F64) :
    RefRaw P out ds K avg row n w ↔ w.length = K ∧ ∀ j < K, ∃ x, w[j]? = some x ∧ RefRaw P out (dss j) 1 avg row n [x] := by
  have key : ∀ j < K, ∀ i < n, (dss j)[i]? = ds[i * K + j]? := by
    intro j hj i hi
    obtain ⟨h1, h2⟩ := hc j hj
    have : (dss j).length = N := Nat.eq_of_mul_eq_mul_right (by omega) (h1.symm.trans hlen)
    exact h2 i (by omega)
  unfold RefRaw
  constructor
  · rintro ⟨v, h1, h2⟩
    obtain ⟨h3, h4⟩ := range_map_eq_iff.1 h2
    refine ⟨h3, fun j hj => ⟨_, h4 j hj, fun i _ => v i j, fun i hi k hk => ?_, rfl⟩⟩
    obtain rfl : k = 0 := by omega
    rw [Nat.mul_one, Nat.add_zero, key j hj i hi]
    exact h1 i hi j hj
  · rintro ⟨h1, h2⟩
    have : ∀ j, ∃ v : Nat → F64, j < K → (∀ i < n, ∃ d, (dss j)[i]? = some d ∧ d.Value out row (v i)) ∧
        w[j]? = some (accumulate (fun i acc => P.mulAdd (v i) (if avg then F64.div F64.one (F64.ofNat n) else F64.one) acc) n F64.zero) := by
      intro j
      by_cases hj : j < K
      · obtain ⟨x, h3, v, h4, h5⟩ := h2 j hj
        refine ⟨fun i => v i 0, fun _ => ⟨fun i hi => ?_, ?_⟩⟩
        · simpa using h4 i hi 0 (by omega)
        · rw [h3]
          simpa using h5
      · exact ⟨fun _ => F64.zero, fun h => absurd h hj⟩
    choose v hv using this
    refine ⟨fun i j => v j i, fun i hi j hj => ?_, range_map_eq_iff.2 ⟨h1, fun j hj => (hv j hj).2⟩⟩
    rw [← key j hj i hi]
    exact (hv j hj).1 i hi

theorem refRaw_length {P : Platform} {out : F64 → Int} {ds : List TreeDesc} {K n : Nat} {avg : Bool} {row w : List F64}
    (h : RefRaw P out ds K avg row n w) : w.length = K := by
  obtain ⟨v, -, rfl⟩ := h
  simp

theorem Spec.OfClass.length_eq {α : Type} {K j N : Nat} {l l' : List α} (h : OfClass K j l l') (hK : 0 < K) (hl : l.length = N * K) : l'.length = N :=
  Nat.eq_of_mul_eq_mul_right hK (h.1.symm.trans hl)

theorem Spec.OfClass.mem {α : Type} {K j : Nat} {l l' : List α} (h : OfClass K j l l') {a : α} (ha : a ∈ l') : a ∈ l := by
  obtain ⟨i, hi, rfl⟩ := List.mem_iff_getElem.1 ha
  have := h.2 i hi
  rw [List.getElem?_eq_getElem hi] at this
  exact List.mem_of_getElem? this.symm

/-- **C109, LightGBM text files**, boosted models and random forests: a file with `K` classes, and for each class a file with the trees of
this class only. -/
theorem C109_text (P : Platform) (print : F64 → Str) (text rest0 rest : Str) (header : List Str) (e0 e1 : Bool) (bs : List (List Str))
    (ds : List TreeDesc) (K N : Nat) (M : Int) (avg : Bool) (hK : 1 ≤ K ∧ K < 2 ^ 63) (hN : 1 ≤ N) (hlen : ds.length = N * K)
    (hok : ∀ d ∈ ds, d.OK P.parseFloat print ∧ d.inner * 24 ≤ P.maxAlloc)
    (hh : FileBlock text header rest0 e0) (hhl : HeaderLines header K M ds.length avg)
    (hb : FileBlocks rest0 bs rest e1) (hbl : List.Forall₂ (TreeLines print) ds bs)
    (texts rest0s rests : Nat → Str) (headers : Nat → List Str) (e0s e1s : Nat → Bool) (bss : Nat → List (List Str))
    (dss : Nat → List TreeDesc) (hc : ∀ j < K, OfClass K j ds (dss j))
    (hhs : ∀ j < K, FileBlock (texts j) (headers j) (rest0s j) (e0s j)) (hhls : ∀ j < K, HeaderLines (headers j) 1 M N avg)
    (hbs : ∀ j < K, FileBlocks (rest0s j) (bss j) (rests j) (e1s j)) (hbls : ∀ j < K, List.Forall₂ (TreeLines print) (dss j) (bss j)) :
    ∃ e es, lgEnsembleFromReader P ⟨text, false⟩ false = .ok (e, ⟨rest, false⟩) ∧
      (∀ j < K, lgEnsembleFromReader P ⟨texts j, false⟩ false = .ok (es j, ⟨rests j, false⟩)) ∧ ByClass P e K es := by
  obtain ⟨e, l1, f1, -, -, w1, n1, -, p1⟩ := C39_text_file P print text rest0 rest header e0 e1 bs ds K N M avg hK hN hlen hh hhl hb hbl hok
  have key : ∀ j, ∃ e', j < K → lgEnsembleFromReader P ⟨texts j, false⟩ false = .ok (e', ⟨rests j, false⟩) ∧ Fits e' ∧
      e'.nOutputGroups = (1 : Nat) ∧ e'.nFeatures = (if 0 < M then M + 1 else 0) ∧
      ∀ fvals req m m', ((e'.predict P fvals req m.length).run m = (.ok ⟨⟩, m') ↔
        (1 ≤ m.length ∧ e'.nFeatures ≤ fvals.length ∧ ∃ n w, Used req N n ∧ RefRaw P P.out (dss j) 1 avg fvals n w ∧ Stored m 0 w m')) := by
    intro j
    by_cases hj : j < K
    · have hl := (hc j hj).length_eq hK.1 hlen
      obtain ⟨e', l2, f2, -, -, w2, n2, -, p2⟩ := C39_text_file P print (texts j) (rest0s j) (rests j) (headers j) (e0s j) (e1s j) (bss j) (dss j) 1 N M avg
        ⟨le_rfl, by norm_num⟩ hN (by omega) (hhs j hj) (by rw [hl]; exact hhls j hj) (hbs j hj) (hbls j hj) fun d hd => hok d ((hc j hj).mem hd)
      exact ⟨e', fun _ => ⟨l2, f2, w2, n2, p2⟩⟩
    · exact ⟨e, fun h => absurd h hj⟩
  choose es hes using key
  have hn : ∀ j < K, (es j).nFeatures = e.nFeatures := fun j hj => (hes j hj).2.2.2.1.trans n1.symm
  refine ⟨e, es, l1, fun j hj => (hes j hj).1, ByClass.of_rows hK.1 f1 (fun j hj => (hes j hj).2.1) w1 (fun j hj => (hes j hj).2.2.1) hn
    (fun j hj => (lg_loaded_base (hes j hj).1).trans (lg_loaded_base l1).symm) ?_⟩
  exact classes_of_ref hK.1 hn (fun row n w h => refRaw_classes hc hlen h row w) p1 (fun j hj => (hes j hj).2.2.2.2)
    fun j hj row n w h => refRaw_length h

theorem jRefRaw_classes {P : Platform} {out : F64 → Int} {ts : List JTree} {tss : Nat → List JTree} {K N n : Nat}
    (hc : ∀ j < K, OfClass K j ts (tss j)) (hlen : ts.length = N * K) (hn : n ≤ N) (row w : List F64) :
    JRefRaw P out ts K row n w ↔ w.length = K ∧ ∀ j < K, ∃ x, w[j]? = some x ∧ JRefRaw P out (tss j) 1 row n [x] := by
  have key : ∀ j < K, ∀ i < n, (tss j)[i]? = ts[i * K + j]? := by
    intro j hj i hi
    have := (hc j hj).length_eq (by omega) hlen
    exact (hc j hj).2 i (by omega)
  unfold JRefRaw
  constructor
  · rintro ⟨v, h1, h2⟩
    obtain ⟨h3, h4⟩ := range_map_eq_iff.1 h2
    refine ⟨h3, fun j hj => ⟨_, h4 j hj, fun i _ => v i j, fun i hi k hk => ?_, rfl⟩⟩
    obtain rfl : k = 0 := by omega
    rw [Nat.mul_one, Nat.add_zero, key j hj i hi]
    exact h1 i hi j hj
  · rintro ⟨h1, h2⟩
    have : ∀ j, ∃ v : Nat → F64, j < K → (∀ i < n, ∃ t p, (tss j)[i]? = some t ∧ JWalk out row t.root p (v i)) ∧
        w[j]? = some (accumulate (fun i acc => P.mulAdd (v i) F64.one acc) n F64.zero) := by
      intro j
      by_cases hj : j < K
      · obtain ⟨x, h3, v, h4, h5⟩ := h2 j hj
        refine ⟨fun i => v i 0, fun _ => ⟨fun i hi => ?_, ?_⟩⟩
        · simpa using h4 i hi 0 (by omega)
        · rw [h3]
          simpa using h5
      · exact ⟨fun _ => F64.zero, fun h => absurd h hj⟩
    choose v hv using this
    refine ⟨fun i j => v j i, fun i hi j hj => ?_, range_map_eq_iff.2 ⟨h1, fun j hj => (hv j hj).2⟩⟩
    rw [← key j hj i hi]
    exact (hv j hj).1 i hi

theorem jRefRaw_length {P : Platform} {out : F64 → Int} {ts : List JTree} {K n : Nat} {row w : List F64}
    (h : JRefRaw P out ts K row n w) : w.length = K := by
  obtain ⟨v, -, rfl⟩ := h
  simp

/-- **C109, LightGBM JSON dumps.** -/
theorem C109_json (P : Platform) (v : Json) (vs : Nat → Json) (K N : Nat) (M : Int) (ts : List JTree) (tss : Nat → List JTree) (hK : 1 ≤ K)
    (hN : 1 ≤ N) (hlen : ts.length = N * K) (hok : ∀ t ∈ ts, ∃ W, JTreeOK t W ∧ jLeaves t.root * 24 ≤ P.maxAlloc ∧ 4 * W ≤ P.maxAlloc)
    (doc : ModelDoc P v K M ts) (nest : NestedAtMost P.jsonDepth v) (hc : ∀ j < K, OfClass K j ts (tss j))
    (docs : ∀ j < K, ModelDoc P (vs j) 1 M (tss j)) (nests : ∀ j < K, NestedAtMost P.jsonDepth (vs j)) :
    ∃ e es, lgEnsembleFromDocument P (some v) false = .ok e ∧ (∀ j < K, lgEnsembleFromDocument P (some (vs j)) false = .ok (es j)) ∧
      ByClass P e K es := by
  obtain ⟨e, l1, f1, -, -, -, w1, n1, -, p1⟩ := C67_document P v K N M ts doc nest ⟨hK, hN, hlen⟩ hok
  have key : ∀ j, ∃ e', j < K → lgEnsembleFromDocument P (some (vs j)) false = .ok e' ∧ Fits e' ∧
      e'.nOutputGroups = (1 : Nat) ∧ e'.nFeatures = (if 0 < M then M + 1 else 0) ∧
      ∀ fvals req m m', ((e'.predict P fvals req m.length).run m = (.ok ⟨⟩, m') ↔
        (1 ≤ m.length ∧ e'.nFeatures ≤ fvals.length ∧ ∃ n w, Used req N n ∧ JRefRaw P P.out (tss j) 1 fvals n w ∧ Stored m 0 w m')) := by
    intro j
    by_cases hj : j < K
    · have hl := (hc j hj).length_eq hK hlen
      obtain ⟨e', l2, f2, -, -, -, w2, n2, -, p2⟩ := C67_document P (vs j) 1 N M (tss j) (docs j hj) (nests j hj) ⟨le_rfl, hN, by omega⟩
        fun t ht => hok t ((hc j hj).mem ht)
      exact ⟨e', fun _ => ⟨l2, f2, w2, n2, p2⟩⟩
    · exact ⟨e, fun h => absurd h hj⟩
  choose es hes using key
  have hn : ∀ j < K, (es j).nFeatures = e.nFeatures := fun j hj => (hes j hj).2.2.2.1.trans n1.symm
  refine ⟨e, es, l1, fun j hj => (hes j hj).1, ByClass.of_rows hK f1 (fun j hj => (hes j hj).2.1) w1 (fun j hj => (hes j hj).2.2.1) hn
    (fun j hj => (jDoc_loaded_base (hes j hj).1).trans (jDoc_loaded_base l1).symm) ?_⟩
  exact classes_of_ref hK hn (fun row n w h => jRefRaw_classes hc hlen h row w) p1 (fun j hj => (hes j hj).2.2.2.2)
    fun j hj row n w h => jRefRaw_length h

theorem xgRefRaw_length {P : Platform} {goes : List XgBin.Node → List F64 → Nat → Bool → Prop} {m : XgModel} {K n : Nat} {row w : List F64}
    (h : XgRefRaw P goes m K row n w) : w.length = K := by
  obtain ⟨v, c, -, -, rfl⟩ := h
  simp

theorem xgRefRaw_classes {P : Platform} {goes : List XgBin.Node → List F64 → Nat → Bool → Prop} {m : XgModel} {ms : Nat → XgModel} {K N n : Nat}
    (hc : ∀ j < K, m.ClassOf (ms j) K j) (hlen : m.gbtree.trees.length = N * K) (hlen2 : m.shapes.length = N * K)
    (hlen3 : m.dart = true → m.weights.length = N * K) (hn : n ≤ N) (row w : List F64) :
    XgRefRaw P goes m K row n w ↔ w.length = K ∧ ∀ j < K, ∃ x, w[j]? = some x ∧ XgRefRaw P goes (ms j) 1 row n [x] := by
  have key : ∀ j < K, ∀ i < n, (ms j).gbtree.trees[i]? = m.gbtree.trees[i * K + j]? ∧ (ms j).shapes[i]? = m.shapes[i * K + j]? ∧
      ∀ c, (ms j).Weight i c ↔ m.Weight (i * K + j) c := by
    intro j hj i hi
    have h := hc j hj
    have a := h.trees.length_eq (by omega) hlen
    have b := h.shapes.length_eq (by omega) hlen2
    refine ⟨h.trees.2 i (by omega), h.shapes.2 i (by omega), fun c => ?_⟩
    unfold XgModel.Weight
    rw [h.booster]
    by_cases hd : m.dart = true
    · have d := (h.weights hd).length_eq (by omega) (hlen3 hd)
      rw [(h.weights hd).2 i (by omega)]
    · rw [if_neg hd, if_neg hd]
  unfold XgRefRaw
  constructor
  · rintro ⟨v, c, h1, h2, h3⟩
    obtain ⟨h4, h5⟩ := range_map_eq_iff.1 h3
    refine ⟨h4, fun j hj => ⟨_, h5 j hj, fun i _ => v i j, fun i _ => c i j, fun i hi k hk => ?_, fun i hi k hk => ?_, ?_⟩⟩
    · obtain rfl : k = 0 := by omega
      rw [Nat.mul_one, Nat.add_zero, (key j hj i hi).1, (key j hj i hi).2.1]
      exact h1 i hi j hj
    · obtain rfl : k = 0 := by omega
      rw [Nat.mul_one, Nat.add_zero, (key j hj i hi).2.2]
      exact h2 i hi j hj
    · rw [(hc j hj).score]
      rfl
  · rintro ⟨h1, h2⟩
    have : ∀ j, ∃ v c : Nat → F64, j < K → (∀ i < n, ∃ t T leaf, (ms j).gbtree.trees[i]? = some t ∧ (ms j).shapes[i]? = some T ∧
        Walk (goes t.nodes row) T leaf ∧ XgVal t.nodes leaf (v i)) ∧ (∀ i < n, (ms j).Weight i (c i)) ∧
        w[j]? = some (accumulate (fun i acc => P.mulAdd (v i) (c i) acc) n (F64.ofBits32 m.header.param.baseScore)) := by
      intro j
      by_cases hj : j < K
      · obtain ⟨x, h3, v, c, h4, h5, h6⟩ := h2 j hj
        refine ⟨fun i => v i 0, fun i => c i 0, fun _ => ⟨fun i hi => ?_, fun i hi => ?_, ?_⟩⟩
        · simpa using h4 i hi 0 (by omega)
        · simpa using h5 i hi 0 (by omega)
        · rw [h3]
          rw [(hc j hj).score] at h6
          simpa using h6
      · exact ⟨fun _ => F64.zero, fun _ => F64.zero, fun h => absurd h hj⟩
    choose v c hv using this
    refine ⟨fun i j => v j i, fun i j => c j i, fun i hi j hj => ?_, fun i hi j hj => ?_, range_map_eq_iff.2 ⟨h1, fun j hj => (hv j hj).2.2⟩⟩
    · rw [← (key j hj i hi).1, ← (key j hj i hi).2.1]
      exact (hv j hj).1 i hi
    · exact ((key j hj i hi).2.2 _).1 ((hv j hj).2.1 i hi)

/-- **C109, XGBoost files**, boosted trees and DART, loaded without transformation. -/
theorem C109_xgboost (P : Platform) (m : XgModel) (ms : Nat → XgModel) (K N : Nat) (ok : m.OK P.maxAlloc K N)
    (oks : ∀ j < K, (ms j).OK P.maxAlloc 1 N) (hc : ∀ j < K, m.ClassOf (ms j) K j) :
    ∃ e es, (∀ rest, xgEnsembleFromReader P false (m.image ++ rest) = .ok (e, rest)) ∧
      (∀ j < K, ∀ rest, xgEnsembleFromReader P false ((ms j).image ++ rest) = .ok (es j, rest)) ∧ ByClass P e K es := by
  have ho : ∀ (K : Nat) (m : XgModel), XgObjective K m.header.nameObj false (.raw K) := fun K m => .raw
  obtain ⟨hK, hN, hlen⟩ := ok.counts
  have hlen2 : m.shapes.length = N * K := by rw [← hlen]; exact ok.trees.length_eq.symm
  obtain ⟨e, l1, f1, r1, -, t1, n1, -, p1⟩ := C62_xgboost_file_le P m K N ok false (.raw K) (ho K m) (fun h => by cases h)
  have w1 : e.nOutputGroups = K := congrArg Transform.nOutputGroups r1
  have raw : ∀ {w out : List F64} {K : Nat}, IsTransformed P (.raw K) w out ↔ out = w := Iff.rfl
  have key : ∀ j, ∃ e', j < K → (∀ rest, xgEnsembleFromReader P false ((ms j).image ++ rest) = .ok (e', rest)) ∧ Fits e' ∧
      e'.nOutputGroups = (1 : Nat) ∧ e'.nFeatures = e.nFeatures ∧ dflt e'.base = dflt e.base ∧
      ∀ fvals req s s', ((e'.predict P fvals req s.length).run s = (.ok ⟨⟩, s') ↔
        (1 ≤ s.length ∧ e'.nFeatures ≤ fvals.length ∧ ∃ n w, Used req N n ∧ XgRefRaw P XgGoesLe (ms j) 1 fvals n w ∧ Stored s 0 w s')) := by
    intro j
    by_cases hj : j < K
    · obtain ⟨e', l2, f2, r2, -, t2, n2, -, p2⟩ := C62_xgboost_file_le P (ms j) 1 N (oks j hj) false (.raw (1 : Nat)) (ho 1 (ms j)) (fun h => by cases h)
      have w2 : e'.nOutputGroups = (1 : Nat) := congrArg Transform.nOutputGroups r2
      refine ⟨e', fun _ => ⟨l2, f2, w2, ?_, ?_, fun fvals req s s' => ?_⟩⟩
      · rw [n1, n2, (hc j hj).features]
      · exact (xg_loaded_default (oks j hj) (ho 1 (ms j)) l2).trans (xg_loaded_default ok (ho K m) l1).symm
      · rw [p2, w2]
        refine and_congr (by exact_mod_cast Iff.rfl) (and_congr_right fun _ => exists_congr fun n => exists_congr fun w => ?_)
        simp only [raw]
        exact ⟨fun ⟨out, h1, h2, h3, h4⟩ => ⟨h1, h2, h3 ▸ h4⟩, fun ⟨h1, h2, h3⟩ => ⟨w, h1, h2, rfl, h3⟩⟩
    · exact ⟨e, fun h => absurd h hj⟩
  choose es hes using key
  have hn : ∀ j < K, (es j).nFeatures = e.nFeatures := fun j hj => (hes j hj).2.2.2.1
  refine ⟨e, es, l1, fun j hj => (hes j hj).1, ByClass.of_rows hK f1 (fun j hj => (hes j hj).2.1) w1 (fun j hj => (hes j hj).2.2.1) hn
    (fun j hj => (hes j hj).2.2.2.2.1) ?_⟩
  refine classes_of_ref (R := XgRefRaw P XgGoesLe m K) (Rs := fun j => XgRefRaw P XgGoesLe (ms j) 1) hK hn
    (fun row n w h => xgRefRaw_classes hc hlen hlen2 ok.weights h row w) (fun row req s s' => ?_) (fun j hj => (hes j hj).2.2.2.2.2)
    fun j hj row n w h => xgRefRaw_length h
  rw [p1, w1]
  refine and_congr (by exact_mod_cast Iff.rfl) (and_congr_right fun _ => exists_congr fun n => exists_congr fun w => ?_)
  simp only [raw]
  exact ⟨fun ⟨out, h1, h2, h3, h4⟩ => ⟨h1, h2, h3 ▸ h4⟩, fun ⟨h1, h2, h3⟩ => ⟨w, h1, h2, rfl, h3⟩⟩

theorem xgLinRaw_classes {P : Platform} {m : XgLinFile} {ms : Nat → XgLinFile} {K F : Nat} (hc : ∀ j < K, m.ClassOf (ms j) K j)
    (hlen : m.linear.weights.length = (F + 1) * K) (row w : List F64) (hF : F ≤ row.length) :
    XgLinRaw P m K F row w ↔ w.length = K ∧ ∀ j < K, ∃ x, w[j]? = some x ∧ XgLinRaw P (ms j) 1 F row [x] := by
  have key : ∀ j < K, ∀ i ≤ F, (ms j).linear.weights[i]? = m.linear.weights[i * K + j]? := by
    intro j hj i hi
    have := (hc j hj).weights.length_eq (by omega) hlen
    exact (hc j hj).weights.2 i (by omega)
  unfold XgLinRaw
  constructor
  · rintro ⟨x, c, h1, h2, h3⟩
    obtain ⟨h4, h5⟩ := range_map_eq_iff.1 h3
    refine ⟨h4, fun j hj => ⟨_, h5 j hj, x, fun i _ => c i j, h1, fun i hi k hk => ?_, ?_⟩⟩
    · obtain rfl : k = 0 := by omega
      rw [Nat.mul_one, Nat.add_zero, key j hj i hi]
      exact h2 i hi j hj
    · rw [(hc j hj).score]
      rfl
  · rintro ⟨h1, h2⟩
    have hx : ∀ i < F, row[i]? = some (row.getD i F64.zero) := fun i hi => by
      rw [List.getD_eq_getElem?_getD, List.getElem?_eq_getElem (by omega)]
      rfl
    have : ∀ j, ∃ c : Nat → F64, j < K → (∀ i ≤ F, ∃ b, (ms j).linear.weights[i]? = some b ∧ c i = F64.ofBits32 b) ∧
        w[j]? = some (accumulate (fun i acc => P.mulAdd (row.getD i F64.zero) (c i) acc) F (F64.add (F64.ofBits32 m.header.param.baseScore) (c F))) := by
      intro j
      by_cases hj : j < K
      · obtain ⟨x, h3, xs, c, h4, h5, h6⟩ := h2 j hj
        refine ⟨fun i => c i 0, fun _ => ⟨fun i hi => ?_, ?_⟩⟩
        · simpa using h5 i hi 0 (by omega)
        · have h6 : x = accumulate (fun i acc => P.mulAdd (xs i) (c i 0) acc) F (F64.add (F64.ofBits32 (ms j).header.param.baseScore) (c F 0)) := by
            simpa using h6
          rw [h3, h6, (hc j hj).score]
          congr 1
          unfold accumulate
          refine List.foldl_ext _ _ _ fun acc i hi => ?_
          have hi := List.mem_range.1 hi
          have := (h4 i hi).symm.trans (hx i hi)
          dsimp only
          rw [Option.some.inj this]
      · exact ⟨fun _ => F64.zero, fun h => absurd h hj⟩
    choose c hcv using this
    refine ⟨fun i => row.getD i F64.zero, fun i j => c j i, hx, fun i hi j hj => ?_, range_map_eq_iff.2 ⟨h1, fun j hj => (hcv j hj).2⟩⟩
    rw [← key j hj i hi]
    exact (hcv j hj).1 i hi

theorem used_one (req : Int) (n : Nat) : Used req 1 n ↔ n = 1 := by
  unfold Used
  rw [if_neg (by omega)]

/-- **C109, linear XGBoost files**, loaded without transformation. -/
theorem C109_linear (P : Platform) (m : XgLinFile) (ms : Nat → XgLinFile) (K F : Nat) (ok : m.OK P.maxAlloc K F)
    (oks : ∀ j < K, (ms j).OK P.maxAlloc 1 F) (hc : ∀ j < K, m.ClassOf (ms j) K j) :
    ∃ e es, (∀ rest, xgbLinearFromReader P false (m.image ++ rest) = .ok (e, rest)) ∧
      (∀ j < K, ∀ rest, xgbLinearFromReader P false ((ms j).image ++ rest) = .ok (es j, rest)) ∧ ByClass P e K es := by
  have one : ∀ (m : XgLinFile) (K : Nat), m.OK P.maxAlloc K F → ∃ e, (∀ rest, xgbLinearFromReader P false (m.image ++ rest) = .ok (e, rest)) ∧
      Fits e ∧ e.nOutputGroups = K ∧ e.nFeatures = F ∧ dflt e.base = F64.zero ∧
      ∀ fvals req s s', ((e.predict P fvals req s.length).run s = (.ok ⟨⟩, s') ↔
        (K ≤ s.length ∧ e.nFeatures ≤ fvals.length ∧ ∃ n w, Used req 1 n ∧ (F ≤ fvals.length ∧ XgLinRaw P m K F fvals w) ∧ Stored s 0 w s')) := by
    intro m K ok
    obtain ⟨e, l, f, r, -, -, n, -, p⟩ := C62_linear_file P m K F ok false (.raw K) .raw (fun h => by cases h)
    have w : e.nOutputGroups = K := congrArg Transform.nOutputGroups r
    refine ⟨e, l, f, w, n, ?_, fun fvals req s s' => ?_⟩
    · have h1 := (xg_linear_loaded P m K F ok false (.raw K) ((xgTransform_iff _ _ _ _).2 .raw)).decode []
      rw [l []] at h1
      cases h1
      rfl
    · rw [p, w, n]
      refine and_congr (by exact_mod_cast Iff.rfl) ?_
      constructor
      · rintro ⟨h1, w, out, h2, rfl, h3⟩
        exact ⟨by exact_mod_cast h1, 1, _, (used_one _ _).2 rfl, ⟨h1, h2⟩, h3⟩
      · rintro ⟨-, n, w, -, ⟨h1, h2⟩, h3⟩
        exact ⟨h1, w, w, h2, rfl, h3⟩
  have hK := ok.groups.2
  obtain ⟨e, l1, f1, w1, n1, d1, p1⟩ := one m K ok
  have key : ∀ j, ∃ e', j < K → (∀ rest, xgbLinearFromReader P false ((ms j).image ++ rest) = .ok (e', rest)) ∧
      Fits e' ∧ e'.nOutputGroups = (1 : Nat) ∧ e'.nFeatures = F ∧ dflt e'.base = F64.zero ∧
      ∀ fvals req s s', ((e'.predict P fvals req s.length).run s = (.ok ⟨⟩, s') ↔
        (1 ≤ s.length ∧ e'.nFeatures ≤ fvals.length ∧ ∃ n w, Used req 1 n ∧ (F ≤ fvals.length ∧ XgLinRaw P (ms j) 1 F fvals w) ∧ Stored s 0 w s')) := by
    intro j
    by_cases hj : j < K
    · obtain ⟨e', h⟩ := one (ms j) 1 (oks j hj)
      exact ⟨e', fun _ => h⟩
    · exact ⟨e, fun h => absurd h hj⟩
  choose es hes using key
  have hn : ∀ j < K, (es j).nFeatures = e.nFeatures := fun j hj => (hes j hj).2.2.2.1.trans n1.symm
  refine ⟨e, es, l1, fun j hj => (hes j hj).1, ByClass.of_rows hK f1 (fun j hj => (hes j hj).2.1) w1 (fun j hj => (hes j hj).2.2.1) hn
    (fun j hj => (hes j hj).2.2.2.2.1.trans d1.symm) ?_⟩
  refine classes_of_ref (N := 1) (R := fun row _ w => F ≤ row.length ∧ XgLinRaw P m K F row w)
    (Rs := fun j row _ w => F ≤ row.length ∧ XgLinRaw P (ms j) 1 F row w) hK hn (fun row n w _ => ?_) p1
    (fun j hj => (hes j hj).2.2.2.2.2) fun j hj row n w h => ?_
  · by_cases hF : F ≤ row.length
    · simp only [hF, true_and]
      exact xgLinRaw_classes hc ok.weights row w hF
    · simp only [hF, false_and, and_false, exists_false, false_iff]
      rintro ⟨-, h⟩
      exact h 0 hK
  · obtain ⟨-, x, c, -, -, rfl⟩ := h
    simp

/-! ## An example -/

namespace ClassesExample

open LgExample (platform)
open LgLoadExample (d1 d2 print ds_ok)

/-- A file with two classes, with one tree each, and two files with one of the trees each. The first model stores 10 and 7 for the row
(5, 33), the others 10, and 7. -/
theorem C109_example : ∃ e es,
    lgEnsembleFromReader platform ⟨modelText print [d1, d2] 2 1 false ++ [], false⟩ false = .ok (e, ⟨[], false⟩) ∧
    lgEnsembleFromReader platform ⟨modelText print [d2] 1 1 false ++ [], false⟩ false = .ok (es 1, ⟨[], false⟩) ∧ ByClass platform e 2 es ∧
    (e.predict platform [F64.ofNat 5, F64.ofNat 33] 0 2).run [F64.nan, F64.nan] = (.ok ⟨⟩, [F64.ofNat 10, F64.ofNat 7]) ∧
    ((es 1).predict platform [F64.ofNat 5, F64.ofNat 33] 0 1).run [F64.zero] = (.ok ⟨⟩, [F64.ofNat 7]) := by
  obtain ⟨header, rest0, blocks, h1, h2, h3, h4⟩ := modelText_blocks (M := 1) [] 2 false (by norm_num) ds_ok
  have one : ∀ j, ∃ header rest0 blocks, FileBlock (modelText print (if j = 0 then [d1] else [d2]) 1 1 false ++ []) header rest0 false ∧
      HeaderLines header 1 1 1 false ∧ FileBlocks rest0 blocks [] false ∧ List.Forall₂ (TreeLines print) (if j = 0 then [d1] else [d2]) blocks := by
    intro j
    by_cases hj : j = 0
    · simp only [if_pos hj]
      exact modelText_blocks (P := platform) (ds := [d1]) [] 1 false (by norm_num) fun d hd => ds_ok d (by simp at hd ⊢; exact .inl hd)
    · simp only [if_neg hj]
      exact modelText_blocks (P := platform) (ds := [d2]) [] 1 false (by norm_num) fun d hd => ds_ok d (by simp at hd ⊢; exact .inr hd)
  choose headers rest0s blockss g using one
  have hc : ∀ j < 2, OfClass 2 j [d1, d2] (if j = 0 then [d1] else [d2]) := by
    intro j hj
    have : j = 0 ∨ j = 1 := by omega
    rcases this with rfl | rfl
    · refine ⟨rfl, fun i hi => ?_⟩
      obtain rfl : i = 0 := by simpa using hi
      rfl
    · refine ⟨rfl, fun i hi => ?_⟩
      obtain rfl : i = 0 := by simpa using hi
      rfl
  obtain ⟨e, es, l1, l2, h⟩ := C109_text platform print _ _ _ _ _ _ _ [d1, d2] 2 1 1 false (by norm_num) le_rfl rfl
    (fun d hd => ⟨(ds_ok d hd).1, (ds_ok d hd).2.2⟩) h1 h2 h3 h4 (fun j => modelText print (if j = 0 then [d1] else [d2]) 1 1 false ++ [])
    rest0s (fun _ => []) headers (fun _ => false) (fun _ => false) blockss _ hc (fun j _ => (g j).1) (fun j _ => (g j).2.1)
    (fun j _ => (g j).2.2.1) (fun j _ => (g j).2.2.2)
  obtain ⟨e2, c1, c2⟩ := SkModelExample.of_check (r := lgEnsembleFromReader platform ⟨modelText print [d1, d2] 2 1 false ++ [], false⟩ false)
    (fun e => (e.1.predict platform [F64.ofNat 5, F64.ofNat 33] 0 2).run [F64.nan, F64.nan] = (.ok ⟨⟩, [F64.ofNat 10, F64.ofNat 7])) (by decide +kernel)
  rw [l1] at c1
  cases c1
  obtain ⟨w, hw1, hw2, hw3⟩ := (h.row _ _ [F64.nan, F64.nan] _).1 c2
  have := stored_full hw2 hw1
  subst this
  obtain ⟨x, hx1, hx2⟩ := hw3 1 (by norm_num)
  cases hx1
  exact ⟨e, es, l1, l2 1 (by norm_num), h, c2, hx2⟩

/-- a linear file of two features and two classes, weights (1, 3) and (2, 4), biases 0.5 and -1 -/
def linFile : XgLinFile where
  header := XgFileExample.header "gblinear"
  linear := ⟨⟨2#32, 2#32, List.replicate 32 0#32⟩, [0x3f800000#32, 0x40400000#32, 0x40000000#32, 0x40800000#32, 0x3f000000#32, 0xbf800000#32]⟩

/-- its first and its second class -/
def linClass : Nat → XgLinFile
  | 0 => ⟨XgFileExample.header "gblinear", ⟨⟨2#32, 1#32, List.replicate 32 0#32⟩, [0x3f800000#32, 0x40000000#32, 0x3f000000#32]⟩⟩
  | _ => ⟨XgFileExample.header "gblinear", ⟨⟨2#32, 1#32, List.replicate 32 0#32⟩, [0x40400000#32, 0x40800000#32, 0xbf800000#32]⟩⟩

/-- The files are as `C109_linear` wants them. For the row (1, 2) the model of two classes stores 6 and 10.5, the second one 10.5. -/
theorem C109_linear_example : linFile.OK Platform.demo.maxAlloc 2 2 ∧
    (∀ j < 2, (linClass j).OK Platform.demo.maxAlloc 1 2 ∧ linFile.ClassOf (linClass j) 2 j) ∧
    (∃ e, xgbLinearFromReader Platform.demo false linFile.image = .ok (e, []) ∧
      (e.predict Platform.demo [F64.one, F64.ofNat 2] 0 2).run [F64.nan, F64.nan] = (.ok ⟨⟩, [F64.ofNat 6, F64.const 21 2])) ∧
    ∃ e, xgbLinearFromReader Platform.demo false (linClass 1).image = .ok (e, []) ∧
      (e.predict Platform.demo [F64.one, F64.ofNat 2] 0 1).run [F64.nan] = (.ok ⟨⟩, [F64.const 21 2]) := by
  refine ⟨⟨⟨rfl, by decide, by decide⟩, ⟨rfl, by decide⟩, rfl, by decide, by decide, by decide, rfl⟩, fun j hj => ?_, ?_, ?_⟩
  · have : j = 0 ∨ j = 1 := by omega
    have three : ∀ i, i < 3 → i = 0 ∨ i = 1 ∨ i = 2 := by omega
    rcases this with rfl | rfl
    · refine ⟨⟨⟨rfl, by decide, by decide⟩, ⟨rfl, by decide⟩, rfl, by decide, by decide, by decide, rfl⟩, rfl, rfl, fun i hi => ?_⟩
      rcases three i hi with rfl | rfl | rfl <;> rfl
    · refine ⟨⟨⟨rfl, by decide, by decide⟩, ⟨rfl, by decide⟩, rfl, by decide, by decide, by decide, rfl⟩, rfl, rfl, fun i hi => ?_⟩
      rcases three i hi with rfl | rfl | rfl <;> rfl
  · obtain ⟨⟨e, r⟩, c1, c2, c3⟩ := SkModelExample.of_check (r := xgbLinearFromReader Platform.demo false linFile.image)
      (fun e => e.2 = [] ∧ (e.1.predict Platform.demo [F64.one, F64.ofNat 2] 0 2).run [F64.nan, F64.nan] = (.ok ⟨⟩, [F64.ofNat 6, F64.const 21 2]))
      (by decide +kernel)
    cases c2
    exact ⟨e, c1, c3⟩
  · obtain ⟨⟨e, r⟩, c1, c2, c3⟩ := SkModelExample.of_check (r := xgbLinearFromReader Platform.demo false (linClass 1).image)
      (fun e => e.2 = [] ∧ (e.1.predict Platform.demo [F64.one, F64.ofNat 2] 0 1).run [F64.nan] = (.ok ⟨⟩, [F64.const 21 2]))
      (by decide +kernel)
    cases c2
    exact ⟨e, c1, c3⟩

end ClassesExample

end Leaves
