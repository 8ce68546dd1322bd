import Verif.Spec.Meaning
import Verif.Props.Formats

/-! # C128: only the meaning of a tree counts -/

namespace Leaves
open Spec

theorem sameMeaning_value {d d' : TreeDesc} {out : F64 → Int} {row : List F64} {w : F64} (h : d.SameMeaning out d') :
    d.Value out row w ↔ d'.Value out row w := by
  have tw := twin_walk h (goes := Goes out (LgSplit d.arrays) row) (goes' := Goes out (LgSplit d'.arrays) row) (fun i j hs b => by
    obtain ⟨f, rule, rule', h1, h2, h3⟩ := hs
    rw [goes_of_split h1, goes_of_split h2]
    exact exists_congr fun x => and_congr_right fun _ => iff_congr Iff.rfl (h3 x))
  rw [value_form, value_form]
  constructor
  · rintro ⟨i, hw, hi⟩
    obtain ⟨k, hk, hv⟩ := tw.1 i hw
    exact ⟨k, hk, hv ▸ hi⟩
  · rintro ⟨k, hw, hi⟩
    obtain ⟨i, hk, hv⟩ := tw.2 k hw
    exact ⟨i, hk, hv.trans hi⟩

/-- **C128.** Two LightGBM text files whose trees mean the same predict the same, however nodes and leaves are numbered and however sets of categories are
written down. -/
theorem C128_text (P : Platform) (print : F64 → Str) (text text' rest0 rest0' rest rest' : Str) (header header' : List Str)
    (e0 e0' e1 e1' : Bool) (bs bs' : List (List Str)) (ds ds' : List TreeDesc) (K N : Nat) (M : Int) (avg : Bool)
    (hK : 1 ≤ K ∧ K < 2 ^ 63) (hN : 1 ≤ N) (hlen : ds.length = N * K) (hlen' : ds'.length = N * K)
    (hok : ∀ d ∈ ds, d.OK P.parseFloat print ∧ d.inner * 24 ≤ P.maxAlloc) (hok' : ∀ d ∈ ds', d.OK P.parseFloat print ∧ d.inner * 24 ≤ P.maxAlloc)
    (hh : FileBlock text header rest0 e0) (hhl : HeaderLines header K M ds.length avg)
    (hb : FileBlocks rest0 bs rest e1) (hbl : List.Forall₂ (TreeLines print) ds bs)
    (hh' : FileBlock text' header' rest0' e0') (hhl' : HeaderLines header' K M ds'.length avg)
    (hb' : FileBlocks rest0' bs' rest' e1') (hbl' : List.Forall₂ (TreeLines print) ds' bs')
    (hp : ∀ (q : Nat) (d d' : TreeDesc), ds[q]? = some d → ds'[q]? = some d' → d.SameMeaning P.out d') :
    ∃ e e', lgEnsembleFromReader P ⟨text, false⟩ false = .ok (e, ⟨rest, false⟩) ∧
      lgEnsembleFromReader P ⟨text', false⟩ false = .ok (e', ⟨rest', false⟩) ∧ ∀ req, SameFor P e req e' req := by
  obtain ⟨e, l1, f1, -, t1, w1, n1, -, p1⟩ := C39_text_file P print text rest0 rest header e0 e1 bs ds K N M avg hK hN hlen hh hhl hb hbl hok
  obtain ⟨e', l2, f2, -, t2, w2, n2, -, p2⟩ := C39_text_file P print text' rest0' rest' header' e0' e1' bs' ds' K N M avg hK hN hlen' hh' hhl' hb' hbl' hok'
  have hdf : dflt e.base = dflt e'.base := by
    obtain ⟨ts, g1, -⟩ := lg_file_loaded P print text rest0 rest header e0 e1 bs ds K N M avg hK hN hlen hh hhl hb hbl hok
    obtain ⟨ts', g2, -⟩ := lg_file_loaded P print text' rest0' rest' header' e0' e1' bs' ds' K N M avg hK hN hlen' hh' hhl' hb' hbl' hok'
    have g1 := l1.symm.trans g1
    have g2 := l2.symm.trans g2
    cases g1
    cases g2
    rfl
  refine ⟨e, e', l1, l2, fun req => SameFor.of_rows f1 f2 (w1.trans w2.symm) (n1.trans n2.symm) hdf fun row s s' => ?_⟩
  rw [p1, p2, n1, n2]
  refine and_congr_right fun _ => and_congr_right fun _ => exists_congr fun n => exists_congr fun w => and_congr_right fun hu => and_congr_left' ?_
  unfold RefRaw
  refine exists_congr fun v => and_congr_left' ?_
  refine forall_congr' fun i => forall_congr' fun hi => forall_congr' fun k => forall_congr' fun hk => ?_
  have hq := tree_index (n := N) (show i < N from lt_of_lt_of_le hi (Used.le hu)) hk
  have q1 := List.getElem?_eq_getElem (l := ds) (i := i * K + k) (by rw [hlen]; exact hq)
  have q2 := List.getElem?_eq_getElem (l := ds') (i := i * K + k) (by rw [hlen']; exact hq)
  simp only [q1, q2, Option.some.injEq, exists_eq_left']
  exact sameMeaning_value (hp _ _ _ q1 q2)

namespace MeaningExample
open LgExample (platform)
open LgLoadExample (print d1 d2 ds_ok plain_of)

/-- the tree of `LgExample` with the nodes and leaves in another order; the set of categories has a word more, and behind it there is an unused word -/
def d4 : TreeDesc where
  numCat := 1
  inner := 3
  leafValues := [F64.ofNat 20, F64.ofNat 30, F64.ofNat 40, F64.ofNat 10]
  catThreshold := [2, 2, 0, 77]
  arrays := ⟨[2, -2, -4], [1, -3, -1], [10, 2, 1], [0, 0, 1], [F64.ofNat 5, F64.ofNat 9, F64.ofNat 0], [2#32, 2#32, 0#32, 77#32], [0, 3]⟩
  tree := .node 0 (.node 2 (.leaf 3) (.leaf 0)) (.node 1 (.leaf 1) (.leaf 2))

theorem d4_tree : LgTreeOK d4.arrays 3 d4.tree where
  shape := by
    refine .node 0 2 1 _ _ rfl rfl ?_ ?_
    · exact .node 2 (-4) (-1) _ _ rfl rfl (.leaf 3) (.leaf 0)
    · exact .node 1 (-2) (-3) _ _ rfl rfl (.leaf 1) (.leaf 2)
  distinct := by decide
  bound := by decide
  small := by norm_num
  leaves := by decide
  splits := by
    intro i hi
    have : i = 0 ∨ i = 1 ∨ i = 2 := by simpa [d4, BTree.inner] using hi
    rcases this with rfl | rfl | rfl
    · exact ⟨0, _, 10, _, .nan, rfl, rfl, rfl, by unfold MissingOf; decide, .inl ⟨by norm_num, rfl⟩⟩
    · exact ⟨0, _, 2, _, .none, rfl, rfl, rfl, by unfold MissingOf; decide, .inl ⟨by norm_num, rfl⟩⟩
    · exact ⟨1, _, 1, _, .none, rfl, rfl, rfl, by unfold MissingOf; decide, .inr ⟨by norm_num, 0, [2#32, 2#32, 0#32],
        F64.isVal_ofNat (by norm_num), ⟨0, 3, rfl, rfl, by norm_num, by decide, rfl⟩, rfl⟩⟩
  cats := by
    intro i hi d thr c ws h1 h2 h3 h4 h5
    have : i = 0 ∨ i = 1 ∨ i = 2 := by simpa [d4, BTree.inner] using hi
    rcases this with rfl | rfl | rfl
    · simp [d4] at h1; subst h1; simp at h2
    · simp [d4] at h1; subst h1; simp at h2
    · simp [d4] at h3; subst h3
      have : c = 0 := by exact_mod_cast IsVal.unique h4 (F64.isVal_ofNat (n := 0) (by norm_num))
      subst this
      obtain ⟨s, e, hs, he, hse, hle, rfl⟩ := h5
      simp [d4] at hs he
      subst hs he
      exact ⟨⟨1, by decide⟩, by decide, by norm_num⟩
  words := by
    refine ⟨fun _ => 4, ?_, by decide⟩
    intro i hi d thr c ws h1 h2 h3 h4 h5
    obtain ⟨s, e, hs, he, hse, hle, rfl⟩ := h5
    have : e ≤ 4 := hle
    simp; omega

theorem d4_ok : d4.OK platform.parseFloat print where
  numCat := by decide
  leafValues := by decide
  leafText := by decide +kernel
  tree := fun _ => d4_tree
  left := fun _ => by decide
  right := fun _ => by decide
  decision := fun _ => by decide
  feature := fun _ => by decide
  threshold := fun _ => ⟨by decide, by decide +kernel⟩
  cats := fun _ => ⟨by decide, by decide⟩

theorem ds_ok' : ∀ d ∈ [d4, d2], d.OK platform.parseFloat print ∧ PlainFloats print d ∧ d.inner * 24 ≤ platform.maxAlloc := by
  intro d hd
  simp only [List.mem_cons, List.not_mem_nil, or_false] at hd
  rcases hd with rfl | rfl
  · refine ⟨d4_ok, ⟨fun x hx => plain_of ?_, fun _ x hx => plain_of ?_⟩, by decide⟩
    · revert x; decide +kernel
    · revert x; decide +kernel
  · exact ds_ok d2 (by simp)

/-- the sets of categories are the same -/
theorem member_iff (i : Nat) : Member [2#32, 2#32] i ↔ Member [2#32, 2#32, 0#32] i := by
  unfold Member
  match h : i / 32 with
  | 0 => simp
  | 1 => simp
  | 2 => simp
  | n + 3 => simp

theorem d1_d4 (out : F64 → Int) : d1.SameMeaning out d4 := by
  refine .node 0 0 _ _ _ _ ?_ (.node 1 2 _ _ _ _ ?_ (.leaf 0 3 rfl) (.leaf 1 0 rfl)) (.node 2 1 _ _ _ _ ?_ (.leaf 2 1 rfl) (.leaf 3 2 rfl))
  · exact ⟨0, _, _, ⟨10, _, .nan, rfl, rfl, rfl, by unfold MissingOf; decide, .inl ⟨by norm_num, rfl⟩⟩,
      ⟨10, _, .nan, rfl, rfl, rfl, by unfold MissingOf; decide, .inl ⟨by norm_num, rfl⟩⟩, fun _ => Iff.rfl⟩
  · refine ⟨1, _, _, ⟨1, _, .none, rfl, rfl, rfl, by unfold MissingOf; decide, .inr ⟨by norm_num, 0, [2#32, 2#32],
      F64.isVal_ofNat (by norm_num), ⟨0, 2, rfl, rfl, by norm_num, by decide, rfl⟩, rfl⟩⟩,
      ⟨1, _, .none, rfl, rfl, rfl, by unfold MissingOf; decide, .inr ⟨by norm_num, 0, [2#32, 2#32, 0#32],
        F64.isVal_ofNat (by norm_num), ⟨0, 3, rfl, rfl, by norm_num, by decide, rfl⟩, rfl⟩⟩, fun x => ?_⟩
    rw [show Member [2#32, 2#32] = Member [2#32, 2#32, 0#32] from funext fun i => propext (member_iff i)]
  · exact ⟨0, _, _, ⟨2, _, .none, rfl, rfl, rfl, by unfold MissingOf; decide, .inl ⟨by norm_num, rfl⟩⟩,
      ⟨2, _, .none, rfl, rfl, rfl, by unfold MissingOf; decide, .inl ⟨by norm_num, rfl⟩⟩, fun _ => Iff.rfl⟩

/-- The theorem applies to the file of `LgLoadExample` and one with the first tree written down differently. -/
theorem C128_example (avg : Bool) : ∃ e e',
    lgEnsembleFromReader platform ⟨modelText print [d1, d2] 2 1 avg ++ [], false⟩ false = .ok (e, ⟨[], false⟩) ∧
    lgEnsembleFromReader platform ⟨modelText print [d4, d2] 2 1 avg ++ [], false⟩ false = .ok (e', ⟨[], false⟩) ∧ ∀ req, SameFor platform e req e' req := by
  obtain ⟨_, _, _, h1, h2, h3, h4⟩ := modelText_blocks (M := 1) [] 2 avg (by norm_num) ds_ok
  obtain ⟨_, _, _, g1, g2, g3, g4⟩ := modelText_blocks (M := 1) [] 2 avg (by norm_num) ds_ok'
  refine C128_text platform print _ _ _ _ _ _ _ _ _ _ _ _ _ _ [d1, d2] [d4, d2] 2 1 1 avg (by norm_num) le_rfl rfl (by simp)
    (fun d hd => ⟨(ds_ok d hd).1, (ds_ok d hd).2.2⟩) (fun d hd => ⟨(ds_ok' d hd).1, (ds_ok' d hd).2.2⟩) h1 h2 h3 h4 g1 g2 g3 g4 ?_
  intro q d d' h h'
  match q with
  | 0 =>
    cases h
    cases h'
    exact d1_d4 _
  | 1 =>
    cases h
    cases h'
    exact .leaf 0 0 rfl
  | q + 2 => cases h

end MeaningExample

end Leaves
