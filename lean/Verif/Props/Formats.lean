import Verif.Spec.Formats
import Verif.Props.NodeOrder

/-! # C126: the same forest written in two formats -/

namespace Leaves
open Spec XgBin

theorem twin_walk {S V : Nat → Nat → Prop} {T T' : BTree} {goes goes' : Nat → Bool → Prop} (h : Twin S V T T')
    (hg : ∀ i j, S i j → ∀ b, goes i b ↔ goes' j b) :
    (∀ i, Walk goes T i → ∃ k, Walk goes' T' k ∧ V i k) ∧ ∀ k, Walk goes' T' k → ∃ i, Walk goes T i ∧ V i k := by
  induction h with
  | leaf i k h =>
    refine ⟨fun a ha => ?_, fun a ha => ?_⟩
    · cases ha; exact ⟨k, .leaf k, h⟩
    · cases ha; exact ⟨i, .leaf i, h⟩
  | node i j l r l' r' h _ _ il ir =>
    refine ⟨fun a ha => ?_, fun a ha => ?_⟩
    · cases ha with
      | left g w => obtain ⟨k, w', v⟩ := il.1 a w; exact ⟨k, .left ((hg i j h _).1 g) w', v⟩
      | right g w => obtain ⟨k, w', v⟩ := ir.1 a w; exact ⟨k, .right ((hg i j h _).1 g) w', v⟩
    · cases ha with
      | left g w => obtain ⟨k, w', v⟩ := il.2 a w; exact ⟨k, .left ((hg i j h _).2 g) w', v⟩
      | right g w => obtain ⟨k, w', v⟩ := ir.2 a w; exact ⟨k, .right ((hg i j h _).2 g) w', v⟩

theorem value_form {d : TreeDesc} {out : F64 → Int} {row : List F64} {w : F64} :
    d.Value out row w ↔ ∃ k, Walk (Goes out (LgSplit d.arrays) row) d.form k ∧ d.leafValues[k]? = some w := by
  unfold TreeDesc.Value TreeDesc.form
  split
  · constructor
    · intro h; exact ⟨0, .leaf 0, h⟩
    · rintro ⟨k, hw, h⟩; cases hw; exact h
  · rfl

theorem goes_of_split {a : LgArrays} {j f : Nat} {rule : Rule} (h : LgSplit a j f rule) {out : F64 → Int} {row : List F64} {b : Bool} :
    Goes out (LgSplit a) row j b ↔ ∃ x, row[f]? = some x ∧ (b = true ↔ rule.Left out x) := by
  constructor
  · rintro ⟨f', rule', x, h', h1, h2⟩
    obtain ⟨rfl, rfl⟩ := LgSplit.unique j f f' rule rule' h h'
    exact ⟨x, h1, h2⟩
  · rintro ⟨x, h1, h2⟩
    exact ⟨f, rule, x, h, h1, h2⟩

theorem xgLeft_num {n : Node} {x : F64} {dl : Bool} (hd : dl = true ↔ XgDefaultLeft n) :
    XgLeftLe n x ↔ NumLeft ⟨.nan, dl, F64.ofBits32 n.info⟩ x := by
  unfold XgLeftLe NumLeft IsMissing
  dsimp only
  rw [hd]
  by_cases hx : x = .nan
  · subst hx
    simp [value]
  · simp only [hx, false_and, false_or, not_false_iff, true_and, if_false]
    unfold Le
    rw [F64.value_ofBits32]

theorem xgGoes_twin {ns : List Node} {d : TreeDesc} {out : F64 → Int} {row : List F64} {i j : Nat} (h : XgSplitTwin ns d i j) (b : Bool) :
    XgGoesLe ns row i b ↔ Goes out (LgSplit d.arrays) row j b := by
  obtain ⟨n, h1, h2, h3, h4⟩ := h
  have key : ∀ (t : Nat) (dl : Bool), d.arrays.decisionTypes[j]? = some t → MissingOf t .nan → t % 2 = 0 → dl = decide (t / 2 % 2 = 1) →
      (dl = true ↔ XgDefaultLeft n) → (XgGoesLe ns row i b ↔ Goes out (LgSplit d.arrays) row j b) := by
    intro t dl ht hm h0 hdl hd
    rw [goes_of_split ⟨t, _, .nan, ht, h2, h3, hm, .inl ⟨h0, rfl⟩⟩, ← hdl]
    unfold XgGoesLe
    constructor
    · rintro ⟨n', x, g1, g2, g3⟩
      rw [h1] at g1
      cases g1
      exact ⟨x, g2, g3.trans (xgLeft_num hd)⟩
    · rintro ⟨x, g2, g3⟩
      exact ⟨n, x, h1, g2, g3.trans (xgLeft_num hd).symm⟩
  rcases h4 with ⟨hd, ht⟩ | ⟨hd, ht⟩
  · exact key 10 true ht (by unfold MissingOf; decide) (by decide) (by decide) (by simp [hd])
  · exact key 8 false ht (by unfold MissingOf; decide) (by decide) (by decide) (by simp [hd])

theorem SameDense.of_rows {P : Platform} {e e' : Ensemble} {req : Int} (hf : Fits e) (hf' : Fits e') (hw : e.nOutputGroups = e'.nOutputGroups)
    (h : ∀ row m m', (e.predict P row req m.length).run m = (.ok ⟨⟩, m') ↔ (e'.predict P row req m.length).run m = (.ok ⟨⟩, m')) :
    SameDense P e e' req := by
  have one : ∀ {e e' : Ensemble} (_ : Fits e) (_ : Fits e') (_ : e.nOutputGroups = e'.nOutputGroups)
      (_ : ∀ row m m', (e.predict P row req m.length).run m = (.ok ⟨⟩, m') → (e'.predict P row req m.length).run m = (.ok ⟨⟩, m'))
      (vals m m' : List F64) (r ncols : Nat) (nt nt' : Int), 0 < r → e.nOutputGroups * r < 2 ^ 63 → r ≤ 2 ^ 53 →
        e.PredictDense P vals r ncols m req nt (.ok ⟨⟩, m') → e'.PredictDense P vals r ncols m req nt' (.ok ⟨⟩, m') := by
    clear hf hf' hw h e e'
    intro e e' hf hf' hw h vals m m' r ncols nt nt' hr hwr hr2 hp
    obtain ⟨w, hw1⟩ := Int.eq_ofNat_of_zero_le hf.width_nonneg
    have hw2 : e'.nOutputGroups = w := by rw [← hw, hw1]
    have hwr' : w * r < 2 ^ 63 := by rw [hw1] at hwr; exact_mod_cast hwr
    obtain ⟨outs, s, g⟩ := C14_dense_is_rowwise P e hf w r ncols hw1 hwr' hr2 vals m m' req nt hp
    have hc : 0 < ncols := ((dense_iff hf hw1 hwr' hr2).1 hp).1
    refine C14_rowwise_is_dense P e' hf' w r ncols hw2 hwr' hr2 hr hc vals m m' req nt' outs s fun i hi => ?_
    obtain ⟨row, g1, g2⟩ := g i hi
    refine ⟨row, List.replicate w F64.zero, g1, by simp, ?_⟩
    simpa using h row (List.replicate w F64.zero) (outs i) (by simpa using g2 (List.replicate w F64.zero) (by simp))
  exact ⟨h, fun vals m m' r ncols nt nt' h1 h2 h3 => ⟨one hf hf' hw (fun row m m' => (h row m m').1) vals m m' r ncols nt nt' h1 h2 h3,
    one hf' hf hw.symm (fun row m m' => (h row m m').2) vals m m' r ncols nt' nt h1 (hw ▸ h2) h3⟩⟩

/-- **C126, XGBoost and LightGBM.** A 'gbtree' file with base score 0 and a LightGBM text file with the same trees (same features, thresholds, default
directions and leaf values) predict the same, bit by bit. -/
theorem C126_xgboost (P : Platform) (m : XgModel) (K N M : Nat) (ok : m.OK P.maxAlloc K N) (hd : m.dart = false)
    (hs : F64.ofBits32 m.header.param.baseScore = F64.zero) (hM : m.header.param.numFeatures.toNat = M + 1)
    (print : F64 → Str) (text rest0 rest : Str) (header : List Str) (e0 e1 : Bool) (bs : List (List Str)) (ds : List TreeDesc) (hlen : ds.length = N * K)
    (hok : ∀ d ∈ ds, d.OK P.parseFloat print ∧ d.inner * 24 ≤ P.maxAlloc)
    (hh : FileBlock text header rest0 e0) (hhl : HeaderLines header K M ds.length false)
    (hb : FileBlocks rest0 bs rest e1) (hbl : List.Forall₂ (TreeLines print) ds bs)
    (htw : ∀ (q : Nat) (t : TreeModel) T d, m.gbtree.trees[q]? = some t → m.shapes[q]? = some T → ds[q]? = some d →
      Twin (XgSplitTwin t.nodes d) (XgLeafTwin t.nodes d) T d.form) :
    ∃ e e', (∀ rest, xgEnsembleFromReader P false (m.image ++ rest) = .ok (e, rest)) ∧
      lgEnsembleFromReader P ⟨text, false⟩ false = .ok (e', ⟨rest, false⟩) ∧ e.nFeatures = e'.nFeatures ∧ ∀ req, SameDense P e e' req := by
  obtain ⟨hK, hN, hl⟩ := ok.counts
  have hKlt : (K : Int) < 2 ^ 31 := by rw [← ok.groups]; exact BitVec.toInt_lt
  obtain ⟨e, l1, f1, r1, -, -, n1, -, p1⟩ := C62_xgboost_file_le P m K N ok false (.raw K) .raw (fun h => nomatch h)
  obtain ⟨e', l2, f2, -, -, w2, n2, -, p2⟩ := C39_text_file P print text rest0 rest header e0 e1 bs ds K N M false ⟨hK, by omega⟩ hN hlen hh hhl hb hbl hok
  have w1 : e.nOutputGroups = K := congrArg Transform.nOutputGroups r1
  have hn : e.nFeatures = e'.nFeatures := by
    rw [n1, n2, hM]
    by_cases h : 0 < M
    · rw [if_pos (by omega), if_pos (by exact_mod_cast h)]; push_cast; rfl
    · rw [if_neg (by omega), if_neg (by exact_mod_cast h)]; rfl
  refine ⟨e, e', l1, l2, hn, fun req => SameDense.of_rows f1 f2 (w1.trans w2.symm) fun row s s' => ?_⟩
  rw [p1, p2, w1, hn]
  refine and_congr (by exact_mod_cast Iff.rfl) (and_congr_right fun _ => exists_congr fun n => ?_)
  have hraw : ∀ n ≤ N, ∀ w, XgRefRaw P XgGoesLe m K row n w ↔ RefRaw P P.out ds K false row n w := by
    intro n hnN w
    have key : ∀ i < n, ∀ k < K, ∀ x, (∃ t T leaf, m.gbtree.trees[i * K + k]? = some t ∧ m.shapes[i * K + k]? = some T ∧
        Walk (XgGoesLe t.nodes row) T leaf ∧ XgVal t.nodes leaf x) ↔ ∃ d, ds[i * K + k]? = some d ∧ d.Value P.out row x := by
      intro i hi k hk x
      have hq := tree_index (n := N) (show i < N by omega) hk
      generalize i * K + k = q at hq
      have q1 := List.getElem?_eq_getElem (l := m.gbtree.trees) (by rw [hl]; exact hq)
      have q2 := List.getElem?_eq_getElem (l := m.shapes) (i := q) (by rw [← ok.trees.length_eq, hl]; exact hq)
      have q3 := List.getElem?_eq_getElem (l := ds) (by rw [hlen]; exact hq)
      have tw := twin_walk (htw q _ _ _ q1 q2 q3) (goes := XgGoesLe _ row) (goes' := Goes P.out (LgSplit _) row) fun i j h b => xgGoes_twin h b
      simp only [q1, q2, q3, Option.some.injEq, exists_and_left, exists_eq_left', value_form]
      constructor
      · rintro ⟨leaf, g1, n', g2, rfl⟩
        obtain ⟨k', g3, n'', g4, g5⟩ := tw.1 leaf g1
        rw [g2] at g4
        cases g4
        exact ⟨k', g3, g5⟩
      · rintro ⟨k', g1, g2⟩
        obtain ⟨leaf, g3, n', g4, g5⟩ := tw.2 k' g1
        rw [g2] at g5
        cases g5
        exact ⟨leaf, g3, n', g4, rfl⟩
    unfold XgRefRaw RefRaw
    constructor
    · rintro ⟨v, c, g1, g2, rfl⟩
      refine ⟨v, fun i hi k hk => (key i hi k hk _).1 (g1 i hi k hk), ?_⟩
      rw [hs]
      refine List.map_congr_left fun k hk => accumulate_steps (fun i hi a => ?_) _
      have := g2 i hi k (List.mem_range.1 hk)
      unfold XgModel.Weight at this
      rw [if_neg (by rw [hd]; exact Bool.false_ne_true)] at this
      rw [this]
      rfl
    · rintro ⟨v, g1, rfl⟩
      refine ⟨v, fun _ _ => F64.one, fun i hi k hk => (key i hi k hk _).2 (g1 i hi k hk), fun i _ k _ => ?_, ?_⟩
      · unfold XgModel.Weight
        rw [if_neg (by rw [hd]; exact Bool.false_ne_true)]
      · rw [hs]
        rfl
  constructor
  · rintro ⟨w, out, hu, hw, ht, hst⟩
    obtain rfl : out = w := ht
    exact ⟨out, hu, (hraw n (Used.le hu) out).1 hw, hst⟩
  · rintro ⟨w, hu, hw, hst⟩
    exact ⟨w, w, hu, (hraw n (Used.le hu) w).2 hw, rfl, hst⟩

theorem getElem?_nanToZero (row : List F64) (f : Nat) : (nanToZero row)[f]? = (row[f]?).map fun x => if x = .nan then .zero else x :=
  List.getElem?_map ..

theorem skGoes_twin {ns : List Pickle.SkNode} {d : TreeDesc} {out : F64 → Int} {row : List F64} {i j : Nat} (h : SkSplitTwin ns d i j) (b : Bool) :
    SkGoes ns (nanToZero row) i b ↔ Goes out (LgSplit d.arrays) row j b := by
  obtain ⟨n, f, h1, hf, h2, h3, h4⟩ := h
  have key : ∀ (t : Nat), d.arrays.decisionTypes[j]? = some t → MissingOf t .none → t % 2 = 0 →
      (SkGoes ns (nanToZero row) i b ↔ Goes out (LgSplit d.arrays) row j b) := by
    intro t ht hm h0
    rw [goes_of_split ⟨t, _, .none, ht, h2, h3, hm, .inl ⟨h0, rfl⟩⟩]
    have left : ∀ x, Rule.Left out (.num ⟨.none, decide (t / 2 % 2 = 1), n.threshold⟩) x ↔ Le (if x = .nan then .zero else x) n.threshold := by
      intro x
      show NumLeft _ x ↔ _
      unfold NumLeft IsMissing
      simp
    unfold SkGoes
    simp only [left]
    constructor
    · rintro ⟨n', f', x, g1, g2, g3, g4⟩
      rw [h1] at g1
      cases g1
      obtain rfl : f' = f := by omega
      rw [getElem?_nanToZero, Option.map_eq_some_iff] at g3
      obtain ⟨y, g3, rfl⟩ := g3
      exact ⟨y, g3, g4⟩
    · rintro ⟨x, g3, g4⟩
      exact ⟨n, f, _, h1, hf, by rw [getElem?_nanToZero, g3]; rfl, g4⟩
  rcases h4 with ht | ht
  · exact key 0 ht (by unfold MissingOf; decide) (by decide)
  · exact key 2 ht (by unfold MissingOf; decide) (by decide)

/-- **C126, scikit-learn and LightGBM.** A pickled classifier and a LightGBM text file with the same splits, whose leaf values are the classifier's times the
learning rate, plus the prior in the first iteration, predict the same, bit by bit; sparse matrices included. -/
theorem C126_sklearn (P : Platform) (v : PyVal) (pk : Pickle.Bytes) (μ : Memo) (hd : Dumps P noMemo v pk μ) (M : SkModel) (ok : M.OK P.maxAlloc)
    (hc : IsClassifier M v) (print : F64 → Str) (text rest0 rest : Str) (header : List Str) (e0 e1 : Bool) (bs : List (List Str)) (ds : List TreeDesc)
    (hlen : ds.length = M.estimators * M.groups) (F : Nat) (hF : M.maxFeatures = F + 1 ∧ 1 ≤ F)
    (hok : ∀ d ∈ ds, d.OK P.parseFloat print ∧ d.inner * 24 ≤ P.maxAlloc)
    (hh : FileBlock text header rest0 e0) (hhl : HeaderLines header M.groups F ds.length false)
    (hb : FileBlocks rest0 bs rest e1) (hbl : List.Forall₂ (TreeLines print) ds bs)
    (htw : ∀ i < M.estimators, ∀ k < M.groups, ∀ t T d, M.trees[i * M.groups + k]? = some t → M.shapes[i * M.groups + k]? = some T →
      ds[i * M.groups + k]? = some d → ∃ p, M.prior[k]? = some p ∧
      Twin (SkSplitTwin t.nodes d) (SkLeafTwin P M.learningRate (if i = 0 then p else F64.zero) t.values d) T d.form) :
    ∃ e e', (∀ rest lt, skEnsembleFromReader P (pk ++ octet '.' :: rest) lt = .ok e) ∧
      lgEnsembleFromReader P ⟨text, false⟩ false = .ok (e', ⟨rest, false⟩) ∧ ∀ req, SameFor P e req e' req := by
  obtain ⟨c1, c2, c3⟩ := ok.counts
  have hgr : 1 ≤ M.groups ∧ M.groups ≤ M.classes := by unfold SkModel.groups; split <;> omega
  have hint := ok.int
  have hmul : 1 * M.groups ≤ M.estimators * M.classes := Nat.mul_le_mul c2 hgr.2
  obtain ⟨e, l1, f1, -, -, w1, -, n1, -, p1⟩ := C63_sklearn_file P v pk μ hd M hc ok
  have hKr : 1 ≤ M.groups ∧ M.groups < 2 ^ 63 := ⟨hgr.1, by omega⟩
  obtain ⟨e', l2, f2, -, -, w2, n2, -, p2⟩ := C39_text_file P print text rest0 rest header e0 e1 bs ds M.groups M.estimators F false hKr c2 hlen
    hh hhl hb hbl hok
  have hn : e.nFeatures = e'.nFeatures := by
    rw [n1, n2, if_pos (by omega), if_pos (by omega), hF.1]
  have hn2 : e.nFeatures = F + 1 := by rw [n1, if_pos (by omega), hF.1]
  have hdf : dflt e.base = dflt e'.base := by
    obtain ⟨ts, g1, -⟩ := sk_file_loaded P hd hc ok
    obtain ⟨ts', g2, -⟩ := lg_file_loaded P print text rest0 rest header e0 e1 bs ds M.groups M.estimators F false hKr c2 hlen hh hhl hb hbl hok
    have g1 := (l1 [] false).symm.trans (g1 [] false)
    have g2 := l2.symm.trans g2
    cases g1
    cases g2
    rfl
  refine ⟨e, e', l1, l2, fun req => SameFor.of_rows f1 f2 (w1.trans w2.symm) hn hdf fun row s s' => ?_⟩
  rw [p1, p2, hn]
  refine and_congr_right fun _ => and_congr_right fun hrow => exists_congr fun n => exists_congr fun w => and_congr_right fun hu => and_congr_left' ?_
  have hne : row ≠ [] := by
    rintro rfl
    rw [← hn, hn2] at hrow
    simp only [List.length_nil] at hrow
    omega
  have hnN := Used.le hu
  unfold SkRefRaw RefRaw
  refine exists_congr fun v => and_congr ?_ (by rfl)
  refine forall_congr' fun i => forall_congr' fun hi => forall_congr' fun k => forall_congr' fun hk => ?_
  have hq := tree_index (n := M.estimators) (show i < M.estimators by omega) hk
  have htw := htw i (by omega) k hk
  generalize i * M.groups + k = q at hq htw
  have q1 := List.getElem?_eq_getElem (l := M.trees) (by rw [c3]; exact hq)
  have q2 := List.getElem?_eq_getElem (l := M.shapes) (i := q) (by rw [← ok.trees.length_eq, c3]; exact hq)
  have q3 := List.getElem?_eq_getElem (l := ds) (by rw [hlen]; exact hq)
  obtain ⟨p, hp, htw⟩ := htw _ _ _ q1 q2 q3
  have tw := twin_walk htw (goes := SkGoes _ (nanToZero row)) (goes' := Goes P.out (LgSplit _) row) fun i j h b => skGoes_twin h b
  simp only [q3, Option.some.injEq, exists_eq_left', value_form]
  constructor
  · rintro ⟨t, T, leaf, x, p', g1, g2, -, g4, g5, g6, g7⟩
    rw [q1] at g1
    rw [q2] at g2
    rw [hp] at g6
    cases g1
    cases g2
    cases g6
    obtain ⟨k', g8, y, g9, g10⟩ := tw.1 leaf g4
    rw [g5] at g9
    cases g9
    exact ⟨k', g8, by rw [g7]; exact g10⟩
  · rintro ⟨k', g1, g2⟩
    obtain ⟨leaf, g3, x, g4, g5⟩ := tw.2 k' g1
    rw [g2] at g5
    exact ⟨_, _, leaf, x, p, q1, q2, hne, g3, g4, hp, Option.some.inj g5⟩

namespace FormatsExample
open LgLoadExample (plain_of)

/-- a platform that reads decimal integers and 0.5 -/
def platform : Platform := { Platform.demo with parseFloat := fun s => if s = "0.5".toList then some (F64.const 1 2) else (atoi s).map F64.ofInt }

/-- numbers as text -/
def print (x : F64) : Str :=
  if x = F64.const 1 2 then "0.5".toList else if x = F64.ofNat 3 then "3".toList else if x = F64.ofNat 25 then "25".toList
  else if x = F64.ofNat 45 then "45".toList else if x = F64.ofNat 65 then "65".toList else if x = F64.ofNat 20 then "20".toList
  else if x = F64.ofNat 40 then "40".toList else if x = F64.ofNat 60 then "60".toList else "7".toList

/-- XGBoost: feature 1 with split condition 0.5, default right, leaf values 25 and 45 -/
def xgTree : TreeModel where
  param := ⟨1#32, 3#32, 0#32, 1#32, 2#32, 0#32, List.replicate 31 0#32⟩
  nodes := [⟨-1#32, 1#32, 2#32, 1#32, 0x3f000000#32⟩, ⟨0#32, -1#32, -1#32, 0#32, 0x41c80000#32⟩, ⟨0#32, -1#32, -1#32, 0#32, 0x42340000#32⟩]
  stats := List.replicate 3 ⟨0#32, 0#32, 0#32, 0#32⟩

/-- header of a 'gbtree' file with two features and base score 0 -/
def header : ModelHeader where
  param := ⟨0#32, 2#32, 0#32, 0#32, 0#32, List.replicate 29 0#32⟩
  nameObj := asciiBytes "reg:linear"
  nameGbm := asciiBytes "gbtree"

/-- a 'gbtree' file with this tree and base score 0 -/
def xgFile : XgModel where
  header := header
  gbtree := ⟨⟨1#32, 1#32, 2#32, 0#32, 0#64, 1#32, 0#32, List.replicate 32 0#32⟩, [xgTree], [0#32]⟩
  leafVectors := [[]]
  dart := false
  weights := []
  shapes := [.node 0 (.leaf 1) (.leaf 2)]

theorem xgFile_ok : xgFile.OK platform.maxAlloc 1 1 where
  header := ⟨rfl, by decide, by decide⟩
  gbtree := ⟨rfl, by decide, rfl, by
    intro t ht
    obtain rfl : t = (xgTree, []) := by simpa [xgFile] using ht
    exact ⟨rfl, by decide, by decide, by decide, by decide⟩, rfl, by decide⟩
  name := rfl
  features := by decide
  roots := by decide
  groups := by decide
  counts := ⟨le_rfl, le_rfl, rfl⟩
  info := by
    intro i hi k hk
    obtain rfl : k = 0 := by omega
    obtain rfl : i = 0 := by omega
    exact ⟨0#32, rfl, by decide⟩
  weights := fun h => nomatch h
  alloc := by decide
  trees := .cons (.inl ⟨by decide, by decide, .node 0 _ 1 2 _ _ rfl (by decide) (by decide) (.leaf 1 _ rfl (by decide)) (.leaf 2 _ rfl (by decide)), by decide, rfl⟩) .nil
  treeFeatures := by decide

/-- the same tree as a LightGBM block -/
def lgTree : TreeDesc where
  numCat := 0
  inner := 1
  leafValues := [F64.ofNat 25, F64.ofNat 45]
  catThreshold := []
  arrays := ⟨[-1], [-2], [8], [1], [F64.const 1 2], [], []⟩
  tree := .node 0 (.leaf 0) (.leaf 1)

theorem lgTree_tree : LgTreeOK lgTree.arrays 1 lgTree.tree where
  shape := .node 0 (-1) (-2) _ _ rfl rfl (.leaf 0) (.leaf 1)
  distinct := by decide
  bound := by decide
  small := by norm_num
  leaves := by decide
  splits := by
    intro i hi
    obtain rfl : i = 0 := by simpa [lgTree, BTree.inner] using hi
    exact ⟨1, _, 8, _, .nan, rfl, rfl, rfl, by unfold MissingOf; decide, .inl ⟨by norm_num, rfl⟩⟩
  cats := by
    intro i hi d thr c ws h1 h2
    obtain rfl : i = 0 := by simpa [lgTree, BTree.inner] using hi
    simp [lgTree] at h1
    subst h1
    simp at h2
  words := by
    refine ⟨fun _ => 0, ?_, by decide⟩
    intro i hi d thr c ws h1 h2
    obtain rfl : i = 0 := by simpa [lgTree, BTree.inner] using hi
    simp [lgTree] at h1
    subst h1
    simp at h2

theorem lgTree_ok : lgTree.OK platform.parseFloat print where
  numCat := by decide
  leafValues := by decide
  leafText := by decide +kernel
  tree := fun _ => lgTree_tree
  left := fun _ => by decide
  right := fun _ => by decide
  decision := fun _ => by decide
  feature := fun _ => by decide
  threshold := fun _ => ⟨by decide, by decide +kernel⟩
  cats := fun _ => ⟨by decide, by decide⟩

theorem lgTrees_ok : ∀ d ∈ [lgTree], d.OK platform.parseFloat print ∧ PlainFloats print d ∧ d.inner * 24 ≤ platform.maxAlloc := by
  intro d hd
  obtain rfl : d = lgTree := by simpa using hd
  refine ⟨lgTree_ok, ⟨fun x hx => plain_of ?_, fun _ x hx => plain_of ?_⟩, by decide⟩
  · revert x; decide +kernel
  · revert x; decide +kernel

/-- The theorem applies to the XGBoost file and the LightGBM file with its tree. -/
theorem C126_xgboost_example : ∃ e e', (∀ rest, xgEnsembleFromReader platform false (xgFile.image ++ rest) = .ok (e, rest)) ∧
    lgEnsembleFromReader platform ⟨modelText print [lgTree] 1 1 false ++ [], false⟩ false = .ok (e', ⟨[], false⟩) ∧ e.nFeatures = e'.nFeatures ∧
    ∀ req, SameDense platform e e' req := by
  obtain ⟨_, _, _, h1, h2, h3, h4⟩ := modelText_blocks (M := 1) [] 1 false (by norm_num) lgTrees_ok
  refine C126_xgboost platform xgFile 1 1 1 xgFile_ok rfl (by decide +kernel) rfl print _ _ _ _ _ _ _ [lgTree] rfl
    (fun d hd => ⟨(lgTrees_ok d hd).1, (lgTrees_ok d hd).2.2⟩) h1 h2 h3 h4 ?_
  intro q t T d g1 g2 g3
  match q with
  | 0 =>
    cases g1
    cases g2
    cases g3
    exact .node _ _ _ _ _ _ ⟨_, rfl, rfl, by decide +kernel, .inr ⟨by unfold XgDefaultLeft; decide, rfl⟩⟩ (.leaf _ _ ⟨_, rfl, by decide +kernel⟩)
      (.leaf _ _ ⟨_, rfl, by decide +kernel⟩)
  | q + 1 => cases g1

/-- Sparse matrices do not agree: what a row of the matrix does not list is missing for an XGBoost model and 0 for a LightGBM model. An empty row gets 45
from the one and 25 from the other. -/
theorem C126_sparse : ∃ e e', xgEnsembleFromReader platform false xgFile.image = .ok (e, []) ∧
    lgEnsembleFromReader platform ⟨modelText print [lgTree] 1 1 false, false⟩ false = .ok (e', ⟨[], false⟩) ∧
    e.PredictCSR platform [0, 0] [] [] [F64.zero] 0 1 (.ok ⟨⟩, [F64.ofNat 45]) ∧
    e'.PredictCSR platform [0, 0] [] [] [F64.zero] 0 1 (.ok ⟨⟩, [F64.ofNat 25]) := by
  obtain ⟨a, h1, hc⟩ := SkModelExample.of_check (r := xgEnsembleFromReader platform false xgFile.image)
    (fun a => a.2 = [] ∧ a.1.csrChecks ((([0, 0] : List Int).length : Int) - 1) 0 ([F64.zero].length : Nat) = .ok 1 ∧
      (.ok ⟨⟩, [F64.ofNat 45]) = (a.1.csrSequential platform [0, 0] [] [] 1).run [F64.zero]) (by decide +kernel)
  obtain ⟨b, h2, hd⟩ := SkModelExample.of_check (r := lgEnsembleFromReader platform ⟨modelText print [lgTree] 1 1 false, false⟩ false)
    (fun b => b.2 = ⟨[], false⟩ ∧ b.1.csrChecks ((([0, 0] : List Int).length : Int) - 1) 0 ([F64.zero].length : Nat) = .ok 1 ∧
      (.ok ⟨⟩, [F64.ofNat 25]) = (b.1.csrSequential platform [0, 0] [] [] 1).run [F64.zero]) (by decide +kernel)
  obtain ⟨a, r⟩ := a
  obtain ⟨b, r'⟩ := b
  obtain ⟨rfl, c1, c2⟩ := hc
  obtain ⟨rfl, d1, d2⟩ := hd
  exact ⟨a, b, h1, h2, (csr_seq c1 (by decide +kernel)).2 c2, (csr_seq d1 (by decide +kernel)).2 d2⟩

/-- the arrays of the tree of `SkExample` as a LightGBM block -/
def skArrays : LgArrays := ⟨[1, -1], [-3, -2], [2, 0], [1, 0], [F64.const 1 2, F64.ofNat 3], [], []⟩

/-- its form -/
def skForm : BTree := .node 0 (.node 1 (.leaf 0) (.leaf 1)) (.leaf 2)

/-- the trees of the classifier of `SkModelExample` as LightGBM blocks; the leaf values are 10, 20 and 30, times 2, plus 5 in the first tree -/
def skDesc (values : List F64) : TreeDesc where
  numCat := 0
  inner := 2
  leafValues := values
  catThreshold := []
  arrays := skArrays
  tree := skForm

/-- the first block -/
def sk1 : TreeDesc := skDesc [F64.ofNat 25, F64.ofNat 45, F64.ofNat 65]
/-- the second block -/
def sk2 : TreeDesc := skDesc [F64.ofNat 20, F64.ofNat 40, F64.ofNat 60]

theorem skForm_ok : LgTreeOK skArrays 2 skForm where
  shape := .node 0 1 (-3) _ _ rfl rfl (.node 1 (-1) (-2) _ _ rfl rfl (.leaf 0) (.leaf 1)) (.leaf 2)
  distinct := by decide
  bound := by decide
  small := by norm_num
  leaves := by decide
  splits := by
    intro i hi
    have : i = 0 ∨ i = 1 := by simpa [skForm, BTree.inner] using hi
    rcases this with rfl | rfl
    · exact ⟨1, _, 2, _, .none, rfl, rfl, rfl, by unfold MissingOf; decide, .inl ⟨by norm_num, rfl⟩⟩
    · exact ⟨0, _, 0, _, .none, rfl, rfl, rfl, by unfold MissingOf; decide, .inl ⟨by norm_num, rfl⟩⟩
  cats := by
    intro i hi d thr c ws h1 h2
    have : i = 0 ∨ i = 1 := by simpa [skForm, BTree.inner] using hi
    rcases this with rfl | rfl <;> simp [skArrays] at h1 <;> subst h1 <;> simp at h2
  words := by
    refine ⟨fun _ => 0, ?_, by decide⟩
    intro i hi d thr c ws h1 h2
    have : i = 0 ∨ i = 1 := by simpa [skForm, BTree.inner] using hi
    rcases this with rfl | rfl <;> simp [skArrays] at h1 <;> subst h1 <;> simp at h2

theorem skDesc_ok {values : List F64} (h : values ≠ []) (ht : ∀ x ∈ values, platform.parseFloat (print x) = some x ∧ ' ' ∉ print x) :
    (skDesc values).OK platform.parseFloat print where
  numCat := (by decide : (-2 ^ 63 : Int) ≤ 0 ∧ (0 : Int) < 2 ^ 63)
  leafValues := h
  leafText := ht
  tree := fun _ => skForm_ok
  left := fun _ => (by decide : skArrays.leftChilds ≠ [] ∧ ∀ i ∈ skArrays.leftChilds, -2 ^ 31 ≤ i ∧ i < 2 ^ 31)
  right := fun _ => (by decide : skArrays.rightChilds ≠ [] ∧ ∀ i ∈ skArrays.rightChilds, -2 ^ 31 ≤ i ∧ i < 2 ^ 31)
  decision := fun _ => (by decide : skArrays.decisionTypes ≠ [] ∧ ∀ i ∈ skArrays.decisionTypes, i < 2 ^ 32)
  feature := fun _ => (by decide : skArrays.splitFeatures ≠ [] ∧ ∀ i ∈ skArrays.splitFeatures, i < 2 ^ 32)
  threshold := fun _ => ⟨(by decide : skArrays.thresholds ≠ []),
    (by decide +kernel : ∀ x ∈ skArrays.thresholds, platform.parseFloat (print x) = some x ∧ ' ' ∉ print x)⟩
  cats := fun _ => ⟨rfl, rfl, rfl⟩

theorem sks_ok : ∀ d ∈ [sk1, sk2], d.OK platform.parseFloat print ∧ PlainFloats print d ∧ d.inner * 24 ≤ platform.maxAlloc := by
  intro d hd
  simp only [List.mem_cons, List.not_mem_nil, or_false] at hd
  rcases hd with rfl | rfl
  · refine ⟨skDesc_ok (by decide) (by decide +kernel), ⟨fun x hx => plain_of ?_, fun _ x hx => plain_of ?_⟩, by decide⟩
    · revert x; decide +kernel
    · revert x; decide +kernel
  · refine ⟨skDesc_ok (by decide) (by decide +kernel), ⟨fun x hx => plain_of ?_, fun _ x hx => plain_of ?_⟩, by decide⟩
    · revert x; decide +kernel
    · revert x; decide +kernel

theorem skWritable : (SkModelExample.value 2).Writable platform SkModelExample.print := by
  repeat' first
    | exact trivial
    | exact ⟨by decide, by decide⟩
    | exact ⟨by decide, by decide +kernel⟩
    | apply And.intro

theorem sk_twin {values : List F64} {prior : F64} (h0 : values[0]? = some (platform.mulAdd (F64.ofNat 10) (F64.ofNat 2) prior))
    (h1 : values[1]? = some (platform.mulAdd (F64.ofNat 20) (F64.ofNat 2) prior)) (h2 : values[2]? = some (platform.mulAdd (F64.ofNat 30) (F64.ofNat 2) prior)) :
    Twin (SkSplitTwin SkExample.tree.nodes (skDesc values)) (SkLeafTwin platform (F64.ofNat 2) prior SkExample.tree.values (skDesc values)) SkExample.shape
      (skDesc values).form :=
  .node 0 0 _ _ _ _ ⟨_, 1, rfl, rfl, rfl, rfl, .inr rfl⟩
    (.node 1 1 _ _ _ _ ⟨_, 0, rfl, rfl, rfl, rfl, .inl rfl⟩ (.leaf 2 0 ⟨_, rfl, h0⟩) (.leaf 3 1 ⟨_, rfl, h1⟩)) (.leaf 4 2 ⟨_, rfl, h2⟩)

/-- The theorem applies to the pickle of `SkModelExample` and the LightGBM file with its trees. -/
theorem C126_sklearn_example : ∃ e e',
    (∀ rest lt, skEnsembleFromReader platform ((SkModelExample.value 2).dump SkModelExample.print ++ octet '.' :: rest) lt = .ok e) ∧
    lgEnsembleFromReader platform ⟨modelText print [sk1, sk2] 1 1 false ++ [], false⟩ false = .ok (e', ⟨[], false⟩) ∧
    ∀ req, SameFor platform e req e' req := by
  obtain ⟨_, _, _, h1, h2, h3, h4⟩ := modelText_blocks (M := 1) [] 1 false (by norm_num) sks_ok
  refine C126_sklearn platform _ _ _ (dump_dumps _ skWritable) (SkModelExample.model 2) (SkModelExample.model_ok 2) (SkModelExample.is_classifier 2)
    print _ _ _ _ _ _ _ [sk1, sk2] rfl 1 ⟨rfl, le_rfl⟩ (fun d hd => ⟨(sks_ok d hd).1, (sks_ok d hd).2.2⟩) h1 h2 h3 h4 ?_
  intro i hi k hk t T d g1 g2 g3
  obtain rfl : k = 0 := by have : k < 1 := hk; omega
  have hi : i < 2 := hi
  refine ⟨F64.ofNat 5, rfl, ?_⟩
  rcases (show i = 0 ∨ i = 1 by omega) with rfl | rfl
  · cases g1
    cases g2
    cases g3
    exact sk_twin (by decide +kernel) (by decide +kernel) (by decide +kernel)
  · cases g1
    cases g2
    cases g3
    exact sk_twin (by decide +kernel) (by decide +kernel) (by decide +kernel)

end FormatsExample

end Leaves
