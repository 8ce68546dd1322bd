import Verif.Proofs.SkAccept

/-! # C70: the scikit-learn loader accepts nothing but classifiers it understands -/

namespace Leaves

open Pickle Spec

theorem parseSkBoosting_inv {P : Platform} {m : Machine} {x : PVal} {v : PyVal} {g : SkBoosting} {ens : Ensemble} {e : LgEnsemble}
    (hv : Denotes m.arrays m.dicts x v) (h : parseSkBoosting P m x = .ok g) (ha : skAssemble P g = .ok ens) (he : ens.base = .lg e)
    (hne : e.trees ≠ []) : ∃ M, HasClassifier M v ∧ ens.nRawOutputGroups = M.groups ∧ ens.nEstimators = .ok (M.estimators : Int) ∧
      (-2 ^ 63 < M.maxFeatures → M.maxFeatures < 2 ^ 63 → ens.nFeatures = (if 2 ≤ M.maxFeatures then M.maxFeatures else 0)) ∧
      1 ≤ M.groups ∧ M.groups < 2 ^ 63 ∧ ens.transform = .raw M.groups ∧ e.averageOutput = false ∧ e.trees.length = M.estimators * M.groups ∧
      ∀ i k, i < M.estimators → k < M.groups → ∃ t T p, M.trees[i * M.groups + k]? = some t ∧ e.trees[i * M.groups + k]? = some T ∧
        M.prior[k]? = some p ∧ lgTreeFromSklearn P t M.learningRate (if i = 0 then p else F64.zero) = .ok T := by
  obtain ⟨K, bases, ts, hK, h0, hb, hbl, hit, rfl⟩ := skAssemble_inv ha
  cases he
  obtain ⟨l1, gets⟩ := skIterations_get _ _ _ _ hbl hit
  have hpos : 0 < ts.length := List.length_pos_of_ne_nil hne
  rw [l1] at hpos
  have hK1 : 1 ≤ K := Nat.pos_of_mul_pos_left hpos
  have hN1 : 1 ≤ g.nEstimators.toNat := Nat.pos_of_mul_pos_right hpos
  rcases parseClass_inv h hv with ⟨y, ys, f, args, hc, hf, har, h⟩ | ⟨y, ys, z, f, args, s, b, rfl, hf, har, hs, h, h'⟩
  · obtain ⟨_, -, h⟩ := Res.bind_eq_ok.1 h
    cases h
    exact absurd rfl h0
  obtain ⟨r, h1, hnew⟩ := Res.bind_eq_ok.1 h; clear h; rename' hnew => h
  obtain ⟨d, h2, hnew⟩ := Res.bind_eq_ok.1 h'; clear h'; rename' hnew => h'
  obtain ⟨kvs, hi, hmap⟩ := reconstructor_inv hf har hs (by decide) (reconstructor_name (by decide) (by decide) h1) h1 h2
  obtain ⟨nClasses, g1, hnew⟩ := Res.bind_eq_ok.1 h'; clear h'; rename' hnew => h'
  obtain ⟨lr, g2, hnew⟩ := Res.bind_eq_ok.1 h'; clear h'; rename' hnew => h'
  obtain ⟨xl, g3, hnew⟩ := Res.bind_eq_ok.1 h'; clear h'; rename' hnew => h'
  obtain ⟨vl, a3, d3⟩ := value_attr hmap g3
  obtain ⟨loss, g4, hnew⟩ := Res.bind_eq_ok.1 h'; clear h'; rename' hnew => h'
  cases toUnicode_inv g4
  cases denotes_unicode d3
  obtain ⟨xi, g5, hnew⟩ := Res.bind_eq_ok.1 h'; clear h'; rename' hnew => h'
  obtain ⟨vi, a5, d5⟩ := value_attr hmap g5
  obtain ⟨ini, g6, hnew⟩ := Res.bind_eq_ok.1 h'; clear h'; rename' hnew => h'
  obtain ⟨xc, g7, hnew⟩ := Res.bind_eq_ok.1 h'; clear h'; rename' hnew => h'
  obtain ⟨vc, a7, d7⟩ := value_attr hmap g7
  obtain ⟨labels, g8, hnew⟩ := Res.bind_eq_ok.1 h'; clear h'; rename' hnew => h'
  obtain ⟨mf, g9, hnew⟩ := Res.bind_eq_ok.1 h'; clear h'; rename' hnew => h'
  obtain ⟨ne, g10, hnew⟩ := Res.bind_eq_ok.1 h'; clear h'; rename' hnew => h'
  obtain ⟨xe, g11, hnew⟩ := Res.bind_eq_ok.1 h'; clear h'; rename' hnew => h'
  obtain ⟨ve, a11, d11⟩ := value_attr hmap g11
  obtain ⟨a, g12, hnew⟩ := Res.bind_eq_ok.1 h'; clear h'; rename' hnew => h'
  dsimp only at h'
  by_cases hsh : a.shape ≠ [ne, if nClasses = 2 then 1 else nClasses]
  · rw [if_pos hsh] at h'; cases h'
  rw [if_neg hsh] at h'
  have hsh : a.shape = [ne, if nClasses = 2 then 1 else nClasses] := Decidable.not_not.1 hsh
  by_cases hdl : (a.dataList.length : Int) ≠ wrap64 (ne * if nClasses = 2 then 1 else nClasses)
  · rw [if_pos hdl] at h'; cases h'
  rw [if_neg hdl] at h'
  have hdl := Decidable.not_not.1 hdl
  obtain ⟨_, -, hnew⟩ := Res.bind_eq_ok.1 h'; clear h'; rename' hnew => h'
  obtain ⟨es, g13, hnew⟩ := Res.bind_eq_ok.1 h'; clear h'; rename' hnew => h'
  cases h'
  dsimp only at hK hb hit gets hN1 l1 h0
  have hfor := mapRes_inv g13
  have hlen : a.dataList.length = es.length := hfor.length_eq
  -- all estimators are used
  have hused : ∀ i, i < ne.toNat * K → ∃ est, es[i]? = some est ∧ est.tree.nodes ≠ [] := by
    intro i hi
    have hk : i % K < bases.length := by rw [hbl]; exact Nat.mod_lt _ hK1
    obtain ⟨est, t, q1, -, q3⟩ := gets (i / K) (i % K) _ ((Nat.div_lt_iff_lt_mul hK1).2 hi) (List.getElem?_eq_getElem hk)
    rw [Nat.zero_add, Nat.div_add_mod' i K] at q1
    exact ⟨est, q1, lgTreeFromSklearn_nodes q3⟩
  have hge : ne.toNat * K ≤ es.length := by
    by_contra hc
    obtain ⟨est, q, -⟩ := hused es.length (by omega)
    rw [List.getElem?_eq_none (Nat.le_refl _)] at q
    cases q
  have hne0 : ne = (ne.toNat : Int) := by omega
  rw [← hK, hne0, ← Int.natCast_mul] at hdl
  have heq : es.length = ne.toNat * K ∧ ne.toNat * K < 2 ^ 63 := by
    have hw : wrap64 ((ne.toNat * K : Nat) : Int) < 2 ^ 63 := by
      unfold wrap64
      generalize ((ne.toNat * K : Nat) : Int) = q
      have := BitVec.toInt_lt (x := BitVec.ofInt 64 q)
      simpa using this
    have hsmall : ne.toNat * K < 2 ^ 63 := by omega
    rw [wrap64_small hsmall] at hdl
    omega
  obtain ⟨heq, hsmall⟩ := heq
  have hKs : K < 2 ^ 63 := lt_of_le_of_lt (Nat.le_mul_of_pos_left K hN1) hsmall
  obtain ⟨data, q3, q4⟩ := parseArray_inv d11 g12 (.inr (by rw [hsh]; exact List.cons_ne_nil _ _))
  rw [hsh, ← hK] at q3
  obtain ⟨list, rfl, hlist⟩ : ∃ list, data = .list list ∧ List.Forall₂ (Denotes m.arrays m.dicts) a.dataList list.toList := by
    rcases q4 with ⟨-, hc⟩ | ⟨-, list, hl, hd⟩
    · rw [hc, heq, List.length_nil] at hlen
      exact absurd hlen (Nat.ne_of_lt (Nat.mul_pos hN1 hK1))
    · exact ⟨list, hl, hd⟩
  have hreg : List.Forall₂ HasRegressor (es.map (·.tree)) list.toList := by
    rw [List.forall₂_iff_get]
    refine ⟨by rw [List.length_map, ← hlen, hlist.length_eq], fun i hi hi' => ?_⟩
    rw [List.length_map] at hi
    have hia : i < a.dataList.length := by omega
    obtain ⟨est, u1, u2⟩ := hused i (by omega)
    have e1 : es.get ⟨i, hi⟩ = est := by
      rw [List.getElem?_eq_getElem hi] at u1
      exact Option.some.inj u1
    have p1 := (List.forall₂_iff_get.1 hfor).2 i hia hi
    have p2 := (List.forall₂_iff_get.1 hlist).2 i hia hi'
    rw [e1] at p1
    have := parseSkRegressor_inv p2 p1 u2
    rw [List.get_eq_getElem, List.getElem_map]
    rw [List.get_eq_getElem] at e1
    rw [e1]
    exact this
  have hcl : ∃ c : Nat, nClasses = c ∧ K = if c = 2 then 1 else c := by
    refine ⟨nClasses.toNat, ?_, ?_⟩
    · split at hK <;> omega
    · split at hK
      · rename_i h2; subst h2; rw [if_pos (by decide)]; omega
      · rw [if_neg (by omega)]; omega
  obtain ⟨c, rfl, hKc⟩ := hcl
  refine ⟨⟨c, ne.toNat, mf, lr, bases, es.map (·.tree), []⟩, ⟨kvs, loss, vi, vc, labels, ve, a.type.type, a.type.littleEndian, list, hi,
    int_attr hmap g1, float_attr hmap g2, a3, a5, ?_, a7, parseIntArray_inv d7 g8, int_attr hmap g9, ?_, a11, ?_, hreg, ?_⟩, ?_, ?_, ?_, ?_⟩
  · have : SkModel.groups ⟨c, ne.toNat, mf, lr, bases, es.map (·.tree), []⟩ = K := hKc.symm
    rw [this]
    exact parseSkInit_inv d5 g6 hK1 hb
  · rw [int_attr hmap g10, ← hne0]
  · have : SkModel.groups ⟨c, ne.toNat, mf, lr, bases, es.map (·.tree), []⟩ = K := hKc.symm
    rw [this]
    dsimp only
    rw [← hne0]
    exact q3
  · have : SkModel.groups ⟨c, ne.toNat, mf, lr, bases, es.map (·.tree), []⟩ = K := hKc.symm
    rw [this]
    dsimp only
    rw [List.length_map, heq]
  · show (K : Int) = _
    rw [show SkModel.groups ⟨c, ne.toNat, mf, lr, bases, es.map (·.tree), []⟩ = K from hKc.symm]
  · show (if (K : Int) = 0 then Res.panic else _ : Res Int) = _
    rw [if_neg (by omega)]
    show Res.ok (Int.tdiv (ts.length : Int) (K : Int)) = _
    rw [Int.tdiv_eq_ediv_of_nonneg (by omega), ← Int.natCast_ediv, l1, Nat.mul_div_cancel _ (by omega)]
  · intro (h1 : -2 ^ 63 < mf) (h2 : mf < 2 ^ 63)
    show (if wrap64 (mf - 1) > 0 then wrap64 (wrap64 (mf - 1) + 1) else 0) = (if 2 ≤ mf then mf else 0)
    rw [wrap64_id (i := mf - 1) (by omega) (by omega), wrap64_id (i := mf - 1 + 1) (by omega) (by omega)]
    split <;> split <;> omega
  · rw [show SkModel.groups ⟨c, ne.toNat, mf, lr, bases, es.map (·.tree), []⟩ = K from hKc.symm]
    refine ⟨hK1, hKs, rfl, rfl, l1, fun i k hi hk => ?_⟩
    have hkb : k < bases.length := by omega
    obtain ⟨est, T, q1, q2, q5⟩ := gets i k _ hi (List.getElem?_eq_getElem hkb)
    rw [Nat.zero_add] at q1
    exact ⟨est.tree, T, bases[k], by dsimp only; rw [List.getElem?_map, q1]; rfl, q2, List.getElem?_eq_getElem hkb, q5⟩

/-- C70: a model with trees that was loaded from a pickle is a `GradientBoostingClassifier` whose trees, priors and learning rate
were found under the names and with the classes, types, byte orders and C order that scikit-learn and numpy give them; it has as many
groups and estimators as the pickle says. -/
theorem C70_accepted (P : Platform) (v : PyVal) (bs rest : Bytes) (μ : Memo) (hd : Dumps P noMemo v bs μ) (lt : Bool) (ens : Ensemble) (e : LgEnsemble)
    (h : skEnsembleFromReader P (bs ++ octet '.' :: rest) lt = .ok ens) (he : ens.base = .lg e) (hne : e.trees ≠ []) :
    ∃ M, HasClassifier M v ∧ ens.nRawOutputGroups = M.groups ∧ ens.nEstimators = .ok (M.estimators : Int) ∧
      (-2 ^ 63 < M.maxFeatures → M.maxFeatures < 2 ^ 63 → ens.nFeatures = (if 2 ≤ M.maxFeatures then M.maxFeatures else 0)) := by
  obtain ⟨x, m, h1, h2⟩ := decode_dumps P v bs rest μ hd
  unfold skEnsembleFromReader at h
  rw [h1, Res.ok_bind] at h
  obtain ⟨g, h3, h4⟩ := Res.bind_eq_ok.1 h
  obtain ⟨M, g1, g2, g3, g4, -⟩ := parseSkBoosting_inv h2 h3 h4 he hne
  exact ⟨M, g1, g2, g3, g4⟩

/-- C70: an instance of any other class is refused with an error. -/
theorem C70_other_class (P : Platform) (modul name : String) (kvs : PyMap) (v : PyVal) (hv : IsInstance modul name kvs v)
    (hn : ¬ (octets modul.toList = octets "sklearn.ensemble.gradient_boosting".toList ∧ octets name.toList = octets "GradientBoostingClassifier".toList))
    (bs rest : Bytes) (μ : Memo) (hd : Dumps P noMemo v bs μ) (lt : Bool) :
    ∃ msg, skEnsembleFromReader P (bs ++ octet '.' :: rest) lt = .err msg := by
  obtain ⟨x, m, h1, h2⟩ := decode_dumps P v bs rest μ hd
  obtain ⟨a, b, rfl⟩ := hv
  obtain ⟨y, ys, z, rfl, h3, h4, -⟩ := h2
  cases denotes_name h3
  obtain ⟨l, hl, h5⟩ := denotesSeq_inv h4
  obtain ⟨x0, r, rfl, q0, x1, r, rfl, -, x2, r, rfl, -, rfl⟩ := h4
  cases denotes_name q0
  have key : ∃ msg, toGlobal (.global (octets modul.toList) (octets name.toList)) "sklearn.ensemble.gradient_boosting" "GradientBoostingClassifier" = .err msg := by
    unfold toGlobal
    dsimp only
    by_cases h : octets modul.toList = octets "sklearn.ensemble.gradient_boosting".toList
    · rw [if_neg fun hc => hc.2 h, if_pos ⟨by decide, fun hc => hn ⟨h, hc⟩⟩]
      exact ⟨_, rfl⟩
    · rw [if_pos ⟨by decide, h⟩]
      exact ⟨_, rfl⟩
  obtain ⟨msg, key⟩ := key
  refine ⟨msg, ?_⟩
  unfold skEnsembleFromReader
  rw [h1, Res.ok_bind]
  dsimp only
  have : parseSkBoosting P m (.build (.reduce (.global (octets "copy_reg".toList) (octets "_reconstructor".toList))
      [.global (octets modul.toList) (octets name.toList), x1, x2]) z) = .err msg := by
    show ((reconstructor _ _ _ _ >>= _) >>= _) = _
    unfold reconstructor
    rw [toGlobal_octets, Res.ok_bind]
    dsimp only
    rw [key]
    rfl
  rw [this]
  rfl

namespace SkAcceptExample

open SkModelExample

/-- C70 applies to the classifier of `SkModelExample`. -/
example : ∃ M, HasClassifier M (value 2) := by
  obtain ⟨ens, h, hc⟩ := of_check (r := skEnsembleFromReader Platform.demo ((value 2).dump print ++ [octet '.']) false)
    (fun ens => (match ens.base with | .lg e => !e.trees.isEmpty | _ => false) = true) (by decide +kernel)
  cases he : ens.base with
  | lg e =>
    rw [he] at hc
    have hc : e.trees ≠ [] := by
      intro h
      dsimp only at hc
      rw [h] at hc
      cases hc
    obtain ⟨M, hM, -⟩ := C70_accepted Platform.demo _ _ [] _ (dump_dumps _ (writable 2 ⟨by decide, by decide⟩)) false ens e h he hc
    exact ⟨M, hM⟩
  | _ => rw [he] at hc; cases hc

/-- C70 applies to a random forest, which is refused. -/
example : ∃ msg, skEnsembleFromReader Platform.demo ((inst "sklearn.ensemble.forest" "RandomForestClassifier" (items [("n_classes_", .int 2)])).dump print ++
    [octet '.']) false = .err msg :=
  C70_other_class Platform.demo "sklearn.ensemble.forest" "RandomForestClassifier" _ _ ⟨_, _, rfl⟩ (by decide) _ [] _
    (dump_dumps _ (by
      repeat' first
        | exact trivial
        | exact ⟨by decide, by decide⟩
        | apply And.intro)) false

/-- the values of a tree in Fortran order -/
def fortranTree : PyVal :=
  .build (pyName "sklearn.tree._tree" "Tree") (.ofList [.int 2, array [1] "i8" (bytes (field64 1)), .int 1])
    (.dict (items [("node_count", .int 5), ("nodes", array [5] "V56" (bytes (nodeWords.flatMap NodeWords.record))),
      ("values", .build (pyName "numpy.core.multiarray" "_reconstruct") (.ofList [pyName "numpy" "ndarray", .tuple (.ofList [.int 0]), pyStr "b"])
        (.tuple (.ofList [.int 1, .tuple (.ofList [.int 5, .int 1, .int 1]), dtype "f8", .int 1, bytes (valueWords.flatMap field64)])))]))

/-- an array in Fortran order is refused, although it has the right number of values -/
example : skEnsembleFromReader Platform.demo ((classifier 2 1 1 2 [inst "sklearn.tree.tree" "DecisionTreeRegressor"
      (items [("n_classes_", scalar "i8" (field64 1)), ("max_features_", .int 2), ("n_outputs_", .int 1), ("tree_", fortranTree)])]).dump print ++
    [octet '.']) false = .err "expected isFortran = 0" := by
  decide +kernel

end SkAcceptExample

end Leaves
