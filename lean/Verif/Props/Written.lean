import Verif.Proofs.Accept
import Verif.Proofs.TextPanic
import Verif.Props.FeatureCount
import Verif.Props.Lookup
import Verif.Proofs.XgInv
import Verif.Props.XgFile

/-! # C136: the scores of whatever loads are made of numbers that stand in the file -/

namespace Leaves
open Spec

theorem predictLoop_value {P : Platform} {t : LgTree} {row : List F64} : ∀ {fuel idx : Nat} {v : F64} {j : Nat},
    t.predictLoop P row fuel idx = .ok (v, j) → t.leafValues[j]? = some v
  | 0, _, _, _, h => by cases h
  | fuel + 1, idx, v, j, h => by
    rw [LgTree.predictLoop] at h
    obtain ⟨node, -, h⟩ := Res.bind_eq_ok.1 h
    obtain ⟨fval, -, h⟩ := Res.bind_eq_ok.1 h
    obtain ⟨left, -, h⟩ := Res.bind_eq_ok.1 h
    split at h <;> split at h
    · obtain ⟨x, hx, h⟩ := Res.bind_eq_ok.1 h
      cases h
      exact Res.idx_eq_ok.1 hx
    · exact predictLoop_value h
    · obtain ⟨x, hx, h⟩ := Res.bind_eq_ok.1 h
      cases h
      exact Res.idx_eq_ok.1 hx
    · exact predictLoop_value h

theorem predict_value {P : Platform} {t : LgTree} {row : List F64} {v : F64} {j : Nat} (h : t.predict P row = .ok (v, j)) :
    t.leafValues[j]? = some v := by
  unfold LgTree.predict at h
  split at h
  · obtain ⟨x, hx, h⟩ := Res.bind_eq_ok.1 h
    cases h
    exact Res.idx_eq_ok.1 hx
  · exact predictLoop_value h

theorem tree_leaf_line {P : Platform} (hP : Strconv.Standard P) {p : Params} {lines : List Str} (hb : ∀ k v, p k = some v ↔ Bound lines k v) {t : LgTree}
    (h : lgTreeFromParams P p = .ok t) : ListField lines "leaf_value" Written t.leafValues := by
  have hw : ∀ s x, P.parseFloat s = some x → Written s x := by
    intro s x h
    rw [hP.parse] at h
    by_cases hh : HugeExponent s
    · exact .inl hh
    · exact .inr (parse_inv h hh _)
  unfold lgTreeFromParams at h
  obtain ⟨c, -, h⟩ := Res.bind_eq_ok.1 h
  obtain ⟨n, -, h⟩ := Res.bind_eq_ok.1 h
  split at h
  · cases h
  obtain ⟨vs, hv, h⟩ := Res.bind_eq_ok.1 h
  have key : ListField lines "leaf_value" Written vs := listField_of hb hw hv
  split at h
  · cases h
    exact key
  obtain ⟨_, -, h⟩ := Res.bind_eq_ok.1 h
  obtain ⟨_, -, h⟩ := Res.bind_eq_ok.1 h
  obtain ⟨_, -, h⟩ := Res.bind_eq_ok.1 h
  obtain ⟨_, -, h⟩ := Res.bind_eq_ok.1 h
  obtain ⟨_, -, h⟩ := Res.bind_eq_ok.1 h
  dsimp only at h
  split at h
  · obtain ⟨_, -, h⟩ := Res.bind_eq_ok.1 h
    obtain ⟨_, -, h⟩ := Res.bind_eq_ok.1 h
    obtain ⟨⟨_, _, _⟩, -, h⟩ := Res.bind_eq_ok.1 h
    obtain ⟨⟨_, _⟩, -, h⟩ := Res.bind_eq_ok.1 h
    cases h
    exact key
  · obtain ⟨⟨_, _, _⟩, -, h⟩ := Res.bind_eq_ok.1 h
    obtain ⟨⟨_, _⟩, -, h⟩ := Res.bind_eq_ok.1 h
    cases h
    exact key

theorem trees_leaf_lines {P : Platform} (hP : Strconv.Standard P) : ∀ (n : Nat) {r r' : Reader} {ts : List LgTree}, lgReadTrees P n r = .ok (ts, r') →
    ∃ bs e, FileBlocks r.rest bs r'.rest e ∧ List.Forall₂ (fun lines vs => ListField lines "leaf_value" Written vs) bs (ts.map LgTree.leafValues)
  | 0, r, r', ts, h => by
    cases h
    exact ⟨[], false, .nil _, .nil⟩
  | n + 1, r, r', ts, h => by
    rw [lgReadTrees] at h
    obtain ⟨⟨t, r1⟩, h1, h⟩ := Res.bind_eq_ok.1 h
    obtain ⟨⟨ts', r2⟩, h2, h⟩ := Res.bind_eq_ok.1 h
    simp only [Res.pure_eq, Res.ok.injEq, Prod.mk.injEq] at h
    obtain ⟨rfl, rfl⟩ := h
    unfold lgTreeFromReader at h1
    obtain ⟨⟨p, r3⟩, h3, h1⟩ := Res.bind_eq_ok.1 h1
    obtain ⟨t', h4, h1⟩ := Res.bind_eq_ok.1 h1
    simp only [Res.pure_eq, Res.ok.injEq, Prod.mk.injEq] at h1
    obtain ⟨rfl, rfl⟩ := h1
    obtain ⟨lines, e, g1, g2⟩ := readParams_inv h3
    obtain ⟨bs, e', g3, g4⟩ := trees_leaf_lines hP n h2
    exact ⟨lines :: bs, e || e', .cons g1 g3, .cons (tree_leaf_line hP g2 h4) g4⟩

/-- **C136.** Whatever text is accepted as a LightGBM model, well-formed or not, consists of a header and one block per tree, and the scores that the
model predicts are sums (divided by the number of estimators, if the header says so) of numbers that stand in the `leaf_value` lines of these blocks:
one number from the block of each tree of the class. -/
theorem C136_text (P : Platform) (hP : Strconv.Standard P) (r r' : Reader) (ens : Ensemble) (h : lgEnsembleFromReader P r false = .ok (ens, r')) :
    ∃ (header : List Str) (bs : List (List Str)) (e : Bool) (values : List (List F64)) (K N : Nat) (avg : Bool),
      FileBlocks r.rest (header :: bs) r'.rest e ∧ 1 ≤ K ∧ 1 ≤ N ∧ bs.length = K * N ∧ ens.nRawOutputGroups = K ∧
      (∃ s, Bound header "num_class".toList s ∧ Numeral s K) ∧ (avg = true ↔ ∃ s, Bound header "average_output".toList s) ∧
      List.Forall₂ (fun lines vs => ListField lines "leaf_value" Written vs) bs values ∧
      ∀ row req m m', (ens.predict P row req m.length).run m = (.ok ⟨⟩, m') →
        ∃ (n : Nat) (v : Nat → Nat → F64), Used req N n ∧ (∀ i < n, ∀ k < K, ∃ vs, values[i * K + k]? = some vs ∧ v i k ∈ vs) ∧
          Stored m 0 ((List.range K).map fun k => accumulate
            (fun i acc => P.mulAdd (v i k) (if avg then F64.div F64.one (F64.ofNat n) else F64.one) acc) n F64.zero) m' := by
  have hfit : ens.transform = .raw ens.nRawOutputGroups → Fits ens := fun ht => C40_fits P r r' false ens h (by rw [ht]; rintro (h | h) <;> cases h)
  obtain ⟨p, r1, K, M, toks, ts, tr, hp, h2, h3, h4, h5, h6, h7, h8, h9, rfl⟩ := lgEnsemble_inv h
  obtain ⟨G, N, rfl, hG, hN, hlen, hdiv⟩ := tmod_groups h4 h6 h7
  obtain ⟨header, e, g1, g2⟩ := readParams_inv hp
  obtain ⟨bs, e', g3, g4⟩ := trees_leaf_lines hP _ h9
  have hl := lgReadTrees_length P _ _ _ _ h9
  have htr : tr = .raw G := by
    unfold lgTransform at h8
    rw [if_neg (by simp)] at h8
    cases h8
    rfl
  subst htr
  have hbl : bs.length = G * N := by rw [g4.length_eq, List.length_map, hl, hlen]
  refine ⟨header, bs, e || e', ts.map LgTree.leafValues, G, N, p.contains "average_output".toList, .cons g1 g3, hG, hN, hbl, rfl, ?_, ?_, g4, ?_⟩
  · unfold Params.toInt at h2
    split at h2
    · cases h2
    · rename_i s hs
      refine ⟨s, (g2 _ _).1 hs, ?_⟩
      cases ha : atoi s with
      | none => rw [ha] at h2; cases h2
      | some x =>
        rw [ha] at h2
        cases h2
        exact (atoi_iff _ _).1 ha
  · unfold Params.contains
    rw [Option.isSome_iff_exists]
    exact exists_congr fun s => g2 _ _
  · intro row req m m' hm
    have hG63 : G < 2 ^ 63 := by
      have := toInt_range h2
      exact_mod_cast this
    obtain ⟨total, n, w, ht, hu, hw, -, hst⟩ := C10_raw_prediction P _ G (hfit rfl) hG63 row req m m' hm
    obtain ⟨G', v, hG', hv, rfl⟩ := hw
    obtain rfl : G = G' := Int.ofNat.inj hG'
    obtain ⟨G'', hG'', -, rfl⟩ := ht
    obtain rfl : G = G'' := Int.ofNat.inj hG''
    have hN' : ts.length / G = N := by rw [hl, hlen]; exact Nat.mul_div_cancel_left N (by omega)
    dsimp only at hu
    rw [hN'] at hu
    refine ⟨n, v, hu, fun i hi k hk => ?_, hst⟩
    obtain ⟨t, j, g5, g6⟩ := hv i hi k hk
    refine ⟨t.leafValues, ?_, List.mem_of_getElem? (predict_value g6)⟩
    rw [List.getElem?_map, g5]
    rfl

section
variable {σ : Type} {S : Source σ} {I : σ → Prop} (hI : ∀ i aux node aux', S.createNode i aux = .ok (node, aux') → I aux → I aux')
include hI

theorem tryChild_keeps {f : List LgNode → Nat → Nat → Res (List LgNode)} {s s' : Conv σ} {c : Nat} {b : Bool} {ch : Res Int} (hs : I s.aux)
    (h : tryChild S f s c b ch = .ok (some s')) : I s'.aux := by
  unfold tryChild at h
  split at h
  · cases h
  obtain ⟨o, -, h⟩ := Res.bind_eq_ok.1 h
  unfold visitChild at h
  obtain ⟨v, -, h⟩ := Res.bind_eq_ok.1 h
  split at h
  · cases h
  obtain ⟨⟨node, aux⟩, hc, h⟩ := Res.bind_eq_ok.1 h
  obtain ⟨ns, -, h⟩ := Res.bind_eq_ok.1 h
  cases h
  exact hI _ _ _ _ hc hs

theorem convLoop_keeps : ∀ (fuel : Nat) {s s' : Conv σ}, I s.aux → convLoop S fuel s = .ok s' → I s'.aux
  | 0, _, _, _, h => by cases h
  | fuel + 1, s, s', hs, h => by
    rw [convLoop] at h
    split at h
    · cases h
      exact hs
    · obtain ⟨s1, h1, h⟩ := Res.bind_eq_ok.1 h
      refine convLoop_keeps fuel ?_ h
      unfold convStep at h1
      obtain ⟨node, -, h1⟩ := Res.bind_eq_ok.1 h1
      obtain ⟨o1, g1, h1⟩ := Res.bind_eq_ok.1 h1
      cases o1 with
      | some s2 =>
        cases h1
        exact tryChild_keeps hI hs g1
      | none =>
        obtain ⟨o2, g2, h1⟩ := Res.bind_eq_ok.1 h1
        cases o2 with
        | some s2 =>
          cases h1
          exact tryChild_keeps hI hs g2
        | none =>
          cases h1
          exact hs

/-- what creating nodes keeps true of the rest of the tree is true of it in the end -/
theorem convert_keeps {P : Platform} {n m : Int} {aux : σ} {nodes : List LgNode} {aux' : σ} (h0 : I aux) (h : convert P S n m aux = .ok (nodes, aux')) :
    I aux' := by
  unfold convert at h
  obtain ⟨_, -, h⟩ := Res.bind_eq_ok.1 h
  obtain ⟨_, -, h⟩ := Res.bind_eq_ok.1 h
  obtain ⟨_, -, h⟩ := Res.bind_eq_ok.1 h
  obtain ⟨_, -, h⟩ := Res.bind_eq_ok.1 h
  obtain ⟨⟨node, aux1⟩, h1, h⟩ := Res.bind_eq_ok.1 h
  obtain ⟨s, h2, h⟩ := Res.bind_eq_ok.1 h
  cases h
  exact convLoop_keeps hI _ (hI _ _ _ _ h1 h0) h2

end

open XgBin

theorem idxI_mem {α : Type} {l : List α} {i : Int} {x : α} (h : Res.idxI l i = .ok x) : x ∈ l := by
  unfold Res.idxI at h
  split at h
  · cases h
  · exact List.mem_of_getElem? (Res.idx_eq_ok.1 h)

theorem xg_leaf_values {P : Platform} {t : TreeModel} {nf : BitVec 32} {T : LgTree} (h : xgTreeFromTreeModel P t nf = .ok T) :
    ∀ v ∈ T.leafValues, ∃ nd ∈ t.nodes, (nd.cLeft.toInt = -1 ∨ t.param.numNodes.toInt = 1) ∧ v = F64.ofBits32 nd.info := by
  unfold xgTreeFromTreeModel at h
  split at h
  · cases h
  split at h
  · cases h
  split at h
  · cases h
  dsimp only at h
  split at h
  · rename_i h1
    obtain ⟨n, hn, h⟩ := Res.bind_eq_ok.1 h
    cases h
    intro v hv
    obtain rfl := List.mem_singleton.1 hv
    exact ⟨n, List.mem_of_getElem? (Res.idx_eq_ok.1 hn), .inr h1, rfl⟩
  · obtain ⟨⟨nodes, leafValues⟩, hc, h⟩ := Res.bind_eq_ok.1 h
    cases h
    have key : ∀ v ∈ leafValues, ∃ nd ∈ t.nodes, nd.cLeft.toInt = -1 ∧ v = F64.ofBits32 nd.info := by
      refine convert_keeps (S := xgSource t.nodes) (I := fun vs => ∀ v ∈ vs, ∃ nd ∈ t.nodes, nd.cLeft.toInt = -1 ∧ v = F64.ofBits32 nd.info) ?_ (by simp) hc
      intro i aux node aux' h hI
      change xgCreateNode t.nodes i aux = _ at h
      unfold xgCreateNode at h
      obtain ⟨o, -, h⟩ := Res.bind_eq_ok.1 h
      dsimp only at h
      split at h
      · cases h
      split at h
      · cases h
      obtain ⟨l, hl, h⟩ := Res.bind_eq_ok.1 h
      obtain ⟨r, hr, h⟩ := Res.bind_eq_ok.1 h
      have hl := idxI_mem hl
      have hr := idxI_mem hr
      have happ : ∀ (vs : List F64) (n : Node), n ∈ t.nodes → xgIsLeaf n = true → (∀ v ∈ vs, ∃ nd ∈ t.nodes, nd.cLeft.toInt = -1 ∧ v = F64.ofBits32 nd.info) →
          ∀ v ∈ vs ++ [F64.ofBits32 n.info], ∃ nd ∈ t.nodes, nd.cLeft.toInt = -1 ∧ v = F64.ofBits32 nd.info := by
        intro vs n hn hleaf hvs v hv
        rcases List.mem_append.1 hv with hv | hv
        · exact hvs v hv
        · obtain rfl := List.mem_singleton.1 hv
          exact ⟨n, hn, of_decide_eq_true hleaf, rfl⟩
      by_cases a : xgIsLeaf l = true <;> by_cases b : xgIsLeaf r = true <;> simp only [a, b, if_true, if_false, Bool.false_eq_true] at h <;> cases h
      · exact happ _ _ hr b (happ _ _ hl a hI)
      · exact happ _ _ hl a hI
      · exact happ _ _ hr b hI
      · exact hI
    intro v hv
    obtain ⟨nd, h1, h2, h3⟩ := key v hv
    exact ⟨nd, h1, .inl h2, h3⟩

theorem xg_trees_values {P : Platform} {nf : BitVec 32} : ∀ {ts : List TreeModel} {Ts : List LgTree}, xgConvertTrees P nf ts = .ok Ts →
    List.Forall₂ (fun t T => xgTreeFromTreeModel P t nf = .ok T) ts Ts
  | [], _, h => by cases h; exact .nil
  | t :: ts, _, h => by
    rw [xgConvertTrees] at h
    obtain ⟨T, h1, h⟩ := Res.bind_eq_ok.1 h
    obtain ⟨Ts, h2, h⟩ := Res.bind_eq_ok.1 h
    cases h
    exact .cons h1 (xg_trees_values h2)

theorem weightDrop_inv {P : Platform} {name : Bytes} {n : Int} {bs bs' : Bytes} {wd : List F64} (h : xgWeightDrop P name n bs = .ok (wd, bs')) :
    (bs = bs' ∧ ∀ w ∈ wd, w = F64.one) ∨ ∃ ws, bs = sliceImage ws ++ bs' ∧ wd = ws.map F64.ofBits32 := by
  obtain ⟨_, b0, h0, h⟩ := rd_bind_ok h
  obtain ⟨-, hb⟩ := rd_lift_ok h0
  dsimp only at hb
  split at h
  · obtain ⟨ws, b1, h1, h⟩ := rd_bind_ok h
    split at h
    · cases h
    · cases h
      exact .inr ⟨ws, by rw [← (readWordSlice_inv h1).1, hb], rfl⟩
  · split at h
    · cases h
      exact .inl ⟨hb.symm, fun w hw => List.eq_of_mem_replicate hw⟩
    · cases h

/-- **C136.** The same for XGBoost files: whatever bytes are accepted are the image of a header and of trees, followed in dart files by weights of the
trees, and the scores that the model predicts are the base score plus numbers of leaves of the trees, times the weights of the trees if there are any. -/
theorem C136_xgboost (P : Platform) (bs rest : Bytes) (ens : Ensemble) (h : xgEnsembleFromReader P false bs = .ok (ens, rest)) (K : Nat) (h1 : 1 ≤ K)
    (hK : ens.nRawOutputGroups = K) :
    ∃ (header : ModelHeader) (m : GBTreeModel) (vs : List (List (BitVec 32))) (tail : Bytes), HeaderOK P.maxAlloc header ∧ GBTreeOK P.maxAlloc m vs ∧
      bs = headerImage header ++ gbtreeImage m vs ++ tail ∧ m.param.numOutputGroup.toInt = K ∧
      ∀ row req s s', (ens.predict P row req s.length).run s = (.ok ⟨⟩, s') →
        ∃ (n : Nat) (v c : Nat → Nat → F64), Used req (m.trees.length / K) n ∧
          (∀ i < n, ∀ k < K, ∃ t, m.trees[i * K + k]? = some t ∧
            ∃ nd ∈ t.nodes, (nd.cLeft.toInt = -1 ∨ t.param.numNodes.toInt = 1) ∧ v i k = F64.ofBits32 nd.info) ∧
          (tail = rest ∧ (∀ i < n, ∀ k < K, c i k = F64.one) ∨
            ∃ ws, tail = sliceImage ws ++ rest ∧ ∀ i < n, ∀ k < K, ∃ w, ws[i * K + k]? = some w ∧ c i k = F64.ofBits32 w) ∧
          Stored s 0 ((List.range K).map fun k => accumulate (fun i acc => P.mulAdd (v i k) (c i k) acc) n (F64.ofBits32 header.param.baseScore)) s' := by
  obtain ⟨header, b1, hh, h⟩ := rd_bind_ok h
  split at h
  · cases h
  simp only at h
  split at h
  · cases h
  obtain ⟨m, b2, hm, h⟩ := rd_bind_ok h
  split at h
  · cases h
  obtain ⟨wd, b3, hwd, h⟩ := rd_bind_ok h
  obtain ⟨h, hb3⟩ := rd_lift_ok h
  dsimp only at hb3
  unfold xgAssemble at h
  simp only at h
  split at h
  · cases h
  split at h
  · cases h
  split at h
  · cases h
  obtain ⟨tr, htr, h⟩ := Res.bind_eq_ok.1 h
  split at h
  · cases h
  obtain ⟨_, hal, h⟩ := Res.bind_eq_ok.1 h
  obtain ⟨ts, hts, h⟩ := Res.bind_eq_ok.1 h
  simp only [Res.pure_eq, Res.ok.injEq] at h
  subst h
  have hK' : m.param.numOutputGroup.toInt = K := hK
  have htr' : tr = .raw K := by
    unfold xgTransform at htr
    rw [if_neg (by simp)] at htr
    cases htr
    rw [hK']
  subst htr'
  have hpos := (allocCheck_inv hal).1
  obtain ⟨ho, e1⟩ := readModelHeader_inv hh
  obtain ⟨vs, hg, e2⟩ := readGBTreeModel_inv hpos hm
  have hlen := xgConvertTrees_length P _ _ _ hts
  have hall := xg_trees_values hts
  refine ⟨header, m, vs, b2, ho, hg, by rw [e1, e2, List.append_assoc], hK', fun row req s s' hs => ?_⟩
  have hsm : K < 2 ^ 63 := by
    have := BitVec.toInt_lt (x := m.param.numOutputGroup)
    omega
  have hfit : Fits ⟨.xg { trees := ts, maxFeatureIdx := (header.param.numFeatures.toNat : Int) - 1, nRawOutputGroups := m.param.numOutputGroup.toInt, baseScore := F64.ofBits32 header.param.baseScore, weightDrop := wd, name := if header.nameGbm = ascii "gbtree" then "xgboost.gbtree" else "xgboost.dart" }, .raw K⟩ :=
    ⟨K, ts.length / K, hK', h1, ⟨K, hK', h1, rfl⟩, rfl⟩
  obtain ⟨total, n, w, ht, hu, hw, -, hst⟩ := C10_raw_prediction P _ K hfit hsm row req s s' hs
  obtain ⟨G', v, c, hG', hv, hc, rfl⟩ := hw
  obtain rfl : K = G' := by
    have : m.param.numOutputGroup.toInt = (G' : Int) := hG'
    omega
  obtain ⟨G'', hG'', -, rfl⟩ := ht
  obtain rfl : K = G'' := by
    have : m.param.numOutputGroup.toInt = (G'' : Int) := hG''
    omega
  dsimp only at hu hv hc
  rw [hlen] at hu
  refine ⟨n, v, c, hu, fun i hi k hk => ?_, ?_, hst⟩
  · obtain ⟨T, j, g5, g6⟩ := hv i hi k hk
    obtain ⟨hlt, rfl⟩ := List.getElem?_eq_some_iff.1 g5
    have hlt' : i * K + k < m.trees.length := by omega
    have hT := (List.forall₂_iff_get.1 hall).2 (i * K + k) hlt' hlt
    exact ⟨m.trees[i * K + k], List.getElem?_eq_getElem hlt', xg_leaf_values hT _ (List.mem_of_getElem? (predict_value g6))⟩
  · rcases weightDrop_inv hwd with ⟨e3, g⟩ | ⟨ws, e3, rfl⟩
    · exact .inl ⟨e3.trans hb3.symm, fun i hi k hk => g _ (List.mem_of_getElem? (hc i hi k hk))⟩
    · refine .inr ⟨ws, by rw [e3, hb3], fun i hi k hk => ?_⟩
      have := hc i hi k hk
      rw [List.getElem?_map] at this
      obtain ⟨w, g1, g2⟩ := Option.map_eq_some_iff.1 this
      exact ⟨w, g1, g2.symm⟩

namespace WrittenExample
open DecimalExample

/-- a file that no writer of LightGBM would write: hexadecimal and underscored leaf values, and more of them than leaves -/
def text : Str :=
  "tree\nversion=v2\nnum_class=1\nnum_tree_per_iteration=1\nmax_feature_idx=0\ntree_sizes=9\n\nTree=0\nnum_leaves=1\nnum_cat=0\nleaf_value=0x1p1 1_0\n\n".toList

/-- It loads, and its score is the first of the numbers. -/
theorem C136_loads : ∃ ens, lgEnsembleFromReader platform ⟨text, false⟩ false = .ok (ens, ⟨[], false⟩) ∧
    (ens.predict platform [F64.nan] 0 1).run [F64.nan] = (.ok ⟨⟩, [F64.ofNat 2]) := by
  obtain ⟨a, h1, h2⟩ := SkModelExample.of_check (r := lgEnsembleFromReader platform ⟨text, false⟩ false)
    (fun a => a.2 = ⟨[], false⟩ ∧ (a.1.predict platform [F64.nan] 0 1).run [F64.nan] = (.ok ⟨⟩, [F64.ofNat 2])) (by decide +kernel)
  obtain ⟨a, r⟩ := a
  obtain ⟨rfl, g⟩ := h2
  exact ⟨a, h1, g⟩

/-- The theorem applies to it: its score, 2, is a sum of numbers that stand in the file. -/
theorem C136_example : ∃ (bs : List (List Str)) (values : List (List F64)) (K n : Nat) (avg : Bool) (v : Nat → Nat → F64),
    List.Forall₂ (fun lines vs => ListField lines "leaf_value" Written vs) bs values ∧
    (∀ i < n, ∀ k < K, ∃ vs, values[i * K + k]? = some vs ∧ v i k ∈ vs) ∧
    Stored [F64.nan] 0 ((List.range K).map fun k => accumulate
      (fun i acc => platform.mulAdd (v i k) (if avg then F64.div F64.one (F64.ofNat n) else F64.one) acc) n F64.zero) [F64.ofNat 2] := by
  obtain ⟨ens, h1, h2⟩ := C136_loads
  obtain ⟨_, bs, _, values, K, _, avg, -, -, -, -, -, -, -, hv, hp⟩ := C136_text platform standard _ _ ens h1
  obtain ⟨n, v, -, hm, hst⟩ := hp [F64.nan] 0 [F64.nan] [F64.ofNat 2] h2
  exact ⟨bs, values, K, n, avg, v, hv, hm, hst⟩

/-- The theorem about XGBoost files applies to the dart file of `XgFileExample`, whose score for this row is 4.5. -/
theorem C136_xgboost_example : ∃ (m : GBTreeModel) (n : Nat) (v c : Nat → Nat → F64) (base : F64),
    (∀ i < n, ∃ t, m.trees[i]? = some t ∧ ∃ nd ∈ t.nodes, (nd.cLeft.toInt = -1 ∨ t.param.numNodes.toInt = 1) ∧ v i 0 = F64.ofBits32 nd.info) ∧
    accumulate (fun i acc => Platform.demo.mulAdd (v i 0) (c i 0) acc) n base = F64.const 9 2 := by
  have h : xgEnsembleFromReader Platform.demo false (XgFileExample.file 1#32).image = .ok (XgFileExample.loadedFile 1, []) := by decide +kernel
  have hp : ((XgFileExample.loadedFile 1).predict Platform.demo [F64.zero, F64.const 3 4] 0 [F64.nan].length).run [F64.nan] = (.ok ⟨⟩, [F64.const 9 2]) := by
    decide +kernel
  obtain ⟨header, m, vs, tail, -, hg, -, -, hall⟩ := C136_xgboost Platform.demo _ _ _ h 1 le_rfl rfl
  obtain ⟨n, v, c, hu, hv, -, hst⟩ := hall _ _ _ _ hp
  refine ⟨m, n, v, c, F64.ofBits32 header.param.baseScore, fun i hi => ?_, ?_⟩
  · obtain ⟨t, h1, h2⟩ := hv i hi 0 (by norm_num)
    exact ⟨t, by simpa using h1, h2⟩
  · have := hst.2.2 0
    rw [if_pos (by simp)] at this
    simpa using this.symm

end WrittenExample

end Leaves
