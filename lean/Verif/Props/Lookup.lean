import Verif.Spec.Lookup
import Verif.Props.LeafFiles
import Verif.Props.SkModel

/-! # C129: scores from leaf numbers -/

namespace Leaves
open Spec

theorem leaf_looked_up {P : Platform} {print : F64 → Str} {d : TreeDesc} {row : List F64} {j : Nat} (ok : d.OK P.parseFloat print) (h : d.Leaf P.out row j) :
    j < 2 ^ 32 ∧ ∃ x, d.leafValues[j]? = some x ∧ d.Value P.out row x := by
  unfold TreeDesc.Leaf at h
  unfold TreeDesc.Value
  split at h
  · rename_i h0
    subst h
    refine ⟨by norm_num, ?_⟩
    have := List.length_pos_of_ne_nil ok.leafValues
    exact ⟨_, List.getElem?_eq_getElem this, by rw [if_pos h0]; exact List.getElem?_eq_getElem this⟩
  · rename_i h0
    refine ⟨(ok.tree h0).leaves j (Walk.mem h.1), _, List.getElem?_eq_getElem h.2, ?_⟩
    rw [if_neg h0]
    exact ⟨j, h.1, List.getElem?_eq_getElem h.2⟩

/-- the value that is looked up is determined by the numbers -/
theorem LookedUp.unique {ds : List TreeDesc} {K N : Nat} {numbers : List F64} {i k : Nat} {x y : F64} (h : LookedUp ds K N numbers i k x)
    (h' : LookedUp ds K N numbers i k y) : x = y := by
  obtain ⟨d, j, h1, h2, h3, h4⟩ := h
  obtain ⟨d', j', g1, g2, g3, g4⟩ := h'
  rw [h1] at g1
  cases g1
  rw [h2] at g2
  have e := Option.some.inj g2
  have a := F64.isVal_ofNat (n := j) (by omega)
  have b := F64.isVal_ofNat (n := j') (by omega)
  rw [← e] at b
  obtain rfl : j = j' := by exact_mod_cast IsVal.unique a b
  rw [h4] at g4
  exact Option.some.inj g4

/-- **C129.** If the leaf view of a model read from a LightGBM text file succeeds for a row, then the leaf numbers it stores, looked up in the file, give
the leaf values `x`; and the model predicts for this row, with any number of estimators, the sum of these values. -/
theorem C129_text (P : Platform) (print : F64 → Str) (text rest0 rest : Str) (header : List Str) (e0 e1 : Bool)
    (bs : List (List Str)) (ds : List TreeDesc) (K N : Nat) (M : Int) (avg : Bool)
    (hK : 1 ≤ K ∧ K < 2 ^ 63) (hN : 1 ≤ N) (hlen : ds.length = N * K) (hsmall : ds.length < 2 ^ 63)
    (hh : FileBlock text header rest0 e0) (hhl : HeaderLines header K M ds.length avg)
    (hb : FileBlocks rest0 bs rest e1) (hbl : List.Forall₂ (TreeLines print) ds bs)
    (hok : ∀ d ∈ ds, d.OK P.parseFloat print ∧ d.inner * 24 ≤ P.maxAlloc) :
    ∃ e view, lgEnsembleFromReader P ⟨text, false⟩ false = .ok (e, ⟨rest, false⟩) ∧ e.withLeafPredictions = .ok view ∧
      ∀ row req s s', (view.predict P row req s.length).run s = (.ok ⟨⟩, s') →
        ∃ x : Nat → Nat → F64, (∀ i < N, ∀ k < K, LookedUp ds K N s' i k (x i k)) ∧
          ∀ req n m, Used req N n → K ≤ m.length → ∃ m', (e.predict P row req m.length).run m = (.ok ⟨⟩, m') ∧
            Stored m 0 ((List.range K).map fun k => accumulate
              (fun i acc => P.mulAdd (x i k) (if avg then F64.div F64.one (F64.ofNat n) else F64.one) acc) n F64.zero) m' := by
  obtain ⟨e, l1, -, -, -, -, -, -, p1⟩ := C39_text_file P print text rest0 rest header e0 e1 bs ds K N M avg hK hN hlen hh hhl hb hbl hok
  obtain ⟨e', l2, view, hv, -, -, -, -, -, pv⟩ := C81_text_file P print text rest0 rest header e0 e1 bs ds K N M avg hK hN hlen hsmall hh hhl hb hbl hok
  obtain rfl : e' = e := by
    rw [l1] at l2
    exact (congrArg Prod.fst (Res.ok.inj l2)).symm
  refine ⟨e', view, l1, hv, fun row req s s' hs => ?_⟩
  obtain ⟨hroom, hrow, -, w, ⟨l, hl1, hl2, hl3⟩, hst⟩ := (pv row req s s').1 hs
  have hx : ∀ i k, ∃ x, i < N → k < K → LookedUp ds K N s' i k x ∧ ∃ d, ds[i * K + k]? = some d ∧ d.Value P.out row x := by
    intro i k
    by_cases hi : i < N
    swap
    · exact ⟨F64.zero, fun h => absurd h hi⟩
    by_cases hk : k < K
    swap
    · exact ⟨F64.zero, fun _ h => absurd h hk⟩
    obtain ⟨d, hd, hleaf⟩ := hl1 i hi k hk
    obtain ⟨hj, x, hx1, hx2⟩ := leaf_looked_up (hok d (List.mem_of_getElem? hd)).1 hleaf
    have hpos : k * N + i < w.length := by
      rw [hl2]
      calc k * N + i < k * N + N := by omega
        _ = (k + 1) * N := by ring
        _ ≤ K * N := Nat.mul_le_mul_right N hk
    refine ⟨x, fun _ _ => ⟨⟨d, l i k, hd, ?_, hj, hx1⟩, d, hd, hx2⟩⟩
    rw [hst.2.2, if_pos ⟨by omega, by omega⟩, Nat.sub_zero]
    exact hl3 i hi k hk
  choose x hx using hx
  refine ⟨x, fun i hi k hk => (hx i k hi hk).1, fun req n m hu hm => ?_⟩
  have hn := Used.le hu
  let out := (List.range K).map fun k => accumulate (fun i acc => P.mulAdd (x i k) (if avg then F64.div F64.one (F64.ofNat n) else F64.one) acc) n F64.zero
  have hol : out.length = K := by simp [out]
  have hex : Stored m 0 out (out ++ m.drop K) := by
    refine ⟨by rw [hol]; omega, by simp [hol]; omega, fun j => ?_⟩
    rw [hol]
    by_cases hj : j < K
    · rw [if_pos ⟨by omega, by omega⟩, Nat.sub_zero, List.getElem?_append_left (by rw [hol]; exact hj)]
    · rw [if_neg (by omega), List.getElem?_append_right (by rw [hol]; omega), hol, List.getElem?_drop]
      congr 1
      omega
  exact ⟨_, (p1 row req m _).2 ⟨hm, hrow, n, out, hu, ⟨x, fun i hi k hk => (hx i k (by omega) hk).2, rfl⟩, hex⟩, hex⟩

namespace LookupExample
open LgExample (platform)
open LgLoadExample (print d1 d2 ds_ok)

/-- The theorem applies to the file of `LgLoadExample`. -/
theorem C129_example (avg : Bool) : ∃ e view,
    lgEnsembleFromReader platform ⟨modelText print [d1, d2] 2 1 avg ++ [], false⟩ false = .ok (e, ⟨[], false⟩) ∧ e.withLeafPredictions = .ok view ∧
    ∀ row req s s', (view.predict platform row req s.length).run s = (.ok ⟨⟩, s') →
      ∃ x : Nat → Nat → F64, (∀ i < 1, ∀ k < 2, LookedUp [d1, d2] 2 1 s' i k (x i k)) ∧
        ∀ req n m, Used req 1 n → 2 ≤ m.length → ∃ m', (e.predict platform row req m.length).run m = (.ok ⟨⟩, m') ∧
          Stored m 0 ((List.range 2).map fun k => accumulate
            (fun i acc => platform.mulAdd (x i k) (if avg then F64.div F64.one (F64.ofNat n) else F64.one) acc) n F64.zero) m' := by
  obtain ⟨_, _, _, h1, h2, h3, h4⟩ := modelText_blocks (M := 1) [] 2 avg (by norm_num) ds_ok
  exact C129_text platform print _ _ _ _ _ _ _ [d1, d2] 2 1 1 avg (by norm_num) le_rfl rfl (by norm_num) h1 h2 h3 h4
    (fun d hd => ⟨(ds_ok d hd).1, (ds_ok d hd).2.2⟩)

/-- The row (7, 33) ends in the leaves 2 and 0 of the two trees, whose values in the file are 30 and 7; these are its scores. -/
theorem C129_row : ∃ e view,
    lgEnsembleFromReader platform ⟨modelText print [d1, d2] 2 1 false, false⟩ false = .ok (e, ⟨[], false⟩) ∧ e.withLeafPredictions = .ok view ∧
    (view.predict platform [F64.ofNat 7, F64.ofNat 33] 0 2).run [F64.nan, F64.nan] = (.ok ⟨⟩, [F64.ofNat 2, F64.zero]) ∧
    LookedUp [d1, d2] 2 1 [F64.ofNat 2, F64.zero] 0 0 (F64.ofNat 30) ∧ LookedUp [d1, d2] 2 1 [F64.ofNat 2, F64.zero] 0 1 (F64.ofNat 7) ∧
    (e.predict platform [F64.ofNat 7, F64.ofNat 33] 0 2).run [F64.nan, F64.nan] = (.ok ⟨⟩, [F64.ofNat 30, F64.ofNat 7]) := by
  obtain ⟨a, h1, h2⟩ := SkModelExample.of_check (r := lgEnsembleFromReader platform ⟨modelText print [d1, d2] 2 1 false, false⟩ false)
    (fun a => a.2 = ⟨[], false⟩ ∧ (match a.1.withLeafPredictions with
      | .ok view => decide ((view.predict platform [F64.ofNat 7, F64.ofNat 33] 0 2).run [F64.nan, F64.nan] = (.ok ⟨⟩, [F64.ofNat 2, F64.zero]))
      | _ => false) = true ∧ (a.1.predict platform [F64.ofNat 7, F64.ofNat 33] 0 2).run [F64.nan, F64.nan] = (.ok ⟨⟩, [F64.ofNat 30, F64.ofNat 7])) (by decide +kernel)
  obtain ⟨a, r⟩ := a
  obtain ⟨rfl, g1, g2⟩ := h2
  dsimp only at g1
  split at g1
  · rename_i view hv
    exact ⟨a, view, h1, hv, of_decide_eq_true g1, ⟨d1, 2, rfl, rfl, by norm_num, rfl⟩, ⟨d2, 0, rfl, by decide +kernel, by norm_num, rfl⟩, g2⟩
  · cases g1

end LookupExample

end Leaves
