import Verif.Spec.ZeroTrees
import Verif.Props.Prefix
import Verif.Props.Cells
import Verif.Proofs.F64Accuracy
import Verif.Props.TreeOrder

/-!
# C115: an iteration of zero trees contributes nothing

Training writes trees with one leaf of value 0 when it finds nothing to split. Removing them changes no prediction.
-/

namespace Leaves
open Spec GoM

namespace F64

theorem roundMag_pos {n : Nat} (h : n ≠ 0) : roundMag n 1 ≠ 0 := by
  have := roundMag_mono (n := 1) (d := 1) (n' := n) (d' := 1) (by norm_num) (by norm_num) (by omega)
  have h1 : roundMag 1 1 = 1 := by decide +kernel
  omega

/-- a sum is the negative zero only if both operands are -/
theorem add_ne_negZero {z v : F64} (hz : z ≠ neg zero) : add z v ≠ neg zero := by
  rcases z with _ | s | ⟨s, m, hm⟩
  · exact fun h => nomatch h
  · rcases v with _ | t | ⟨t, n, hn⟩
    · exact fun h => nomatch h
    · show (if s = t then inf s else nan) ≠ _
      split <;> exact fun h => nomatch h
    · exact fun h => nomatch h
  · rcases v with _ | t | ⟨t, n, hn⟩
    · exact fun h => nomatch h
    · exact fun h => nomatch h
    · show ofScaled (s && t) ((fin s m hm).toInt + (fin t n hn).toInt) 1 ≠ fin true 0 _
      unfold ofScaled
      split
      · rename_i h0
        intro h
        injection h with h1
        rw [Bool.and_eq_true] at h1
        obtain ⟨rfl, rfl⟩ := h1
        simp only [toInt] at h0
        have : m = 0 := by omega
        subst this
        exact hz rfl
      · rename_i h0
        unfold ofRatio
        split
        · intro h
          injection h with _ h2
          exact roundMag_pos (by omega) h2
        · exact fun h => nomatch h

/-- adding a zero changes nothing but the negative zero -/
theorem add_zero_same {z v : F64} (hz : z ≠ neg zero) (hv : IsVal v 0) : add z v = z := by
  obtain ⟨u, h0, rfl⟩ := zero_of_value hv
  rcases z with _ | s | ⟨s, m, hm⟩
  · rfl
  · rfl
  · show ofScaled (s && u) ((fin s m hm).toInt + (fin u 0 h0).toInt) 1 = _
    rw [toInt_zero, _root_.add_zero]
    unfold ofScaled
    cases s
    · split
      · rename_i h
        simp only [toInt] at h
        obtain rfl : m = 0 := by omega
        rfl
      · rw [show decide ((fin false m hm).toInt < 0) = false from decide_eq_false (by simp only [toInt]; omega),
          show (fin false m hm).toInt.natAbs = m by simp [toInt], ofRatio_rep hm]
    · split
      · rename_i h
        simp only [toInt] at h
        obtain rfl : m = 0 := by omega
        exact absurd rfl hz
      · rename_i h
        rw [show decide ((fin true m hm).toInt < 0) = true from decide_eq_true (by simp only [toInt] at h ⊢; omega),
          show (fin true m hm).toInt.natAbs = m by simp [toInt], ofRatio_rep hm]

theorem mul_zero_value {v c : F64} {q : ℚ} (hv : IsVal v 0) (hc : IsVal c q) : IsVal (mul v c) 0 := by
  obtain ⟨u, h0, rfl⟩ := zero_of_value hv
  rcases c with _ | t | ⟨t, n, hn⟩
  · cases hc
  · cases t <;> simp [IsVal, value, pt] at hc
  · show value (ofRatio (xor u t) (0 * n) unit) = _
    rw [zero_mul]
    exact ofRatio_zero_value _ _ unit_pos

theorem mul_value_zero {v c : F64} {q : ℚ} (hv : IsVal v q) (hc : IsVal c 0) : IsVal (mul v c) 0 := by
  obtain ⟨u, h0, rfl⟩ := zero_of_value hc
  rcases v with _ | t | ⟨t, n, hn⟩
  · cases hv
  · cases t <;> simp [IsVal, value, pt] at hv
  · show value (ofRatio (xor t u) (n * 0) unit) = _
    exact ofRatio_zero_value _ _ unit_pos

end F64

/-- the iterations other than `r`, counted from 0 -/
def skip (r i : Nat) : Nat := if i < r then i else i + 1

theorem accumulate_skip {f : Nat → F64 → F64} {Inv : F64 → Prop} {r : Nat} {z : F64} (hz : Inv z) : ∀ {n : Nat}, r ≤ n →
    (∀ i ≤ n, ∀ a, Inv a → Inv (f i a)) → (∀ a, Inv a → f r a = a) → accumulate f (n + 1) z = accumulate (fun i => f (skip r i)) n z := by
  have keep : ∀ n, (∀ i < n, ∀ a, Inv a → Inv (f i a)) → Inv (accumulate f n z) := by
    intro n
    induction n with
    | zero => exact fun _ => hz
    | succ n ih =>
      intro h
      rw [accumulate_snoc]
      exact h n (by omega) _ (ih fun i hi => h i (by omega))
  intro n
  induction n with
  | zero =>
    intro hr _ h
    obtain rfl : r = 0 := by omega
    rw [accumulate_snoc]
    exact h _ hz
  | succ n ih =>
    intro hr hi h
    rcases Nat.lt_or_ge r (n + 1) with hlt | hge
    · rw [accumulate_snoc f (n + 1), ih (by omega) (fun i hi' => hi i (by omega)) h, accumulate_snoc]
      show _ = f (skip r n) _
      rw [skip, if_neg (by omega)]
    · obtain rfl : r = n + 1 := by omega
      rw [accumulate_snoc, h _ (keep _ fun i hi' => hi i (by omega))]
      refine accumulate_congr z fun i hi' x => ?_
      rw [skip, if_pos hi']

theorem without_get {α : Type} {l : List α} {K N r i k : Nat} (hl : N * K ≤ l.length) (hr : r < N) (hk : k < K) :
    (withoutIteration K r l)[i * K + k]? = l[skip r i * K + k]? := by
  have hrK : r * K ≤ l.length := Nat.le_trans (Nat.mul_le_mul_right K (by omega)) hl
  unfold withoutIteration skip
  split
  · rename_i h
    have := tree_index h hk
    rw [List.getElem?_append_left (by rw [List.length_take]; omega), List.getElem?_take_of_lt this]
  · rename_i h
    have h1 : r * K ≤ i * K := Nat.mul_le_mul_right K (by omega)
    have h2 : (List.take (r * K) l).length = r * K := by rw [List.length_take]; omega
    rw [List.getElem?_append_right (by omega), h2, List.getElem?_drop]
    congr 1
    have h3 : (r + 1) * K = r * K + K := by ring
    have h4 : (i + 1) * K = i * K + K := by ring
    omega

theorem without_length {α : Type} {l : List α} {K N r : Nat} (hl : l.length = (N + 1) * K) (hr : r ≤ N) :
    (withoutIteration K r l).length = N * K := by
  have h1 : r * K ≤ N * K := Nat.mul_le_mul_right K hr
  have h3 : (r + 1) * K = r * K + K := by ring
  have h4 : (N + 1) * K = N * K + K := by ring
  unfold withoutIteration
  rw [List.length_append, List.length_take, List.length_drop, hl]
  omega

theorem mem_without {α : Type} {l : List α} {K r : Nat} {x : α} (h : x ∈ withoutIteration K r l) : x ∈ l := by
  rcases List.mem_append.1 h with h | h
  · exact List.mem_of_mem_take h
  · exact List.mem_of_mem_drop h

theorem skip_lt {r i N : Nat} (h : i < N) : skip r i < N + 1 := by unfold skip; split <;> omega

/-- every iteration but `r` is `skip r i` for some `i` -/
theorem skip_onto {r i N : Nat} (h : i < N + 1) (hr : r ≤ N) (hne : i ≠ r) : ∃ j < N, skip r j = i := by
  by_cases hi : i < r
  · exact ⟨i, by omega, by rw [skip, if_pos hi]⟩
  · exact ⟨i - 1, by omega, by rw [skip, if_neg (by omega)]; omega⟩

theorem skip_inj {r i j : Nat} (h : skip r i = skip r j) : i = j := by
  unfold skip at h
  split at h <;> split at h <;> omega

theorem skip_ne {r i : Nat} : skip r i ≠ r := by unfold skip; split <;> omega

/-- choose the values of all iterations from those of the iterations kept and of the one removed -/
theorem unskip {β : Type} (r : Nat) (v : Nat → β) (x : β) : ∃ u : Nat → β, u r = x ∧ ∀ i, u (skip r i) = v i := by
  refine ⟨fun i => if i < r then v i else if i = r then x else v (i - 1), by simp, fun i => ?_⟩
  unfold skip
  by_cases h : i < r
  · simp [h]
  · have h1 : ¬ i + 1 < r := by omega
    have h2 : i + 1 ≠ r := by omega
    simp [h, h1, h2]

theorem value_zero_of {d : TreeDesc} {out : F64 → Int} {row : List F64} {w : F64} (hz : d.Zero) (h : d.Value out row w) : IsVal w 0 := by
  unfold TreeDesc.Value at h
  split at h
  · exact hz _ (List.mem_of_getElem? h)
  · obtain ⟨k, -, h⟩ := h
    exact hz _ (List.mem_of_getElem? h)

/-- the general form: `V j x` says that `x` is what tree `j` gives, `g` adds it -/
theorem gen_skip {β : Type} {V V' : Nat → β → Prop} {g : β → F64 → F64} {Inv : F64 → Prop} {z : F64} {K N r : Nat} (hr : r ≤ N)
    (hV : ∀ i k x, k < K → (V' (i * K + k) x ↔ V (skip r i * K + k) x)) (hz : Inv z)
    (hi : ∀ j b a, V j b → Inv a → Inv (g b a)) (hs : ∀ k < K, ∀ b a, V (r * K + k) b → Inv a → g b a = a) {w : List F64} :
    ((∃ v : Nat → Nat → β, (∀ i < N + 1, ∀ k < K, V (i * K + k) (v i k)) ∧
        w = (List.range K).map fun k => accumulate (fun i acc => g (v i k) acc) (N + 1) z) →
      ∃ v : Nat → Nat → β, (∀ i < N, ∀ k < K, V' (i * K + k) (v i k)) ∧
        w = (List.range K).map fun k => accumulate (fun i acc => g (v i k) acc) N z) ∧
    ((∀ k < K, ∃ x, V (r * K + k) x) →
      (∃ v : Nat → Nat → β, (∀ i < N, ∀ k < K, V' (i * K + k) (v i k)) ∧
        w = (List.range K).map fun k => accumulate (fun i acc => g (v i k) acc) N z) →
      ∃ v : Nat → Nat → β, (∀ i < N + 1, ∀ k < K, V (i * K + k) (v i k)) ∧
        w = (List.range K).map fun k => accumulate (fun i acc => g (v i k) acc) (N + 1) z) := by
  have sums : ∀ v : Nat → Nat → β, (∀ i < N + 1, ∀ k < K, V (i * K + k) (v i k)) →
      (List.range K).map (fun k => accumulate (fun i acc => g (v i k) acc) (N + 1) z) =
      (List.range K).map (fun k => accumulate (fun i acc => g (v (skip r i) k) acc) N z) := by
    intro v hv
    refine List.map_congr_left fun k hk => ?_
    have hk := List.mem_range.1 hk
    exact accumulate_skip (f := fun i acc => g (v i k) acc) hz hr (fun i hi' a ha => hi _ _ _ (hv i (by omega) k hk) ha)
      fun a ha => hs k hk _ a (hv r (by omega) k hk) ha
  refine ⟨?_, ?_⟩
  · rintro ⟨v, hv, rfl⟩
    exact ⟨fun i k => v (skip r i) k, fun i hi k hk => (hV i k _ hk).2 (hv _ (skip_lt hi) k hk), sums v hv⟩
  · rintro hx ⟨v, hv, rfl⟩
    by_cases hN : K = 0
    · subst hN
      exact ⟨fun i k => v 0 0, fun _ _ k hk => absurd hk (by omega), rfl⟩
    have hx : ∀ k, ∃ x, k < K → V (r * K + k) x := by
      intro k
      by_cases hk : k < K
      · obtain ⟨x, h⟩ := hx k hk
        exact ⟨x, fun _ => h⟩
      · obtain ⟨x, -⟩ := hx 0 (by omega)
        exact ⟨x, fun h => absurd h hk⟩
    choose x hx using hx
    obtain ⟨u, hu, hus⟩ := unskip r v x
    have huv : ∀ i < N + 1, ∀ k < K, V (i * K + k) (u i k) := by
      intro i hi k hk
      by_cases hir : i = r
      · rw [hir, hu]
        exact hx k hk
      · obtain ⟨j, hj, rfl⟩ := skip_onto hi hr hir
        rw [hus]
        exact (hV j k _ hk).1 (hv j hj k hk)
    refine ⟨u, huv, ?_⟩
    refine Eq.trans ?_ (sums u huv).symm
    simp only [hus]

theorem one_keeps {P : Platform} (hP : P.MulAddOK) {b a : F64} (ha : a ≠ F64.neg F64.zero) : P.mulAdd b F64.one a ≠ F64.neg F64.zero := by
  rw [hP.one]
  exact F64.add_ne_negZero ha

theorem one_skips {P : Platform} (hP : P.MulAddOK) {b a : F64} (hb : IsVal b 0) (ha : a ≠ F64.neg F64.zero) : P.mulAdd b F64.one a = a := by
  rw [hP.one]
  exact F64.add_zero_same ha hb

theorem refRaw_skip {P : Platform} (hP : P.MulAddOK) {ds : List TreeDesc} {K N r : Nat} (hlen : ds.length = (N + 1) * K) (hr : r ≤ N)
    (hz : ∀ k < K, ∀ d, ds[r * K + k]? = some d → d.Zero) {row w : List F64} :
    (RefRaw P P.out ds K false row (N + 1) w → RefRaw P P.out (withoutIteration K r ds) K false row N w) ∧
    ((∀ k < K, ∃ x d, ds[r * K + k]? = some d ∧ d.Value P.out row x) → RefRaw P P.out (withoutIteration K r ds) K false row N w →
      RefRaw P P.out ds K false row (N + 1) w) :=
  gen_skip (V := fun j x => ∃ d, ds[j]? = some d ∧ d.Value P.out row x)
    (V' := fun j x => ∃ d, (withoutIteration K r ds)[j]? = some d ∧ d.Value P.out row x)
    (g := fun x acc => P.mulAdd x F64.one acc) (Inv := fun a => a ≠ F64.neg F64.zero) hr
    (fun i k x hk => by rw [without_get (N := N + 1) (by omega) (by omega) hk]) (by decide) (fun _ _ _ _ ha => one_keeps hP ha)
    fun k hk b a ⟨d, h1, h2⟩ ha => one_skips hP (value_zero_of (hz k hk d h1) h2) ha

theorem jRefRaw_skip {P : Platform} (hP : P.MulAddOK) {ts : List JTree} {K N r : Nat} (hlen : ts.length = (N + 1) * K) (hr : r ≤ N)
    (hz : ∀ k < K, ∀ t, ts[r * K + k]? = some t → ZeroNode t.root) {row w : List F64} :
    (JRefRaw P P.out ts K row (N + 1) w → JRefRaw P P.out (withoutIteration K r ts) K row N w) ∧
    ((∀ k < K, ∃ x t p, ts[r * K + k]? = some t ∧ JWalk P.out row t.root p x) → JRefRaw P P.out (withoutIteration K r ts) K row N w →
      JRefRaw P P.out ts K row (N + 1) w) :=
  gen_skip (V := fun j x => ∃ t p, ts[j]? = some t ∧ JWalk P.out row t.root p x)
    (V' := fun j x => ∃ t p, (withoutIteration K r ts)[j]? = some t ∧ JWalk P.out row t.root p x)
    (g := fun x acc => P.mulAdd x F64.one acc) (Inv := fun a => a ≠ F64.neg F64.zero) hr
    (fun i k x hk => by rw [without_get (N := N + 1) (by omega) (by omega) hk]) (by decide) (fun _ _ _ _ ha => one_keeps hP ha)
    fun k hk b a ⟨t, p, h1, h2⟩ ha => one_skips hP (hz k hk t h1 _ _ _ _ h2) ha

/-- asked for all the estimators of both models -/
theorem used_all {req req' : Int} {N n : Nat} (h : Used req N N) (h' : Used req' n n) {R R' : Nat → Prop} (hR : R N → R' n) :
    (∃ j, Used req N j ∧ R j) → ∃ j, Used req' n j ∧ R' j := by
  rintro ⟨j, h1, h2⟩
  obtain rfl := Used.unique h1 h
  exact ⟨_, h', hR h2⟩

/-- **C115, LightGBM text files.** The second file is the first one without an iteration whose leaf values are all zeros. What the first
model predicts for a row with all its trees, the second predicts with all of its own; if the trees removed have a single leaf, the two
models predict the same for rows and matrices altogether. -/
theorem C115_text (P : Platform) (hP : P.MulAddOK) (print : F64 → Str) (text text' rest0 rest0' rest rest' : Str) (header header' : List Str)
    (e0 e0' e1 e1' : Bool) (bs bs' : List (List Str)) (ds : List TreeDesc) (K N r : Nat) (M : Int)
    (hK : 1 ≤ K ∧ K < 2 ^ 63) (hN : 1 ≤ N) (hr : r ≤ N) (hlen : ds.length = (N + 1) * K)
    (hok : ∀ d ∈ ds, d.OK P.parseFloat print ∧ d.inner * 24 ≤ P.maxAlloc)
    (hz : ∀ k < K, ∀ d, ds[r * K + k]? = some d → d.Zero)
    (hh : FileBlock text header rest0 e0) (hhl : HeaderLines header K M ds.length false)
    (hb : FileBlocks rest0 bs rest e1) (hbl : List.Forall₂ (TreeLines print) ds bs)
    (hh' : FileBlock text' header' rest0' e0') (hhl' : HeaderLines header' K M (N * K) false)
    (hb' : FileBlocks rest0' bs' rest' e1') (hbl' : List.Forall₂ (TreeLines print) (withoutIteration K r ds) bs') :
    ∃ e e', lgEnsembleFromReader P ⟨text, false⟩ false = .ok (e, ⟨rest, false⟩) ∧
      lgEnsembleFromReader P ⟨text', false⟩ false = .ok (e', ⟨rest', false⟩) ∧
      e.nEstimators = .ok ((N + 1 : Nat) : Int) ∧ e'.nEstimators = .ok N ∧
      ∀ req req', Used req (N + 1) (N + 1) → Used req' N N →
        (∀ row m m', (e.predict P row req m.length).run m = (.ok ⟨⟩, m') → (e'.predict P row req' m.length).run m = (.ok ⟨⟩, m')) ∧
        ((∀ k < K, ∀ d, ds[r * K + k]? = some d → d.inner = 0) → SameFor P e req e' req') := by
  have hlen' := without_length hlen hr
  obtain ⟨e, l1, f1, -, t1, w1, n1, -, p1⟩ := C39_text_file P print text rest0 rest header e0 e1 bs ds K (N + 1) M false hK (by omega) hlen hh hhl hb hbl hok
  obtain ⟨e', l2, f2, -, t2, w2, n2, -, p2⟩ := C39_text_file P print text' rest0' rest' header' e0' e1' bs' (withoutIteration K r ds) K N M false hK hN hlen' hh'
    (by rw [hlen']; exact hhl') hb' hbl' fun d hd => hok d (mem_without hd)
  have sk := @refRaw_skip P hP ds K N r hlen hr hz
  refine ⟨e, e', l1, l2, t1, t2, fun req req' hu hu' => ⟨fun row m m' => ?_, fun hs => ?_⟩⟩
  · rw [p1, p2, n1, n2]
    refine fun ⟨h1, h2, h⟩ => ⟨h1, h2, ?_⟩
    simp only [exists_and_left] at h ⊢
    exact used_all hu hu' (R := fun j => ∃ w, RefRaw P P.out ds K false row j w ∧ Stored m 0 w m')
      (R' := fun j => ∃ w, RefRaw P P.out (withoutIteration K r ds) K false row j w ∧ Stored m 0 w m')
      (fun ⟨w, a, b⟩ => ⟨w, sk.1 a, b⟩) h
  · refine SameFor.of_rows f1 f2 (w1.trans w2.symm) (n1.trans n2.symm) ((lg_loaded_base l1).trans (lg_loaded_base l2).symm) fun row m m' => ?_
    rw [p1, p2, n1, n2]
    refine and_congr_right fun _ => and_congr_right fun _ => ?_
    simp only [exists_and_left]
    have hx : ∀ k < K, ∃ x d, ds[r * K + k]? = some d ∧ d.Value P.out row x := by
      intro k hk
      have hlt : r * K + k < ds.length := by rw [hlen]; exact tree_index (by omega) hk
      have hd := hs k hk ds[r * K + k] (List.getElem?_eq_getElem hlt)
      have ok := (hok ds[r * K + k] (List.getElem_mem hlt)).1
      refine ⟨ds[r * K + k].leafValues[0]'(List.length_pos_of_ne_nil ok.leafValues), ds[r * K + k], List.getElem?_eq_getElem hlt, ?_⟩
      unfold TreeDesc.Value
      rw [if_pos hd]
      exact List.getElem?_eq_getElem _
    refine ⟨used_all hu hu' (R := fun j => ∃ w, RefRaw P P.out ds K false row j w ∧ Stored m 0 w m')
      (R' := fun j => ∃ w, RefRaw P P.out (withoutIteration K r ds) K false row j w ∧ Stored m 0 w m')
      (fun ⟨w, a, b⟩ => ⟨w, sk.1 a, b⟩), used_all hu' hu (R := fun j => ∃ w, RefRaw P P.out (withoutIteration K r ds) K false row j w ∧ Stored m 0 w m')
      (R' := fun j => ∃ w, RefRaw P P.out ds K false row j w ∧ Stored m 0 w m') (fun ⟨w, a, b⟩ => ⟨w, sk.2 hx a, b⟩)⟩

/-- **C115, LightGBM JSON dumps.** -/
theorem C115_json (P : Platform) (hP : P.MulAddOK) (v v' : Json) (K N r : Nat) (M : Int) (ts : List JTree) (hK : 1 ≤ K) (hN : 1 ≤ N)
    (hr : r ≤ N) (hlen : ts.length = (N + 1) * K)
    (hok : ∀ t ∈ ts, ∃ W, JTreeOK t W ∧ jLeaves t.root * 24 ≤ P.maxAlloc ∧ 4 * W ≤ P.maxAlloc)
    (hz : ∀ k < K, ∀ t, ts[r * K + k]? = some t → ZeroNode t.root)
    (doc : ModelDoc P v K M ts) (nest : NestedAtMost P.jsonDepth v)
    (doc' : ModelDoc P v' K M (withoutIteration K r ts)) (nest' : NestedAtMost P.jsonDepth v') :
    ∃ e e', lgEnsembleFromDocument P (some v) false = .ok e ∧ lgEnsembleFromDocument P (some v') false = .ok e' ∧
      e.nEstimators = .ok ((N + 1 : Nat) : Int) ∧ e'.nEstimators = .ok N ∧
      ∀ req req', Used req (N + 1) (N + 1) → Used req' N N →
        (∀ row m m', (e.predict P row req m.length).run m = (.ok ⟨⟩, m') → (e'.predict P row req' m.length).run m = (.ok ⟨⟩, m')) ∧
        ((∀ k < K, ∀ t, ts[r * K + k]? = some t → ∃ x, t.root = .leafLike (some x)) → SameFor P e req e' req') := by
  have hlen' := without_length hlen hr
  obtain ⟨e, l1, f1, -, -, t1, w1, n1, -, p1⟩ := C67_document P v K (N + 1) M ts doc nest ⟨hK, by omega, hlen⟩ hok
  obtain ⟨e', l2, f2, -, -, t2, w2, n2, -, p2⟩ := C67_document P v' K N M (withoutIteration K r ts) doc' nest' ⟨hK, hN, hlen'⟩
    fun t ht => hok t (mem_without ht)
  have sk := @jRefRaw_skip P hP ts K N r hlen hr hz
  refine ⟨e, e', l1, l2, t1, t2, fun req req' hu hu' => ⟨fun row m m' => ?_, fun hs => ?_⟩⟩
  · rw [p1, p2, n1, n2]
    refine fun ⟨h1, h2, h⟩ => ⟨h1, h2, ?_⟩
    simp only [exists_and_left] at h ⊢
    exact used_all hu hu' (R := fun j => ∃ w, JRefRaw P P.out ts K row j w ∧ Stored m 0 w m')
      (R' := fun j => ∃ w, JRefRaw P P.out (withoutIteration K r ts) K row j w ∧ Stored m 0 w m')
      (fun ⟨w, a, b⟩ => ⟨w, sk.1 a, b⟩) h
  · refine SameFor.of_rows f1 f2 (w1.trans w2.symm) (n1.trans n2.symm) ((jDoc_loaded_base l1).trans (jDoc_loaded_base l2).symm) fun row m m' => ?_
    rw [p1, p2, n1, n2]
    refine and_congr_right fun _ => and_congr_right fun _ => ?_
    simp only [exists_and_left]
    have hx : ∀ k < K, ∃ x t p, ts[r * K + k]? = some t ∧ JWalk P.out row t.root p x := by
      intro k hk
      have hlt : r * K + k < ts.length := by rw [hlen]; exact tree_index (by omega) hk
      obtain ⟨x, hx⟩ := hs k hk ts[r * K + k] (List.getElem?_eq_getElem hlt)
      exact ⟨x, ts[r * K + k], [], List.getElem?_eq_getElem hlt, by rw [hx]; exact .leaf x⟩
    refine ⟨used_all hu hu' (R := fun j => ∃ w, JRefRaw P P.out ts K row j w ∧ Stored m 0 w m')
      (R' := fun j => ∃ w, JRefRaw P P.out (withoutIteration K r ts) K row j w ∧ Stored m 0 w m')
      (fun ⟨w, a, b⟩ => ⟨w, sk.1 a, b⟩), used_all hu' hu (R := fun j => ∃ w, JRefRaw P P.out (withoutIteration K r ts) K row j w ∧ Stored m 0 w m')
      (R' := fun j => ∃ w, JRefRaw P P.out ts K row j w ∧ Stored m 0 w m') (fun ⟨w, a, b⟩ => ⟨w, sk.2 hx a, b⟩)⟩

/-- what tree `j` gives to the sum: its value and its weight -/
def XgGives (goes : List XgBin.Node → List F64 → Nat → Bool → Prop) (m : XgModel) (row : List F64) (j : Nat) (x : F64 × F64) : Prop :=
  (∃ t T leaf, m.gbtree.trees[j]? = some t ∧ m.shapes[j]? = some T ∧ Walk (goes t.nodes row) T leaf ∧ XgVal t.nodes leaf x.1) ∧ m.Weight j x.2

theorem xgRefRaw_pairs {P : Platform} {goes : List XgBin.Node → List F64 → Nat → Bool → Prop} {m : XgModel} {K n : Nat} {row w : List F64} :
    XgRefRaw P goes m K row n w ↔ ∃ v : Nat → Nat → F64 × F64, (∀ i < n, ∀ k < K, XgGives goes m row (i * K + k) (v i k)) ∧
      w = (List.range K).map fun k => accumulate (fun i acc => (fun (x : F64 × F64) acc => P.mulAdd x.1 x.2 acc) (v i k) acc) n
        (F64.ofBits32 m.header.param.baseScore) := by
  constructor
  · rintro ⟨v, c, h1, h2, h3⟩
    exact ⟨fun i k => (v i k, c i k), fun i hi k hk => ⟨h1 i hi k hk, h2 i hi k hk⟩, h3⟩
  · rintro ⟨v, h1, h3⟩
    exact ⟨fun i k => (v i k).1, fun i k => (v i k).2, fun i hi k hk => (h1 i hi k hk).1, fun i hi k hk => (h1 i hi k hk).2, h3⟩

theorem xgGives_add {P : Platform} (hP : P.MulAddOK) {goes : List XgBin.Node → List F64 → Nat → Bool → Prop} {m : XgModel} {row : List F64}
    {j : Nat} {x : F64 × F64} (h : XgGives goes m row j x) (a : F64) : P.mulAdd x.1 x.2 a = F64.add a (F64.mul x.1 x.2) := by
  obtain ⟨⟨t, T, leaf, -, -, -, n, -, h1⟩, h2⟩ := h
  have : ∃ b, x.2 = F64.ofBits32 b := by
    unfold XgModel.Weight at h2
    split at h2
    · obtain ⟨b, -, h⟩ := h2
      exact ⟨b, h⟩
    · exact ⟨0x3f800000#32, by rw [h2]; decide +kernel⟩
  obtain ⟨b, hb⟩ := this
  rw [h1, hb, hP.float32, F64.add_comm]

theorem walk_leaf_mem {goes : Nat → Bool → Prop} {T : BTree} {k : Nat} (h : Walk goes T k) : k ∈ T.leaves := by
  induction h with
  | leaf => simp [BTree.leaves]
  | left _ _ ih => simp [BTree.leaves, ih]
  | right _ _ ih => simp [BTree.leaves, ih]

theorem xgRefRaw_skip {P : Platform} (hP : P.MulAddOK) {goes : List XgBin.Node → List F64 → Nat → Bool → Prop} {m m' : XgModel} {K N r : Nat}
    (hlen : m.gbtree.trees.length = (N + 1) * K) (hsh : m.shapes.length = (N + 1) * K) (hwl : m.dart = true → m.weights.length = (N + 1) * K)
    (h : m.Without m' K r) (hr : r ≤ N) (hbase : F64.ofBits32 m.header.param.baseScore ≠ F64.neg F64.zero)
    (hz : ∀ k < K, ∀ t T c, m.gbtree.trees[r * K + k]? = some t → m.shapes[r * K + k]? = some T → m.Weight (r * K + k) c → AddsNothing t T c) {row w : List F64} :
    (XgRefRaw P goes m K row (N + 1) w → XgRefRaw P goes m' K row N w) ∧
    ((∀ k < K, ∃ x, XgGives goes m row (r * K + k) x) → XgRefRaw P goes m' K row N w → XgRefRaw P goes m K row (N + 1) w) := by
  rw [xgRefRaw_pairs, xgRefRaw_pairs, h.score]
  refine gen_skip (V := XgGives goes m row) (V' := XgGives goes m' row) (g := fun (x : F64 × F64) acc => P.mulAdd x.1 x.2 acc)
    (Inv := fun a => a ≠ F64.neg F64.zero) hr ?_ hbase ?_ ?_
  · intro i k x hk
    unfold XgGives XgModel.Weight
    rw [h.trees, h.shapes, h.weights, h.booster, without_get (N := N + 1) (by omega) (by omega) hk, without_get (N := N + 1) (by omega) (by omega) hk]
    refine and_congr_right fun _ => ?_
    split
    · rename_i hd
      have := hwl hd
      rw [without_get (N := N + 1) (by omega) (by omega) hk]
    · exact Iff.rfl
  · intro j b a hb ha
    rw [xgGives_add hP hb]
    exact F64.add_ne_negZero ha
  · intro k hk b a hb ha
    rw [xgGives_add hP hb]
    obtain ⟨⟨t, T, leaf, h1, h2, h3, h4⟩, h5⟩ := hb
    refine F64.add_zero_same ha ?_
    rcases hz k hk t T _ h1 h2 h5 with ⟨hz, q, hq⟩ | ⟨hc, hf⟩
    · exact F64.mul_zero_value (hz leaf (walk_leaf_mem h3) _ h4) hq
    · obtain ⟨q, hq⟩ := hf leaf (walk_leaf_mem h3) _ h4
      exact F64.mul_value_zero hq hc

/-- **C115, XGBoost files**, boosted trees and DART. The trees removed have zeros in their leaves or the weight 0, and no infinities; the base score is not the
negative zero. -/
theorem C115_xgboost (P : Platform) (hP : P.MulAddOK) (m m' : XgModel) (K N r : Nat) (ok : m.OK P.maxAlloc K (N + 1)) (ok' : m'.OK P.maxAlloc K N)
    (h : m.Without m' K r) (hr : r ≤ N) (hbase : F64.ofBits32 m.header.param.baseScore ≠ F64.neg F64.zero)
    (hz : ∀ k < K, ∀ t T c, m.gbtree.trees[r * K + k]? = some t → m.shapes[r * K + k]? = some T → m.Weight (r * K + k) c → AddsNothing t T c)
    (lt : Bool) (tr : Transform) (ho : XgObjective K m.header.nameObj lt tr) (hlog : tr = .logistic → K = 1) :
    ∃ e e', (∀ rest, xgEnsembleFromReader P lt (m.image ++ rest) = .ok (e, rest)) ∧
      (∀ rest, xgEnsembleFromReader P lt (m'.image ++ rest) = .ok (e', rest)) ∧
      e.nEstimators = .ok ((N + 1 : Nat) : Int) ∧ e'.nEstimators = .ok N ∧
      ∀ req req', Used req (N + 1) (N + 1) → Used req' N N →
        (∀ row s s', (e.predict P row req s.length).run s = (.ok ⟨⟩, s') → (e'.predict P row req' s.length).run s = (.ok ⟨⟩, s')) ∧
        ((∀ k < K, m.shapes[r * K + k]? = some (.leaf 0)) → SameFor P e req e' req') := by
  have ho' : XgObjective K m'.header.nameObj lt tr := by rw [h.objective]; exact ho
  obtain ⟨e, l1, f1, r1, -, t1, n1, -, p1⟩ := C62_xgboost_file_le P m K (N + 1) ok lt tr ho hlog
  obtain ⟨e', l2, f2, r2, -, t2, n2, -, p2⟩ := C62_xgboost_file_le P m' K N ok' lt tr ho' hlog
  have hg : e.nOutputGroups = e'.nOutputGroups := congrArg Transform.nOutputGroups (r1.trans r2.symm)
  rw [h.features] at n2
  have hlen := ok.counts.2.2
  have hsh : m.shapes.length = (N + 1) * K := ok.trees.length_eq.symm.trans hlen
  have sk := @xgRefRaw_skip P hP XgGoesLe m m' K N r hlen hsh ok.weights h hr hbase hz
  refine ⟨e, e', l1, l2, t1, t2, fun req req' hu hu' => ⟨fun row s s' => ?_, fun hs => ?_⟩⟩
  · rw [p1, p2, n1, n2, hg]
    refine fun ⟨h1, h2, h⟩ => ⟨h1, h2, ?_⟩
    simp only [exists_and_left] at h ⊢
    exact used_all hu hu' (R := fun j => ∃ w, XgRefRaw P XgGoesLe m K row j w ∧ ∃ out, IsTransformed P tr w out ∧ Stored s 0 out s')
      (R' := fun j => ∃ w, XgRefRaw P XgGoesLe m' K row j w ∧ ∃ out, IsTransformed P tr w out ∧ Stored s 0 out s')
      (fun ⟨w, a, b⟩ => ⟨w, sk.1 a, b⟩) h
  · refine SameFor.of_rows f1 f2 hg (n1.trans n2.symm) ((xg_loaded_default ok ho l1).trans (xg_loaded_default ok' ho' l2).symm) fun row s s' => ?_
    rw [p1, p2, n1, n2, hg]
    refine and_congr_right fun _ => and_congr_right fun _ => ?_
    simp only [exists_and_left]
    have hx : ∀ k < K, ∃ x, XgGives XgGoesLe m row (r * K + k) x := by
      intro k hk
      have hj : r * K + k < (N + 1) * K := tree_index (by omega) hk
      have hs := hs k hk
      have hlt : r * K + k < m.gbtree.trees.length := by omega
      have ht := List.getElem?_eq_getElem hlt
      have hn : ∃ n, m.gbtree.trees[r * K + k].nodes[0]? = some n := by
        have hsl : r * K + k < m.shapes.length := by omega
        have hm := (List.forall₂_iff_get.1 ok.trees).2 (r * K + k) hlt hsl
        rw [List.getElem?_eq_getElem hsl, Option.some.injEq] at hs
        simp only [List.get_eq_getElem, hs] at hm
        rcases hm with hm | ⟨⟨n, hm⟩, -⟩
        · exact absurd hm.split (by decide)
        · exact ⟨n, by rw [hm]; rfl⟩
      obtain ⟨n, hn⟩ := hn
      have hc : ∃ c, m.Weight (r * K + k) c := by
        unfold XgModel.Weight
        split
        · rename_i hd
          have := ok.weights hd
          exact ⟨_, _, List.getElem?_eq_getElem (by omega), rfl⟩
        · exact ⟨_, rfl⟩
      obtain ⟨c, hc⟩ := hc
      exact ⟨(F64.ofBits32 n.info, c), ⟨_, _, 0, ht, hs, .leaf 0, n, hn, rfl⟩, hc⟩
    refine ⟨used_all hu hu' (R := fun j => ∃ w, XgRefRaw P XgGoesLe m K row j w ∧ ∃ out, IsTransformed P tr w out ∧ Stored s 0 out s')
      (R' := fun j => ∃ w, XgRefRaw P XgGoesLe m' K row j w ∧ ∃ out, IsTransformed P tr w out ∧ Stored s 0 out s')
      (fun ⟨w, a, b⟩ => ⟨w, sk.1 a, b⟩),
      used_all hu' hu (R := fun j => ∃ w, XgRefRaw P XgGoesLe m' K row j w ∧ ∃ out, IsTransformed P tr w out ∧ Stored s 0 out s')
      (R' := fun j => ∃ w, XgRefRaw P XgGoesLe m K row j w ∧ ∃ out, IsTransformed P tr w out ∧ Stored s 0 out s')
      (fun ⟨w, a, b⟩ => ⟨w, sk.2 hx a, b⟩)⟩

/-! ## Examples -/

namespace ZeroTreesExample

open LgExample (platform)
open LgLoadExample (d1 d1_ok print plain_of ds_ok)

/-- a tree with one leaf of value 0 -/
def d0 : TreeDesc where
  numCat := 0
  inner := 0
  leafValues := [F64.ofNat 0]
  catThreshold := []
  arrays := LgExample.arrays
  tree := .leaf 0

theorem d0_ok : d0.OK platform.parseFloat print where
  numCat := by decide
  leafValues := by decide
  leafText := by decide +kernel
  tree := fun h => absurd rfl h
  left := fun h => absurd rfl h
  right := fun h => absurd rfl h
  decision := fun h => absurd rfl h
  feature := fun h => absurd rfl h
  threshold := fun h => absurd rfl h
  cats := fun h => absurd rfl h

theorem all_ok : ∀ d ∈ [d1, d0, d1], d.OK platform.parseFloat print ∧ PlainFloats print d ∧ d.inner * 24 ≤ platform.maxAlloc := by
  have h1 := ds_ok d1 (by simp)
  intro d hd
  simp only [List.mem_cons, List.not_mem_nil, or_false] at hd
  rcases hd with rfl | rfl | rfl
  · exact h1
  · refine ⟨d0_ok, ⟨fun x hx => plain_of ?_, fun h => absurd rfl h⟩, by decide⟩
    revert x; decide +kernel
  · exact h1

/-- Three trees, the second of them a single leaf of value 0. Without it the model predicts the same: 20 for the row (5, 33). -/
theorem C115_example : ∃ e e',
    lgEnsembleFromReader platform ⟨modelText print [d1, d0, d1] 1 1 false ++ [], false⟩ false = .ok (e, ⟨[], false⟩) ∧
    lgEnsembleFromReader platform ⟨modelText print [d1, d1] 1 1 false ++ [], false⟩ false = .ok (e', ⟨[], false⟩) ∧
    SameFor platform e 0 e' 0 ∧ (e.predict platform [F64.ofNat 5, F64.ofNat 33] 0 1).run [F64.nan] = (.ok ⟨⟩, [F64.ofNat 20]) := by
  obtain ⟨header, rest0, blocks, h1, h2, h3, h4⟩ := modelText_blocks (M := 1) [] 1 false (by norm_num) all_ok
  obtain ⟨header', rest0', blocks', g1, g2, g3, g4⟩ := modelText_blocks (P := platform) (print := print) (ds := [d1, d1]) (M := 1) [] 1 false (by norm_num)
    fun d hd => all_ok d (by simp only [List.mem_cons, List.not_mem_nil, or_false] at hd ⊢; tauto)
  have hz : ∀ k < 1, ∀ d, [d1, d0, d1][1 * 1 + k]? = some d → d = d0 := by
    intro k hk d h
    obtain rfl : k = 0 := by omega
    exact (Option.some.inj h).symm
  obtain ⟨e, e', l1, l2, -, -, h⟩ := C115_text platform (fun _ _ _ => .inl rfl) print _ _ _ _ _ _ _ _ _ _ _ _ _ _ [d1, d0, d1] 1 2 1 1 (by norm_num) (by omega)
    (by omega) rfl (fun d hd => ⟨(all_ok d hd).1, (all_ok d hd).2.2⟩) (fun k hk d h => by
      rw [hz k hk d h]
      intro v hv
      obtain rfl : v = F64.ofNat 0 := List.mem_singleton.1 hv
      rw [show F64.ofNat 0 = F64.zero by decide +kernel]
      exact F64.value_zero _ _) h1 h2 h3 h4 g1 g2 g3 g4
  obtain ⟨e2, c1, c2⟩ := SkModelExample.of_check (r := lgEnsembleFromReader platform ⟨modelText print [d1, d0, d1] 1 1 false ++ [], false⟩ false)
    (fun e => (e.1.predict platform [F64.ofNat 5, F64.ofNat 33] 0 1).run [F64.nan] = (.ok ⟨⟩, [F64.ofNat 20])) (by decide +kernel)
  rw [l1] at c1
  cases c1
  exact ⟨e, e', l1, l2, (h 0 0 (by unfold Used; decide) (by unfold Used; decide)).2 fun k hk d h => by rw [hz k hk d h]; rfl, c2⟩

/-- A random forest takes the average, so there a tree of value 0 counts: of two trees with 10 and 0 the average is 5, of one with 10 it is 10. -/
theorem C115_not_for_averages : ∃ e e',
    lgEnsembleFromReader platform ⟨modelText print [d1, d0] 1 1 true, false⟩ false = .ok e ∧
    lgEnsembleFromReader platform ⟨modelText print [d1] 1 1 true, false⟩ false = .ok e' ∧
    (e.1.predict platform [F64.ofNat 5, F64.ofNat 33] 0 1).run [F64.nan] = (.ok ⟨⟩, [F64.ofNat 5]) ∧
    (e'.1.predict platform [F64.ofNat 5, F64.ofNat 33] 0 1).run [F64.nan] = (.ok ⟨⟩, [F64.ofNat 10]) := by
  obtain ⟨e, c1, c2⟩ := SkModelExample.of_check (r := lgEnsembleFromReader platform ⟨modelText print [d1, d0] 1 1 true, false⟩ false)
    (fun e => (e.1.predict platform [F64.ofNat 5, F64.ofNat 33] 0 1).run [F64.nan] = (.ok ⟨⟩, [F64.ofNat 5])) (by decide +kernel)
  obtain ⟨e', c1', c2'⟩ := SkModelExample.of_check (r := lgEnsembleFromReader platform ⟨modelText print [d1] 1 1 true, false⟩ false)
    (fun e => (e.1.predict platform [F64.ofNat 5, F64.ofNat 33] 0 1).run [F64.nan] = (.ok ⟨⟩, [F64.ofNat 10])) (by decide +kernel)
  exact ⟨e, e', c1, c1', c2, c2'⟩

/-- the hypothesis of the theorem on XGBoost files holds of this file: the second of three trees is a leaf of value −0 -/
example : (TreeOrderExample.leafFile 0x3f800000#32 0x80000000#32 0x40000000#32).OK Platform.demo.maxAlloc 1 (2 + 1) ∧
    (∀ k < 1, ∀ t T c, (TreeOrderExample.leafFile 0x3f800000#32 0x80000000#32 0x40000000#32).gbtree.trees[1 * 1 + k]? = some t →
      (TreeOrderExample.leafFile 0x3f800000#32 0x80000000#32 0x40000000#32).shapes[1 * 1 + k]? = some T →
      (TreeOrderExample.leafFile 0x3f800000#32 0x80000000#32 0x40000000#32).Weight (1 * 1 + k) c → AddsNothing t T c) := by
  refine ⟨TreeOrderExample.leafFile_ok _ _ _, ?_⟩
  intro k hk t T c h1 h2 hc
  obtain rfl : k = 0 := by omega
  obtain rfl := Option.some.inj h1
  obtain rfl := Option.some.inj h2
  refine .inl ⟨?_, ?_⟩
  · intro leaf hl v hv
    obtain rfl : leaf = 0 := by simpa [BTree.leaves] using hl
    obtain ⟨n, h1, rfl⟩ := hv
    obtain rfl := Option.some.inj h1
    show value (F64.ofBits32 0x80000000#32) = some (pt 0)
    rw [show F64.ofBits32 0x80000000#32 = F64.neg F64.zero by decide +kernel]
    exact F64.value_zero _ _
  · obtain rfl : c = F64.one := hc
    refine ⟨1, ?_⟩
    show value (F64.fin false unit _) = _
    rw [F64.value_fin]
    have : (unit : ℚ) ≠ 0 := by exact_mod_cast unit_pos.ne'
    simp [F64.toInt, this]

/-- the DART file of C62 with the weight 0 for its second tree -/
def dropped : XgModel := { XgFileExample.file 1#32 with weights := [0x3f800000#32, 0#32] }

/-- and without this tree -/
def kept : XgModel :=
  { XgFileExample.file 1#32 with
    gbtree := ⟨⟨1#32, 1#32, 2#32, 0#32, 0#64, 1#32, 0#32, List.replicate 32 0#32⟩, [XgFileExample.tree1], [0#32]⟩
    leafVectors := [[]]
    weights := [0x3f800000#32]
    shapes := [XgExample.tree] }

theorem dropped_ok : dropped.OK Platform.demo.maxAlloc 1 (1 + 1) := { XgFileExample.file_ok with weights := fun _ => rfl }

theorem kept_ok : kept.OK Platform.demo.maxAlloc 1 1 where
  header := XgFileExample.file_ok.header
  gbtree := ⟨rfl, by decide, rfl, by
    intro t ht
    obtain rfl : t = (XgFileExample.tree1, []) := by simpa [kept] using ht
    exact ⟨rfl, by decide, by decide, by decide, by decide⟩, rfl, by decide⟩
  name := rfl
  features := by decide
  roots := by decide
  groups := by decide
  counts := ⟨le_rfl, by norm_num, rfl⟩
  info := by
    intro i hi k hk
    obtain rfl : k = 0 := by omega
    obtain rfl : i = 0 := by omega
    exact ⟨0#32, rfl, by decide⟩
  weights := fun _ => rfl
  alloc := by decide
  trees := .cons XgFileExample.tree1_means .nil
  treeFeatures := by decide

/-- A tree of weight 0 may be left out: the two files predict the same. -/
theorem C115_dropped : ∃ e e', (∀ rest, xgEnsembleFromReader Platform.demo true (dropped.image ++ rest) = .ok (e, rest)) ∧
    (∀ rest, xgEnsembleFromReader Platform.demo true (kept.image ++ rest) = .ok (e', rest)) ∧ SameFor Platform.demo e 0 e' 0 := by
  obtain ⟨e, e', l1, l2, -, -, h⟩ := C115_xgboost Platform.demo (fun _ _ _ => .inl rfl) dropped kept 1 1 1 dropped_ok kept_ok
    ⟨rfl, rfl, rfl, rfl, rfl, rfl, rfl⟩ le_rfl (by decide +kernel) (by
      intro k hk t T c h1 h2 hc
      obtain rfl : k = 0 := by omega
      obtain rfl := Option.some.inj h1
      obtain rfl := Option.some.inj h2
      refine .inr ⟨?_, ?_⟩
      · obtain ⟨b, hb, rfl⟩ := hc
        obtain rfl := Option.some.inj hb
        show value (F64.ofBits32 0#32) = some (pt 0)
        rw [show F64.ofBits32 0#32 = F64.zero by decide +kernel]
        exact F64.value_zero _ _
      · intro leaf hl v hv
        obtain rfl : leaf = 0 := by simpa [BTree.leaves] using hl
        obtain ⟨n, h1, rfl⟩ := hv
        obtain rfl := Option.some.inj h1
        show ∃ q, value (F64.ofBits32 0x40000000#32) = some (pt q)
        obtain ⟨s, m, hm, e⟩ : F64.IsFin (F64.ofBits32 0x40000000#32) :=
          ⟨false, 2 * unit, by decide +kernel, by decide +kernel⟩
        exact ⟨_, by rw [e, F64.value_fin]⟩) true .logistic (.logistic rfl) (fun _ => rfl)
  exact ⟨e, e', l1, l2, (h 0 0 (by unfold Used; decide) (by unfold Used; decide)).2 fun k hk => by
    obtain rfl : k = 0 := by omega
    rfl⟩

end ZeroTreesExample

end Leaves
