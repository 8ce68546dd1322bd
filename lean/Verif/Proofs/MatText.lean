import Verif.Spec.MatText
import Verif.Proofs.LgRender
import Verif.Proofs.CsrArray

/-! Reading matrices line by line. -/

namespace Leaves

open Spec

namespace Mat

/-- reading the given lines -/
def runLines {μ : Type} (parse : Str → Res (List Record)) (f : μ → List Record → Res μ) : List Str → μ → Res μ
  | [], m => .ok m
  | s :: ss, m => do
    let records ← parse s
    let m ← f m records
    runLines parse f ss m

theorem firstRows_succ {α : Type} {limit rows : Int} {s : α} {ss : List α} (h : limit ≤ 0 ∨ rows < limit) :
    (if limit ≤ 0 then s :: ss else (s :: ss).take (limit - rows).toNat) =
      s :: (if limit ≤ 0 then ss else ss.take (limit - (rows + 1)).toNat) := by
  by_cases hl : limit ≤ 0
  · rw [if_pos hl, if_pos hl]
  · rw [if_neg hl, if_neg hl]
    have : (limit - rows).toNat = (limit - (rows + 1)).toNat + 1 := by omega
    rw [this, List.take_succ_cons]

theorem readRows_block {μ : Type} (parse : Str → Res (List Record)) (f : μ → List Record → Res μ) (limit : Int) {t : Str}
    {ss : List Str} {rest : Str} {e : Bool} (hb : Block t ss rest e) : ∀ (fuel : Nat) (rows : Int) (m : μ), t.length < fuel →
      (limit ≤ 0 ∨ rows < limit) →
      readRows parse f limit fuel rows ⟨t, false⟩ m = runLines parse f (if limit ≤ 0 then ss else ss.take (limit - rows).toNat) m := by
  induction hb with
  | blank l rest hn hl =>
    intro fuel rows m hf hr
    obtain ⟨fuel, rfl⟩ : ∃ k, fuel = k + 1 := ⟨fuel - 1, by omega⟩
    rw [readRows, readString_newline hn]
    simp only [trimSpace_of (isTrim_newline hl)]
    rw [if_neg (by simp), if_pos trivial]
    split <;> simp [runLines]
  | stop l hn hl =>
    intro fuel rows m hf hr
    obtain ⟨fuel, rfl⟩ : ∃ k, fuel = k + 1 := ⟨fuel - 1, by omega⟩
    rw [readRows, readString_end hn]
    simp only [trimSpace_of hl]
    rw [if_neg (by simp), if_pos trivial]
    split <;> simp [runLines]
  | @line l s t rest ss e hn hl hs hb ih =>
    intro fuel rows m hf hr
    obtain ⟨fuel, rfl⟩ : ∃ k, fuel = k + 1 := ⟨fuel - 1, by omega⟩
    rw [readRows, readString_newline hn]
    simp only [trimSpace_of (isTrim_newline hl)]
    rw [if_neg (by simp), if_neg hs, firstRows_succ hr, runLines]
    cases parse s with
    | ok records =>
      simp only [Res.ok_bind]
      cases f m records with
      | ok m' =>
        simp only [Res.ok_bind]
        split
        · rename_i hc
          rw [if_neg (by omega), show (limit - (rows + 1)).toNat = 0 by omega, List.take_zero, runLines]
        · rename_i hc
          exact ih fuel (rows + 1) m' (by simp at hf; omega) (by omega)
      | _ => rfl
    | _ => rfl
  | @last l s hn hl hs =>
    intro fuel rows m hf hr
    obtain ⟨fuel, rfl⟩ : ∃ k, fuel = k + 1 := ⟨fuel - 1, by omega⟩
    rw [readRows, readString_end hn]
    simp only [trimSpace_of hl]
    rw [if_neg (by simp), if_neg hs, firstRows_succ hr, runLines]
    have hrun : ∀ m', runLines parse f (if limit ≤ 0 then [] else List.take (limit - (rows + 1)).toNat ([] : List Str)) m' = .ok m' := by
      intro m'; split <;> simp [runLines]
    cases parse s with
    | ok records =>
      simp only [Res.ok_bind]
      cases f m records with
      | ok m' =>
        simp only [Res.ok_bind, hrun]
        split
        · rfl
        · rename_i hc
          cases fuel with
          | zero => exact absurd hf (by
              have : 0 < l.length := by
                obtain ⟨a, b, rfl, -⟩ := hl
                have := List.length_pos_of_ne_nil hs
                simp; omega
              omega)
          | succ fuel =>
            rw [readRows, readString_end (by simp)]
            simp only [trimSpace_of (show IsTrim [] [] from ⟨[], [], by simp, by simp, by simp, by simp, by simp⟩)]
            rw [if_neg (by simp), if_pos trivial]
      | _ => rfl
    | _ => rfl

/-- reading ends -/
theorem readRows_ne_hang {μ : Type} {parse : Str → Res (List Record)} {f : μ → List Record → Res μ} (limit : Int)
    (hp : ∀ s, parse s ≠ .hang) (hf : ∀ m r, f m r ≠ .hang) : ∀ (fuel : Nat) (rows : Int) (r : Reader) (m : μ),
      r.rest.length < fuel → readRows parse f limit fuel rows r m ≠ .hang
  | 0, _, _, _, h => absurd h (by omega)
  | fuel + 1, rows, r, m, h => by
    rw [readRows]
    obtain ⟨rest, io⟩ := r
    rcases line_cases rest with h1 | ⟨l, u, rfl, h1⟩
    · rw [readString_end h1]
      dsimp only
      cases io with
      | true => simp
      | false =>
        rw [if_neg (by simp)]
        split
        · simp
        · rename_i hne
          refine Res.bind_ne_hang (hp _) fun recs _ => Res.bind_ne_hang (hf _ _) fun m' _ => ?_
          split
          · simp
          · cases fuel with
            | zero =>
              have : rest = [] := List.eq_nil_of_length_eq_zero (by simp only at h; omega)
              subst this
              exact absurd rfl hne
            | succ fuel => exact readRows_ne_hang limit hp hf _ _ _ _ (by simp)
    · rw [readString_newline h1]
      dsimp only
      split
      · simp
      · split
        · simp
        · refine Res.bind_ne_hang (hp _) fun recs _ => Res.bind_ne_hang (hf _ _) fun m' _ => ?_
          split
          · simp
          · exact readRows_ne_hang limit hp hf _ _ _ _ (by simp at h; simp; omega)

/-- an invariant of the rows read -/
theorem readRows_inv {μ : Type} {parse : Str → Res (List Record)} {f : μ → List Record → Res μ} {limit : Int} (I : Int → μ → Prop)
    (step : ∀ (rows : Int) (m m' : μ) (s : Str) (recs : List Record), I rows m → trimSpace s = s → s ≠ [] → parse s = .ok recs →
      f m recs = .ok m' → I (rows + 1) m') : ∀ (fuel : Nat) (rows : Int) (r : Reader) (m m' : μ), I rows m → 
      (limit > 0 → rows < limit) → readRows parse f limit fuel rows r m = .ok m' → ∃ rows', rows ≤ rows' ∧ I rows' m' ∧ (limit > 0 → rows' ≤ limit)
  | 0, _, _, _, _, _, _, h => by cases h
  | fuel + 1, rows, r, m, m', hI, hl, h => by
    rw [readRows] at h
    dsimp only at h
    split at h
    · cases h
    · split at h
      · cases h
        exact ⟨rows, le_rfl, hI, fun g => by have := hl g; omega⟩
      · rename_i hne
        obtain ⟨recs, h1, h⟩ := Res.bind_eq_ok.1 h
        obtain ⟨m1, h2, h⟩ := Res.bind_eq_ok.1 h
        have htrim : trimSpace (trimSpace r.readString.1) = trimSpace r.readString.1 := by
          obtain ⟨s, hs⟩ := isTrim_exists r.readString.1
          rw [trimSpace_of hs]
          obtain ⟨a, b, -, -, -, g1, g2⟩ := hs
          exact trimSpace_of ⟨[], [], by simp, by simp, by simp, g1, g2⟩
        have hI' := step rows m m1 _ recs hI htrim hne h1 h2
        split at h
        · rename_i hc
          cases h
          exact ⟨rows + 1, by omega, hI', fun _ => by omega⟩
        · rename_i hc
          obtain ⟨rows', g1, g2, g3⟩ := readRows_inv I step fuel (rows + 1) _ m1 m' hI' (fun g => by have := hl g; omega) h
          exact ⟨rows', by omega, g2, g3⟩


theorem runLines_inv {μ : Type} {parse : Str → Res (List Record)} {f : μ → List Record → Res μ} (Q : Str → Prop) (I : μ → Prop)
    (step : ∀ (m m' : μ) (s : Str) (recs : List Record), Q s → I m → parse s = .ok recs → f m recs = .ok m' → I m') :
    ∀ (ss : List Str) (m m' : μ), (∀ s ∈ ss, Q s) → I m → runLines parse f ss m = .ok m' → I m'
  | [], m, m', _, hI, h => by cases h; exact hI
  | s :: ss, m, m', hQ, hI, h => by
    rw [runLines] at h
    obtain ⟨recs, h1, h⟩ := Res.bind_eq_ok.1 h
    obtain ⟨m1, h2, h⟩ := Res.bind_eq_ok.1 h
    exact runLines_inv Q I step ss m1 m' (fun s hs => hQ s (by simp [hs])) (step m m1 s recs (hQ s (by simp)) hI h1 h2) h

/-! ### sparse matrices -/

/-- a record of the reader -/
def toRec (e : Nat × F64) : Record := ⟨e.1, e.2⟩

theorem csrOf_empty : CsrOf [] ⟨[0], [], []⟩ := ⟨rfl, rfl, rfl, fun i hi => by
  obtain rfl : i = 0 := by simpa using hi
  rfl⟩

theorem csrOf_step {rows : SRows} {m : CSRMat} (h : CsrOf rows m) (row : List (Nat × F64)) :
    ∃ m', recordsToCSRMat m (row.map toRec) = .ok m' ∧ CsrOf (rows ++ [row]) m' := by
  refine ⟨_, rfl, ?_, ?_, ?_, fun i hi => ?_⟩
  · simp [h.values, toRec, Function.comp_def]
  · simp [h.columns, toRec, Function.comp_def]
  · simp [h.count]
  · simp only [List.length_append, List.length_singleton] at hi
    dsimp only
    rw [List.getElem?_append]
    split
    · rename_i hlt
      rw [h.count] at hlt
      rw [h.pointers i (by omega), List.take_append_of_le_length (by omega)]
    · rename_i hge
      rw [h.count] at hge ⊢
      obtain rfl : i = rows.length + 1 := by omega
      rw [Nat.sub_self, List.getElem?_cons_zero, List.take_of_length_le (by simp)]
      have : (List.length ∘ List.map Prod.snd : List (Nat × F64) → Nat) = List.length := by funext l; simp
      simp [h.values, List.length_flatten, this]

theorem runLines_csr {X : Type} {parse : Str → Res (List Record)} (line : X → Str) (row : X → List (Nat × F64)) :
    ∀ (xs : List X), (∀ x ∈ xs, parse (line x) = .ok ((row x).map toRec)) → ∀ (done : SRows) (m : CSRMat), CsrOf done m →
      ∃ m', runLines parse recordsToCSRMat (xs.map line) m = .ok m' ∧ CsrOf (done ++ xs.map row) m'
  | [], _, done, m, h => ⟨m, rfl, by simpa using h⟩
  | x :: xs, hx, done, m, h => by
    obtain ⟨m1, h1, h2⟩ := csrOf_step h (row x)
    obtain ⟨m', h3, h4⟩ := runLines_csr line row xs (fun y hy => hx y (by simp [hy])) _ m1 h2
    refine ⟨m', ?_, by simpa using h4⟩
    rw [List.map_cons, runLines, hx x (by simp), Res.ok_bind, h1, Res.ok_bind]
    exact h3

theorem csrValid_empty : CsrValid ⟨[0], [], []⟩ :=
  ⟨rfl, fun i a b ha hb => by simp at hb, rfl, rfl⟩

theorem csrValid_step {m m' : CSRMat} {recs : List Record} (h : CsrValid m) (hm : recordsToCSRMat m recs = .ok m') : CsrValid m' := by
  cases hm
  have hne : m.rowHeaders ≠ [] := by rintro e; have := h.start; rw [e] at this; cases this
  refine ⟨?_, fun i a b ha hb => ?_, ?_, ?_⟩
  · dsimp only
    rw [List.getElem?_append_left (List.length_pos_of_ne_nil hne)]
    exact h.start
  · dsimp only at ha hb
    rw [List.getElem?_append] at ha hb
    split at hb
    · rename_i hlt
      rw [if_pos (by omega)] at ha
      exact h.increasing i a b ha hb
    · rename_i hge
      split at ha
      · rename_i hlt
        obtain rfl : b = ((m.values ++ recs.map Record.value).length : Int) := by
          have : i + 1 - m.rowHeaders.length = 0 := by omega
          rw [this] at hb
          simpa using hb.symm
        have hl := h.stop
        rw [List.getLast?_eq_getElem?, show m.rowHeaders.length - 1 = i by omega, ha] at hl
        cases hl
        simp
      · rename_i hge'
        have : 0 < i + 1 - m.rowHeaders.length := by omega
        rw [List.getElem?_eq_none (by simp; omega)] at hb
        cases hb
  · simp
  · simp [h.columns]

/-! ### full matrices -/

/-- records with columns from `k` on -/
def recsFrom : (k : Nat) → List F64 → List Record
  | _, [] => []
  | k, v :: vs => ⟨k, v⟩ :: recsFrom (k + 1) vs

theorem recsFrom_length : ∀ (k : Nat) (vs : List F64), (recsFrom k vs).length = vs.length
  | _, [] => rfl
  | k, v :: vs => by rw [recsFrom, List.length_cons, recsFrom_length, List.length_cons]

theorem recsFrom_zipIdx : ∀ (k : Nat) (vs : List F64), ((vs.zipIdx k).map fun x => (x.2, x.1)).map toRec = recsFrom k vs
  | _, [] => rfl
  | k, v :: vs => by
    rw [List.zipIdx_cons, List.map_cons, List.map_cons, recsFrom_zipIdx (k + 1) vs, recsFrom]
    rfl

theorem indexed_recs (vs : List F64) : (indexed vs).map toRec = recsFrom 0 vs := recsFrom_zipIdx 0 vs

theorem denseRecords_recs : ∀ (k : Nat) (vs : List F64), denseRecords k (recsFrom k vs) = .ok vs
  | _, [] => rfl
  | k, v :: vs => by
    rw [recsFrom, denseRecords, if_neg (by simp)]
    have := denseRecords_recs (k + 1) vs
    rw [Nat.cast_succ] at this
    rw [this]
    rfl

/-- the matrix holds the rows read so far -/
structure DenseSoFar (rows : List (List F64)) (c : Nat) (m : DenseMat) : Prop where
  values : m.values = rows.flatten
  nrows : m.rows = rows.length
  cols : m.cols = if rows = [] then 0 else (c : Int)

theorem denseSoFar_step {rows : List (List F64)} {c : Nat} {m : DenseMat} (h : DenseSoFar rows c m) (hc : 1 ≤ c) {row : List F64}
    (hr : row.length = c) : ∃ m', recordsToDenseMat m (recsFrom 0 row) = .ok m' ∧ DenseSoFar (rows ++ [row]) c m' := by
  unfold recordsToDenseMat
  have := denseRecords_recs 0 row
  rw [Nat.cast_zero] at this
  rw [this, Res.ok_bind]
  dsimp only
  rw [recsFrom_length]
  by_cases h0 : rows = []
  · have hz := h.cols
    rw [if_pos h0] at hz
    rw [if_pos hz]
    exact ⟨_, rfl, by simp [h.values], by simp [h.nrows], by simp [hr]⟩
  · have hz := h.cols
    rw [if_neg h0] at hz
    rw [if_neg (by omega), if_neg (by omega)]
    exact ⟨_, rfl, by simp [h.values], by simp [h.nrows], by simp [hz]⟩

theorem runLines_dense {X : Type} {parse : Str → Res (List Record)} (line : X → Str) (row : X → List F64) {c : Nat} (hc : 1 ≤ c) :
    ∀ (xs : List X), (∀ x ∈ xs, parse (line x) = .ok (recsFrom 0 (row x)) ∧ (row x).length = c) → ∀ (done : List (List F64)) (m : DenseMat),
      DenseSoFar done c m → ∃ m', runLines parse recordsToDenseMat (xs.map line) m = .ok m' ∧ DenseSoFar (done ++ xs.map row) c m'
  | [], _, done, m, h => ⟨m, rfl, by simpa using h⟩
  | x :: xs, hx, done, m, h => by
    obtain ⟨g1, g2⟩ := hx x (by simp)
    obtain ⟨m1, h1, h2⟩ := denseSoFar_step h hc g2
    obtain ⟨m', h3, h4⟩ := runLines_dense line row hc xs (fun y hy => hx y (by simp [hy])) _ m1 h2
    refine ⟨m', ?_, by simpa using h4⟩
    rw [List.map_cons, runLines, g1, Res.ok_bind, h1, Res.ok_bind]
    exact h3

theorem denseSoFar_empty (c : Nat) : DenseSoFar [] c ⟨[], 0, 0⟩ := ⟨rfl, rfl, rfl⟩

theorem DenseSoFar.denseOf {rows : List (List F64)} {c : Nat} {m : DenseMat} (h : DenseSoFar rows c m) (hne : rows ≠ []) : DenseOf rows c m :=
  ⟨h.values, h.nrows, by rw [h.cols, if_neg hne]⟩

/-- consistent so far, all rows with entries -/
structure Full (rows : Int) (m : DenseMat) : Prop where
  nrows : m.rows = rows
  pos : 0 ≤ rows
  size : (m.values.length : Int) = m.rows * m.cols
  cols : (rows = 0 ∧ m.cols = 0) ∨ (0 < rows ∧ 0 < m.cols)

theorem denseRecords_length : ∀ (i : Int) (rs : List Record) (vs : List F64), denseRecords i rs = .ok vs → vs.length = rs.length
  | _, [], vs, h => by cases h; rfl
  | i, r :: rs, vs, h => by
    rw [denseRecords] at h
    split at h
    · cases h
    · obtain ⟨vs', h1, h⟩ := Res.bind_eq_ok.1 h
      cases h
      simp [denseRecords_length (i + 1) rs vs' h1]

theorem Full.step {rows : Int} {m m' : DenseMat} {recs : List Record} (h : Full rows m) (hne : recs ≠ [])
    (hm : recordsToDenseMat m recs = .ok m') : Full (rows + 1) m' := by
  have hpos := List.length_pos_of_ne_nil hne
  unfold recordsToDenseMat at hm
  obtain ⟨vs, h1, hm⟩ := Res.bind_eq_ok.1 hm
  have hl := denseRecords_length _ _ _ h1
  have h3 := h.size
  have h4 := h.nrows
  have h5 := h.pos
  dsimp only at hm
  split at hm
  · rename_i h0
    cases hm
    rcases h.cols with ⟨g1, -⟩ | ⟨-, g2⟩
    · refine ⟨by simp [h4], by omega, ?_, .inr ⟨by omega, by simp; omega⟩⟩
      simp only [List.length_append, hl]
      rw [h4, g1] at h3 ⊢
      rw [h0] at h3
      push_cast
      omega
    · omega
  · rename_i h0
    split at hm
    · cases hm
    · rename_i h6
      push Not at h6
      cases hm
      refine ⟨by simp [h4], by omega, ?_, .inr ⟨by omega, by simp; omega⟩⟩
      simp only [List.length_append, hl]
      push_cast
      rw [h3, ← h6]
      ring

theorem full_empty : Full 0 ⟨[], 0, 0⟩ := ⟨rfl, le_rfl, by simp, .inl ⟨rfl, rfl⟩⟩

/-! ### lines -/

theorem libsvmTokens_ne_nil {P : Platform} {tok : Str} {toks : List Str} {recs : List Record} (h : libsvmTokens P (tok :: toks) = .ok recs)
    (hne : tok ≠ []) : recs ≠ [] := by
  rw [libsvmTokens, if_neg (by simpa using hne)] at h
  split at h
  · obtain ⟨_, _, h⟩ := Res.bind_eq_ok.1 h
    obtain ⟨_, _, h⟩ := Res.bind_eq_ok.1 h
    obtain ⟨_, _, h⟩ := Res.bind_eq_ok.1 h
    cases h
    simp
  · cases h

theorem csvTokens_length {P : Platform} {d : F64} : ∀ (k : Nat) (toks : List Str) (recs : List Record), csvTokens P d k toks = .ok recs →
    recs.length = toks.length
  | _, [], recs, h => by cases h; rfl
  | k, t :: ts, recs, h => by
    rw [csvTokens] at h
    split at h <;>
    obtain ⟨_, _, h⟩ := Res.bind_eq_ok.1 h <;>
    obtain ⟨rs, h1, h⟩ := Res.bind_eq_ok.1 h <;>
    cases h <;>
    simp [csvTokens_length (k + 1) ts rs h1]

theorem splitGo_ne_nil (sep : Str) : ∀ (s : Str) (k : Nat) (cur : Str), splitGo sep k cur s ≠ []
  | [], k, cur => by cases k <;> simp [splitGo]
  | c :: s, 0, cur => by
    rw [splitGo]
    split
    · simp
    · exact splitGo_ne_nil sep s 0 _
  | c :: s, k + 1, cur => by
    rw [splitGo]
    exact splitGo_ne_nil sep s k _

theorem split_ne_nil {s sep : Str} (h : s ≠ []) : split s sep ≠ [] := by
  unfold split
  split
  · simpa using h
  · exact splitGo_ne_nil _ _ _ _

/-- the first token of a trimmed line is not empty -/
theorem split_space_head {s : Str} (h : trimSpace s = s) (hne : s ≠ []) : ∃ t ts, split s " ".toList = t :: ts ∧ t ≠ [] := by
  obtain ⟨toks, h1, h2, h3, -⟩ := char_split ' ' s
  have e : split s " ".toList = toks := by rw [h3]; exact split_char h1 h2
  obtain ⟨t, ts, rfl⟩ := List.exists_cons_of_ne_nil h1
  refine ⟨t, ts, e, ?_⟩
  rintro rfl
  obtain ⟨s', hs'⟩ := isTrim_exists s
  rw [trimSpace_of hs'] at h
  subst h
  obtain ⟨a, b, -, -, -, g, -⟩ := hs'
  cases ts with
  | nil => exact hne (by rw [h3]; rfl)
  | cons u us =>
    refine g ' ' ?_ (by unfold whiteSpace; decide)
    rw [h3]
    rfl

theorem libsvmLine_ne_nil {P : Platform} {s : Str} {recs : List Record} (h : trimSpace s = s) (hne : s ≠ [])
    (hp : libsvmLine P false s = .ok recs) : recs ≠ [] := by
  obtain ⟨t, ts, h1, h2⟩ := split_space_head h hne
  unfold libsvmLine at hp
  rw [h1] at hp
  dsimp only at hp
  split at hp
  · cases hp
  · exact libsvmTokens_ne_nil (by simpa using hp) h2

theorem csvLine_ne_nil {P : Platform} {delim s : Str} {d : F64} {recs : List Record} (hne : s ≠ [])
    (hp : Mat.csvLine P false delim d s = .ok recs) : recs ≠ [] := by
  unfold Mat.csvLine at hp
  have := csvTokens_length _ _ _ hp
  have h1 := List.length_pos_of_ne_nil (split_ne_nil (sep := delim) hne)
  simp at this
  exact List.ne_nil_of_length_pos (by omega)

theorem svmEntry_parse {P : Platform} {print : F64 → Str} : ∀ (row : List (Nat × F64)), (∀ e ∈ row, e.1 < 2 ^ 32 ∧
    PrintsBack P print ":".toList e.2) → libsvmTokens P (row.map (svmEntry print)) = .ok (row.map toRec)
  | [], _ => rfl
  | e :: row, h => by
    obtain ⟨h1, h2⟩ := h e (by simp)
    rw [List.map_cons, libsvmTokens, if_neg (by simp [svmEntry])]
    have hs : split (svmEntry print e) ":".toList = [decimal e.1, print e.2] := (split_two ':' _ _ _).2
      ⟨rfl, fun hc => by have := decimal_isDigit hc; exact absurd this (by decide), fun hc => h2.avoids _ hc (by simp)⟩
    rw [hs]
    dsimp only
    rw [parseUint_decimal, if_pos h1, h2.parse, svmEntry_parse row fun e' he' => h e' (by simp [he'])]
    rfl

theorem svmEntry_clean {P : Platform} {print : F64 → Str} {e : Nat × F64} (h : PrintsBack P print ":".toList e.2) :
    Clean " ".toList (svmEntry print e) := by
  intro c hc hcs
  obtain rfl : c = ' ' := by simpa using hcs
  unfold svmEntry at hc
  rcases List.mem_append.1 hc with hc | hc
  · have := decimal_isDigit hc; exact absurd this (by decide)
  · rcases List.mem_cons.1 hc with hc | hc
    · exact absurd hc (by decide)
    · exact h.white _ hc (by unfold whiteSpace; decide)

theorem svmLine_parse {P : Platform} {print : F64 → Str} {label : Str} {row : List (Nat × F64)} (hl : ' ' ∉ label) (hne : row ≠ [])
    (h : ∀ e ∈ row, e.1 < 2 ^ 32 ∧ PrintsBack P print ":".toList e.2) :
    libsvmLine P true (svmLine print label row) = .ok (row.map toRec) := by
  unfold libsvmLine svmLine
  rw [split_join (by simp) (by simp) (by
    intro t ht
    rcases List.mem_cons.1 ht with rfl | ht
    · intro c hc hcs
      obtain rfl : c = ' ' := by simpa using hcs
      exact hl hc
    · obtain ⟨e, he, rfl⟩ := List.mem_map.1 ht
      exact svmEntry_clean (h e he).2)]
  have := List.length_pos_of_ne_nil hne
  dsimp only
  rw [if_neg (by simp; omega)]
  simpa using svmEntry_parse row h

theorem svmBareLine_parse {P : Platform} {print : F64 → Str} {row : List (Nat × F64)} (hne : 2 ≤ row.length)
    (h : ∀ e ∈ row, e.1 < 2 ^ 32 ∧ PrintsBack P print ":".toList e.2) :
    libsvmLine P false (svmBareLine print row) = .ok (row.map toRec) := by
  unfold libsvmLine svmBareLine
  rw [split_join (by simp) (by rw [ne_eq, List.map_eq_nil_iff]; rintro rfl; simp at hne) (by
    intro t ht
    obtain ⟨e, he, rfl⟩ := List.mem_map.1 ht
    exact svmEntry_clean (h e he).2)]
  dsimp only
  rw [if_neg (by simp; omega)]
  simpa using svmEntry_parse row h

theorem csvTokens_row {P : Platform} {print : F64 → Str} {delim : Str} {d : F64} : ∀ (k : Nat) (row : List (Option F64)),
    (∀ v, some v ∈ row → PrintsBack P print delim v) →
    csvTokens P d k (row.map fun v => match v with | some v => print v | none => []) = .ok (recsFrom k (filled d row))
  | _, [], _ => rfl
  | k, none :: row, h => by
    rw [List.map_cons, csvTokens, csvTokens_row (k + 1) row fun v hv => h v (by simp [hv])]
    rfl
  | k, some v :: row, h => by
    have hv := h v (by simp)
    rw [List.map_cons, csvTokens, csvTokens_row (k + 1) row fun v hv => h v (by simp [hv])]
    dsimp only
    rw [if_neg (by simpa using hv.nonempty), hv.parse]
    rfl

theorem csvLine_parse {P : Platform} {print : F64 → Str} {delim : Str} {d : F64} (hd : delim ≠ []) {skip : Bool} {lead : List Str}
    {row : List (Option F64)} (hs : lead.length = if skip then 1 else 0) (hl : ∀ t ∈ lead, Clean delim t) (hne : row ≠ [])
    (h : ∀ v, some v ∈ row → PrintsBack P print delim v) :
    Mat.csvLine P skip delim d (Spec.csvLine print delim lead row) = .ok (recsFrom 0 (filled d row)) := by
  unfold Mat.csvLine Spec.csvLine
  rw [split_join hd (by simp [hne]) (by
    intro t ht
    rcases List.mem_append.1 ht with ht | ht
    · exact hl t ht
    · obtain ⟨v, hv, rfl⟩ := List.mem_map.1 ht
      cases v with
      | none => intro c hc; cases hc
      | some v => exact (h v hv).avoids), ← hs, List.drop_left]
  exact csvTokens_row 0 row h

theorem block_written : ∀ ss : List Str, (∀ s ∈ ss, s ≠ [] ∧ '\n' ∉ s ∧ IsTrim s s) → Block (linesText ss) ss [] true
  | [], _ => Block.stop [] (by simp) ⟨[], [], by simp, by simp, by simp, by simp, by simp⟩
  | s :: ss, h => by
    obtain ⟨h1, h2, h3⟩ := h s (by simp)
    have := Block.line h2 h3 h1 (block_written ss fun s hs => h s (by simp [hs]))
    simpa [linesText] using this

theorem isTrim_self {s : Str} (h : ∀ c ∈ s, ¬ whiteSpace c) : IsTrim s s :=
  ⟨[], [], by simp, by simp, by simp, fun c hc => h c (List.mem_of_head? hc), fun c hc => h c (List.mem_of_getLast? hc)⟩

end Mat
end Leaves
