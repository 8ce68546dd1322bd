import Verif.Proofs.MatText

/-!
# C91: reading a matrix returns a matrix or an error
-/

namespace Leaves
open Mat

namespace Mat

theorem ofOption_total {α : Type} (tag : String) (o : Option α) :
    Res.ofOption tag o ≠ .panic ∧ Res.ofOption tag o ≠ .hang := by
  cases o <;> exact ⟨by simp [Res.ofOption], by simp [Res.ofOption]⟩

theorem bind_total {α β : Type} {x : Res α} {f : α → Res β} (hx : x ≠ .panic ∧ x ≠ .hang)
    (hf : ∀ a, f a ≠ .panic ∧ f a ≠ .hang) : (x >>= f) ≠ .panic ∧ (x >>= f) ≠ .hang := by
  cases x with
  | ok a => exact hf a
  | err e => exact ⟨by simp, by simp⟩
  | panic => exact absurd rfl hx.1
  | hang => exact absurd rfl hx.2

theorem libsvmTokens_total (P : Platform) : ∀ toks : List Str,
    libsvmTokens P toks ≠ .panic ∧ libsvmTokens P toks ≠ .hang
  | [] => ⟨by simp [libsvmTokens], by simp [libsvmTokens]⟩
  | tok :: toks => by
    rw [libsvmTokens]
    split
    · exact ⟨by simp, by simp⟩
    · split
      · refine bind_total (ofOption_total _ _) fun _ => ?_
        refine bind_total (ofOption_total _ _) fun _ => ?_
        exact bind_total (libsvmTokens_total P toks) fun _ => ⟨by simp, by simp⟩
      · exact ⟨by simp, by simp⟩

theorem libsvmLine_total (P : Platform) (skip : Bool) (line : Str) :
    libsvmLine P skip line ≠ .panic ∧ libsvmLine P skip line ≠ .hang := by
  rw [libsvmLine]
  split
  · exact ⟨by simp, by simp⟩
  · exact libsvmTokens_total P _

theorem csvTokens_total (P : Platform) (d : F64) : ∀ (i : Nat) (toks : List Str),
    csvTokens P d i toks ≠ .panic ∧ csvTokens P d i toks ≠ .hang
  | _, [] => ⟨by simp [csvTokens], by simp [csvTokens]⟩
  | i, tok :: toks => by
    rw [csvTokens]
    split
    · refine bind_total (x := .ok d) ⟨by simp, by simp⟩ fun _ => ?_
      exact bind_total (csvTokens_total P d (i + 1) toks) fun _ => ⟨by simp, by simp⟩
    · refine bind_total (ofOption_total _ _) fun _ => ?_
      exact bind_total (csvTokens_total P d (i + 1) toks) fun _ => ⟨by simp, by simp⟩

theorem denseRecords_total : ∀ (i : Nat) (rs : List Record),
    denseRecords i rs ≠ .panic ∧ denseRecords i rs ≠ .hang
  | _, [] => ⟨by simp [denseRecords], by simp [denseRecords]⟩
  | i, r :: rs => by
    rw [denseRecords]
    split
    · exact ⟨by simp, by simp⟩
    · exact bind_total (denseRecords_total (i + 1) rs) fun _ => ⟨by simp, by simp⟩

theorem recordsToDenseMat_total (m : DenseMat) (rs : List Record) :
    recordsToDenseMat m rs ≠ .panic ∧ recordsToDenseMat m rs ≠ .hang := by
  rw [recordsToDenseMat]
  refine bind_total (denseRecords_total 0 rs) fun _ => ?_
  dsimp only
  split
  · exact ⟨by simp, by simp⟩
  · split
    · exact ⟨by simp, by simp⟩
    · exact ⟨by simp, by simp⟩

theorem readRows_ne_panic {μ : Type} {parse : Str → Res (List Record)} {f : μ → List Record → Res μ} (limit : Int)
    (hp : ∀ s, parse s ≠ .panic ∧ parse s ≠ .hang) (hf : ∀ m r, f m r ≠ .panic ∧ f m r ≠ .hang) :
    ∀ (fuel : Nat) (rows : Int) (r : Reader) (m : μ), readRows parse f limit fuel rows r m ≠ .panic
  | 0, _, _, _ => by simp [readRows]
  | fuel + 1, rows, r, m => by
    rw [readRows]
    dsimp only
    split
    · simp
    · split
      · simp
      · intro h
        rcases hx : parse (trimSpace r.readString.1) with recs | _ | _ | _
        · rw [hx, Res.ok_bind] at h
          rcases hy : f m recs with m' | _ | _ | _
          · rw [hy, Res.ok_bind] at h
            split at h
            · cases h
            · exact readRows_ne_panic limit hp hf _ _ _ _ h
          · rw [hy] at h; cases h
          · exact (hf m recs).1 hy
          · rw [hy] at h; cases h
        · rw [hx] at h; cases h
        · exact (hp _).1 hx
        · rw [hx] at h; cases h

end Mat

/-- C91: `DenseMatFromLibsvm` returns a matrix or an error for every text, also when the reader fails in the middle. -/
theorem C91_libsvm_dense (P : Platform) (r : Reader) (limit : Int) (skip : Bool) :
    (∃ m, denseMatFromLibsvm P r limit skip = .ok m) ∨ ∃ e, denseMatFromLibsvm P r limit skip = .err e := by
  have h1 := readRows_ne_panic limit (libsvmLine_total P skip) recordsToDenseMat_total (r.rest.length + 1) 0 r
    { values := [], cols := 0, rows := 0 }
  have h2 := readRows_ne_hang limit (fun s => (libsvmLine_total P skip s).2) (fun m r => (recordsToDenseMat_total m r).2)
    (r.rest.length + 1) 0 r { values := [], cols := 0, rows := 0 } (Nat.lt_succ_self _)
  rw [denseMatFromLibsvm]
  revert h1 h2
  generalize readRows _ _ _ _ _ _ _ = x
  intro h1 h2
  cases x with
  | ok m => exact Or.inl ⟨m, rfl⟩
  | err e => exact Or.inr ⟨e, rfl⟩
  | panic => exact absurd rfl h1
  | hang => exact absurd rfl h2

/-- C91: `CSRMatFromLibsvm` returns a matrix or an error for every text. -/
theorem C91_libsvm_csr (P : Platform) (r : Reader) (limit : Int) (skip : Bool) :
    (∃ m, csrMatFromLibsvm P r limit skip = .ok m) ∨ ∃ e, csrMatFromLibsvm P r limit skip = .err e := by
  have h1 := readRows_ne_panic limit (libsvmLine_total P skip) (f := recordsToCSRMat) (fun m r => ⟨by simp [recordsToCSRMat],
    by simp [recordsToCSRMat]⟩) (r.rest.length + 1) 0 r { rowHeaders := [0], colIndexes := [], values := [] }
  have h2 := readRows_ne_hang limit (fun s => (libsvmLine_total P skip s).2) (f := recordsToCSRMat) (fun m r => by simp [recordsToCSRMat])
    (r.rest.length + 1) 0 r { rowHeaders := [0], colIndexes := [], values := [] } (Nat.lt_succ_self _)
  rw [csrMatFromLibsvm]
  revert h1 h2
  generalize readRows _ _ _ _ _ _ _ = x
  intro h1 h2
  cases x with
  | ok m => exact Or.inl ⟨m, rfl⟩
  | err e => exact Or.inr ⟨e, rfl⟩
  | panic => exact absurd rfl h1
  | hang => exact absurd rfl h2

/-- C91: `DenseMatFromCsv` returns a matrix or an error for every text and every delimiter, the empty one included. -/
theorem C91_csv (P : Platform) (r : Reader) (limit : Int) (skip : Bool) (delimiter : Str) (d : F64) :
    (∃ m, denseMatFromCsv P r limit skip delimiter d = .ok m) ∨ ∃ e, denseMatFromCsv P r limit skip delimiter d = .err e := by
  have h0 : ∀ s, csvLine P skip delimiter d s ≠ .panic ∧ csvLine P skip delimiter d s ≠ .hang := fun s => csvTokens_total P d 0 _
  have h1 := readRows_ne_panic limit h0 recordsToDenseMat_total (r.rest.length + 1) 0 r { values := [], cols := 0, rows := 0 }
  have h2 := readRows_ne_hang limit (fun s => (h0 s).2) (fun m r => (recordsToDenseMat_total m r).2)
    (r.rest.length + 1) 0 r { values := [], cols := 0, rows := 0 } (Nat.lt_succ_self _)
  rw [denseMatFromCsv]
  revert h1 h2
  generalize readRows _ _ _ _ _ _ _ = x
  intro h1 h2
  cases x with
  | ok m => exact Or.inl ⟨m, rfl⟩
  | err e => exact Or.inr ⟨e, rfl⟩
  | panic => exact absurd rfl h1
  | hang => exact absurd rfl h2

/-- Both outcomes occur: a matrix, and an error for a row that is too short. -/
example : denseMatFromLibsvm Platform.demo ⟨"1 0:3 1:4\n".toList, false⟩ 0 true
      = .ok ⟨[F64.ofInt 3, F64.ofInt 4], 2, 1⟩ ∧
    denseMatFromLibsvm Platform.demo ⟨"1\n".toList, false⟩ 0 true = .err "too few columns" := by decide +kernel

/-- A reader that fails, and the empty delimiter. -/
example : denseMatFromCsv Platform.demo ⟨"1,2".toList, true⟩ 0 false ",".toList F64.zero = .err "read error" ∧
    denseMatFromCsv Platform.demo ⟨"12".toList, false⟩ 0 false [] F64.zero = .ok ⟨[F64.ofInt 1, F64.ofInt 2], 2, 1⟩ := by
  decide +kernel

end Leaves
