import Verif.Proofs.Bufio

/-!
# The text loaders on a buffered reader
-/

namespace Leaves
open Spec

/-- same outcome and value, and the readers left behind correspond -/
inductive Follows {β σ τ : Type} (R : σ → τ → Prop) : Res (β × σ) → Res (β × τ) → Prop
  | ok (a : β) (s : σ) (t : τ) (h : R s t) : Follows R (.ok (a, s)) (.ok (a, t))
  | err (e : String) : Follows R (.err e) (.err e)
  | panic : Follows R .panic .panic
  | hang : Follows R .hang .hang

theorem Follows.bind {β γ σ τ : Type} {R : σ → τ → Prop} {x : Res (β × σ)} {y : Res (β × τ)}
    (h : Follows R x y) {f : β × σ → Res (γ × σ)} {g : β × τ → Res (γ × τ)}
    (hf : ∀ a s t, R s t → Follows R (f (a, s)) (g (a, t))) : Follows R (x >>= f) (y >>= g) := by
  cases h with
  | ok a s t h => exact hf a s t h
  | err e => exact .err e
  | panic => exact .panic
  | hang => exact .hang

theorem Follows.bind_same {β γ σ τ : Type} {R : σ → τ → Prop} (x : Res β)
    {f : β → Res (γ × σ)} {g : β → Res (γ × τ)} (hf : ∀ a, Follows R (f a) (g a)) :
    Follows R (x >>= f) (x >>= g) := by
  cases x with
  | ok a => exact hf a
  | err e => exact .err e
  | panic => exact .panic
  | hang => exact .hang

/-- the value alone is the same -/
theorem Follows.value {β σ τ : Type} {R : σ → τ → Prop} {x : Res (β × σ)} {y : Res (β × τ)}
    (h : Follows R x y) : (do let (a, _) ← x; return a) = (do let (a, _) ← y; return a) := by
  cases h <;> rfl

/-- a buffered reader and the text reader it stands for -/
def Reads (k : Nat) (b : Bufio Char) (r : Reader) : Prop :=
  Represents k b r.rest (if r.ioErr then .fail else .eof)

theorem Reads.size_eq {k : Nat} {b : Bufio Char} {r : Reader} (h : Reads k b r) : b.size = r.rest.length :=
  Represents.size_eq h

theorem Reads.readString {k : Nat} {b : Bufio Char} {r : Reader} (h : Reads k b r) :
    ∃ b', b.readString = .ok (r.readString.1, r.readString.2.1, b') ∧ Reads k b' r.readString.2.2 := by
  obtain ⟨b', h1, h2, h3⟩ := Bufio.readString_spec (r := r) h (by cases r.ioErr <;> rfl)
  refine ⟨b', h1, ?_⟩
  rw [Reads, h3]; exact h2

theorem skipEmptyS_follows (k : Nat) : ∀ (fuel : Nat) (b : Bufio Char) (r : Reader), Reads k b r →
    Follows (Reads k) (skipEmptyS fuel b) (skipEmpty fuel r)
  | 0, _, _, _ => .hang
  | fuel + 1, b, r, h => by
    obtain ⟨b', h1, h2⟩ := h.readString
    rw [skipEmptyS, skipEmpty, h1, Res.ok_bind]
    generalize r.readString = x at h1 h2 ⊢
    obtain ⟨line, e, r'⟩ := x
    dsimp only at h2 ⊢
    split
    · exact .err _
    · split
      · exact .ok _ _ _ h2
      · exact skipEmptyS_follows k fuel b' r' h2

theorem paramsLoopS_follows (k : Nat) : ∀ (fuel : Nat) (b : Bufio Char) (r : Reader) (line : Str) (p : Params),
    Reads k b r → Follows (Reads k) (paramsLoopS fuel b line p) (paramsLoop fuel r line p)
  | 0, _, _, _, _, _ => .hang
  | fuel + 1, b, r, line, p, h => by
    obtain ⟨b', h1, h2⟩ := h.readString
    rw [paramsLoopS, paramsLoop]
    refine Follows.bind_same _ fun p => ?_
    rw [h1, Res.ok_bind]
    generalize r.readString = x at h1 h2 ⊢
    obtain ⟨line, e, r'⟩ := x
    dsimp only at h2 ⊢
    split
    · exact .err _
    · split
      · exact .ok _ _ _ h2
      · exact paramsLoopS_follows k fuel b' r' _ _ h2

theorem readParamsS_follows {k : Nat} {b : Bufio Char} {r : Reader} (h : Reads k b r) :
    Follows (Reads k) (readParamsUntilBlankS b) (readParamsUntilBlank r) := by
  rw [readParamsUntilBlankS, readParamsUntilBlank, h.size_eq]
  refine (skipEmptyS_follows k _ b r h).bind fun line s t hst => ?_
  dsimp only
  rw [hst.size_eq]
  exact paramsLoopS_follows k _ s t _ _ hst

theorem lgTreeFromReaderS_follows {k : Nat} (P : Platform) {b : Bufio Char} {r : Reader} (h : Reads k b r) :
    Follows (Reads k) (lgTreeFromReaderS P b) (lgTreeFromReader P r) := by
  rw [lgTreeFromReaderS, lgTreeFromReader]
  refine (readParamsS_follows h).bind fun p s t hst => ?_
  exact Follows.bind_same _ fun a => .ok _ _ _ hst

theorem lgReadTreesS_follows {k : Nat} (P : Platform) : ∀ (n : Nat) {b : Bufio Char} {r : Reader},
    Reads k b r → Follows (Reads k) (lgReadTreesS P n b) (lgReadTrees P n r)
  | 0, _, _, h => .ok _ _ _ h
  | n + 1, b, r, h => by
    rw [lgReadTreesS, lgReadTrees]
    refine (lgTreeFromReaderS_follows P h).bind fun t s r' hst => ?_
    refine (lgReadTreesS_follows P n hst).bind fun ts s2 r2 h2 => ?_
    exact .ok _ _ _ h2

theorem lgEnsembleFromReaderS_follows {k : Nat} (P : Platform) {b : Bufio Char} {r : Reader}
    (h : Reads k b r) (loadTransformation : Bool) :
    Follows (Reads k) (lgEnsembleFromReaderS P b loadTransformation)
      (lgEnsembleFromReader P r loadTransformation) := by
  rw [lgEnsembleFromReaderS, lgEnsembleFromReader]
  refine (readParamsS_follows h).bind fun p s t hst => ?_
  dsimp only
  refine Follows.bind_same _ fun _ => ?_
  refine Follows.bind_same _ fun nc => ?_
  refine Follows.bind_same _ fun nt => ?_
  split
  · exact .err _
  split
  · exact .err _
  split
  · exact .err _
  refine Follows.bind_same _ fun mf => ?_
  refine Follows.bind_same _ fun ts => ?_
  split
  · exact .err _
  split
  · exact .err _
  refine Follows.bind_same _ fun tr => ?_
  refine (lgReadTreesS_follows P _ hst).bind fun trees s2 t2 h2 => ?_
  exact .ok _ _ _ h2

namespace Mat

theorem readRowsS_eq {μ : Type} (k : Nat) (parse : Str → Res (List Record)) (f : μ → List Record → Res μ)
    (limit : Int) : ∀ (fuel : Nat) (rows : Int) (b : Bufio Char) (r : Reader) (mat : μ), Reads k b r →
      readRowsS parse f limit fuel rows b mat = readRows parse f limit fuel rows r mat
  | 0, _, _, _, _, _ => rfl
  | fuel + 1, rows, b, r, mat, h => by
    obtain ⟨b', h1, h2⟩ := h.readString
    rw [readRowsS, readRows, h1, Res.ok_bind]
    generalize r.readString = x at h1 h2 ⊢
    obtain ⟨line, e, r'⟩ := x
    dsimp only at h2 ⊢
    split
    · rfl
    · split
      · rfl
      · refine congrArg (Res.bind (parse (trimSpace line))) (funext fun rec => ?_)
        refine congrArg (Res.bind (f mat rec)) (funext fun m => ?_)
        split
        · rfl
        · exact readRowsS_eq k parse f limit fuel _ b' r' m h2

end Mat

end Leaves
