import Verif.Proofs.Params
import Verif.Proofs.LgLoad

/-! # A LightGBM text that has been cut off: internals of C92 -/

namespace Leaves

open Spec

/-- the first line of a text that has been cut off -/
theorem readString_cut (c d : Str) :
    (∃ l rest, '\n' ∉ l ∧ Reader.readString ⟨c, false⟩ = (l ++ ['\n'], .none, ⟨rest, false⟩) ∧
      Reader.readString ⟨c ++ d, false⟩ = (l ++ ['\n'], .none, ⟨rest ++ d, false⟩) ∧ rest.length < c.length) ∨
    ('\n' ∉ c ∧ Reader.readString ⟨c, false⟩ = (c, .eof, ⟨[], false⟩)) := by
  rcases line_cases c with h | ⟨l, u, rfl, h⟩
  · exact .inr ⟨h, readString_end h false⟩
  · refine .inl ⟨l, u, h, readString_newline h false, ?_, by simp; omega⟩
    rw [List.append_assoc, List.cons_append]
    exact readString_newline h false

/-- at the end of the text the loop takes the current line and ends -/
theorem paramsLoop_end (fuel : Nat) (line : Str) (params : Params) :
    paramsLoop (fuel + 1) ⟨[], false⟩ line params = do
      let p ← params.addLine line
      return (p, ⟨[], false⟩) := by
  rw [paramsLoop]
  rw [readString_end (by simp) false]
  rfl

/-- the loop over a block that may have been cut off -/
theorem paramsLoop_cut : ∀ (fuel : Nat) (c d line : Str) (params p : Params) (rest : Str),
    paramsLoop fuel ⟨c ++ d, false⟩ line params = .ok (p, ⟨rest, false⟩) → ∀ fuel', c.length < fuel' →
    (∃ rest', paramsLoop fuel' ⟨c, false⟩ line params = .ok (p, ⟨rest', false⟩) ∧ rest = rest' ++ d) ∨
    (∃ p', paramsLoop fuel' ⟨c, false⟩ line params = .ok (p', ⟨[], false⟩)) ∨
    ∃ e, paramsLoop fuel' ⟨c, false⟩ line params = .err e
  | 0, _, _, _, _, _, _, h => nomatch h
  | fuel + 1, c, d, line, params, p, rest, h => by
    intro fuel' hf
    obtain ⟨k, rfl⟩ : ∃ k, fuel' = k + 1 := ⟨fuel' - 1, by omega⟩
    rw [paramsLoop] at h ⊢
    obtain ⟨p1, h1, h⟩ := Res.bind_eq_ok.1 h
    rw [h1, Res.ok_bind]
    rcases readString_cut c d with ⟨l, u, hl, hc, hcd, hlt⟩ | ⟨hn, hc⟩
    · rw [hcd] at h
      rw [hc]
      simp only at h ⊢
      rw [if_neg (by decide)] at h ⊢
      split at h
      · rename_i he
        rw [if_pos he]
        cases h
        exact .inl ⟨u, rfl, rfl⟩
      · rename_i he
        rw [if_neg he]
        exact paramsLoop_cut fuel u d _ _ _ _ h k (by omega)
    · rw [hc]
      simp only
      rw [if_neg (by decide)]
      split
      · exact .inr (.inl ⟨_, rfl⟩)
      · rename_i he
        have hk : 0 < k := by
          rcases c with _ | ⟨x, c⟩
          · exact absurd (by decide) he
          · simp only [List.length_cons] at hf; omega
        obtain ⟨k', rfl⟩ : ∃ k', k = k' + 1 := ⟨k - 1, by omega⟩
        rw [paramsLoop_end]
        rcases addLine_spec p1 (trimSpace c) with ⟨-, a, b, -, h3⟩ | ⟨-, e, h3⟩
        · rw [h3]; exact .inr (.inl ⟨_, rfl⟩)
        · rw [h3]; exact .inr (.inr ⟨e, rfl⟩)

/-- a parameter block that may have been cut off: it is read as before, or nothing is left of the text, or it is rejected -/
theorem readParams_cut (c d : Str) (p : Params) (rest : Str) (h : readParamsUntilBlank ⟨c ++ d, false⟩ = .ok (p, ⟨rest, false⟩)) :
    (∃ rest', readParamsUntilBlank ⟨c, false⟩ = .ok (p, ⟨rest', false⟩) ∧ rest = rest' ++ d) ∨
    (∃ p', readParamsUntilBlank ⟨c, false⟩ = .ok (p', ⟨[], false⟩)) ∨
    ∃ e, readParamsUntilBlank ⟨c, false⟩ = .err e := by
  unfold readParamsUntilBlank at h ⊢
  rw [skipEmpty_eq] at h ⊢
  rcases readString_cut c d with ⟨l, u, hl, hc, hcd, hlt⟩ | ⟨hn, hc⟩
  · rw [hcd] at h
    rw [hc]
    simp only [ne_eq, not_true, if_false, Res.ok_bind] at h ⊢
    exact paramsLoop_cut _ u d _ _ _ _ h _ (by omega)
  · rw [hc]
    exact .inr (.inr ⟨_, rfl⟩)

theorem readParams_empty : readParamsUntilBlank ⟨[], false⟩ = .err "read error" := by
  unfold readParamsUntilBlank
  rw [skipEmpty_eq, readString_end (by simp)]
  rfl

/-- reading ends in the state "no error": the reader keeps its flag -/
theorem readParams_flag {t : Str} {p : Params} {r : Reader} (h : readParamsUntilBlank ⟨t, false⟩ = .ok (p, r)) : r.ioErr = false := by
  rcases line_cases t with hn | ⟨l, u, rfl, hl⟩
  · obtain ⟨e, he⟩ := readParams_no_newline hn false
    rw [he] at h; cases h
  · obtain ⟨s, hs⟩ := isTrim_exists l
    obtain ⟨ss, rest, e, hb⟩ := block_exists (u.length + 1) u (by omega)
    rcases readParams_block false hl hs hb with ⟨-, -, q, hq, -⟩ | ⟨-, e', he⟩
    · rw [hq] at h; cases h; rfl
    · rw [he] at h; cases h

/-- the trees of a text that has been cut off: when it is still accepted, only the last one can differ -/
theorem lgReadTrees_cut (P : Platform) : ∀ (n : Nat) (c d : Str) (ts ts' : List LgTree) (r r' : Reader),
    lgReadTrees P n ⟨c ++ d, false⟩ = .ok (ts, r) → lgReadTrees P n ⟨c, false⟩ = .ok (ts', r') →
    ts.length = ts'.length ∧ ts.dropLast = ts'.dropLast
  | 0, c, d, ts, ts', r, r', h, h' => by cases h; cases h'; exact ⟨rfl, rfl⟩
  | n + 1, c, d, ts, ts', r, r', h, h' => by
    rw [lgReadTrees] at h h'
    obtain ⟨⟨t, r1⟩, h1, h⟩ := Res.bind_eq_ok.1 h
    obtain ⟨⟨t', r1'⟩, h1', h'⟩ := Res.bind_eq_ok.1 h'
    obtain ⟨⟨us, r2⟩, h2, h⟩ := Res.bind_eq_ok.1 h
    obtain ⟨⟨us', r2'⟩, h2', h'⟩ := Res.bind_eq_ok.1 h'
    cases h
    cases h'
    unfold lgTreeFromReader at h1 h1'
    obtain ⟨⟨p, q⟩, h3, h1⟩ := Res.bind_eq_ok.1 h1
    obtain ⟨⟨p', q'⟩, h3', h1'⟩ := Res.bind_eq_ok.1 h1'
    obtain ⟨a, h4, h1⟩ := Res.bind_eq_ok.1 h1
    obtain ⟨a', h4', h1'⟩ := Res.bind_eq_ok.1 h1'
    obtain ⟨rest, io⟩ := q
    cases h1
    cases h1'
    have hio := readParams_flag h3
    dsimp only at hio
    subst hio
    cases n with
    | zero =>
      cases h2; cases h2'
      exact ⟨rfl, rfl⟩
    | succ n =>
      rcases readParams_cut c d p rest h3 with ⟨rest', hc, rfl⟩ | ⟨p1, hc⟩ | ⟨e, hc⟩
      · rw [hc] at h3'
        cases h3'
        rw [h4] at h4'
        cases h4'
        obtain ⟨e1, e2⟩ := lgReadTrees_cut P (n + 1) rest' d us us' _ _ h2 h2'
        have l1 := lgReadTrees_length P _ _ _ _ h2
        have l2 := lgReadTrees_length P _ _ _ _ h2'
        refine ⟨by simp [e1], ?_⟩
        cases us with
        | nil => cases l1
        | cons x us =>
          cases us' with
          | nil => cases l2
          | cons y us' => rw [List.dropLast_cons_cons, List.dropLast_cons_cons, e2]
      · rw [hc] at h3'
        cases h3'
        rw [lgReadTrees, lgTreeFromReader, readParams_empty] at h2'
        cases h2'
      · rw [hc] at h3'
        cases h3'

end Leaves
