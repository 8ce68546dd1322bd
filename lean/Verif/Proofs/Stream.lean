import Verif.Spec.Stream
import Verif.Props.Truncation
import Verif.Props.Streaming
import Verif.Props.Bytes

/-! # Several models in one stream: internals of C98 -/

namespace Leaves
open Spec

namespace Pickle

theorem stepOpS_stop (P : Platform) (m : Machine) (b : Bufio (BitVec 8)) : stepOpS P (byte '.') m b = .ok (.stop m, b) := by
  unfold stepOpS
  simp [byte]
  rfl

/-- the loop leaves what comes after the part that it takes -/
theorem decodeLoopS_leaves (P : Platform) : ∀ (fuel : Nat) (bs : Bytes) (m m' : Machine), decodeLoop P fuel bs m = .ok m' →
    ∃ used rest, bs = used ++ rest ∧ ∀ more fuel' b, (used ++ more).length < fuel' → ByteHolds 0 b (used ++ more) →
      ∃ b', decodeLoopS P fuel' m b = .ok (m', b') ∧ ByteHolds 0 b' more
  | 0, _, _, _, h => nomatch h
  | fuel + 1, [], _, _, h => nomatch h
  | fuel + 1, op :: bs, m, m', h => by
    rw [decodeLoop] at h
    by_cases hop : op = byte '.'
    · subst hop
      rw [stepOp_stop, Res.ok_bind] at h
      cases h
      refine ⟨[byte '.'], bs, rfl, fun more fuel' b hf hb => ?_⟩
      obtain ⟨k, rfl⟩ : ∃ k, fuel' = k + 1 := ⟨fuel' - 1, by omega⟩
      obtain ⟨b', h1, h2⟩ := (readByteS_follows hb).2 _ _ rfl
      rw [decodeLoopS, RdS.bind_apply, h1]
      dsimp only
      rw [RdS.bind_apply, stepOpS_stop]
      exact ⟨b', rfl, h2⟩
    · obtain ⟨nx, h1, h2⟩ := Res.bind_eq_ok.1 h
      cases nx with
      | stop m1 => exact absurd h1 ((stepOp_exact P op m hop bs).2 m1)
      | «continue» m1 bs1 =>
        obtain ⟨img, g1, g2, g3⟩ := (stepOp_exact P op m hop bs).1 m1 bs1 h1
        obtain ⟨used, rest, k1, k2⟩ := decodeLoopS_leaves P fuel bs1 m1 m' h2
        refine ⟨op :: (img ++ used), rest, by rw [g1, k1]; simp, fun more fuel' b hf hb => ?_⟩
        obtain ⟨k, rfl⟩ : ∃ k, fuel' = k + 1 := ⟨fuel' - 1, by omega⟩
        rw [List.cons_append, List.append_assoc] at hb hf
        obtain ⟨b', h3, h4⟩ := (readByteS_follows hb).2 _ _ rfl
        rw [decodeLoopS, RdS.bind_apply, h3]
        dsimp only
        rw [RdS.bind_apply]
        have hs := stepOpS_follows P op m h4
        have := g2 (used ++ more)
        dsimp only at this
        rw [this] at hs
        generalize stepOpS P op m b' = u at hs ⊢
        cases hs with
        | «continue» _ b2 _ h5 =>
          refine k2 more k b2 ?_ h5
          simp only [List.length_append, List.length_cons] at hf ⊢
          omega

end Pickle

/-- a loader of the format leaves what comes after the model -/
theorem format_leaves {P : Platform} {lt : Bool} {f : Format} {file more : List (BitVec 8)} {e : Ensemble} {k : Nat}
    {b : Bufio (BitVec 8)} (h : WholeModel (f.loadFile P lt) file e) (hk : f = .sklearn → k = 0)
    (hb : ByteHolds k b (file ++ more)) : ∃ b', f.load P lt b = .ok (e, b') ∧ ByteHolds k b' more := by
  have arr : ∀ file : List (BitVec 8), Arrives 0 (Bufio.new { rest := file, lim := fun _ => 4096 }) file .eof := fun file =>
    ⟨rfl, rfl, by simp [Bufio.new], rfl, rfl, fun i => ⟨0, Nat.le_refl _, by simp [Bufio.new]⟩⟩
  have xg : ∀ {x : RdS Ensemble} {y : XgBin.Rd Ensemble}, (∀ k, FollowsRd k x y) → Exact y →
      (∀ file, f.loadFile P lt file = wholeValue (y file)) → ∃ b', x b = .ok (e, b') ∧ ByteHolds k b' more := by
    intro x y hf he hl
    obtain ⟨h1, h2⟩ := h
    rw [hl] at h1
    obtain ⟨⟨a, rest⟩, h3, h4⟩ := Res.bind_eq_ok.1 h1
    cases h4
    obtain ⟨img, rfl, hc⟩ := he _ _ _ h3
    have hr : rest = [] := by
      by_contra hr
      refine h2 img rest rfl hr e ?_
      have := hc.decode []
      rw [List.append_nil] at this
      rw [hl, wholeValue, this]
      rfl
    subst hr
    rw [List.append_nil] at hb
    have := hf k b _ hb
    rw [hc.decode more] at this
    generalize x b = u at this
    cases this with
    | ok _ _ _ h => exact ⟨_, rfl, h⟩
  cases f with
  | xgTrees =>
    exact xg (fun k => xgEnsembleFromReaderS_follows k P lt) (Exact.xgEnsemble P lt)
      fun file => (C90_xgboost_whole P (Nat.zero_le _) (arr file) lt).1
  | xgLinear =>
    exact xg (fun k => xgbLinearFromReaderS_follows k P lt) (Exact.xgLinear P lt)
      fun file => (C90_xgboost_whole P (Nat.zero_le _) (arr file) lt).2
  | sklearn =>
    cases hk rfl
    obtain ⟨h1, h2⟩ := h
    have hl : ∀ file, Format.sklearn.loadFile P lt file = skEnsembleFromReader P file lt := fun file => C90_sklearn_whole P (arr file) lt
    rw [hl] at h1
    unfold skEnsembleFromReader Pickle.decode at h1
    obtain ⟨⟨v, m⟩, h3, h4⟩ := Res.bind_eq_ok.1 h1
    obtain ⟨m', h5, h6⟩ := Res.bind_eq_ok.1 h3
    obtain ⟨v', h7, h8⟩ := Res.bind_eq_ok.1 h6
    cases h8
    obtain ⟨g, h9, h10⟩ := Res.bind_eq_ok.1 h4
    obtain ⟨used, rest, rfl, hu⟩ := Pickle.decodeLoopS_leaves P _ _ _ _ h5
    have run : ∀ more b, ByteHolds 0 b (used ++ more) → ∃ b', skEnsembleFromReaderS P lt b = .ok (e, b') ∧ ByteHolds 0 b' more := by
      intro more b hb
      obtain ⟨b', k1, k2⟩ := hu more (b.size + 1) b (by rw [hb.size_eq]; omega) hb
      refine ⟨b', ?_, k2⟩
      rw [skEnsembleFromReaderS, RdS.bind_apply, Pickle.decodeS, RdS.bind_apply, k1]
      dsimp only
      rw [RdS.bind_apply, h7]
      show (RdS.lift (Pickle.parseSkBoosting P m v) >>= fun g => RdS.lift (skAssemble P g)) b' = _
      rw [RdS.bind_apply, h9]
      show RdS.lift (skAssemble P g) b' = _
      rw [h10]
      rfl
    have hr : rest = [] := by
      by_contra hr
      refine h2 used rest rfl hr e ?_
      obtain ⟨b', k1, -⟩ := run [] (Bufio.new { rest := used, lim := fun _ => 4096 })
        ⟨.eof, by rw [List.append_nil]; exact (arr used).represents (Nat.zero_le _)⟩
      show loaderOf (skEnsembleFromReaderS P lt) _ = _
      unfold loaderOf
      rw [k1]
      rfl
    subst hr
    rw [List.append_nil] at hb
    exact run more b hb

/-! ## LightGBM text -/

/-- with a newline in front, the text ends with two newlines -/
def EndsBlank (c : Str) : Prop := ∃ c', '\n' :: c = c' ++ ['\n', '\n']

theorem endsBlank_step {l u : Str} (h : EndsBlank (l ++ '\n' :: u)) (hl : '\n' ∉ l) : (u = [] ∧ l = []) ∨ EndsBlank u := by
  obtain ⟨c', h⟩ := h
  rcases List.eq_nil_or_concat u with rfl | ⟨u', x, rfl⟩
  · left
    refine ⟨rfl, ?_⟩
    rw [← List.cons_append, show c' ++ ['\n', '\n'] = (c' ++ ['\n']) ++ ['\n'] by simp] at h
    have := (List.append_inj' h rfl).1
    rcases List.eq_nil_or_concat l with rfl | ⟨l', y, rfl⟩
    · rfl
    · rw [List.concat_eq_append, ← List.cons_append] at this
      have := (List.append_inj' this rfl).2
      rw [List.cons.inj this |>.1] at hl
      simp at hl
  · right
    rw [List.concat_eq_append] at h ⊢
    have h' : ('\n' :: (l ++ '\n' :: u')) ++ [x] = (c' ++ ['\n']) ++ ['\n'] := by simpa using h
    obtain ⟨h1, h2⟩ := List.append_inj' h' rfl
    cases h2
    rcases List.eq_nil_or_concat u' with rfl | ⟨v, y, rfl⟩
    · exact ⟨[], rfl⟩
    · rw [List.concat_eq_append] at h1 ⊢
      have h1' : ('\n' :: (l ++ '\n' :: v)) ++ [y] = c' ++ ['\n'] := by simpa using h1
      cases (List.append_inj' h1' rfl).2
      exact ⟨'\n' :: v, by simp⟩

theorem endsBlank_newline {c : Str} (h : EndsBlank c) : '\n' ∈ c := by
  obtain ⟨c', h⟩ := h
  cases c' with
  | nil => cases h; simp
  | cons x c' =>
    rw [List.cons_append] at h
    rw [(List.cons.inj h).2]
    simp

theorem paramsLoop_more : ∀ (fuel : Nat) (c line : Str) (params p : Params) (r : Reader), EndsBlank c →
    paramsLoop fuel ⟨c, false⟩ line params = .ok (p, r) →
    ∃ rest, r = ⟨rest, false⟩ ∧ (rest = [] ∨ EndsBlank rest) ∧ ∀ d io fuel', (c ++ d).length < fuel' →
      paramsLoop fuel' ⟨c ++ d, io⟩ line params = .ok (p, ⟨rest ++ d, io⟩)
  | 0, _, _, _, _, _, _, h => nomatch h
  | fuel + 1, c, line, params, p, r, he, h => by
    rcases line_cases c with hn | ⟨l, u, rfl, hl⟩
    · exact absurd (endsBlank_newline he) hn
    · rw [paramsLoop] at h
      obtain ⟨params', h1, h2⟩ := Res.bind_eq_ok.1 h
      rw [readString_newline hl] at h2
      have hstep := endsBlank_step he hl
      have key : ∀ d, (l ++ '\n' :: u) ++ d = l ++ '\n' :: (u ++ d) := by simp
      by_cases ht : trimSpace (l ++ ['\n']) = []
      · simp only [ht, if_true, if_false, reduceCtorEq] at h2
        cases h2
        refine ⟨u, rfl, hstep.imp (·.1) id, fun d io fuel' hf => ?_⟩
        obtain ⟨k, rfl⟩ : ∃ k, fuel' = k + 1 := ⟨fuel' - 1, by omega⟩
        rw [key d, paramsLoop, h1, Res.ok_bind, readString_newline hl]
        simp only [ht, if_true, if_false, reduceCtorEq]
      · simp only [ht, if_false, reduceCtorEq] at h2
        rcases hstep with ⟨rfl, rfl⟩ | hu
        · exact absurd (by decide) ht
        · obtain ⟨rest, g1, g2, g3⟩ := paramsLoop_more fuel u _ params' p r hu h2
          refine ⟨rest, g1, g2, fun d io fuel' hf => ?_⟩
          obtain ⟨k, rfl⟩ : ∃ k, fuel' = k + 1 := ⟨fuel' - 1, by omega⟩
          rw [key d, paramsLoop, h1, Res.ok_bind, readString_newline hl]
          simp only [ht, if_false, reduceCtorEq]
          refine g3 d io k ?_
          simp only [List.length_append, List.length_cons] at hf ⊢
          omega

theorem readParams_more {c : Str} {p : Params} {r : Reader} (he : EndsBlank c) (hc : c ≠ ['\n'])
    (h : readParamsUntilBlank ⟨c, false⟩ = .ok (p, r)) :
    ∃ rest, r = ⟨rest, false⟩ ∧ (rest = [] ∨ EndsBlank rest) ∧ ∀ d io,
      readParamsUntilBlank ⟨c ++ d, io⟩ = .ok (p, ⟨rest ++ d, io⟩) := by
  rcases line_cases c with hn | ⟨l, u, rfl, hl⟩
  · exact absurd (endsBlank_newline he) hn
  rcases endsBlank_step he hl with ⟨rfl, rfl⟩ | hu
  · exact absurd rfl hc
  unfold readParamsUntilBlank at h ⊢
  rw [skipEmpty_eq, readString_newline hl] at h
  simp only [ne_eq, not_true, if_false, Res.ok_bind] at h
  obtain ⟨rest, g1, g2, g3⟩ := paramsLoop_more _ _ _ _ _ _ hu h
  refine ⟨rest, g1, g2, fun d io => ?_⟩
  rw [show (l ++ '\n' :: u) ++ d = l ++ '\n' :: (u ++ d) by simp, skipEmpty_eq, readString_newline hl]
  simp only [ne_eq, not_true, if_false, Res.ok_bind]
  exact g3 d io _ (Nat.lt_succ_self _)

theorem lgTree_newline (P : Platform) : ∃ e, lgTreeFromReader P ⟨['\n'], false⟩ = .err e := ⟨_, rfl⟩

theorem lgReadTrees_more (P : Platform) : ∀ (n : Nat) (c : Str) (ts : List LgTree) (r : Reader), c = [] ∨ EndsBlank c →
    lgReadTrees P n ⟨c, false⟩ = .ok (ts, r) → ∃ rest, r = ⟨rest, false⟩ ∧ ∀ d io, lgReadTrees P n ⟨c ++ d, io⟩ = .ok (ts, ⟨rest ++ d, io⟩)
  | 0, c, ts, r, _, h => by
    cases h
    exact ⟨c, rfl, fun d io => rfl⟩
  | n + 1, c, ts, r, hc, h => by
    rw [lgReadTrees] at h
    obtain ⟨⟨t, r1⟩, h1, h⟩ := Res.bind_eq_ok.1 h
    obtain ⟨⟨us, r2⟩, h2, h⟩ := Res.bind_eq_ok.1 h
    cases h
    rcases hc with rfl | hc
    · unfold lgTreeFromReader at h1
      rw [readParams_empty] at h1
      cases h1
    have hne : c ≠ ['\n'] := by
      rintro rfl
      obtain ⟨e, he⟩ := lgTree_newline P
      rw [he] at h1
      cases h1
    unfold lgTreeFromReader at h1
    obtain ⟨⟨p, q⟩, h3, h1⟩ := Res.bind_eq_ok.1 h1
    obtain ⟨a, h4, h1⟩ := Res.bind_eq_ok.1 h1
    cases h1
    obtain ⟨rest, rfl, g2, g3⟩ := readParams_more hc hne h3
    obtain ⟨rest', g4, g5⟩ := lgReadTrees_more P n rest us r g2 h2
    refine ⟨rest', g4, fun d io => ?_⟩
    rw [lgReadTrees, lgTreeFromReader, g3 d io]
    simp only [Res.ok_bind, h4]
    show (lgReadTrees P n ⟨rest ++ d, io⟩ >>= _) = _
    rw [g5 d io]
    rfl

/-- a file that ends with a blank line loads alike whatever comes after it, which is left in the reader -/
theorem lgEnsemble_more {P : Platform} {c : Str} {lt : Bool} {ens : Ensemble} {r : Reader}
    (h : lgEnsembleFromReader P ⟨c ++ "\n\n".toList, false⟩ lt = .ok (ens, r)) :
    ∃ rest, r = ⟨rest, false⟩ ∧ ∀ d io, lgEnsembleFromReader P ⟨c ++ "\n\n".toList ++ d, io⟩ lt = .ok (ens, ⟨rest ++ d, io⟩) := by
  unfold lgEnsembleFromReader at h ⊢
  obtain ⟨⟨p, r1⟩, hp, h⟩ := Res.bind_eq_ok.1 h
  have he : EndsBlank (c ++ "\n\n".toList) := ⟨'\n' :: c, rfl⟩
  obtain ⟨rest, rfl, g2, g3⟩ := readParams_more he (fun h => by have := congrArg List.length h; simp at this) hp
  simp only at h
  obtain ⟨u0, hv, h⟩ := Res.bind_eq_ok.1 h
  obtain ⟨K, hK, h⟩ := Res.bind_eq_ok.1 h
  obtain ⟨K', hK', h⟩ := Res.bind_eq_ok.1 h
  split at h
  · cases h
  split at h
  · cases h
  split at h
  · cases h
  obtain ⟨M, hM, h⟩ := Res.bind_eq_ok.1 h
  obtain ⟨toks, ht, h⟩ := Res.bind_eq_ok.1 h
  split at h
  · cases h
  split at h
  · cases h
  obtain ⟨tr, htr, h⟩ := Res.bind_eq_ok.1 h
  obtain ⟨⟨ts, r2⟩, hts, h⟩ := Res.bind_eq_ok.1 h
  cases h
  obtain ⟨rest', g4, g5⟩ := lgReadTrees_more P _ _ _ _ g2 hts
  refine ⟨rest', g4, fun d io => ?_⟩
  simp only [g3 d io, Res.ok_bind, hv, hK, hK', hM, ht, htr]
  simp only [*, if_false, g5 d io, Res.ok_bind]
  rfl

end Leaves
