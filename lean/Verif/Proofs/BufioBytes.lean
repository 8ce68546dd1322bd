import Verif.Proofs.BufioText

/-!
# The binary loaders on a buffered reader
-/

namespace Leaves
open Spec

/-- one call of `Read` on a buffered reader, asking for `n > 0` elements -/
theorem Bufio.read_spec {α : Type} {k : Nat} {b : Bufio α} {rest : List α} {fin : Fault}
    (h : Represents k b rest fin) {n : Nat} (hn : 0 < n) :
    ∃ bs e b', b.read n = (bs, e, b') ∧ bs.length ≤ n ∧ bs ++ (b'.buf ++ b'.feed.rest) = rest ∧
      (∀ rest', bs ++ rest' = rest → Represents k b' rest' fin) ∧
      (e = none ∨ (e = some fin ∧ bs = rest)) ∧ (n < b.cap → e ≠ none → bs = []) ∧
      (bs = [] → e = none → b.feed.lim 0 = 0 ∧ b'.feed.lim = fun i => b.feed.lim (i + 1)) := by
  have hn0 : ¬ n = 0 := by omega
  have key : ∀ (bs : List α) (b' : Bufio α), bs ++ (b'.buf ++ b'.feed.rest) = rest → b'.feed.fin = fin →
      (b'.err = none ∨ (b'.err = some fin ∧ b'.feed.rest = [])) → 16 ≤ b'.cap → b'.buf.length ≤ b'.cap →
      Patient k b'.feed.lim → ∀ rest', bs ++ rest' = rest → Represents k b' rest' fin := by
    intro bs b' h1 h2 h3 h4 h5 h6 rest' hr
    refine ⟨?_, h2, h3, h4, h5, h6, h.few⟩
    exact List.append_cancel_left (h1.trans hr.symm)
  by_cases hb : b.buf = []
  · have hbe : b.buf.isEmpty = true := by simpa using hb
    have hrest : b.feed.rest = rest := by rw [← h.content, hb]; rfl
    rcases h.pending with he | ⟨he, hr⟩
    · by_cases hc : b.cap ≤ n
      · obtain ⟨bs, e, f', hf, hcat, hfin, hlen, hlim, herr, hemp⟩ := b.feed.read_spec n hn
        have hu : b.read n = (bs, e, { b with feed := f' }) := by
          rw [Bufio.read, if_neg hn0, if_pos hbe, he]
          dsimp only
          rw [if_pos hc, hf]
        have hcat' : bs ++ (b.buf ++ f'.rest) = rest := by rw [hb, List.nil_append, hcat, hrest]
        refine ⟨bs, e, _, hu, hlen, hcat', ?_, ?_, fun h1 => absurd h1 (by omega), ?_⟩
        · exact key bs _ hcat' (hfin.trans h.ending) (Or.inl he) h.room h.fits
            (by show Patient k f'.lim; rw [hlim]; exact Patient.shift h.patient)
        · rcases herr with e0 | ⟨e1, e2⟩
          · exact Or.inl e0
          · refine Or.inr ⟨by rw [e1, h.ending], ?_⟩
            rw [e2, List.append_nil] at hcat
            rw [hcat, hrest]
        · intro h1 h2; exact ⟨hemp h1 h2, hlim⟩
      · obtain ⟨bs, e, f', hf, hcat, hfin, hlen, hlim, herr, hemp⟩ := b.feed.read_spec b.cap (by have := h.room; omega)
        by_cases hbs : bs = []
        · have hu : b.read n = ([], e, { b with feed := f' }) := by
            rw [Bufio.read, if_neg hn0, if_pos hbe, he]
            dsimp only
            rw [if_neg hc, hf]
            dsimp only
            rw [if_pos (by simpa using hbs)]
          rw [hbs, List.nil_append] at hcat
          have hcat' : [] ++ (b.buf ++ f'.rest) = rest := by rw [hb, List.nil_append, List.nil_append, hcat, hrest]
          refine ⟨[], e, _, hu, Nat.zero_le _, hcat', ?_, ?_, fun _ _ => rfl, ?_⟩
          · exact key [] _ hcat' (hfin.trans h.ending) (Or.inl he) h.room h.fits
              (by show Patient k f'.lim; rw [hlim]; exact Patient.shift h.patient)
          · rcases herr with e0 | ⟨e1, e2⟩
            · exact Or.inl e0
            · refine Or.inr ⟨by rw [e1, h.ending], ?_⟩
              rw [← hrest, ← hcat, e2]
          · intro _ h2; exact ⟨hemp hbs h2, hlim⟩
        · have hu : b.read n = (bs.take n, none, { b with buf := bs.drop n, err := e, feed := f' }) := by
            rw [Bufio.read, if_neg hn0, if_pos hbe, he]
            dsimp only
            rw [if_neg hc, hf]
            dsimp only
            rw [if_neg (by simpa using hbs)]
          have hcat' : bs.take n ++ (bs.drop n ++ f'.rest) = rest := by
            rw [← List.append_assoc, List.take_append_drop, hcat, hrest]
          refine ⟨bs.take n, none, _, hu, ?_, hcat', ?_, Or.inl rfl, fun _ h1 => absurd rfl h1, ?_⟩
          · rw [List.length_take]; omega
          · refine key (bs.take n) _ hcat' (hfin.trans h.ending) ?_ h.room ?_
              (by show Patient k f'.lim; rw [hlim]; exact Patient.shift h.patient)
            · rcases herr with e0 | ⟨e1, e2⟩
              · exact Or.inl e0
              · exact Or.inr ⟨by show e = _; rw [e1, h.ending], e2⟩
            · show (bs.drop n).length ≤ b.cap
              rw [List.length_drop]; omega
          · intro h1
            have hl := congrArg List.length h1
            have : 0 < bs.length := List.length_pos_iff.mpr hbs
            rw [List.length_take, List.length_nil] at hl; omega
    · have hu : b.read n = ([], some fin, { b with err := none }) := by
        rw [Bufio.read, if_neg hn0, if_pos hbe, he]
      have hnil : [] = rest := by rw [← hrest, hr]
      have hcat' : [] ++ (b.buf ++ b.feed.rest) = rest := by rw [List.nil_append, h.content]
      refine ⟨[], some fin, _, hu, Nat.zero_le _, hcat', ?_, Or.inr ⟨rfl, hnil⟩, fun _ _ => rfl, fun _ h => by cases h⟩
      exact key [] _ hcat' h.ending (Or.inl rfl) h.room h.fits h.patient
  · have hbe : ¬ b.buf.isEmpty = true := by simpa using hb
    have hu : b.read n = (b.buf.take n, none, { b with buf := b.buf.drop n }) := by
      rw [Bufio.read, if_neg hn0, if_neg hbe]
    have hcat' : b.buf.take n ++ (b.buf.drop n ++ b.feed.rest) = rest := by
      rw [← List.append_assoc, List.take_append_drop, h.content]
    refine ⟨b.buf.take n, none, _, hu, ?_, hcat', ?_, Or.inl rfl, fun _ h1 => absurd rfl h1, ?_⟩
    · rw [List.length_take]; omega
    · refine key (b.buf.take n) _ hcat' h.ending h.pending h.room ?_ h.patient
      show (b.buf.drop n).length ≤ b.cap
      rw [List.length_drop]; have := h.fits; omega
    · intro h1
      have hl := congrArg List.length h1
      have : 0 < b.buf.length := List.length_pos_iff.mpr hb
      rw [List.length_take, List.length_nil] at hl; omega

/-- `io.ReadFull`: the next `n` elements, or an error when there are fewer -/
theorem Bufio.readFullLoop_spec {α : Type} {k : Nat} {fin : Fault} :
    ∀ (fuel n : Nat) (b : Bufio α) (acc rest : List α) (j : Nat), Represents k b rest fin →
      j ≤ k → (0 < n → b.feed.lim j ≠ 0 ∨ b.buf ≠ []) → 100 * rest.length + j + 2 ≤ fuel →
      (rest.length < n → Bufio.readFullLoop fuel b n acc = .err "EOF") ∧
      (n ≤ rest.length → ∃ b', Bufio.readFullLoop fuel b n acc = .ok (acc ++ rest.take n, b') ∧
        Represents k b' (rest.drop n) fin)
  | 0, _, _, _, _, _, _, _, _, hf => by omega
  | fuel + 1, n, b, acc, rest, j, h, hj, hlive, hf => by
    by_cases hn0 : n = 0
    · subst hn0
      refine ⟨fun h => by omega, fun _ => ⟨b, ?_, by simpa using h⟩⟩
      simp [Bufio.readFullLoop]
    have hn : 0 < n := by omega
    obtain ⟨bs, e, b', hu, hlen, hcat, hrep, herr, _, hemp⟩ := Bufio.read_spec h hn
    have hu' : Bufio.readFullLoop (fuel + 1) b n acc = (match e with
        | some _ => if n ≤ bs.length then .ok (acc ++ bs, b') else .err "EOF"
        | none => Bufio.readFullLoop fuel b' (n - bs.length) (acc ++ bs)) := by
      cases e <;> simp [Bufio.readFullLoop, hn0, hu]
    rcases herr with rfl | ⟨rfl, rfl⟩
    · dsimp only at hu'
      by_cases hbs : bs = []
      · subst hbs
        obtain ⟨hz, hlim⟩ := hemp rfl rfl
        have hbuf : b.buf = [] := by
          by_contra hne
          have hbe : ¬ b.buf.isEmpty = true := by simpa using hne
          rw [Bufio.read, if_neg hn0, if_neg hbe] at hu
          have hl := congrArg List.length (congrArg Prod.fst hu)
          have : 0 < b.buf.length := List.length_pos_iff.mpr hne
          simp only [List.length_take, List.length_nil] at hl; omega
        have hl0 : b.feed.lim j ≠ 0 := (hlive hn).resolve_right (by simp [hbuf])
        have hj0 : j ≠ 0 := by rintro rfl; exact hl0 hz
        have := Bufio.readFullLoop_spec fuel n b' acc rest (j - 1) (hrep rest rfl) (by omega)
          (fun _ => Or.inl (by rw [hlim]; show b.feed.lim (j - 1 + 1) ≠ 0; rwa [Nat.sub_add_cancel (by omega)]))
          (by omega)
        rw [hu']
        simpa using this
      · have hpos : 0 < bs.length := List.length_pos_iff.mpr hbs
        generalize b'.buf ++ b'.feed.rest = rest' at hcat
        subst hcat
        have hr := hrep rest' rfl
        obtain ⟨j', hj', hl'⟩ := hr.patient 0
        have hfew := h.few
        have := Bufio.readFullLoop_spec fuel (n - bs.length) b' (acc ++ bs) rest' j' hr hj'
          (fun _ => Or.inl (by simpa using hl')) (by
            rw [List.length_append] at hf; omega)
        rw [hu']
        refine ⟨fun hlt => this.1 (by rw [List.length_append] at hlt; omega), fun hle => ?_⟩
        obtain ⟨b2, h1, h2⟩ := this.2 (by rw [List.length_append] at hle; omega)
        refine ⟨b2, ?_, ?_⟩
        · rw [h1, List.take_append, List.take_of_length_le hlen, List.append_assoc]
        · rw [List.drop_append, List.drop_of_length_le hlen, List.nil_append]; exact h2
    · dsimp only at hu'
      rw [hu']
      refine ⟨fun hlt => by rw [if_neg (by omega)], fun hle => ?_⟩
      rw [if_pos hle]
      refine ⟨b', ?_, ?_⟩
      · rw [List.take_of_length_le hlen]
      · rw [List.drop_of_length_le hlen]
        exact hrep [] (List.append_nil _)

end Leaves
