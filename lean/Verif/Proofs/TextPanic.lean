import Verif.Proofs.NoPanic

/-! # The fields of a crashing LightGBM tree block: internals of C57 -/

namespace Leaves

open Spec

theorem parseInt_mono (s : Str) (n : Int) (h : parseInt 32 s = some n) : atoi s = some n := by
  unfold atoi
  unfold parseInt at h ⊢
  split at h
  · rename_i ds
    split at h
    · rename_i m hm
      split at h
      · cases h
        rw [if_pos (by norm_num at *; omega)]
      · cases h
    · cases h
  · rename_i ds
    split at h
    · rename_i m hm
      split at h
      · cases h
        rw [if_pos (by norm_num at *; omega)]
      · cases h
    · cases h
  · rename_i ds h1 h2
    split at h
    · rename_i m hm
      split at h
      · cases h
        rw [if_pos (by norm_num at *; omega)]
      · cases h
    · cases h

theorem parseUint_numeral (s : Str) (n : Nat) (h : parseUint 32 s = some n) : Numeral s n := by
  unfold parseUint at h
  split at h
  · rename_i m hm
    split at h
    · rename_i hlt
      cases h
      obtain ⟨h1, h2, h3⟩ := (parseDigits_iff s n).1 hm
      exact ⟨s, h1, h2, by omega, by norm_num at *; omega, .inl ⟨rfl, by rw [h3]⟩⟩
    · cases h
  · cases h

theorem parseInt_numeral (s : Str) (n : Int) (h : parseInt 32 s = some n) : Numeral s n := (atoi_iff s n).1 (parseInt_mono s n h)

theorem convertAll_forall₂ {α : Type} (f : Str → Option α) : ∀ (l : List Str) (vs : List α), Params.convertAll f l = .ok vs →
    List.Forall₂ (fun t v => f t = some v) l vs
  | [], vs, h => by cases h; exact .nil
  | s :: l, vs, h => by
    unfold Params.convertAll at h
    obtain ⟨v, hv, h⟩ := Res.bind_eq_ok.1 h
    obtain ⟨ws, hw, h⟩ := Res.bind_eq_ok.1 h
    cases h
    refine .cons ?_ (convertAll_forall₂ f l ws hw)
    cases hs : f s with
    | none => rw [hs] at hv; cases hv
    | some x => rw [hs] at hv; cases hv; rfl

theorem listField_of {α : Type} {p : Params} {lines : List Str} (hb : ∀ k v, p k = some v ↔ Bound lines k v) {key : String}
    {f : Str → Option α} {R : Str → α → Prop} (hR : ∀ t v, f t = some v → R t v) {xs : List α}
    (h : (match p key.toList with | none => .err "no field" | some s => Params.convertAll f (split s " ".toList)) = Res.ok xs) :
    ListField lines key R xs := by
  split at h
  · cases h
  · rename_i s hs
    obtain ⟨toks, h1, h2, h3, -⟩ := char_split ' ' s
    rw [h3, show " ".toList = [' '] from rfl, split_char h1 h2] at h
    refine ⟨toks, ?_, h2, ?_⟩
    · rw [show " ".toList = [' '] from rfl, ← h3]
      exact (hb _ _).1 hs
    · exact (convertAll_forall₂ f toks xs h).imp fun t v => hR t v

theorem numeral_of_toInt {p : Params} {lines : List Str} (hb : ∀ k v, p k = some v ↔ Bound lines k v) {key : String} {n : Int}
    (h : p.toInt key.toList = .ok n) : ∃ v, Bound lines key.toList v ∧ Numeral v n := by
  unfold Params.toInt at h
  split at h
  · cases h
  · rename_i s hs
    refine ⟨s, (hb _ _).1 hs, (atoi_iff _ _).1 ?_⟩
    cases ha : atoi s with
    | none => rw [ha] at h; cases h
    | some x => rw [ha] at h; cases h; rfl

theorem innerLines_of {P : Platform} {p : Params} {lines : List Str} (hb : ∀ k v, p k = some v ↔ Bound lines k v) {n : Nat} {a : LgArrays}
    (h : TreeBlock P p n a) : InnerLines P lines n a where
  leaves := numeral_of_toInt hb h.leaves
  pos := h.pos
  left := listField_of hb parseInt_numeral h.left
  right := listField_of hb parseInt_numeral h.right
  types := listField_of hb parseUint_numeral h.types
  features := listField_of hb parseUint_numeral h.features
  thresholds := listField_of hb (fun _ _ h => h) h.thresholds
  cats := by
    obtain ⟨c, hc, h'⟩ := h.cats
    obtain ⟨v, hv, hn⟩ := numeral_of_toInt hb hc
    refine ⟨v, c, hv, hn, fun h0 => ?_, fun h0 => ?_⟩
    · rcases h' with ⟨-, ws, h1, h2, h3⟩ | ⟨h1, -⟩
      · refine ⟨?_, listField_of hb parseUint_numeral h3⟩
        obtain ⟨toks, h4, h5, h6⟩ := listField_of (R := fun t x => parseUint 32 t = some x) hb (fun _ _ h => h) h1
        refine ⟨toks, h4, h5, ?_⟩
        rw [h2, List.forall₂_map_right_iff]
        refine h6.imp fun t x hx => ?_
        have hlt : x < 2 ^ 32 := by
          unfold parseUint at hx
          split at hx
          · split at hx
            · cases hx; assumption
            · cases hx
          · cases hx
        rw [BitVec.toNat_ofNat, Nat.mod_eq_of_lt hlt]
        exact parseUint_numeral t x hx
      · omega
    · rcases h' with ⟨h1, -⟩ | ⟨-, h1, h2⟩
      · omega
      · exact ⟨h1, h2⟩

theorem readParams_inv {r r' : Reader} {p : Params} (h : readParamsUntilBlank r = .ok (p, r')) :
    ∃ lines e, FileBlock r.rest lines r'.rest e ∧ ∀ k v, p k = some v ↔ Bound lines k v := by
  obtain ⟨t, io⟩ := r
  rcases C36_texts_covered t with hn | ⟨first, s, u, ss, rest, e, rfl, hn, hl, hb⟩
  · obtain ⟨m, hm⟩ := readParams_no_newline hn io
    rw [hm] at h; cases h
  · rcases readParams_block io hn hl hb with ⟨hr, -, p', h', hh⟩ | ⟨-, m, h'⟩
    · rw [h'] at h
      cases h
      exact ⟨s :: ss, e, ⟨first, s, u, ss, rfl, hn, hl, hb, rfl, hr⟩, hh⟩
    · rw [h'] at h; cases h

end Leaves
