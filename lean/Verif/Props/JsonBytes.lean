import Verif.Proofs.JsonBytes
import Verif.Props.JsonText

/-!
# C99: JSON dumps are read from bytes, in pieces

The loader of JSON dumps passes its `io.Reader` to `encoding/json`, which looks for the end of the first value byte by byte while the
bytes arrive.
-/

namespace Leaves

open Spec

/-- However the bytes of a JSON dump arrive, the result is that of loading the characters in them, where a byte that is not part of UTF-8
counts as U+FFFD. It is enough that one call of `Read` for each byte, and one more for the end, is not empty. -/
theorem C99_pieces (P : Platform) (fuel : Nat) (feed : Feed UInt8) (t : Str) (lt : Bool) (ht : Chars feed.rest t)
    (enough : feed.rest.length < busyReads feed.lim fuel) :
    JsonBytes.lgEnsembleFromJSON P fuel feed lt = lgEnsembleFromJSONText P ⟨t, feed.fin == .fail⟩ lt := by
  cases lt with
  | true => rfl
  | false =>
    have hr := JsonBytes.readValue_spec (D := P.jsonDepth) fuel .beginValue [] [] 0 feed (Nat.le_refl _) enough
    have hp := JsonBytes.parallel (D := P.jsonDepth) (io := feed.fin == .fail) ht .beginValue []
    have hc := JsonBytes.run_text (D := P.jsonDepth) (io := feed.fin == .fail) t
    unfold JsonBytes.lgEnsembleFromJSON lgEnsembleFromJSONText JsonText.decode
    rw [if_neg (by decide)]
    rcases hp with ⟨h1, h2⟩ | ⟨p, q, u, r, hb, hu, hpu, hqr, h1, h2⟩
    · -- no value
      rcases hr with ⟨n, -, h3, -⟩ | ⟨-, m, h3⟩
      · rw [h1] at h3; cases h3
      rw [h3]
      dsimp only
      rw [h2] at hc
      unfold lgEnsembleFromDocument
      cases hv : JsonText.value (2 * t.length + 1) t with
      | none => rfl
      | some x =>
        obtain ⟨v, rest⟩ := x
        rw [hv] at hc
        change none = (if P.jsonDepth < v.depth then none else _) at hc
        dsimp only
        split at hc
        · rename_i hd
          split
          · rfl
          · rw [Option.bind_some]
            unfold decodeEnsemble
            rw [if_pos hd]
            rfl
        · dsimp only at hc
          split at hc
          · rename_i hx
            rw [if_pos hx]
          · cases hc
    · rcases hr with ⟨n, hn, h3, h4⟩ | ⟨h3, -⟩
      · rw [h4]
        dsimp only
        have hq : q = feed.rest.drop n := Option.some.inj (h1.symm.trans h3)
        have hpn : p.length = n := by
          have e := congrArg List.length hb
          rw [List.length_append, hq, List.length_drop] at e
          omega
        have hpp : (([] : List UInt8) ++ feed.rest).take (([] : List UInt8).length + n) = p := by
          rw [List.nil_append, List.length_nil, Nat.zero_add, hb, ← hpn, List.take_left]
        rw [hpp, JsonBytes.document_eq hpu]
        rw [h2] at hc
        cases hv : JsonText.value (2 * t.length + 1) t with
        | none => rw [hv] at hc; cases hc
        | some x =>
          obtain ⟨v, rest⟩ := x
          rw [hv] at hc
          change some r = (if P.jsonDepth < v.depth then none else _) at hc
          split at hc
          · cases hc
          · dsimp only at hc ⊢
            split at hc
            · cases hc
            · rename_i hx
              cases hc
              rw [if_neg hx, JsonBytes.value_cut hv hu]
              rfl
      · rw [h1] at h3; cases h3

/-- A JSON dump in UTF-8 loads like its text. -/
theorem C99_utf8 (P : Platform) (fuel : Nat) (feed : Feed UInt8) (text : Str) (lt : Bool) (ht : feed.rest = Mat.utf8 text)
    (enough : feed.rest.length < busyReads feed.lim fuel) :
    JsonBytes.lgEnsembleFromJSON P fuel feed lt = lgEnsembleFromJSONText P ⟨text, feed.fin == .fail⟩ lt :=
  C99_pieces P fuel feed text lt (ht ▸ Oct.chars_utf8 text) enough

/-- The loader does not wait for anything after the closing brace: when the bytes of the document have been delivered it is done, though
the connection stays open and delivers nothing more, or delivers anything else. -/
theorem C99_prompt (P : Platform) (fuel : Nat) (feed : Feed UInt8) (doc more : List UInt8) (t : Str) (o : JsonObj) (lt : Bool)
    (content : feed.rest = doc ++ more) (ht : Chars doc t) (text : BeginsWith t (.obj o) []) (nest : NestedAtMost P.jsonDepth (.obj o))
    (enough : doc.length ≤ busyReads feed.lim fuel) :
    JsonBytes.lgEnsembleFromJSON P fuel feed lt = lgEnsembleFromJSONText P ⟨t, false⟩ lt := by
  cases lt with
  | true => rfl
  | false =>
    have hv := JsonText.value_begins text (by rintro s ⟨⟩)
    have hc := JsonBytes.run_text (D := P.jsonDepth) (io := true) t
    rw [hv] at hc
    change _ = (if P.jsonDepth < (Json.obj o).depth then none else _) at hc
    rw [if_neg (by have := depth_le nest; omega)] at hc
    have hb : JsonBytes.scanB P.jsonDepth true .beginValue [] doc = some [] := by
      rcases JsonBytes.parallel (D := P.jsonDepth) (io := true) ht .beginValue [] with ⟨-, h2⟩ | ⟨p, q, u, r, hb, hu, hpu, hqr, h1, h2⟩
      · rw [hc] at h2; cases h2
      · rw [hc] at h2
        cases h2
        have := (Oct.chars_eq_nil hqr).2 rfl
        rw [h1, this]
    have hr := JsonBytes.readValue_early fuel .beginValue [] [] doc more 0 feed (Nat.le_refl _) content hb enough
    unfold JsonBytes.lgEnsembleFromJSON lgEnsembleFromJSONText
    rw [if_neg (by decide), hr]
    dsimp only
    rw [List.nil_append, JsonBytes.document_eq ht, hv, JsonText.decode_object (r := ⟨t, false⟩) text]
    rfl

/-- A reader that only ever returns nothing keeps the loader busy forever: there is no limit on the number of empty reads. (The loaders
for text and binary formats give up after 100 of them.) -/
theorem C99_empty_reads (P : Platform) (fuel : Nat) (feed : Feed UInt8) (empty : ∀ i, feed.lim i = 0) :
    JsonBytes.lgEnsembleFromJSON P fuel feed false = .hang := by
  unfold JsonBytes.lgEnsembleFromJSON
  rw [if_neg (by decide), JsonBytes.readValue_hang fuel .beginValue [] [] 0 feed empty]

/-! ### an example -/

namespace JsonBytesExample

open LgExample (platform)

/-- a model of one leaf with an entry in Latin-1, followed by something else -/
def file : List UInt8 :=
  Mat.utf8 "{\"name\":\"tree\",\"version\":\"v2\",\"feature\":\"gr".toList ++ [0xFC] ++ Mat.utf8
    "n\",\"num_class\":1,\"num_tree_per_iteration\":1,\"max_feature_idx\":0,\"tree_info\":[{\"num_leaves\":1,\"num_cat\":0,\"tree_structure\":{\"leaf_value\":7}}]}!".toList

/-- every other read is empty, the others deliver five bytes; the reader fails in the end -/
def reader : Feed UInt8 := { rest := file, fin := .fail, lim := fun i => 5 * (i % 2) }

/-- the document arrives and then the connection hangs -/
def hanging : Feed UInt8 := { rest := file, lim := fun i => if i < 40 then 5 else 0 }

/-- loading from the bytes, with the outcome only -/
def outcome (feed : Feed UInt8) (fuel : Nat) : Res Unit :=
  match JsonBytes.lgEnsembleFromJSON platform fuel feed false with
  | .ok _ => .ok ⟨⟩
  | .err e => .err e
  | .panic => .panic
  | .hang => .hang

end JsonBytesExample

open JsonBytesExample in
/-- Non-vacuity: there is a file, not in UTF-8, that is read in pieces with empty reads in between and loads; it also loads if the reader
delivers nothing more after the document, in a limited number of calls. -/
theorem C99_example : (∃ t, Chars reader.rest t) ∧ reader.rest.length < busyReads reader.lim 400 ∧
    outcome reader 400 = .ok ⟨⟩ ∧ outcome hanging 40 = .ok ⟨⟩ ∧ outcome hanging 30 = .hang := by
  exact ⟨Oct.chars_exists _, by decide +kernel, by decide +kernel, by decide +kernel, by decide +kernel⟩

end Leaves
