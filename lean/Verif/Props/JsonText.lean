import Verif.Proofs.JsonValue
import Verif.Props.JsonDoc
import Verif.Props.Decimal

/-!
# C84: JSON dumps are read from their text
-/

namespace Leaves

open Spec

namespace JsonText

theorem value_begins {text : Str} {v : Json} {rest : Str} (h : BeginsWith text v rest) (he : Ends v rest) :
    value (2 * text.length + 1) text = some (v, rest) := by
  obtain ⟨a, t, rfl, ha, ht⟩ := h
  have := value_complete v t ht (2 * (a ++ t ++ rest).length + 1) a rest ha (by simp only [List.length_append]; omega) he
  rwa [← List.append_assoc] at this

theorem decode_object {r : Reader} {o : JsonObj} {rest : Str} (h : BeginsWith r.rest (.obj o) rest) : decode r = some (.obj o) := by
  unfold decode
  rw [value_begins h (by rintro s ⟨⟩)]
  simp [hasEnd]

theorem decode_sound {r : Reader} {v : Json} (h : decode r = some v) : ∃ rest, BeginsWith r.rest v rest := by
  unfold decode at h
  split at h
  · cases h
  · rename_i v' rest hv
    split at h
    · cases h
    · cases h
      exact ⟨rest, (sound _).1 _ _ _ hv⟩

end JsonText

/-- The layout of a JSON dump does not matter: input that begins with the same object, however it is written (white space, escapes) and
whatever follows it, has the same result; even a read error after the object goes unnoticed. -/
theorem C84_layout (P : Platform) (r r' : Reader) (o : JsonObj) (rest rest' : Str) (h : BeginsWith r.rest (.obj o) rest)
    (h' : BeginsWith r'.rest (.obj o) rest') (lt : Bool) : lgEnsembleFromJSONText P r lt = lgEnsembleFromJSONText P r' lt := by
  unfold lgEnsembleFromJSONText
  rw [JsonText.decode_object h, JsonText.decode_object h']

/-- A text does not begin with two different objects. -/
theorem C84_unambiguous (text : Str) (o o' : JsonObj) (rest rest' : Str) (h : BeginsWith text (.obj o) rest)
    (h' : BeginsWith text (.obj o') rest') : o = o' ∧ rest = rest' := by
  have e := JsonText.value_begins h (by rintro s ⟨⟩)
  rw [JsonText.value_begins h' (by rintro s ⟨⟩)] at e
  injection e with e
  injection e with e1 e2
  injection e1 with e1
  exact ⟨e1.symm, e2.symm⟩

/-- A file that is the text of a model document gives the predictions of the trees in the document. -/
theorem C84_file (P : Platform) (r : Reader) (v : Json) (rest : Str) (text : BeginsWith r.rest v rest) (K N : Nat) (M : Int) (ts : List JTree)
    (doc : ModelDoc P v K M ts) (nest : NestedAtMost P.jsonDepth v) (counts : 1 ≤ K ∧ 1 ≤ N ∧ ts.length = N * K)
    (trees : ∀ t ∈ ts, ∃ W, JTreeOK t W ∧ jLeaves t.root * 24 ≤ P.maxAlloc ∧ 4 * W ≤ P.maxAlloc) :
    ∃ ens, lgEnsembleFromJSONText P r false = .ok ens ∧ Fits ens ∧ ens.transform = .raw K ∧
      ens.nRawOutputGroups = K ∧ ens.nEstimators = .ok N ∧ ens.nOutputGroups = K ∧
      ens.nFeatures = (if 0 < M then M + 1 else 0) ∧
      (∀ fvals n w, n ≤ N → (IsRaw P ens.base fvals n w ↔ JRefRaw P P.out ts K fvals n w)) ∧
      ∀ fvals req m m', ((ens.predict P fvals req m.length).run m = (.ok ⟨⟩, m') ↔
        (K ≤ m.length ∧ ens.nFeatures ≤ fvals.length ∧ ∃ n w, Used req N n ∧ JRefRaw P P.out ts K fvals n w ∧ Stored m 0 w m')) := by
  have hv : ∃ o, v = .obj o := by obtain ⟨o, _, h, _⟩ := doc; exact ⟨o, h⟩
  obtain ⟨o, rfl⟩ := hv
  unfold lgEnsembleFromJSONText
  rw [JsonText.decode_object text]
  exact C67_document P _ K N M ts doc nest counts trees

/-- What is accepted begins with a JSON object; the model depends on nothing else. -/
theorem C84_accepted (P : Platform) (r : Reader) (lt : Bool) (ens : Ensemble) (h : lgEnsembleFromJSONText P r lt = .ok ens) :
    ∃ o rest, BeginsWith r.rest (.obj o) rest := by
  unfold lgEnsembleFromJSONText lgEnsembleFromDocument at h
  cases hd : JsonText.decode r with
  | none =>
    rw [hd] at h
    unfold lgEnsembleFromJSON at h
    split at h <;> cases h
  | some v =>
    rw [hd] at h
    obtain ⟨rest, hb⟩ := JsonText.decode_sound hd
    cases v with
    | obj o => exact ⟨o, rest, hb⟩
    | null =>
      exfalso
      unfold lgEnsembleFromJSON decodeEnsemble at h
      split at h
      · cases h
      · rw [Option.bind_some] at h
        split at h
        · cases h
        · rename_i d hd
          split at hd
          · cases hd
          · cases hd
            rw [if_pos (by decide)] at h
            cases h
    | _ =>
      exfalso
      unfold lgEnsembleFromJSON decodeEnsemble at h
      simp only [Option.bind_some, ite_self] at h
      split at h <;> cases h

/-- Input that does not begin with a JSON value is rejected with an error: no panic, no endless loop. -/
theorem C84_rejected (P : Platform) (r : Reader) (lt : Bool) (h : ¬ ∃ v rest, BeginsWith r.rest v rest) :
    ∃ e, lgEnsembleFromJSONText P r lt = .err e := by
  have hd : JsonText.decode r = none := by
    cases hd : JsonText.decode r with
    | none => rfl
    | some v => obtain ⟨rest, hb⟩ := JsonText.decode_sound hd; exact absurd ⟨v, rest, hb⟩ h
  unfold lgEnsembleFromJSONText lgEnsembleFromDocument lgEnsembleFromJSON
  rw [hd]
  by_cases hl : lt = true
  · exact ⟨_, by rw [if_pos hl]⟩
  · exact ⟨_, by rw [if_neg hl]; rfl⟩

/-- A dump that has been cut off anywhere before its last character is rejected with an error. -/
theorem C84_truncated (P : Platform) (o : JsonObj) (text p q : Str) (h : BeginsWith text (.obj o) []) (cut : text = p ++ q) (hq : q ≠ [])
    (ioErr lt : Bool) : ∃ e, lgEnsembleFromJSONText P ⟨p, ioErr⟩ lt = .err e := by
  refine C84_rejected P _ lt ?_
  rintro ⟨v, rest, hp⟩
  dsimp only at hp
  have hb : BeginsWith text v (rest ++ q) := by
    obtain ⟨b, w, e, hb, hw⟩ := hp
    exact ⟨b, w, by rw [cut, e]; simp, hb, hw⟩
  have hv : ∃ o', v = .obj o' := by
    obtain ⟨a, t, rfl, ha, ht⟩ := h
    obtain ⟨u, hu, -⟩ : ∃ u, t = '{' :: (u ++ ['}']) ∧ o.Written u := by rw [Json.Written] at ht; exact ht
    obtain ⟨b, w, e, hb', hw⟩ := hb
    obtain ⟨c, r, rfl, hc, -⟩ := JsonText.written_head hw
    have hs := congrArg JsonText.skip e
    rw [hu, List.append_assoc, List.cons_append, JsonText.skip_white ha (by decide), List.append_assoc b, List.cons_append (a := c),
      JsonText.skip_white hb' hc] at hs
    injection hs with hs _
    subst hs
    cases v with
    | obj o' => exact ⟨o', rfl⟩
    | null => rw [Json.Written] at hw; cases hw
    | bool b => rw [Json.Written] at hw; cases b <;> cases hw
    | num s =>
      rw [Json.Written] at hw
      obtain ⟨e0, n, hn, e⟩ := hw
      obtain ⟨c, r', e', hc⟩ := JsonText.text_head hn
      rw [← e0, e'] at e
      injection e with e _
      subst e
      exact absurd hc (by decide)
    | str s => rw [Json.Written] at hw; obtain ⟨u, e, -⟩ := hw; cases e
    | arr items => rw [Json.Written] at hw; obtain ⟨u, e, -⟩ := hw; cases e
  obtain ⟨o', rfl⟩ := hv
  have := (C84_unambiguous _ _ _ _ _ h hb).2
  simp only [List.nil_eq, List.append_eq_nil_iff] at this
  exact hq this.2

/-- A numeral of JSON is read as the nearest float64, and rejected if that is infinite. -/
theorem C84_numbers (P : Platform) (std : Strconv.Standard P) (w : DecNum) (hw : JsonNumeral w)
    (small : ∀ c s ds, w.exp = some (c, s, ds) → digitsNumber ds < 10000) :
    (∃ x, ReadsAs w x ∧ P.parseFloat w.text = some x) ∨ (Overflows w ∧ P.parseFloat w.text = none) := by
  have ok : w.OK := by
    refine ⟨?_, hw.whole.2.1, ?_, ?_, fun c s ds h => ?_⟩
    · rcases hw.sign with h | h
      · exact .inl h
      · exact .inr (.inr h)
    · intro c hc
      unfold DecNum.frac at hc
      cases hp : w.point with
      | none => rw [hp] at hc; simp at hc
      | some ds => rw [hp] at hc; exact (hw.point ds hp).2 c hc
    · intro h
      exact hw.whole.1 (List.append_eq_nil_iff.1 h).1
    · obtain ⟨h1, h2, h3, h4⟩ := hw.exp c s ds h
      exact ⟨h1, h2, h3, h4, small c s ds h⟩
  rw [std.1]
  by_cases ho : Overflows w
  · exact .inr ⟨ho, parse_overflows ok ho⟩
  · exact .inl (parse_reads ok ho)

/-! ### an example -/

namespace JsonTextExample

open JsonDocExample (tiny tinyTree object number text)
open LgExample (platform)

/-- a model of one leaf with strange layout: line breaks, an escaped letter in a key and in a value -/
def strange : Str :=
  "\n{ \"name\":\"tr\\u0065e\",\"version\" : \"v2\",\r\n\t\"num_class\":1,\"num\\u005ftree_per_iteration\":1 ,\"max_feature_idx\":0,\"tree_info\":[{\"num_leaves\":1,\"num_cat\":0,\"tree_structure\":{\"leaf_value\":7}} ]} and more".toList

/-- the model -/
def oneLeaf : Json := tiny (tinyTree "1" (object [("leaf_value", number "7")]))

mutual
/-- equality of values -/
def same : Json → Json → Bool
  | .null, .null => true
  | .bool a, .bool b => a == b
  | .num a, .num b => a == b
  | .str a, .str b => a == b
  | .arr a, .arr b => sameArr a b
  | .obj a, .obj b => sameObj a b
  | _, _ => false
/-- … of elements -/
def sameArr : JsonArr → JsonArr → Bool
  | .nil, .nil => true
  | .cons x a, .cons y b => same x y && sameArr a b
  | _, _ => false
/-- … of members -/
def sameObj : JsonObj → JsonObj → Bool
  | .nil, .nil => true
  | .cons k x a, .cons l y b => k == l && same x y && sameObj a b
  | _, _ => false
end

mutual
theorem eq_of_same : ∀ a b, same a b = true → a = b
  | .null, b, h => by cases b <;> simp_all [same]
  | .bool _, b, h => by cases b <;> simp_all [same]
  | .num _, b, h => by cases b <;> simp_all [same]
  | .str _, b, h => by cases b <;> simp_all [same]
  | .arr x, b, h => by
    cases b <;> simp only [same, Bool.false_eq_true] at h
    rw [eq_of_sameArr _ _ h]
  | .obj x, b, h => by
    cases b <;> simp only [same, Bool.false_eq_true] at h
    rw [eq_of_sameObj _ _ h]
theorem eq_of_sameArr : ∀ a b, sameArr a b = true → a = b
  | .nil, b, h => by cases b <;> simp_all [sameArr]
  | .cons x a, b, h => by
    cases b <;> simp only [sameArr, Bool.false_eq_true, Bool.and_eq_true] at h
    rw [eq_of_same _ _ h.1, eq_of_sameArr _ _ h.2]
theorem eq_of_sameObj : ∀ a b, sameObj a b = true → a = b
  | .nil, b, h => by cases b <;> simp_all [sameObj]
  | .cons k x a, b, h => by
    cases b <;> simp only [sameObj, Bool.false_eq_true, Bool.and_eq_true, beq_iff_eq] at h
    rw [h.1.1, eq_of_same _ _ h.1.2, eq_of_sameObj _ _ h.2]
end

theorem begins_of {n : Nat} {s : Str} {v : Json} {rest : Str}
    (h : (match JsonText.value n s with | some (w, r) => same w v && r == rest | none => false) = true) : BeginsWith s v rest := by
  split at h
  · rename_i w r hv
    rw [Bool.and_eq_true, beq_iff_eq] at h
    obtain ⟨h1, rfl⟩ := h
    rw [← eq_of_same _ _ h1]
    exact (JsonText.sound n).1 _ _ _ hv
  · cases h

theorem strange_begins : BeginsWith strange oneLeaf " and more".toList := begins_of (n := 20) (by decide +kernel)

/-- C84 applies: the strange text loads as the usual one does. -/
example : ∃ ens, lgEnsembleFromJSONText platform ⟨strange, true⟩ false = .ok ens ∧ ens.nOutputGroups = 1 := by
  have h : lgEnsembleFromJSONText platform ⟨strange, true⟩ false = lgEnsembleFromDocument platform (some oneLeaf) false := by
    obtain ⟨o, ho⟩ : ∃ o, oneLeaf = .obj o := ⟨_, rfl⟩
    have hb := strange_begins
    generalize strange = s at hb ⊢
    rw [ho] at hb ⊢
    unfold lgEnsembleFromJSONText
    rw [JsonText.decode_object (r := ⟨s, true⟩) hb]
  rw [h]
  exact SkModelExample.of_check (r := lgEnsembleFromDocument platform (some oneLeaf) false) (fun ens => ens.nOutputGroups = 1) (by decide +kernel)

/-- C84 applies to the numeral `-12.5e-1`. -/
example : JsonNumeral ⟨['-'], "12".toList, some "5".toList, some ('e', ['-'], "1".toList)⟩ :=
  ⟨.inr rfl, ⟨by decide, by decide, by decide⟩, by rintro _ ⟨⟩; decide, by rintro _ _ _ ⟨⟩; exact ⟨.inl rfl, .inr (.inr rfl), by decide, by decide⟩⟩

/-- C84 applies: half of a text is rejected. -/
example : ∃ e, lgEnsembleFromJSONText platform ⟨" {\"name\" : \"tr".toList, false⟩ false = .err e := by
  have h : BeginsWith " {\"name\" : \"tree\"}".toList (object [("name", text "tree")]) [] := begins_of (n := 20) (by decide +kernel)
  exact C84_truncated platform _ _ _ "ee\"}".toList h rfl (by decide) false false

/-- C84 applies: text that is not JSON. -/
example : ∃ e, lgEnsembleFromJSONText platform ⟨"{'name':1}".toList, false⟩ false = .err e := by
  refine C84_rejected platform _ false ?_
  rintro ⟨v, rest, h⟩
  have hv : ∀ s, v ≠ .num s := by
    rintro s rfl
    obtain ⟨a, t, e, ha, ht⟩ := h
    rw [Json.Written] at ht
    obtain ⟨rfl, w, hw, rfl⟩ := ht
    obtain ⟨c, r, e', hc⟩ := JsonText.text_head hw
    have := congrArg JsonText.skip e
    have hw : JsonText.isWhite c = false := by
      rcases hc with rfl | hc
      · decide
      · exact (JsonText.isDigit_ne hc).2.2.2.2.2.2.2.2.2.2.2.2.2
    rw [e', List.append_assoc, List.cons_append, JsonText.skip_white ha hw] at this
    injection this with this _
    rw [← this] at hc
    revert hc
    decide
  have := JsonText.value_begins h (fun s hs => absurd hs (hv s))
  have hn : (JsonText.value (2 * "{'name':1}".toList.length + 1) "{'name':1}".toList).isNone = true := by decide +kernel
  rw [this] at hn
  cases hn

end JsonTextExample

end Leaves
