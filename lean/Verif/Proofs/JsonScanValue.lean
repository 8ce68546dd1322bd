import Verif.Proofs.JsonScan

/-! The scanner of `encoding/json` finds the end of the first value of the grammar in `Model/JsonText`: objects and arrays. -/

namespace Leaves
open JsonText

namespace JsonBytes

variable {D : Nat} {io : Bool} {stk : List Inside}

theorem skip_length (s : Str) : (skip s).length ≤ s.length := by
  unfold skip; exact (List.dropWhile_suffix _).sublist.length_le

theorem skip_cons_length {s r : Str} {c : Char} (h : skip s = c :: r) : r.length < s.length := by
  have := skip_length s
  rw [h, List.length_cons] at this
  omega

theorem value_length {n : Nat} {s r : Str} {v : Json} (h : value n s = some (v, r)) : r.length < s.length := by
  obtain ⟨a, t, rfl, -, ht⟩ := (sound n).1 s v r h
  obtain ⟨c, u, rfl, -⟩ := written_head ht
  simp; omega

theorem jsonString_length {s k r : Str} (h : jsonString s = some (k, r)) : r.length < s.length := by
  obtain ⟨u, rfl, -⟩ := jsonString_sound h
  simp; omega

theorem run_string (t : Str) : scanC D io .inString stk t = (jsonString t).bind fun r => scanC D io .endValue stk r.2 := by
  rw [run_inString, jsonString]
  cases units t <;> rfl

theorem run_cons_same {s s' : State} {stk' : List Inside} {c : Char} {t : Str} (h : step D s stk c.toNat = step D s' stk' c.toNat) :
    scanC D io s stk (c :: t) = scanC D io s' stk' (c :: t) := by
  show run _ _ _ _ _ _ = run _ _ _ _ _ _
  rw [run, run, h]

theorem run_orEmptyValue {x : Inside} {s : Str} {c : Char} {r : Str} (hs : skip s = c :: r) (hc : c ≠ ']') :
    scanC D io .beginValueOrEmpty (x :: stk) s = scanC D io .beginValue (x :: stk) s := by
  rw [run_skip step_white_beginValueOrEmpty, run_skip (s := .beginValue) step_white_beginValue, hs]
  have hw := skip_white_head hs
  refine run_cons_same ?_
  show (if space c.toNat then _ else if c.toNat = ']'.toNat then _ else beginValue D _ c.toNat) = beginValue D _ c.toNat
  rw [space_iff, hw, if_neg (by simp), if_neg (by rwa [toNat_eq])]

theorem run_orEmptyString {x : Inside} {s : Str} {c : Char} {r : Str} (hs : skip s = c :: r) (hc : c ≠ '}') :
    scanC D io .beginStringOrEmpty (x :: stk) s = scanC D io .beginString (x :: stk) s := by
  rw [run_skip step_white_beginStringOrEmpty, run_skip (s := .beginString) step_white_beginString, hs]
  have hw := skip_white_head hs
  refine run_cons_same ?_
  show (if space c.toNat then _ else if c.toNat = '}'.toNat then _ else beginString _ c.toNat) = beginString _ c.toNat
  rw [space_iff, hw, if_neg (by simp), if_neg (by rwa [toNat_eq])]

/-- after the elements of an array or the members of an object that is nested `stk.length + 1` deep -/
abbrev leave (D : Nat) (io : Bool) (stk : List Inside) (d : Nat) (rest : Str) : Option Str :=
  if D < stk.length + 1 + d then none else closed D io stk rest

theorem bind_map' {α β γ : Type} (o : Option α) (f : α → β) (g : β → Option γ) : (o.map f).bind g = o.bind fun a => g (f a) := by
  cases o <;> rfl

theorem bind_none' {α β : Type} (o : Option α) {f : α → Option β} (h : ∀ a, f a = none) : o.bind f = none := by
  cases o with
  | none => rfl
  | some a => exact h a

theorem run_values (n : Nat) :
    (∀ (s : Str) (stk : List Inside), 2 * s.length + 1 ≤ n → stk.length ≤ D →
      scanC D io .beginValue stk s = (value n s).bind fun r => resume D io stk r.1 r.2) ∧
    (∀ (s : Str) (stk : List Inside), 2 * s.length + 2 ≤ n → stk.length + 1 ≤ D →
      scanC D io .beginValue (.arrayValue :: stk) s = (elements n s).bind fun r => leave D io stk r.1.depth r.2) ∧
    (∀ (s : Str) (stk : List Inside), 2 * s.length + 2 ≤ n → stk.length + 1 ≤ D →
      scanC D io .beginString (.objectKey :: stk) s = (members n s).bind fun r => leave D io stk r.1.depth r.2) := by
  induction n with
  | zero => exact ⟨fun s stk h => by omega, fun s stk h => by omega, fun s stk h => by omega⟩
  | succ n ih =>
    obtain ⟨ihv, ihe, ihm⟩ := ih
    refine ⟨fun s stk hn hd => ?_, fun s stk hn hd => ?_, fun s stk hn hd => ?_⟩
    · -- a value
      rw [run_skip step_white_beginValue]
      cases hs : skip s with
      | nil =>
        have e : value (n + 1) s = none := by rw [value, hs]; rfl
        rw [e]
        exact run_nil (by simp [step, beginValue, space])
      | cons c t =>
        have hw := skip_white_head hs
        have hl := skip_cons_length hs
        by_cases h1 : c = '{'
        · subst h1
          have es : step D .beginValue stk '{'.toNat = push D .objectKey stk .beginStringOrEmpty := rfl
          by_cases hD : stk.length + 1 ≤ D
          · rw [goC (by rw [es, push, if_pos hD])]
            cases ht : skip t with
            | nil =>
              have e : value (n + 1) s = none := by
                rw [value, hs]
                show (match skip t with | '}' :: s => some (Json.obj .nil, s) | s => (members n s).map fun (r : JsonObj × Str) => (Json.obj r.1, r.2)) = _
                rw [ht]
                show (members n []).map _ = _
                cases n with
                | zero => rw [members]; rfl
                | succ n => rw [members]; rfl
              rw [e, run_skip step_white_beginStringOrEmpty, ht]
              exact run_nil (by simp [step, space])
            | cons d r =>
              by_cases hc : d = '}'
              · subst hc
                rw [value_object_nil hs ht, run_skip step_white_beginStringOrEmpty, ht, closeC (rest := stk) rfl]
                show _ = resume D io stk (.obj .nil) r
                unfold resume
                rw [if_neg (by simp [Json.depth, JsonObj.depth]; omega)]
                rfl
              · rw [value_object hs ht hc, run_orEmptyString ht hc, ihm t stk (by omega) hD, bind_map']
                refine congrArg _ (funext fun r => ?_)
                unfold resume leave
                rw [Json.depth, show stk.length + 1 + r.1.depth = stk.length + (r.1.depth + 1) by omega]
                rfl
          · rw [badC (by rw [es, push, if_neg hD])]
            symm
            rw [value, hs]
            have hr (v : JsonObj) (r : Str) : resume D io stk (.obj v) r = none := if_pos (by rw [Json.depth]; omega)
            show Option.bind (match skip t with | '}' :: s => some (Json.obj .nil, s) | s => (members n s).map fun (r : JsonObj × Str) => (Json.obj r.1, r.2)) _ = _
            split
            · exact hr _ _
            · rw [bind_map']; exact bind_none' _ fun r => hr _ _
        by_cases h2 : c = '['
        · subst h2
          have es : step D .beginValue stk '['.toNat = push D .arrayValue stk .beginValueOrEmpty := rfl
          by_cases hD : stk.length + 1 ≤ D
          · rw [goC (by rw [es, push, if_pos hD])]
            cases ht : skip t with
            | nil =>
              have e : value (n + 1) s = none := by
                rw [value, hs]
                show (match skip t with | ']' :: s => some (Json.arr .nil, s) | s => (elements n s).map fun (r : JsonArr × Str) => (Json.arr r.1, r.2)) = _
                rw [ht]
                show (elements n []).map _ = _
                cases n with
                | zero => rw [elements]; rfl
                | succ n =>
                  rw [elements]
                  have : value n [] = none := by
                    cases n with
                    | zero => rw [value]
                    | succ n => rw [value]; rfl
                  rw [this]
                  rfl
              rw [e, run_skip step_white_beginValueOrEmpty, ht]
              exact run_nil (by simp [step, space])
            | cons d r =>
              by_cases hc : d = ']'
              · subst hc
                rw [value_array_nil hs ht, run_skip step_white_beginValueOrEmpty, ht, closeC (rest := stk) rfl]
                show _ = resume D io stk (.arr .nil) r
                unfold resume
                rw [if_neg (by simp [Json.depth, JsonArr.depth]; omega)]
                rfl
              · rw [value_array hs ht hc, run_orEmptyValue ht hc, ihe t stk (by omega) hD, bind_map']
                refine congrArg _ (funext fun r => ?_)
                unfold resume leave
                rw [Json.depth, show stk.length + 1 + r.1.depth = stk.length + (r.1.depth + 1) by omega]
                rfl
          · rw [badC (by rw [es, push, if_neg hD])]
            symm
            rw [value, hs]
            have hr (v : JsonArr) (r : Str) : resume D io stk (.arr v) r = none := if_pos (by rw [Json.depth]; omega)
            show Option.bind (match skip t with | ']' :: s => some (Json.arr .nil, s) | s => (elements n s).map fun (r : JsonArr × Str) => (Json.arr r.1, r.2)) _ = _
            split
            · exact hr _ _
            · rw [bind_map']; exact bind_none' _ fun r => hr _ _
        by_cases h3 : c = '"'
        · subst h3
          rw [value_string hs, goC (s' := .inString) (stk' := stk) rfl, run_string, bind_map']
          exact congrArg _ (funext fun r => (resume_simple (by rfl) hd _).symm)
        -- literals and numbers
        have key (h4 : ∀ r, c :: t ≠ 't' :: 'r' :: 'u' :: 'e' :: r) (h5 : ∀ r, c :: t ≠ 'f' :: 'a' :: 'l' :: 's' :: 'e' :: r)
            (h6 : ∀ r, c :: t ≠ 'n' :: 'u' :: 'l' :: 'l' :: r) :
            (value (n + 1) s).bind (fun r => resume D io stk r.1 r.2) = thenEnd D io stk (jsonNumber (c :: t)) := by
          rw [value_number hs h1 h2 h3 h4 h5 h6, bind_map']
          exact congrArg _ (funext fun r => resume_simple (by rfl) hd _)
        by_cases h4 : c = 't'
        · subst h4
          rw [goC (s' := .t) (stk' := stk) rfl, run_true]
          split
          · rename_i r
            have e : value (n + 1) s = some (.bool true, r) := by rw [value, hs]; rfl
            rw [e]
            exact (resume_simple (by rfl) hd _).symm
          · rename_i h
            rw [key (fun r e => by cases e; exact h _ rfl) (fun r e => by cases e) (fun r e => by cases e),
              jsonNumber_none t (by decide) (by decide)]
            rfl
        by_cases h5 : c = 'f'
        · subst h5
          rw [goC (s' := .f) (stk' := stk) rfl, run_false]
          split
          · rename_i r
            have e : value (n + 1) s = some (.bool false, r) := by rw [value, hs]; rfl
            rw [e]
            exact (resume_simple (by rfl) hd _).symm
          · rename_i h
            rw [key (fun r e => by cases e) (fun r e => by cases e; exact h _ rfl) (fun r e => by cases e),
              jsonNumber_none t (by decide) (by decide)]
            rfl
        by_cases h6 : c = 'n'
        · subst h6
          rw [goC (s' := .n) (stk' := stk) rfl, run_null]
          split
          · rename_i r
            have e : value (n + 1) s = some (.null, r) := by rw [value, hs]; rfl
            rw [e]
            exact (resume_simple (by rfl) hd _).symm
          · rename_i h
            rw [key (fun r e => by cases e) (fun r e => by cases e) (fun r e => by cases e; exact h _ rfl),
              jsonNumber_none t (by decide) (by decide)]
            rfl
        rw [key (fun r e => by cases e; exact h4 rfl) (fun r e => by cases e; exact h5 rfl) (fun r e => by cases e; exact h6 rfl)]
        exact run_number t hw h1 h2 h3 h4 h5 h6
    · -- elements
      rw [elements, ihv s (.arrayValue :: stk) (by omega) (by simpa using hd)]
      cases hv : value n s with
      | none => rfl
      | some p =>
        obtain ⟨v, r⟩ := p
        have hl := value_length hv
        show resume D io (.arrayValue :: stk) v r = Option.bind (match skip r with
          | ',' :: s => (elements n s).map fun (q : JsonArr × Str) => (JsonArr.cons v q.1, q.2)
          | ']' :: s => some (JsonArr.cons v .nil, s)
          | _ => none) _
        have er : resume D io (.arrayValue :: stk) v r = if D < stk.length + 1 + v.depth then none else scanC D io .endValue (.arrayValue :: stk) r := by
          unfold resume closed
          simp
        rw [er]
        by_cases hdv : D < stk.length + 1 + v.depth
        · rw [if_pos hdv]
          symm
          split
          · rw [bind_map']
            exact bind_none' _ fun q => if_pos (by dsimp only; rw [JsonArr.depth]; omega)
          · exact if_pos (by dsimp only; rw [JsonArr.depth]; omega)
          · rfl
        · rw [if_neg hdv, run_skip step_white_endValue]
          split
          · rename_i r' hr
            have := skip_cons_length hr
            rw [hr, goC (s' := .beginValue) (stk' := .arrayValue :: stk) rfl, ihe r' stk (by omega) hd, bind_map']
            refine congrArg _ (funext fun q => ?_)
            unfold leave
            rw [JsonArr.depth]
            have : D < stk.length + 1 + q.1.depth ↔ D < stk.length + 1 + max v.depth q.1.depth := by omega
            simp only [this]
          · rename_i r' hr
            rw [hr, closeC (rest := stk) rfl]
            show _ = leave D io stk _ r'
            unfold leave
            rw [if_neg (by rw [JsonArr.depth, JsonArr.depth]; omega)]
          · rename_i g1 g2
            show _ = none
            cases hr : skip r with
            | nil => exact run_nil (by simp [step, endValue, space])
            | cons c r' =>
              have hw := skip_white_head hr
              exact badC (by
                rw [step, endValue, space_iff, hw, if_neg (by simp), if_neg (by rw [toNat_eq]; rintro rfl; exact g1 _ hr),
                  if_neg (by rw [toNat_eq]; rintro rfl; exact g2 _ hr)])
    · -- members
      rw [members, run_skip step_white_beginString]
      split
      · rename_i s1 h1
        have l1 := skip_cons_length h1
        rw [h1, goC (s' := .inString) (stk' := .objectKey :: stk) rfl, run_string]
        cases hk : jsonString s1 with
        | none => rfl
        | some p =>
          obtain ⟨k, s2⟩ := p
          have l2 := jsonString_length hk
          show scanC D io .endValue (.objectKey :: stk) s2 = Option.bind (match skip s2 with
            | ':' :: s => match value n s with
              | none => none
              | some (v, s) => match skip s with
                | ',' :: s => (members n s).map fun (q : JsonObj × Str) => (JsonObj.cons k v q.1, q.2)
                | '}' :: s => some (JsonObj.cons k v .nil, s)
                | _ => none
            | _ => none) _
          rw [run_skip step_white_endValue]
          split
          · rename_i s3 h3
            have l3 := skip_cons_length h3
            rw [h3, goC (s' := .beginValue) (stk' := .objectValue :: stk) rfl, ihv s3 _ (by omega) (by simpa using hd)]
            cases hv : value n s3 with
            | none => rfl
            | some p =>
              obtain ⟨v, r⟩ := p
              have hl := value_length hv
              show resume D io (.objectValue :: stk) v r = Option.bind (match skip r with
                | ',' :: s => (members n s).map fun (q : JsonObj × Str) => (JsonObj.cons k v q.1, q.2)
                | '}' :: s => some (JsonObj.cons k v .nil, s)
                | _ => none) _
              have er : resume D io (.objectValue :: stk) v r = if D < stk.length + 1 + v.depth then none else scanC D io .endValue (.objectValue :: stk) r := by
                unfold resume closed
                simp
              rw [er]
              by_cases hdv : D < stk.length + 1 + v.depth
              · rw [if_pos hdv]
                symm
                split
                · rw [bind_map']
                  exact bind_none' _ fun q => if_pos (by dsimp only; rw [JsonObj.depth]; omega)
                · exact if_pos (by dsimp only; rw [JsonObj.depth]; omega)
                · rfl
              · rw [if_neg hdv, run_skip step_white_endValue]
                split
                · rename_i r' hr
                  have := skip_cons_length hr
                  rw [hr, goC (s' := .beginString) (stk' := .objectKey :: stk) rfl, ihm r' stk (by omega) hd, bind_map']
                  refine congrArg _ (funext fun q => ?_)
                  unfold leave
                  rw [JsonObj.depth]
                  have : D < stk.length + 1 + q.1.depth ↔ D < stk.length + 1 + max v.depth q.1.depth := by omega
                  simp only [this]
                · rename_i r' hr
                  rw [hr, closeC (rest := stk) rfl]
                  show _ = leave D io stk _ r'
                  unfold leave
                  rw [if_neg (by rw [JsonObj.depth, JsonObj.depth]; omega)]
                · rename_i g1 g2
                  show _ = none
                  cases hr : skip r with
                  | nil => exact run_nil (by simp [step, endValue, space])
                  | cons c r' =>
                    have hw := skip_white_head hr
                    exact badC (by
                      rw [step, endValue, space_iff, hw, if_neg (by simp), if_neg (by rw [toNat_eq]; rintro rfl; exact g1 _ hr),
                        if_neg (by rw [toNat_eq]; rintro rfl; exact g2 _ hr)])
          · rename_i g1
            show _ = none
            cases hr : skip s2 with
            | nil => exact run_nil (by simp [step, endValue, space])
            | cons c r' =>
              have hw := skip_white_head hr
              exact badC (by
                rw [step, endValue, space_iff, hw, if_neg (by simp), if_neg (by rw [toNat_eq]; rintro rfl; exact g1 _ hr)])
      · rename_i g1
        show _ = none
        cases hr : skip s with
        | nil => exact run_nil (by simp [step, beginString, space])
        | cons c r' =>
          have hw := skip_white_head hr
          exact badC (by
            rw [step, beginString, space_iff, hw, if_neg (by simp), if_neg (by rw [toNat_eq]; rintro rfl; exact g1 _ hr)])

/-- The scanner over a whole text finds the end of the first value. -/
theorem run_text (t : Str) : scanC D io .beginValue [] t = (value (2 * t.length + 1) t).bind fun r =>
    if D < r.1.depth then none else if io && r.2.isEmpty && !hasEnd r.1 then none else some r.2 := by
  rw [((run_values (D := D) (io := io) _).1 t [] (Nat.le_refl _) (Nat.zero_le _))]
  refine congrArg _ (funext fun r => ?_)
  unfold resume closed
  simp only [List.length_nil, Nat.zero_add, List.isEmpty_nil, if_true]
  split
  · rfl
  · obtain ⟨v, r⟩ := r
    dsimp only
    cases hasEnd v
    · cases r with
      | nil => cases io <;> rfl
      | cons c r =>
        rw [show scanC D io .endValue [] (c :: r) = some (c :: r) from run_finish (s' := .endTop) (stk' := []) rfl]
        simp
    · simp

end JsonBytes
end Leaves
