import Verif.Proofs.JsonScanValue
import Verif.Proofs.Utf8Text
import Verif.Proofs.Bufio
import Verif.Spec.JsonBytes

/-! The scanner of `encoding/json` on bytes does what it does on the characters, however the bytes arrive. -/

namespace Leaves
open JsonText Spec Oct

namespace JsonBytes

/-- a byte or character beyond ASCII: part of a string, or an error, or noticed after the end of the value -/
def high (s : State) (stk : List Inside) : Step :=
  match s with
  | .inString => (.go, .inString, stk)
  | .endTop => (.finish, .endTop, stk)
  | .endValue | .zero | .one | .dot0 | .e0 => if stk.isEmpty then (.finish, .endTop, []) else bad
  | _ => bad

theorem step_high (D : Nat) (s : State) (stk : List Inside) {x : Nat} (hx : 0x80 ≤ x) : step D s stk x = high s stk := by
  have hne : ∀ k, k < 128 → (x = k) = False := fun k hk => eq_false (by omega)
  have hle : ∀ k, k < 128 → (x ≤ k) = False := fun k hk => eq_false (by omega)
  have hlt : ∀ k, k ≤ 128 → (x < k) = False := fun k hk => eq_false (by omega)
  have hsp : space x = false := by simp [space, hne]
  have hdg : digit x = false := by simp [digit, hle]
  have hhx : hexadecimal x = false := by simp [hexadecimal, hdg, hle]
  have hend : endValue stk x = if stk.isEmpty then (.finish, .endTop, []) else bad := by
    cases stk with
    | nil => rfl
    | cons a r => cases a <;> simp [endValue, hsp, hne]
  cases s <;> simp [step, high, beginValue, beginString, expect, expectHex, afterWhole, afterSign, hsp, hdg, hhx, hend, hne, hlt, escapable]

theorem high_cases (s : State) (stk : List Inside) : high s stk = (.go, s, stk) ∨ (∃ s' stk', high s stk = (.finish, s', stk')) ∨ high s stk = bad := by
  cases s <;> cases stk <;> simp [high, bad]

/-- the scanner on bytes -/
abbrev scanB (D : Nat) (io : Bool) (s : State) (stk : List Inside) (bs : ByteStr) : Option ByteStr := run UInt8.toNat D io s stk bs

variable {D : Nat} {io : Bool}

/-- The scanner stops on the bytes where it stops on the characters. -/
def Parallel (D : Nat) (io : Bool) (s : State) (stk : List Inside) (bs : ByteStr) (t : Str) : Prop :=
  (scanB D io s stk bs = none ∧ scanC D io s stk t = none) ∨
  ∃ p q u r, bs = p ++ q ∧ t = u ++ r ∧ Chars p u ∧ Chars q r ∧ scanB D io s stk bs = some q ∧ scanC D io s stk t = some r

theorem run_highs (s : State) (stk : List Inside) {w rest : ByteStr} (hw : ∀ b ∈ w, 0x80 ≤ b.toNat) (hg : high s stk = (.go, s, stk)) :
    scanB D io s stk (w ++ rest) = scanB D io s stk rest := by
  induction w with
  | nil => rfl
  | cons b w ih =>
    rw [← ih fun x hx => hw x (List.mem_cons_of_mem _ hx)]
    exact run_go (by rw [step_high D s stk (hw b List.mem_cons_self), hg])

/-- one character beyond ASCII, or one byte that is no part of a character -/
theorem parallel_high (s : State) (stk : List Inside) {w rest : ByteStr} {c : Char} {t : Str} (hw : ∀ b ∈ w, 0x80 ≤ b.toNat) (hne : w ≠ [])
    (hc : 0x80 ≤ c.toNat) (hall : Chars (w ++ rest) (c :: t)) (hrest : Chars rest t)
    (hp : ∀ p q u, rest = p ++ q → Chars p u → Chars (w ++ p) (c :: u))
    (ih : Parallel D io s stk rest t) : Parallel D io s stk (w ++ rest) (c :: t) := by
  have hsc := step_high D s stk hc
  rcases high_cases s stk with hg | ⟨s', stk', hf⟩ | hb
  · unfold Parallel
    rw [run_highs s stk hw hg, show scanC D io s stk (c :: t) = scanC D io s stk t from goC (by rw [hsc, hg])]
    rcases ih with h | ⟨p, q, u, r, rfl, rfl, h1, h2, h3, h4⟩
    · exact .inl h
    · exact .inr ⟨w ++ p, q, c :: u, r, by simp, by simp, hp p q u rfl h1, h2, h3, h4⟩
  · refine .inr ⟨[], w ++ rest, [], c :: t, rfl, rfl, .nil, hall, ?_, run_finish (hsc.trans hf)⟩
    cases w with
    | nil => exact absurd rfl hne
    | cons b w => exact run_finish ((step_high D s stk (hw b List.mem_cons_self)).trans hf)
  · refine .inl ⟨?_, run_bad (hsc.trans hb)⟩
    cases w with
    | nil => exact absurd rfl hne
    | cons b w => exact run_bad ((step_high D s stk (hw b List.mem_cons_self)).trans hb)

theorem enc_high {c : Char} (hc : 0x80 ≤ c.toNat) : ∀ b ∈ enc c, 0x80 ≤ b.toNat := by
  rcases enc_shape c with ⟨b, h, h1, h2⟩ | ⟨b0, b1, h, h0, h1, h2, h3⟩ | ⟨b0, b1, b2, h, h0, h1, h2, h3, h4, h5, h6⟩ |
    ⟨b0, b1, b2, b3, h, h0, h1, h2, h3, h4, h5, h6, h7⟩
  · omega
  all_goals
    rw [h]
    simp only [isCont_iff] at *
    simp only [List.mem_cons, List.not_mem_nil, or_false, forall_eq_or_imp, forall_eq]
    omega

theorem enc_low {c : Char} (hc : c.toNat < 0x80) : ∃ b : UInt8, enc c = [b] ∧ b.toNat = c.toNat := by
  refine ⟨UInt8.ofNat c.toNat, ?_, toNat_ofNat8 (by omega)⟩
  have := enc_one (b := UInt8.ofNat c.toNat) (by rw [toNat_ofNat8 (by omega)]; exact hc)
  rwa [toNat_ofNat8 (by omega), Char.ofNat_toNat] at this

theorem parallel {bs : ByteStr} {t : Str} (h : Chars bs t) (s : State) (stk : List Inside) : Parallel D io s stk bs t := by
  induction h generalizing s stk with
  | nil =>
    unfold Parallel
    show (run _ _ _ _ _ _ = _ ∧ run _ _ _ _ _ _ = _) ∨ _
    by_cases hx : io = false ∧ (step D s stk ' '.toNat).1 = .finish
    · exact .inr ⟨[], [], [], [], rfl, rfl, .nil, .nil, by show run _ _ _ _ _ _ = _; rw [run, hx.1, hx.2]; rfl,
        by show run _ _ _ _ _ _ = _; rw [run, hx.1, hx.2]; rfl⟩
    · left
      rw [run, run]
      cases io
      · have : ¬ (step D s stk ' '.toNat).1 = .finish := fun e => hx ⟨rfl, e⟩
        rw [if_neg this, if_neg this]; simp
      · simp
  | @char c bs t h ih =>
    by_cases hc : 0x80 ≤ c.toNat
    · exact parallel_high s stk (enc_high hc) (enc_ne_nil c) hc (.char c h) h (fun p q u _ hp => .char c hp) (ih s stk)
    · obtain ⟨b, hb, hbc⟩ := enc_low (c := c) (by omega)
      have hcons : String.utf8EncodeChar c = [b] := hb
      unfold Parallel
      rw [hcons, List.singleton_append]
      rcases hst : step D s stk c.toNat with ⟨op, s', stk'⟩
      have hst' : step D s stk b.toNat = (op, s', stk') := by rw [hbc, hst]
      have more (e1 : scanB D io s stk (b :: bs) = scanB D io s' stk' bs) (e2 : scanC D io s stk (c :: t) = scanC D io s' stk' t) :
          Parallel D io s stk (b :: bs) (c :: t) := by
        unfold Parallel
        rw [e1, e2]
        rcases ih s' stk' with h' | ⟨p, q, u, r, rfl, rfl, h1, h2, h3, h4⟩
        · exact .inl h'
        · refine .inr ⟨b :: p, q, c :: u, r, rfl, rfl, ?_, h2, h3, h4⟩
          have := Chars.char c h1
          rwa [hcons] at this
      have hhere : Chars (b :: bs) (c :: t) := by
        have := Chars.char c h
        rwa [hcons] at this
      cases op with
      | go => exact more (run_go hst') (run_go hst)
      | close =>
        by_cases he : stk'.isEmpty = true
        · refine .inr ⟨[b], bs, [c], t, rfl, rfl, ?_, h, (run_close hst').trans (if_pos he), (run_close hst).trans (if_pos he)⟩
          have := Chars.char c .nil
          rwa [hcons] at this
        · exact more ((run_close hst').trans (if_neg he)) ((run_close hst).trans (if_neg he))
      | finish => exact .inr ⟨[], _, [], _, rfl, rfl, .nil, hhere, run_finish hst', run_finish hst⟩
      | bad => exact .inl ⟨by show run _ _ _ _ _ _ = _; rw [run, hst'], by show run _ _ _ _ _ _ = _; rw [run, hst]⟩
  | @garbled b bs t g h ih =>
    refine parallel_high (w := [b]) s stk ?_ (by simp) (by decide) (.garbled b g h) h (fun p q u e hp => ?_) (ih s stk)
    · intro x hx
      rw [List.mem_singleton] at hx
      subst hx
      by_contra hb
      exact g (Char.ofNat x.toNat) bs (by rw [← enc, enc_one (by omega)]; rfl)
    · subst e
      exact .garbled b (garbled_prefix g) hp

/-! ### the loop of `readValue` -/

/-- the scan of a piece, seen from the whole input -/
theorem scan_piece (w rest : ByteStr) (s : State) (stk : List Inside) (pos : Nat) :
    (∃ n, scan D s stk pos w = .found (pos + n) ∧ n ≤ w.length ∧ ∀ io, scanB D io s stk (w ++ rest) = some ((w ++ rest).drop n)) ∨
    (scan D s stk pos w = .bad ∧ ∀ io, scanB D io s stk (w ++ rest) = none) ∨
    (∃ s' stk', scan D s stk pos w = .more s' stk' ∧ ∀ io, scanB D io s stk (w ++ rest) = scanB D io s' stk' rest) := by
  induction w generalizing s stk pos with
  | nil => exact .inr (.inr ⟨s, stk, rfl, fun _ => rfl⟩)
  | cons b w ih =>
    have step1 (s' : State) (stk' : List Inside) (h1 : scan D s stk pos (b :: w) = scan D s' stk' (pos + 1) w)
        (h2 : ∀ io, scanB D io s stk (b :: (w ++ rest)) = scanB D io s' stk' (w ++ rest)) :
        (∃ n, scan D s stk pos (b :: w) = .found (pos + n) ∧ n ≤ (b :: w).length ∧
          ∀ io, scanB D io s stk (b :: w ++ rest) = some ((b :: w ++ rest).drop n)) ∨
        (scan D s stk pos (b :: w) = .bad ∧ ∀ io, scanB D io s stk (b :: w ++ rest) = none) ∨
        (∃ s' stk', scan D s stk pos (b :: w) = .more s' stk' ∧ ∀ io, scanB D io s stk (b :: w ++ rest) = scanB D io s' stk' rest) := by
      rcases ih s' stk' (pos + 1) with ⟨n, e1, e2, e3⟩ | ⟨e1, e3⟩ | ⟨s2, stk2, e1, e3⟩
      · refine .inl ⟨n + 1, by rw [h1, e1]; congr 1; omega, by simp; omega, fun io => ?_⟩
        rw [List.cons_append, h2, e3, List.drop_succ_cons]
      · exact .inr (.inl ⟨by rw [h1, e1], fun io => by rw [List.cons_append, h2, e3]⟩)
      · exact .inr (.inr ⟨s2, stk2, by rw [h1, e1], fun io => by rw [List.cons_append, h2, e3]⟩)
    rcases hst : step D s stk b.toNat with ⟨op, s', stk'⟩
    cases op with
    | go => exact step1 s' stk' (by rw [scan, hst]) fun io => run_go hst
    | close =>
      by_cases he : stk'.isEmpty = true
      · refine .inl ⟨1, by rw [scan, hst]; dsimp only; rw [if_pos he], by simp, fun io => ?_⟩
        exact (run_close hst).trans (if_pos he)
      · exact step1 s' stk' (by rw [scan, hst]; dsimp only; rw [if_neg he]) fun io => (run_close hst).trans (if_neg he)
    | finish => exact .inl ⟨0, by rw [scan, hst]; rfl, by simp, fun io => run_finish hst⟩
    | bad => exact .inr (.inl ⟨by rw [scan, hst], fun io => by show run _ _ _ _ _ _ = _; rw [List.cons_append, run, hst]⟩)

theorem busyReads_succ (lim : Nat → Nat) (n : Nat) :
    busyReads lim (n + 1) = (if lim 0 ≠ 0 then 1 else 0) + busyReads (fun i => lim (i + 1)) n := by
  unfold busyReads
  rw [List.range_succ_eq_map, List.filter_cons, List.filter_map, apply_ite List.length, List.length_cons, List.length_map]
  by_cases h : lim 0 = 0
  · simp [h, Function.comp_def]
  · simp [h, Function.comp_def]; omega

/-- `readValue` returns what the scanner finds in the whole input, if enough calls of `Read` are not empty. -/
theorem readValue_spec (fuel : Nat) (s : State) (stk : List Inside) (buf : ByteStr) (cap : Nat) (f : Feed UInt8) (hcap : buf.length ≤ cap)
    (hb : f.rest.length < busyReads f.lim fuel) :
    (∃ n, n ≤ f.rest.length ∧ scanB D (f.fin == .fail) s stk f.rest = some (f.rest.drop n) ∧
      readValue D fuel s stk buf cap f = .ok ((buf ++ f.rest).take (buf.length + n))) ∨
    (scanB D (f.fin == .fail) s stk f.rest = none ∧ ∃ m, readValue D fuel s stk buf cap f = .err m) := by
  induction fuel generalizing s stk buf cap f with
  | zero => exact absurd hb (by simp [busyReads])
  | succ fuel ih =>
    rw [readValue]
    generalize hc' : (if cap - buf.length < 512 then 2 * cap + 512 else cap) = cap'
    have hcap' : buf.length < cap' := by
      rw [← hc']; split <;> omega
    obtain ⟨bs, e, f', hr, hcat, hfin, hlen, hlim, he, hbusy⟩ := f.read_spec (cap' - buf.length) (by omega)
    rw [hr]
    dsimp only
    rw [busyReads_succ, ← hlim] at hb
    rw [← hcat, ← hfin]
    rcases scan_piece (D := D) bs f'.rest s stk buf.length with ⟨n, h1, h2, h3⟩ | ⟨h1, h3⟩ | ⟨s', stk', h1, h3⟩
    · rw [h1]
      refine .inl ⟨n, by simp; omega, h3 _, ?_⟩
      dsimp only
      rw [← List.append_assoc, List.take_append_of_le_length (l₂ := f'.rest) (by simp; omega)]
    · rw [h1]
      exact .inr ⟨h3 _, _, rfl⟩
    · rw [h1, h3]
      dsimp only
      rcases he with rfl | ⟨rfl, hnil⟩
      · dsimp only
        have hlt : f'.rest.length < busyReads f'.lim fuel := by
          have hl := congrArg List.length hcat
          rw [List.length_append] at hl
          by_cases hbs : bs = []
          · have := hbusy hbs rfl
            rw [if_neg (by simp [this])] at hb
            rw [hbs, List.length_nil] at hl
            omega
          · have := List.length_pos_iff.2 hbs
            split at hb <;> omega
        rcases ih s' stk' (buf ++ bs) cap' f' (by simp; omega) hlt with ⟨n, g1, g2, g3⟩ | ⟨g2, m, g3⟩
        · refine .inl ⟨bs.length + n, by simp; omega, ?_, ?_⟩
          · rw [g2]
            simp [List.drop_append]
          · rw [g3]
            simp [Nat.add_assoc]
        · exact .inr ⟨g2, m, g3⟩
      · rw [hnil, ← hfin]
        cases hf : f'.fin with
        | fail => exact .inr ⟨rfl, _, rfl⟩
        | eof =>
          dsimp only
          by_cases hs : (step D s' stk' ' '.toNat).1 = .finish
          · refine .inl ⟨bs.length, by simp, ?_, ?_⟩
            · show run _ _ _ _ _ _ = _
              rw [run, if_neg (by decide), if_pos hs]
              simp
            · rw [if_pos hs, List.append_nil, ← List.length_append, List.take_length]
          · refine .inr ⟨?_, _, if_neg hs⟩
            show run _ _ _ _ _ _ = _
            rw [run, if_neg (by decide), if_neg hs]

/-- `readValue` does not ask for more once an object or array is complete. -/
theorem readValue_early (fuel : Nat) (s : State) (stk : List Inside) (buf d x : ByteStr) (cap : Nat) (f : Feed UInt8) (hcap : buf.length ≤ cap)
    (hf : f.rest = d ++ x) (hd : scanB D true s stk d = some []) (hb : d.length ≤ busyReads f.lim fuel) :
    readValue D fuel s stk buf cap f = .ok (buf ++ d) := by
  induction fuel generalizing s stk buf cap f d with
  | zero =>
    have : d = [] := by simpa [busyReads] using hb
    rw [this] at hd
    change run _ _ _ _ _ _ = _ at hd
    rw [run, if_pos rfl] at hd
    cases hd
  | succ fuel ih =>
    have hdn : d ≠ [] := by
      rintro rfl
      change run _ _ _ _ _ _ = _ at hd
      rw [run, if_pos rfl] at hd
      cases hd
    rw [readValue]
    generalize hc' : (if cap - buf.length < 512 then 2 * cap + 512 else cap) = cap'
    have hcap' : buf.length < cap' := by
      rw [← hc']; split <;> omega
    obtain ⟨bs, e, f', hr, hcat, hfin, hlen, hlim, he, hbusy⟩ := f.read_spec (cap' - buf.length) (by omega)
    rw [hr]
    dsimp only
    rw [busyReads_succ, ← hlim] at hb
    rw [hf] at hcat
    rcases Nat.lt_or_ge bs.length d.length with hlt | hge
    · obtain ⟨d', rfl, hx⟩ : ∃ d', d = bs ++ d' ∧ f'.rest = d' ++ x := by
        refine ⟨d.drop bs.length, ?_, ?_⟩
        · have := congrArg (List.take bs.length) hcat
          rw [List.take_left, List.take_append_of_le_length (by omega)] at this
          conv_lhs => rw [← List.take_append_drop bs.length d, ← this]
        · have := congrArg (List.drop bs.length) hcat
          rwa [List.drop_left, List.drop_append_of_le_length (by omega)] at this
      have hd' : d' ≠ [] := by rintro rfl; simp at hlt
      rcases scan_piece (D := D) bs d' s stk buf.length with ⟨n, h1, h2, h3⟩ | ⟨h1, h3⟩ | ⟨s', stk', h1, h3⟩
      · rw [h3] at hd
        have := congrArg List.length (Option.some.inj hd)
        rw [List.length_drop, List.length_nil] at this
        omega
      · rw [h3] at hd; cases hd
      · rw [h3] at hd
        rw [h1]
        dsimp only
        rcases he with rfl | ⟨rfl, hnil⟩
        · dsimp only
          rw [ih s' stk' (buf ++ bs) d' cap' f' (by simp; omega) hx hd ?_]
          · simp
          · by_cases hbs : bs = []
            · have := hbusy hbs rfl
              rw [if_neg (by simp [this])] at hb
              rw [hbs] at hb
              simpa using hb
            · have := List.length_pos_iff.2 hbs
              rw [List.length_append] at hb
              split at hb <;> omega
        · rw [hx] at hnil
          exact absurd (List.append_eq_nil_iff.1 hnil).1 hd'
    · obtain ⟨y, rfl, -⟩ : ∃ y, bs = d ++ y ∧ x = y ++ f'.rest := by
        refine ⟨bs.drop d.length, ?_, ?_⟩
        · have := congrArg (List.take d.length) hcat
          rw [List.take_left, List.take_append_of_le_length (by omega)] at this
          conv_lhs => rw [← List.take_append_drop d.length bs, this]
        · have := congrArg (List.drop d.length) hcat
          rw [List.drop_left, List.drop_append_of_le_length (by omega)] at this
          exact this.symm
      have hscan : scan D s stk buf.length (d ++ y) = .found (buf.length + d.length) := by
        clear hlen hcat hb hr hf ih hge hbusy
        generalize buf.length = pos
        clear hcap' hcap
        induction d generalizing s stk pos with
        | nil => exact absurd rfl hdn
        | cons b d ih =>
          change run _ _ _ _ _ _ = _ at hd
          rw [run] at hd
          have nn (s' : State) (stk' : List Inside) (h : scanB D true s' stk' d = some []) : d ≠ [] := by
            rintro rfl
            change run _ _ _ _ _ _ = _ at h
            rw [run, if_pos rfl] at h
            cases h
          rw [List.cons_append, scan]
          rcases hst : step D s stk b.toNat with ⟨op, s', stk'⟩
          rw [hst] at hd
          cases op with
          | go =>
            dsimp only at hd ⊢
            rw [ih s' stk' hd (nn _ _ hd)]
            rw [List.length_cons]; congr 1; omega
          | close =>
            dsimp only at hd ⊢
            split at hd
            · rename_i he
              rw [if_pos he]
              cases hd
              rfl
            · rename_i he
              rw [if_neg he, ih s' stk' hd (nn _ _ hd)]
              rw [List.length_cons]; congr 1; omega
          | finish => cases hd
          | bad => cases hd
      rw [hscan]
      dsimp only
      rw [← List.append_assoc, List.take_append_of_le_length (by simp), List.take_of_length_le (by simp)]

theorem readValue_hang (fuel : Nat) (s : State) (stk : List Inside) (buf : ByteStr) (cap : Nat) (f : Feed UInt8) (hl : ∀ i, f.lim i = 0) :
    readValue D fuel s stk buf cap f = .hang := by
  induction fuel generalizing s stk buf cap f with
  | zero => rfl
  | succ fuel ih =>
    rw [readValue]
    have hr (n : Nat) : f.read n = ([], none, { f with rest := f.rest.drop (min n (f.lim 0)), lim := fun i => f.lim (i + 1) }) := by
      unfold Feed.read
      rw [if_pos (hl 0)]
    rw [hr]
    exact ih s stk _ _ _ fun i => hl (i + 1)

/-! ### the bytes of the value -/

theorem decodeAll_chars {bs : ByteStr} {t : Str} (h : Chars bs t) (fuel : Nat) (hf : bs.length ≤ fuel) : decodeAll fuel bs = t := by
  induction h generalizing fuel with
  | nil => cases fuel <;> rfl
  | @char c s t h ih =>
    have hne := enc_ne_nil c
    have hl := List.length_pos_iff.2 hne
    have e : String.utf8EncodeChar c = enc c := rfl
    rw [e] at hf ⊢
    rw [List.length_append] at hf
    cases fuel with
    | zero => omega
    | succ fuel =>
      rw [decodeAll, if_neg (by simp [hne]), decodeRune_enc]
      dsimp only
      rw [List.drop_left, ih fuel (by omega)]
  | @garbled b s t g h ih =>
    cases fuel with
    | zero => simp at hf
    | succ fuel =>
      rw [decodeAll, if_neg (by simp), decodeRune_garbled g]
      dsimp only
      rw [List.drop_succ_cons, List.drop_zero, ih fuel (by simpa using hf)]
      rfl

theorem document_eq {bs : ByteStr} {t : Str} (h : Chars bs t) : document bs = (value (2 * t.length + 1) t).map (·.1) := by
  unfold document
  rw [decodeAll_chars h _ (Nat.le_refl _)]

theorem value_cut {t u r : Str} {v : Json} {n : Nat} (h : value n t = some (v, r)) (ht : t = u ++ r) : value (2 * u.length + 1) u = some (v, []) := by
  obtain ⟨a, w, e, ha, hw⟩ := (sound n).1 t v r h
  have hu : u = a ++ w := List.append_cancel_right (ht.symm.trans e)
  subst hu
  have := value_complete v w hw (2 * (a ++ w).length + 1) a [] ha (by simp; omega) fun s e c hc => by cases hc
  simpa using this

end JsonBytes
end Leaves
