import Verif.Proofs.BufioBytes

/-!
# The XGBoost loaders on a buffered reader
-/

namespace Leaves
open Spec

/-- a buffered reader that will hand out `bs` -/
def ByteHolds (k : Nat) (b : Bufio (BitVec 8)) (bs : List (BitVec 8)) : Prop := ∃ fin, Represents k b bs fin

theorem ByteHolds.size_eq {k : Nat} {b : Bufio (BitVec 8)} {bs : List (BitVec 8)} (h : ByteHolds k b bs) :
    b.size = bs.length := by
  obtain ⟨_, h⟩ := h
  exact h.size_eq

/-- a reading function on buffered readers does what one on the whole input does -/
def FollowsRd {β : Type} (k : Nat) (x : RdS β) (y : XgBin.Rd β) : Prop :=
  ∀ b bs, ByteHolds k b bs → Follows (ByteHolds k) (x b) (y bs)

theorem RdS.bind_apply {β γ : Type} (x : RdS β) (f : β → RdS γ) (b : Bufio (BitVec 8)) :
    (x >>= f) b = match x b with
      | .ok (a, b) => f a b | .err t => .err t | .panic => .panic | .hang => .hang := rfl

namespace FollowsRd
variable {β γ : Type} {k : Nat}

theorem pure (a : β) : FollowsRd k (Pure.pure a : RdS β) (Pure.pure a : XgBin.Rd β) :=
  fun _ _ h => .ok a _ _ h

theorem lift (r : Res β) : FollowsRd k (RdS.lift r) (XgBin.lift r) := by
  intro b bs h
  cases r with
  | ok a => exact .ok a _ _ h
  | err e => exact .err e
  | panic => exact .panic
  | hang => exact .hang

theorem bind {x : RdS β} {y : XgBin.Rd β} (h : FollowsRd k x y) {f : β → RdS γ} {g : β → XgBin.Rd γ}
    (hf : ∀ a, FollowsRd k (f a) (g a)) : FollowsRd k (x >>= f) (y >>= g) := by
  intro b bs hb
  have h1 := h b bs hb
  show Follows (ByteHolds k) (match x b with | .ok (a, b) => f a b | .err t => .err t | .panic => .panic | .hang => .hang)
    (match y bs with | .ok (a, bs) => g a bs | .err t => .err t | .panic => .panic | .hang => .hang)
  generalize x b = u at h1 ⊢
  generalize y bs = v at h1 ⊢
  cases h1 with
  | ok a s t hst => exact hf a s t hst
  | err e => exact .err e
  | panic => exact .panic
  | hang => exact .hang

theorem many {x : RdS β} {y : XgBin.Rd β} (h : FollowsRd k x y) :
    ∀ n, FollowsRd k (RdS.many x n) (XgBin.readMany y n)
  | 0 => FollowsRd.pure []
  | n + 1 => by
    refine FollowsRd.bind h fun a => ?_
    exact FollowsRd.bind (FollowsRd.many h n) fun as => FollowsRd.pure _

end FollowsRd

namespace XgBin

/-- a reading function that takes exactly `n` bytes -/
def Exactly {β : Type} (n : Nat) (rd : Rd β) : Prop :=
  ∀ bs, (bs.length < n → rd bs = .err "EOF") ∧
    (n ≤ bs.length → ∃ a, rd bs = .ok (a, bs.drop n) ∧ rd (bs.take n) = .ok (a, []))

theorem Exactly.bind {β γ : Type} {n m : Nat} {x : Rd β} {g : β → Rd γ} (hx : Exactly n x)
    (hg : ∀ a, Exactly m (g a)) : Exactly (n + m) (x >>= g) := by
  have hb : ∀ bs, (x >>= g) bs = match x bs with
      | .ok (a, bs) => g a bs | .err t => .err t | .panic => .panic | .hang => .hang := fun _ => rfl
  intro bs
  constructor
  · intro hlt
    rw [hb]
    by_cases hn : bs.length < n
    · rw [(hx bs).1 hn]
    · obtain ⟨a, h1, _⟩ := (hx bs).2 (by omega)
      rw [h1]
      exact (hg a (bs.drop n)).1 (by rw [List.length_drop]; omega)
  · intro hle
    obtain ⟨a, h1, h2⟩ := (hx bs).2 (by omega)
    obtain ⟨c, h3, h4⟩ := (hg a (bs.drop n)).2 (by rw [List.length_drop]; omega)
    obtain ⟨a', h5, h6⟩ := (hx (bs.take (n + m))).2 (by rw [List.length_take]; omega)
    rw [List.take_take, Nat.min_eq_left (by omega), h2] at h6
    simp only [Res.ok.injEq, Prod.mk.injEq, and_true] at h6
    subst h6
    refine ⟨c, ?_, ?_⟩
    · rw [hb, h1]
      show g a (bs.drop n) = _
      rw [h3, List.drop_drop]
    · rw [hb, h5]
      show g a ((bs.take (n + m)).drop n) = _
      rw [List.drop_take, Nat.add_sub_cancel_left, h4]

theorem Exactly.pure {β : Type} (a : β) : Exactly 0 (Pure.pure a : Rd β) := by
  intro bs
  exact ⟨fun h => absurd h (Nat.not_lt_zero _), fun _ => ⟨a, rfl, rfl⟩⟩

theorem Exactly.readBytes (n : Nat) : Exactly n (readBytes n) := by
  intro bs
  refine ⟨fun h => by rw [XgBin.readBytes, if_pos h], fun h => ⟨bs.take n, ?_, ?_⟩⟩
  · rw [XgBin.readBytes, if_neg (by omega)]
  · rw [XgBin.readBytes, if_neg (by rw [List.length_take]; omega), List.take_take, Nat.min_self,
      List.drop_take, Nat.sub_self, List.take_zero]

theorem Exactly.readWord : Exactly 4 readWord := (Exactly.readBytes 4).bind fun _ => Exactly.pure _

theorem Exactly.readWord64 : Exactly 8 readWord64 := (Exactly.readBytes 8).bind fun _ => Exactly.pure _

theorem Exactly.cast {β : Type} {n m : Nat} {rd : Rd β} (h : Exactly n rd) (e : n = m) : Exactly m rd := e ▸ h

theorem Exactly.many {β : Type} {m : Nat} {rd : Rd β} (h : Exactly m rd) :
    ∀ n, Exactly (m * n) (readMany rd n)
  | 0 => Exactly.pure []
  | n + 1 => by
    refine Exactly.cast (h.bind fun a => (Exactly.many h n).bind fun as => Exactly.pure _) ?_
    rw [Nat.mul_succ]; omega

theorem Exactly.learnerModelParam : Exactly 136 readLearnerModelParam :=
  Exactly.readWord.bind fun _ => Exactly.readWord.bind fun _ => Exactly.readWord.bind fun _ =>
    Exactly.readWord.bind fun _ => Exactly.readWord.bind fun _ => (Exactly.readWord.many 29).bind fun _ =>
      Exactly.pure _

theorem Exactly.gbTreeModelParam : Exactly 160 readGBTreeModelParam :=
  Exactly.readWord.bind fun _ => Exactly.readWord.bind fun _ => Exactly.readWord.bind fun _ =>
    Exactly.readWord.bind fun _ => Exactly.readWord64.bind fun _ => Exactly.readWord.bind fun _ =>
      Exactly.readWord.bind fun _ => (Exactly.readWord.many 32).bind fun _ => Exactly.pure _

theorem Exactly.treeParam : Exactly 148 readTreeParam :=
  Exactly.readWord.bind fun _ => Exactly.readWord.bind fun _ => Exactly.readWord.bind fun _ =>
    Exactly.readWord.bind fun _ => Exactly.readWord.bind fun _ => Exactly.readWord.bind fun _ =>
      (Exactly.readWord.many 31).bind fun _ => Exactly.pure _

theorem Exactly.node : Exactly 20 readNode :=
  Exactly.readWord.bind fun _ => Exactly.readWord.bind fun _ => Exactly.readWord.bind fun _ =>
    Exactly.readWord.bind fun _ => Exactly.readWord.bind fun _ => Exactly.pure _

theorem Exactly.stat : Exactly 16 readStat :=
  Exactly.readWord.bind fun _ => Exactly.readWord.bind fun _ => Exactly.readWord.bind fun _ =>
    Exactly.readWord.bind fun _ => Exactly.pure _

theorem Exactly.gbLinearModelParam : Exactly 136 readGBLinearModelParam :=
  Exactly.readWord.bind fun _ => Exactly.readWord.bind fun _ => (Exactly.readWord.many 32).bind fun _ =>
    Exactly.pure _

/-- `binary.Read` of data that takes `n` bytes -/
theorem binaryRead_follows {β : Type} {k n : Nat} {dec : Rd β} (h : Exactly n dec) :
    FollowsRd k (binaryRead n dec) dec := by
  rintro b bs ⟨fin, hb⟩
  obtain ⟨j, hj, hl⟩ := hb.patient 0
  have hfew := hb.few
  have hfull := Bufio.readFullLoop_spec (100 * (b.size + 2)) n b [] bs j hb hj
    (fun _ => Or.inl (by simpa using hl)) (by rw [hb.size_eq]; omega)
  have hu : binaryRead n dec b = (RdS.full n >>= fun x =>
      RdS.lift (dec x) >>= fun y => match y with | (a, _) => (Pure.pure a : RdS β)) b := rfl
  rw [hu, RdS.bind_apply, RdS.full, Bufio.readFull]
  by_cases hn : bs.length < n
  · rw [hfull.1 hn, (h bs).1 hn]
    exact .err _
  · obtain ⟨b', h1, h2⟩ := hfull.2 (by omega)
    obtain ⟨a, h3, h4⟩ := (h bs).2 (by omega)
    rw [h1, h3, List.nil_append]
    dsimp only
    rw [RdS.bind_apply, h4]
    exact .ok a b' _ ⟨fin, h2⟩

theorem readStringS_follows (k : Nat) (P : Platform) : FollowsRd k (readStringS P) (readString P) := by
  refine (binaryRead_follows Exactly.readWord64).bind fun size => ?_
  split
  · exact FollowsRd.pure _
  · refine (FollowsRd.lift _).bind fun _ => ?_
    exact binaryRead_follows (Exactly.readBytes _)

theorem readWordSliceS_follows (k : Nat) (P : Platform) : FollowsRd k (readWordSliceS P) (readWordSlice P) := by
  refine (binaryRead_follows Exactly.readWord64).bind fun size => ?_
  split
  · exact FollowsRd.pure _
  · refine (FollowsRd.lift _).bind fun _ => ?_
    exact binaryRead_follows (Exactly.readWord.many _)

theorem readModelHeaderS_follows (k : Nat) (P : Platform) :
    FollowsRd k (readModelHeaderS P) (readModelHeader P) := by
  refine (binaryRead_follows Exactly.learnerModelParam).bind fun _ => ?_
  refine (readStringS_follows k P).bind fun _ => ?_
  exact (readStringS_follows k P).bind fun _ => FollowsRd.pure _

theorem readTreeModelS_follows (k : Nat) (P : Platform) : FollowsRd k (readTreeModelS P) (readTreeModel P) := by
  refine (binaryRead_follows Exactly.treeParam).bind fun param => ?_
  refine (FollowsRd.lift _).bind fun _ => ?_
  refine (FollowsRd.lift _).bind fun _ => ?_
  refine ((binaryRead_follows Exactly.node).many _).bind fun _ => ?_
  refine ((binaryRead_follows Exactly.stat).many _).bind fun _ => ?_
  split
  · exact (readWordSliceS_follows k P).bind fun _ => FollowsRd.pure _
  · exact FollowsRd.pure _

theorem readGBTreeModelS_follows (k : Nat) (P : Platform) :
    FollowsRd k (readGBTreeModelS P) (readGBTreeModel P) := by
  refine (binaryRead_follows Exactly.gbTreeModelParam).bind fun param => ?_
  refine ((readTreeModelS_follows k P).many _).bind fun _ => ?_
  split
  · refine (FollowsRd.lift _).bind fun _ => ?_
    exact (binaryRead_follows (Exactly.readWord.many _)).bind fun _ => FollowsRd.pure _
  · exact FollowsRd.pure _

theorem readGBLinearModelS_follows (k : Nat) (P : Platform) :
    FollowsRd k (readGBLinearModelS P) (readGBLinearModel P) := by
  refine (binaryRead_follows Exactly.gbLinearModelParam).bind fun param => ?_
  exact (readWordSliceS_follows k P).bind fun _ => FollowsRd.pure _

end XgBin

open XgBin

theorem xgWeightDropS_follows (k : Nat) (P : Platform) (nameGbm : Bytes) (numTrees : Int) :
    FollowsRd k (xgWeightDropS P nameGbm numTrees) (xgWeightDrop P nameGbm numTrees) := by
  refine (FollowsRd.lift _).bind fun _ => ?_
  split
  · refine (readWordSliceS_follows k P).bind fun _ => ?_
    split
    · exact FollowsRd.lift _
    · exact FollowsRd.pure _
  · split
    · exact FollowsRd.pure _
    · exact FollowsRd.lift _

theorem xgEnsembleFromReaderS_follows (k : Nat) (P : Platform) (lt : Bool) :
    FollowsRd k (xgEnsembleFromReaderS P lt) (xgEnsembleFromReader P lt) := by
  refine (readModelHeaderS_follows k P).bind fun header => ?_
  split
  · exact FollowsRd.lift _
  · dsimp only
    generalize (if header.nameGbm = ascii "gbtree" then "xgboost.gbtree" else "xgboost.dart") = name
    split
    · exact FollowsRd.lift _
    · refine (readGBTreeModelS_follows k P).bind fun m => ?_
      split
      · exact FollowsRd.lift _
      · exact (xgWeightDropS_follows k P _ _).bind fun _ => FollowsRd.lift _

theorem xgbLinearFromReaderS_follows (k : Nat) (P : Platform) (lt : Bool) :
    FollowsRd k (xgbLinearFromReaderS P lt) (xgbLinearFromReader P lt) := by
  refine (readModelHeaderS_follows k P).bind fun header => ?_
  split
  · exact FollowsRd.lift _
  · split
    · exact FollowsRd.lift _
    · refine (readGBLinearModelS_follows k P).bind fun m => ?_
      exact (FollowsRd.lift _).bind fun _ => FollowsRd.pure _

end Leaves
