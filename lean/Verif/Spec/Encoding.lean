import Verif.Model.Tree
import Verif.Spec.Split

/-! # How nodes store category sets -/

namespace Leaves

open Spec

/-- How a node and the tables of its tree encode a set of categories below 2^31. -/
inductive CatCode (boundaries : List Nat) (thresholds : List (BitVec 32)) (flags : Flags) (threshold : F64) :
    (Nat → Prop) → Prop
  /-- one category -/
  | oneHot (c : Nat) (h6 : flags.getLsbD 6 = true) (hc : c < 2 ^ 31) (ht : IsVal threshold c) :
      CatCode boundaries thresholds flags threshold (fun n => n = c)
  /-- one word -/
  | small (w : BitVec 32) (h6 : flags.getLsbD 6 = false) (h7 : flags.getLsbD 7 = true)
      (ht : IsVal threshold w.toNat) :
      CatCode boundaries thresholds flags threshold (fun n => Member [w] n)
  /-- a range of words in the tables -/
  | long (k s e : Nat) (h6 : flags.getLsbD 6 = false) (h7 : flags.getLsbD 7 = false) (hk : k + 1 < 2 ^ 32)
      (ht : IsVal threshold k) (hs : boundaries[k]? = some s) (he : boundaries[k + 1]? = some e)
      (hse : s ≤ e) (hlen : e ≤ thresholds.length) (hlt : e < 2 ^ 32) :
      CatCode boundaries thresholds flags threshold (fun n => Member ((thresholds.drop s).take (e - s)) n)

end Leaves
