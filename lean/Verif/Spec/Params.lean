import Verif.Spec.Text

/-! # What a block of `key=value` lines means -/

namespace Leaves.Spec

/-- the characters Unicode counts as white space -/
def whiteSpace (c : Char) : Prop :=
  c ∈ ['\t', '\n', '\x0b', '\x0c', '\r', ' ', '\u0085', '\u00a0', '\u1680', '\u2000', '\u2001', '\u2002', '\u2003',
    '\u2004', '\u2005', '\u2006', '\u2007', '\u2008', '\u2009', '\u200a', '\u2028', '\u2029', '\u202f', '\u205f', '\u3000']

/-- `s` is `line` without the white space around it -/
def IsTrim (line s : Str) : Prop :=
  ∃ a b, line = a ++ s ++ b ∧ (∀ c ∈ a, whiteSpace c) ∧ (∀ c ∈ b, whiteSpace c) ∧
    (∀ c, s.head? = some c → ¬ whiteSpace c) ∧ (∀ c, s.getLast? = some c → ¬ whiteSpace c)

/-- The text starts with lines which, trimmed, are `ss` (none empty) and ends there, either by a blank line after which
`rest` follows, or (`atEnd`) by the end of the text. -/
inductive Block : (text : Str) → (ss : List Str) → (rest : Str) → (atEnd : Bool) → Prop
  | blank (l rest : Str) (hn : '\n' ∉ l) (hl : IsTrim l []) : Block (l ++ '\n' :: rest) [] rest false
  | stop (l : Str) (hn : '\n' ∉ l) (hl : IsTrim l []) : Block l [] [] true
  | line {l s t rest : Str} {ss : List Str} {e : Bool} (hn : '\n' ∉ l) (hl : IsTrim l s) (hs : s ≠ []) (hb : Block t ss rest e) :
      Block (l ++ '\n' :: t) (s :: ss) rest e
  | last {l s : Str} (hn : '\n' ∉ l) (hl : IsTrim l s) (hs : s ≠ []) : Block l [s] [] true

/-- the line `s` gives `k` the value `v` -/
def LineBinds (s k v : Str) : Prop := (s = k ++ '=' :: v ∧ '=' ∉ k ∧ '=' ∉ v) ∨ ('=' ∉ s ∧ k = s ∧ v = [])

/-- the last of the lines that binds `k` binds it to `v` -/
def Bound (lines : List Str) (k v : Str) : Prop :=
  ∃ (i : Nat) (s : Str), lines[i]? = some s ∧ LineBinds s k v ∧ ∀ (j : Nat) (s' v' : Str), i < j → lines[j]? = some s' → ¬ LineBinds s' k v'

/-- every line has at most one equals sign -/
def Readable (lines : List Str) : Prop := ∀ s ∈ lines, s.count '=' ≤ 1

end Leaves.Spec
