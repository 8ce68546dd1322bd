import Verif.Model.Bufio

/-! What C99 says about a reader: how many calls of `Read` deliver something. -/

namespace Leaves.Spec

/-- How many of the first `calls` calls of `Read` are not empty reads: they deliver something, or report the end or the error of the
input. -/
def busyReads (lim : Nat → Nat) (calls : Nat) : Nat := ((List.range calls).filter fun i => lim i ≠ 0).length

end Leaves.Spec
