/-!
Python-level conventions: exceptions as values, slices.
-/
namespace Verif

/-- Exceptions raised by the modelled code. -/
inductive PyErr
  | valueError | keyError | typeError | indexError | attributeError | zeroDivision
  | runtimeWarning | notFitted | fileExists | notImplemented | emptyCluster | unboundLocal | runtimeError | overflow | assertion
  /-- not an exception of the code: the input leaves the modelled domain (e.g. interior NaN) -/
  | notModelled
  deriving DecidableEq, Repr

/-- Membership of index `a` in the slice `lo:up` of an axis of size `n` (Python negative indices). -/
def inSlice (n : Nat) (lo up : Int) (a : Nat) : Bool :=
  let norm (x : Int) : Int := if x < 0 then max 0 (x + n) else min x n
  decide (norm lo ≤ (a : Int)) && decide ((a : Int) < norm up)

end Verif
