import Verif.Spec.Rounded
import Mathlib.Algebra.Ring.Parity
import Mathlib.Algebra.Ring.Int.Parity
import Mathlib.Data.List.Perm.Basic
/-!
The rounding of IEEE 754 arithmetic (to nearest, ties to even) away from overflow and underflow, and
sums in an order the caller does not know.
-/
namespace Verif.Spec

/-- The nearest integer, the even one of two. -/
def nearestInt {K : Type*} [Field K] [LinearOrder K] [FloorRing K] (a : K) : ℤ :=
  let r := a - ⌊a⌋
  if 2 * r < 1 then ⌊a⌋ else if 1 < 2 * r then ⌊a⌋ + 1 else if ⌊a⌋ % 2 = 0 then ⌊a⌋ else ⌊a⌋ + 1

/-- Rounding to the nearest number of `p + 1` significant bits, ties to even: doubles have `p = 52`. -/
def nearBits {K : Type*} [Field K] [LinearOrder K] [FloorRing K] (p : ℕ) (a : K) : K :=
  let e : K := 2 ^ (Int.log 2 |a| - p)
  nearestInt (a / e) * e

/-- `s` is a possible result of a rounded computation of the sum of `l`: terms added in any order and
grouping, starting from zero or not. -/
inductive RoundedSum {K : Type*} [Ring K] (rnd : K → K) : List K → K → Prop
  | nil : RoundedSum rnd [] 0
  | single (a : K) : RoundedSum rnd [a] a
  | first (a : K) : RoundedSum rnd [a] (rnd (0 + a))
  | add {l l' : List K} {s s' : K} : l ≠ [] → l' ≠ [] → RoundedSum rnd l s → RoundedSum rnd l' s' →
      RoundedSum rnd (l ++ l') (rnd (s + s'))
  | perm {l l' : List K} {s : K} : l.Perm l' → RoundedSum rnd l s → RoundedSum rnd l' s

end Verif.Spec
