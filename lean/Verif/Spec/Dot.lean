import Mathlib.Algebra.Ring.Defs
import Mathlib.Data.List.Perm.Basic
/-!
Sums of squares in rounded arithmetic, in an order the caller does not know.
-/
namespace Verif.Spec

/-- `s` is a possible result of a rounded computation of the sum of the squares of `l`: products
rounded or fused into the addition, terms added in any order and grouping. -/
inductive RoundedDot {K : Type*} [Ring K] (rnd : K → K) : List K → K → Prop
  | nil : RoundedDot rnd [] 0
  | single (a : K) : RoundedDot rnd [a] (rnd (a * a))
  | first (a : K) : RoundedDot rnd [a] (rnd (0 + rnd (a * a)))
  | fused (a : K) {l : List K} {s : K} : RoundedDot rnd l s → RoundedDot rnd (a :: l) (rnd (s + a * a))
  | add {l l' : List K} {s s' : K} : l ≠ [] → l' ≠ [] → RoundedDot rnd l s → RoundedDot rnd l' s' →
      RoundedDot rnd (l ++ l') (rnd (s + s'))
  | perm {l l' : List K} {s : K} : l.Perm l' → RoundedDot rnd l s → RoundedDot rnd l' s

end Verif.Spec
