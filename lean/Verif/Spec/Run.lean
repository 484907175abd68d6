import Mathlib.Algebra.Order.Group.Abs
import Mathlib.Order.WithBot
/-!
Sequences of rounds.
-/
namespace Verif.Spec

/-- The inertia before round `k`: `old` for the first. -/
def before {K : Type} (old : WithTop K) (v : ℕ → K) : ℕ → WithTop K
  | 0 => old
  | k + 1 => ((v (k + 1) : K) : WithTop K)

/-- Put one value in front of a sequence. -/
def front {A : Type} (a : A) (f : ℕ → A) : ℕ → A
  | 0 => a
  | k + 1 => f k

/-- `v` differs by less than `tol` from the inertia before it, if there is one. -/
def Close {K : Type} [AddCommGroup K] [LinearOrder K] (tol : K) (old : WithTop K) (v : K) : Prop := ∃ a : K, old = a ∧ |a - v| < tol

end Verif.Spec
