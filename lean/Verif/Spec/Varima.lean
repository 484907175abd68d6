import Verif.Model.Varima
import Mathlib.Algebra.Group.ForwardDiff
/-!
Specification of forecasts: a series continues as an ARMA recursion says, on the differenced scale.
-/
namespace Verif.Spec
open Finset
variable {V : Type} [AddCommGroup V]

/-- A list as a function of time, zero past its end. -/
def timeline (xs : List V) : ℕ → V := fun i => xs.getD i 0

/-- Differences of lag `s` (if `s > 0`), then `d` times of lag 1. -/
def differenced (s d : ℕ) (Y : ℕ → V) : ℕ → V := (fwdDiff 1)^[d] (if s = 0 then Y else fwdDiff s Y)

/-- What the recursion gives at time `i` after history `W`, `res` being the last `q` residuals (oldest first) at time `h`; residuals from
`h` on are zero. -/
def armaNext (m : Varima V) (res : List V) (h : ℕ) (W : ℕ → V) (i : ℕ) : V :=
  ∑ k ∈ range m.p, m.ar k (W (i - 1 - k)) + ∑ k ∈ range m.q, m.ma k (res.getD (k + (i - h)) 0) + m.c

/-- From time `h` to `e` the series `W` follows the recursion. -/
def Continues (m : Varima V) (res : List V) (W : ℕ → V) (h e : ℕ) : Prop := ∀ i, h ≤ i → i < e → W i = armaNext m res h W i

/-- Residuals of a series `W` of `n` samples, oldest first: the recursion started with `max p q` samples and zero residuals. -/
def residuals (m : Varima V) (W : ℕ → V) : ℕ → List V
  | 0 => List.replicate m.q 0
  | n + 1 => if n < max m.p m.q then List.replicate m.q 0 else
      (residuals m W n ++ [W n - (∑ k ∈ range m.p, m.ar k (W (n - 1 - k)) + ∑ k ∈ range m.q, m.ma k ((residuals m W n).getD k 0) + m.c)]).drop 1

end Verif.Spec
