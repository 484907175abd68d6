import Verif.Spec.Barycenter
import Verif.Spec.Binary
/-!
Vocabulary for barycenters in rounded arithmetic.
-/
namespace Verif.Spec

/-- `s` is a possible result of a rounded computation of the sum of the products of the pairs: products rounded or fused into the addition, terms added
in any order and grouping. -/
inductive RoundedInner {K : Type*} [Ring K] (rnd : K → K) : List (K × K) → K → Prop
  | nil : RoundedInner rnd [] 0
  | single (a : K × K) : RoundedInner rnd [a] (rnd (a.1 * a.2))
  | first (a : K × K) : RoundedInner rnd [a] (rnd (0 + rnd (a.1 * a.2)))
  | fused (a : K × K) {l : List (K × K)} {s : K} : RoundedInner rnd l s → RoundedInner rnd (a :: l) (rnd (s + a.1 * a.2))
  | add {l l' : List (K × K)} {s s' : K} : l ≠ [] → l' ≠ [] → RoundedInner rnd l s → RoundedInner rnd l' s' →
      RoundedInner rnd (l ++ l') (rnd (s + s'))
  | perm {l l' : List (K × K)} {s : K} : l.Perm l' → RoundedInner rnd l s → RoundedInner rnd l' s

/-- The computed `c'` carries at most `N` relative errors of size `u` of terms whose absolute values add up to `A`, and whose sum is `c`. -/
def NearAbs {K : Type*} [Field K] [LinearOrder K] (u : K) (N : ℕ) (c' c A : K) : Prop :=
  |c' - c| ≤ ((1 + u) ^ N - 1) * A ∧ |c| ≤ A

/-- Weighted sum of a quantity over the samples aligned with sample `i` of the barycenter. -/
def alignedSum {K : Type*} [CommRing K] (ws : List K) (ps : List (List (ℕ × ℕ))) (i : ℕ) (g : ℕ → ℕ → K) : K :=
  ((List.range ps.length).map fun k => ws.getD k 0 * (((ps.getD k []).filter fun c => c.1 = i).map fun c => g k c.2).sum).sum

/-- Its weighted mean. -/
def alignedMean {K : Type*} [Field K] (ws : List K) (ps : List (List (ℕ × ℕ))) (i : ℕ) (g : ℕ → ℕ → K) : K :=
  alignedSum ws ps i g / alignedSum ws ps i fun _ _ => 1

end Verif.Spec
