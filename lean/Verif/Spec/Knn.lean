import Verif.Model.Knn
import Mathlib.Data.List.Sort
/-!
Specification of nearest-neighbour queries.
-/
namespace Verif

/-- The contract of `numpy.argpartition` and `numpy.argsort`. -/
structure Selector.Valid {K : Type} [LinearOrder K] (S : Selector K) : Prop where
  part_perm : ∀ (f : ℕ → K) (n k : ℕ), k < n → (S.part f n k).Perm (List.range n)
  part_le : ∀ (f : ℕ → K) (n k : ℕ), k < n → ∀ i < k, f ((S.part f n k).getD i 0) ≤ f ((S.part f n k).getD k 0)
  part_ge : ∀ (f : ℕ → K) (n k : ℕ), k < n → ∀ i, k < i → i < n → f ((S.part f n k).getD k 0) ≤ f ((S.part f n k).getD i 0)
  sort_perm : ∀ (f : ℕ → K) (n : ℕ), (S.sort f n).Perm (List.range n)
  sort_le : ∀ (f : ℕ → K) (n : ℕ), (S.sort f n).Pairwise fun i j => f i ≤ f j

namespace Spec

/-- `out` are `k` of the candidates below `n`, in order of `f`, and no other candidate is strictly nearer than one of them. -/
structure KNearest {K : Type} [LinearOrder K] (f : ℕ → K) (n k : ℕ) (cand : ℕ → Prop) (out : List ℕ) : Prop where
  length : out.length = k
  nodup : out.Nodup
  mem : ∀ i ∈ out, i < n ∧ cand i
  sorted : out.Pairwise fun i j => f i ≤ f j
  least : ∀ j < n, cand j → j ∉ out → ∀ i ∈ out, f i ≤ f j

end Spec
end Verif
