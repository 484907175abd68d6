import Verif.Model.Dtw
import Verif.Model.Argmin
/-!
Subsequence DTW, tslearn/metrics/dtw_variants.py.
-/
namespace Verif
section
variable {K : Type} [LinearOrder K] [Add K] [Zero K]

/-- Initial table: `inf` everywhere, then `cum_sum[0, :] = 0`,
tslearn/metrics/dtw_variants.py:421-422. -/
def subseqInit : Mat (WithTop K) := fun i _ => if i = 0 then 0 else ⊤

/-- `_njit_subsequence_cost_matrix` on the local costs `D`,
tslearn/metrics/dtw_variants.py:403-430 (and 433-470 for the other backend). -/
def subseqCost (l1 l2 : ℕ) (D : ℕ → ℕ → K) : Mat (WithTop K) :=
  (dpLoop l1 l2 (fun _ _ => true)
    (fun i j up left diag => (D i j : WithTop K) + min (min up left) diag) subseqInit).tail

/-- The `while path[-1][0] != 0` loop of `_njit_subsequence_path`,
tslearn/metrics/dtw_variants.py:505-547 (the list is kept reversed). -/
def subseqPathLoop {C : Type} (am : C → C → C → ℕ) (acc : Mat C) :
    ℕ → ℕ × ℕ → List (ℕ × ℕ) → Option (List (ℕ × ℕ))
  | 0, _, _ => none
  | fuel + 1, c, rest =>
    if c.1 = 0 then some (c :: rest)
    else subseqPathLoop am acc fuel (pathNext am acc c.1 c.2) (c :: rest)

/-- `subsequence_path(acc_cost_mat, idx_path_end)`, tslearn/metrics/dtw_variants.py:604-651. -/
def subsequencePath {C : Type} (am : C → C → C → ℕ) (acc : Mat C) (sz1 idxEnd fuel : ℕ) :
    Option (List (ℕ × ℕ)) :=
  subseqPathLoop am acc fuel (sz1 - 1, idxEnd) []
end

section
variable {K : Type} [LinearOrder K] [Add K] [Zero K] [Sub K] [Mul K]

/-- `dtw_subsequence_path(subseq, longseq)` with the squared cost,
tslearn/metrics/dtw_variants.py:714-720, on series without NaN. Series of different widths leave
the model. -/
def dtwSubsequencePath (q x : List (List K)) (am : WithTop K → WithTop K → WithTop K → ℕ)
    (aml : List (WithTop K) → ℕ) : Except PyErr (Option (List (ℕ × ℕ)) × WithTop K) :=
  if q = [] then .error .indexError
  else if x = [] then .error .valueError
  else if nFeatures q ≠ nFeatures x then .error .notModelled
  else
    let acc := subseqCost q.length x.length (localCost q x)
    let row := (List.range x.length).map fun j => acc (q.length - 1) j
    let best := aml row
    .ok (subsequencePath am acc q.length best (q.length + x.length), row.getD best ⊤)
end
end Verif
