import Verif.Model.LimitedWarping
import Verif.Model.Rounded
/-!
DTW with a limited warping length in rounded arithmetic, tslearn/metrics/dtw_variants.py.

`rnd` is the rounding applied to the exact result of each subtraction, product, addition and square
root, in the order of the source. Simplification: overflow and NaN are not modelled.
-/
namespace Verif

section
variable {K : Type} [LinearOrder K] [Add K] [Zero K]

/-- The `# Init` part of `_limited_warping_length_cost` in rounded arithmetic,
tslearn/metrics/dtw_variants.py:130-142. The code writes `pred + dist`; addition commutes, rounded or
not. The first entry is the local distance itself, without an addition. -/
def rLwlInit (rnd : K → K) (l1 l2 : ℕ) (D : ℕ → ℕ → K) : Mat (CostDict (WithTop K)) :=
  let M : Mat (CostDict (WithTop K)) := Mat.full []
  let M := M.set 0 0 [(0, (D 0 0 : WithTop K))]
  let M := forRange (l1 - 1) M fun i M =>
    M.set (i + 1) 0 [(i + 1, rAdd rnd (D (i + 1) 0) (CostDict.get (M i 0) i))]
  forRange (l2 - 1) M fun j M =>
    M.set 0 (j + 1) [(j + 1, rAdd rnd (D 0 (j + 1)) (CostDict.get (M 0 j) j))]

/-- Body of the main loop for the cell `(i + 1, j + 1)` in rounded arithmetic,
tslearn/metrics/dtw_variants.py:147-155. -/
def rLwlCell (rnd : K → K) (maxLength l1 l2 : ℕ) (D : ℕ → ℕ → K) (i j : ℕ)
    (up left diag : CostDict (WithTop K)) : CostDict (WithTop K) :=
  let minS := max (i + 1) (j + 1)
  let maxS := maxSteps (i + 1) (j + 1) (maxLength - 1) l1 l2
  (List.range' minS (maxS + 1 - minS)).map fun s =>
    (s, rAdd rnd (D (i + 1) (j + 1)) (min (min (left.get (s - 1)) (up.get (s - 1))) (diag.get (s - 1))))

/-- `_limited_warping_length_cost(s1, s2, max_length)` in rounded arithmetic,
tslearn/metrics/dtw_variants.py:101-156, on the local cost matrix `D`. -/
def rLwlCost (rnd : K → K) (maxLength l1 l2 : ℕ) (D : ℕ → ℕ → K) : Mat (CostDict (WithTop K)) :=
  dpLoop (l1 - 1) (l2 - 1) (fun _ _ => true) (rLwlCell rnd maxLength l1 l2 D) (rLwlInit rnd l1 l2 D)
end

section
variable {K : Type} [LinearOrder K] [Add K] [Zero K] [Sub K] [Mul K]

/-- `dtw_limited_warping_length(s1, s2, max_length)` before the square root, in rounded arithmetic,
tslearn/metrics/dtw_variants.py:226-239, on series without NaN. The local distance
(`_local_squared_dist`, dtw_variants.py:60-67) runs the operations of the compiled kernel of DTW. -/
def rDtwLimitedSq (rnd : K → K) (x y : List (List K)) (maxLength : ℕ) : Except PyErr (WithTop K) :=
  if maxLength < max x.length y.length then .error .valueError
  else if x = [] ∨ y = [] then .error .indexError
  else if nFeatures x ≠ nFeatures y then .error .notModelled
  else dictMin (rLwlCost rnd maxLength x.length y.length (rLocalCost rnd x y) (x.length - 1)
    (y.length - 1))

/-- `dtw_path_limited_warping_length(s1, s2, max_length)` before the square root, in rounded
arithmetic, tslearn/metrics/dtw_variants.py:378-399. -/
def rDtwPathLimitedSq (rnd : K → K) (x y : List (List K)) (maxLength : ℕ)
    (am : WithTop K → WithTop K → WithTop K → ℕ) :
    Except PyErr (Option (List (ℕ × ℕ)) × WithTop K) :=
  if maxLength < max x.length y.length then .error .valueError
  else if x = [] ∨ y = [] then .error .indexError
  else if nFeatures x ≠ nFeatures y then .error .notModelled
  else
    let M := rLwlCost rnd maxLength x.length y.length (rLocalCost rnd x y)
    let best := dictArgmin (M (x.length - 1) (y.length - 1))
    .ok (lwlPathLoop am M (x.length + y.length) (x.length - 1, y.length - 1) (best.1.getD 0) [],
      best.2)
end

/-- `dtw_limited_warping_length(s1, s2, max_length)` in rounded arithmetic, with its square root,
tslearn/metrics/dtw_variants.py:226-239, on series without NaN. -/
noncomputable def rDtwLimited (rnd : ℝ → ℝ) (x y : List (List ℝ)) (maxLength : ℕ) :
    Except PyErr (WithTop ℝ) := do
  let v ← rDtwLimitedSq rnd x y maxLength
  return rSqrt rnd v
end Verif
