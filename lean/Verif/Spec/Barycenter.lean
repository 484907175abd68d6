import Verif.Spec.Cost
import Mathlib.Order.Bounds.Basic
import Mathlib.Algebra.Order.Group.Abs
import Mathlib.Algebra.Order.Field.Basic
/-!
Specification of weighted alignment costs of a barycenter.
-/
namespace Verif.Spec

/-- `n` samples with `d` features each. -/
def Rect {K : Type*} (n d : ℕ) (b : List (List K)) : Prop := b.length = n ∧ ∀ r ∈ b, r.length = d

/-- The alignment paths that an update receives. -/
structure PathsOk {K : Type*} (xs : List (List (List K))) (size d : ℕ) (ps : List (List (ℕ × ℕ))) : Prop where
  len : ps.length = xs.length
  wp : ∀ k < xs.length, IsWarpingPath size (xs.getD k []).length (ps.getD k [])
  rect : ∀ k < xs.length, Rect (xs.getD k []).length d (xs.getD k [])

/-- Non-negative weights, not all zero. -/
structure WeightsOk {K : Type*} [Zero K] [LinearOrder K] (xs : List (List (List K))) (ws : List K) : Prop where
  len : ws.length = xs.length
  nonneg : ∀ w ∈ ws, 0 ≤ w
  pos : ∃ w ∈ ws, 0 < w

/-- Every series can be aligned within its mask. -/
def Feasible {K : Type*} (xs : List (List (List K))) (size : ℕ) (masks : ℕ → ℕ → ℕ → Bool) : Prop :=
  ∀ k < xs.length, ∃ q, Admissible size (xs.getD k []).length (masks k) q

/-- Weighted cost of `b` when series `k` is aligned with it along `ps[k]`. -/
def alignCost {K : Type*} [CommRing K] (xs : List (List (List K))) (ws : List K) (ps : List (List (ℕ × ℕ)))
    (b : List (List K)) : K :=
  ((List.range xs.length).map fun k => ws.getD k 0 * sumCost (sampleCost b (xs.getD k [])) (ps.getD k [])).sum

/-- `ps` aligns each series with `b` along a cheapest path that the masks allow. -/
def Aligns {K : Type*} [CommRing K] [LinearOrder K] (masks : ℕ → ℕ → ℕ → Bool) (xs : List (List (List K)))
    (b : List (List K)) (ps : List (List (ℕ × ℕ))) : Prop :=
  ps.length = xs.length ∧ ∀ k < xs.length,
    Admissible b.length (xs.getD k []).length (masks k) (ps.getD k []) ∧
    ∀ q, Admissible b.length (xs.getD k []).length (masks k) q →
      sumCost (sampleCost b (xs.getD k [])) (ps.getD k []) ≤ sumCost (sampleCost b (xs.getD k [])) q

/-- The weighted mean of the squared constrained DTW distances of `b` to the series is `c`. -/
def IsInertia {K : Type*} [Field K] [LinearOrder K] (masks : ℕ → ℕ → ℕ → Bool) (xs : List (List (List K)))
    (ws : List K) (b : List (List K)) (c : K) : Prop :=
  ∃ v : ℕ → K, (∀ k < xs.length, IsLeast {e | ∃ p, Admissible b.length (xs.getD k []).length (masks k) p ∧
      e = sumCost (sampleCost b (xs.getD k [])) p} (v k)) ∧
    c = ((List.range xs.length).map fun k => ws.getD k 0 * v k).sum / ws.sum

/-- `b'` is the only minimiser of the weighted cost for alignments that are cheapest for `b`. -/
def IsUpdate {K : Type*} [Field K] [LinearOrder K] (masks : ℕ → ℕ → ℕ → Bool) (xs : List (List (List K)))
    (ws : List K) (n d : ℕ) (b b' : List (List K)) : Prop :=
  Rect n d b' ∧ ∃ ps, Aligns masks xs b ps ∧
    ∀ a, Rect n d a → a ≠ b' → alignCost xs ws ps b' < alignCost xs ws ps a

/-- `T ≤ maxIter` rounds from `bs 0` to `bs T`: `c t` is the inertia of `bs t`, `bs (t + 1)` minimises the cost of
cheapest alignments with `bs t`, inertias never increase (not even for the final `bs T`), and the rounds end at the first change
below `tol`. -/
structure IsDescent {K : Type*} [Field K] [LinearOrder K] (masks : ℕ → ℕ → ℕ → Bool) (xs : List (List (List K)))
    (ws : List K) (n d : ℕ) (tol : K) (maxIter T : ℕ) (bs : ℕ → List (List K)) (c : ℕ → K) : Prop where
  rounds : T ≤ maxIter
  rect : ∀ t ≤ T, Rect n d (bs t)
  inertia : ∀ t < T, IsInertia masks xs ws (bs t) (c t)
  update : ∀ t < T, IsUpdate masks xs ws n d (bs t) (bs (t + 1))
  mono : ∀ t, t + 1 < T → c (t + 1) ≤ c t
  final : ∀ c', 0 < T → IsInertia masks xs ws (bs T) c' → c' ≤ c (T - 1)
  running : ∀ t, t + 2 < T → tol ≤ |c t - c (t + 1)|
  stopped : T < maxIter → 2 ≤ T ∧ |c (T - 2) - c (T - 1)| < tol

/-- `b'` is obtained from `b` by a step of size `eta` along the negative gradient of the squared distance to `x` along a cheapest
alignment. -/
def IsSubgradStep {K : Type*} [CommRing K] [LinearOrder K] (mask : ℕ → ℕ → Bool) (x : List (List K)) (n d : ℕ) (eta : K)
    (b b' : List (List K)) : Prop :=
  Rect n d b' ∧ ∃ p, Admissible n x.length mask p ∧
    (∀ q, Admissible n x.length mask q → sumCost (sampleCost b x) p ≤ sumCost (sampleCost b x) q) ∧
    ∀ i < n, ∀ f < d, (b'.getD i []).getD f 0 = (b.getD i []).getD f 0 -
      eta * ((p.filter fun c => c.1 = i).map fun c => 2 * ((b.getD i []).getD f 0 - (x.getD c.2 []).getD f 0)).sum

/-- Subgradient steps with the listed series and step sizes lead from `b` to `b'`; `v'` is the squared constrained DTW distance to
the series of the last step, measured just before that step (`v` if there is no step). -/
def SgRun {K : Type*} [CommRing K] [LinearOrder K] (masks : ℕ → ℕ → ℕ → Bool) (xs : List (List (List K))) (n d : ℕ) :
    List (ℕ × K) → List (List K) → K → List (List K) → K → Prop
  | [], b, v, b', v' => b' = b ∧ v' = v
  | (i, eta) :: rest, b, _, b', v' => ∃ b1 w,
      IsLeast {e | ∃ p, Admissible n (xs.getD i []).length (masks i) p ∧ e = sumCost (sampleCost b (xs.getD i [])) p} w ∧
      IsSubgradStep (masks i) (xs.getD i []) n d eta b b1 ∧ SgRun masks xs n d rest b1 w b' v'

/-- Step sizes of an epoch: from `step` in equal decrements towards `final` in the first one, `final` afterwards. -/
def sgSchedule {K : Type*} [Field K] (N : ℕ) (step final : K) (it : ℕ) (perm : List ℕ) : List (ℕ × K) :=
  perm.zipIdx.map fun ij => (ij.1, if it = 0 then step - (ij.2 : K) * ((step - final) / (N : K)) else final)

/-- Weighted sum of squared Euclidean distances, for series of the same length. -/
def eucCost {K : Type*} [CommRing K] (xs : List (List (List K))) (ws : List K) (b : List (List K)) : K :=
  (List.zipWith (fun x w => w * (List.zipWith sqEuclid b x).sum) xs ws).sum

end Verif.Spec
