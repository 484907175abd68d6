import Verif.Spec.Cc
/-!
Specification of shape-based distance and of standardisation.
-/
namespace Verif.Spec

/-- `v` is the greatest normalised cross-correlation of `x` and `c`, over all lags that leave an overlap. -/
def IsShapeSim (d : ℕ) (x c : List (List ℝ)) (v : ℝ) : Prop :=
  (∃ lag : ℤ, -(x.length : ℤ) < lag ∧ lag < x.length ∧ v = lagProd d x c lag / (√(energy d x) * √(energy d c))) ∧
  ∀ lag : ℤ, -(x.length : ℤ) < lag → lag < x.length → lagProd d x c lag / (√(energy d x) * √(energy d c)) ≤ v

/-- Mean of feature `f`. -/
noncomputable def colMean (s : List (List ℝ)) (f : ℕ) : ℝ := (∑ t ∈ Finset.range s.length, val s t f) / s.length

/-- Standard deviation of feature `f`. -/
noncomputable def colStd (s : List (List ℝ)) (f : ℕ) : ℝ :=
  √((∑ t ∈ Finset.range s.length, (val s t f - colMean s f) ^ 2) / s.length)

/-- `y` is `x` with every feature centred and, unless constant, divided by its standard deviation. -/
def Standardised (d : ℕ) (x y : List (List ℝ)) : Prop :=
  y.length = x.length ∧ Wide d y ∧ ∀ t < x.length, ∀ f < d,
    val y t f = (val x t f - colMean x f) / (if colStd x f = 0 then 1 else colStd x f)

/-- `l` is the first centroid of greatest shape similarity to `x`. -/
def NearestShape (d : ℕ) (x : List (List ℝ)) (cs : List (List (List ℝ))) (l : ℕ) : Prop :=
  l < cs.length ∧ ∃ v : ℕ → ℝ, (∀ (k : ℕ) (h : k < cs.length), IsShapeSim d x cs[k] (v k)) ∧
    ∀ k < cs.length, v k ≤ v l ∧ (k < l → v k < v l)

/-- Inner product of `v` with feature `i` of `x`, centred. -/
noncomputable def centredProj (sz : ℕ) (x : List (List ℝ)) (i : ℕ) (v : ℕ → ℝ) : ℝ :=
  ∑ t ∈ Finset.range sz, v t * (val x t i - (∑ u ∈ Finset.range sz, val x u i) / sz)

/-- `vᵀ M v`. -/
def quadForm (sz : ℕ) (M : ℕ → ℕ → ℝ) (v : ℕ → ℝ) : ℝ :=
  ∑ a ∈ Finset.range sz, ∑ b ∈ Finset.range sz, v a * M a b * v b

/-- `u` is a unit vector of greatest quadratic form: the eigenvector of the greatest eigenvalue of a symmetric matrix. -/
def IsTopVector (sz : ℕ) (M : ℕ → ℕ → ℝ) (u : List ℝ) : Prop :=
  u.length = sz ∧ ∑ a ∈ Finset.range sz, u.getD a 0 ^ 2 = 1 ∧
    ∀ v : ℕ → ℝ, ∑ a ∈ Finset.range sz, v a ^ 2 = 1 → quadForm sz M v ≤ quadForm sz M fun a => u.getD a 0

/-- Distance of feature `i` of `x` from `s` times the vector `v`. -/
noncomputable def colDist (x : List (List ℝ)) (i : ℕ) (v : ℕ → ℝ) (s : ℝ) : ℝ :=
  √(∑ t ∈ Finset.range x.length, (val x t i - s * v t) ^ 2)

/-- The run stops after inertia `v` that follows `old` (`⊤` before the first round). -/
def Stops (tol : ℝ) (old : WithTop ℝ) (v : ℝ) : Prop := ∃ a : ℝ, old = a ∧ (|a - v| < tol ∨ a < v)

/-- Mean of the squared distances to the assigned centroids. -/
noncomputable def meanSqDist (ds : List (List ℝ)) (lab : List ℕ) : ℝ :=
  (∑ i ∈ Finset.range ds.length, (ds.getD i []).getD (lab.getD i 0) 0 ^ 2) / ds.length

end Verif.Spec
