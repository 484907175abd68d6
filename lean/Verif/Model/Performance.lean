import Verif.Model.Py
import Mathlib.Algebra.Order.Field.Basic
import Mathlib.Algebra.Order.Group.Unbundled.Abs
import Mathlib.Algebra.BigOperators.Group.Finset.Basic
/-!
Performance metrics: tslearn/metrics/performance.py. Over an ordered field; a quotient by zero is zero here and NaN there, so that theorems
ask for sums of weights and sizes that are not zero.
-/
namespace Verif

/-- An array of shape `(n, sz, d)`, row-major. -/
structure Arr3D (K : Type) where
  n : ℕ
  sz : ℕ
  d : ℕ
  v : ℕ → K

/-- Entry of a three-dimensional array. -/
def Arr3D.at {K : Type} (a : Arr3D K) (i t f : ℕ) : K := a.v ((i * a.sz + t) * a.d + f)

/-- `multioutput`, tslearn/metrics/performance.py:74-79. -/
inductive MultiOut (K : Type) where
  | raw
  | uniform
  | weights (w : ℕ → K)

/-- A vector of one value per feature, or one value. -/
inductive PerfRes (K : Type) where
  | vector (r : ℕ → K)
  | scalar (r : K)

section
variable {K : Type} [Field K]

/-- `numpy.average(a, weights=w)` or `a.mean()`, for `n` entries. -/
def avgOf (w : Option (ℕ → K)) (n : ℕ) (a : ℕ → K) : K :=
  match w with
  | none => (∑ i ∈ Finset.range n, a i) / n
  | some w => (∑ i ∈ Finset.range n, w i * a i) / ∑ i ∈ Finset.range n, w i

/-- `skmetrics.mean_…_error(y_true.reshape(n_ts, sz * d), y_pred.reshape(n_ts, sz * d), sample_weight, "raw_values").reshape(sz, d)`,
tslearn/metrics/performance.py:59-64 and 129-134, `err` being the error of one value. Both arrays are read with the shape of the first. -/
def perfTable (err : K → K → K) (tsW : Option (ℕ → K)) (y p : Arr3D K) (t f : ℕ) : K :=
  let j := t * y.d + f
  avgOf tsW y.n fun i => err (y.v (i * (y.sz * y.d) + j)) (p.v (i * (y.sz * y.d) + j))

/-- One value per feature, tslearn/metrics/performance.py:67-71 and 137-141. -/
def perfFeatures (err : K → K → K) (tsW timeW : Option (ℕ → K)) (y p : Arr3D K) (f : ℕ) : K :=
  avgOf timeW y.sz fun t => perfTable err tsW y p t f

/-- `mae` and `mse` up to the error function, tslearn/metrics/performance.py:54-80 and 124-150: `reshape` refuses another number of
entries. -/
def perfMetric (err : K → K → K) (y p : Arr3D K) (tsW timeW : Option (ℕ → K)) (mo : MultiOut K) : Except PyErr (PerfRes K) :=
  if p.n * p.sz * p.d ≠ y.n * y.sz * y.d then .error .valueError
  else .ok (match mo with
    | .raw => .vector (perfFeatures err tsW timeW y p)
    | .uniform => .scalar (avgOf none y.d (perfFeatures err tsW timeW y p))
    | .weights w => .scalar (avgOf (some w) y.d (perfFeatures err tsW timeW y p)))

variable [LinearOrder K]

/-- `mae`, tslearn/metrics/performance.py:12-80. -/
def maeOf : Arr3D K → Arr3D K → Option (ℕ → K) → Option (ℕ → K) → MultiOut K → Except PyErr (PerfRes K) := perfMetric fun a b => |a - b|

/-- `mse`, tslearn/metrics/performance.py:83-150. -/
def mseOf : Arr3D K → Arr3D K → Option (ℕ → K) → Option (ℕ → K) → MultiOut K → Except PyErr (PerfRes K) := perfMetric fun a b => (a - b) ^ 2

/-- `scale` for one feature, `axis=(0, 1)`: tslearn/metrics/performance.py:208-212, `1 ≤ m < sz`. -/
def maseScaleFeature (m : ℕ) (tr : Arr3D K) (f : ℕ) : K :=
  (∑ i ∈ Finset.range tr.n, ∑ t ∈ Finset.range (tr.sz - m), |tr.at i t f - tr.at i (t + m) f|) / ((tr.n * (tr.sz - m) : ℕ) : K)

/-- `scale` over everything, `axis=None`: tslearn/metrics/performance.py:208-212. -/
def maseScaleAll (m : ℕ) (tr : Arr3D K) : K :=
  (∑ i ∈ Finset.range tr.n, ∑ t ∈ Finset.range (tr.sz - m), ∑ f ∈ Finset.range tr.d, |tr.at i t f - tr.at i (t + m) f|) /
    ((tr.n * (tr.sz - m) * tr.d : ℕ) : K)

/-- `mase`, tslearn/metrics/performance.py:153-214, for as many features in the training data. Weights are a list: an array makes the test
`multioutput == "raw_values"` fail. -/
def maseOf (y p tr : Arr3D K) (m : ℕ) (tsW timeW : Option (ℕ → K)) (mo : MultiOut K) : Except PyErr (PerfRes K) :=
  match maeOf y p tsW timeW mo with
  | .error e => .error e
  | .ok (.vector r) => .ok (.vector fun f => r f / maseScaleFeature m tr f)
  | .ok (.scalar r) => .ok (.scalar (r / maseScaleAll m tr))

end
end Verif
