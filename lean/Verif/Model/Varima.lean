import Verif.Model.Py
import Mathlib.Algebra.Group.Basic
import Mathlib.Algebra.BigOperators.Group.List.Basic
import Mathlib.Algebra.Ring.Basic
import Mathlib.Algebra.Ring.Int.Defs
import Mathlib.Data.Nat.Choose.Basic
/-!
`VARIMA`: tslearn/forecasting/_arima.py:21-463, for one series of a dataset (series do not interact but through the padding and the fitted
coefficients). A sample is an element of a commutative group `V`; a coefficient `x ↦ np.dot(x, A)` is a function `V → V`. In padded data
`none` is a sample of NaN. The search for the coefficients is not modelled, but for `_unravel_params` and what it is given.
-/
namespace Verif

/-- Orders and coefficients of a fitted model: `p`, `d`, `q`, `_seasonal_period` (0 for none), `ar_coeffs_`, `ma_coeffs_`, `intercept_`
(zero without a constant, tslearn/forecasting/_arima.py:106). -/
structure Varima (V : Type) where
  p : ℕ
  d : ℕ
  q : ℕ
  s : ℕ
  ar : ℕ → V → V
  ma : ℕ → V → V
  c : V

section
variable {V : Type} [AddCommGroup V]

/-- `_min_samples`, tslearn/forecasting/_arima.py:205. -/
def Varima.minSamples (m : Varima V) : ℕ := m.p + m.q + m.d + 1 + m.s

/-- `np.diff(X, n=1, axis=1)` for one series without NaN. -/
def diffOnce (xs : List V) : List V := List.zipWith (fun a b => b - a) xs xs.tail

/-- `np.diff(X, n=d, axis=1)`, tslearn/forecasting/_arima.py:217 and 397. -/
def diffN (d : ℕ) (xs : List V) : List V := diffOnce^[d] xs

/-- `_seasonal_differencing`, tslearn/forecasting/_arima.py:257-264. -/
def seasonalDiff (s : ℕ) (xs : List V) : List V :=
  if s = 0 then xs else List.zipWith (fun a b => a - b) (xs.drop s) (xs.take (xs.length - s))

/-- A difference of samples that may be NaN. -/
def nanSub (a b : Option V) : Option V := a.bind fun a => b.map fun b => a - b

/-- `np.diff` and `_seasonal_differencing` on padded data. -/
def diffNan (d : ℕ) (xs : List (Option V)) : List (Option V) := (fun l : List (Option V) => List.zipWith (fun a b => nanSub b a) l l.tail)^[d] xs

/-- `_seasonal_differencing` on padded data, tslearn/forecasting/_arima.py:257-264. -/
def seasonalNan (s : ℕ) (xs : List (Option V)) : List (Option V) :=
  if s = 0 then xs else List.zipWith nanSub (xs.drop s) (xs.take (xs.length - s))

/-- `_varma_next`, tslearn/forecasting/_arima.py:95-108; `X` has at least `p` samples. -/
def varmaNext (m : Varima V) (X res : List V) : V :=
  ((List.range m.p).map fun k => m.ar k (X.getD (X.length - k - 1) 0)).sum + ((List.range m.q).map fun k => m.ma k (res.getD k 0)).sum + m.c

/-- `X[:, i] - _varma_next(X[:, i - start : i], …)` in `_loss`, tslearn/forecasting/_arima.py:75-82: NaN as soon as one of the samples
involved is. -/
def varmaErr (m : Varima V) (X : List (Option V)) (i : ℕ) (res : List V) : Option V :=
  let w := (X.take i).drop (i - max m.p m.q)
  if (∀ k < m.p, (w.getD (w.length - k - 1) none).isSome) then
    (X.getD i none).map fun x => x - varmaNext m (w.map fun o => o.getD 0) res
  else none

/-- The residuals `_loss` returns for one series, tslearn/forecasting/_arima.py:71-88. -/
def lossResiduals (m : Varima V) (X : List (Option V)) : List V :=
  ((List.range' (max m.p m.q) (X.length - max m.p m.q)).foldl (fun res i =>
    match varmaErr m X i res with
    | none => res
    | some e => if 0 < m.q then res.drop 1 ++ [e] else res) (List.replicate m.q 0))

/-- A series of a dataset whose longest series has `sz` samples. -/
def padBack (sz : ℕ) (xs : List V) : List (Option V) := xs.map some ++ List.replicate (sz - xs.length) none

/-- The same after `np.roll(ts, sz - ts_sizes[i])`, tslearn/forecasting/_arima.py:270-271. -/
def padFront (sz : ℕ) (xs : List V) : List (Option V) := List.replicate (sz - xs.length) none ++ xs.map some

/-- `_get_last_timestamps`, tslearn/forecasting/_arima.py:266-277, for one series of at least `_min_samples` samples. Nothing to keep but
`q > 0` selects the whole series (`X[:, -0:]`), which is not used then. -/
def lastTimestamps (m : Varima V) (xs : List V) : List V :=
  if max m.p (max m.q (max m.d m.s)) ≠ 0 then
    (if m.s + m.d + m.p = 0 then xs else xs.drop (xs.length - (m.s + m.d + m.p)))
  else []

/-- `_last_residuals`, as left by `fit`, tslearn/forecasting/_arima.py:214-217 and 238. -/
def fitResiduals (m : Varima V) (sz : ℕ) (xs : List V) : List V := lossResiduals m (diffNan m.d (seasonalNan m.s (padBack sz xs)))

/-- `last_residuals` in `predict(X)`, tslearn/forecasting/_arima.py:388-391: `X_` has been rolled in place. Only then: without anything to
keep it is not rolled. -/
def predictResiduals (m : Varima V) (sz : ℕ) (xs : List V) : List V :=
  lossResiduals m (diffNan m.d (seasonalNan m.s
    (if max m.p (max m.q (max m.d m.s)) ≠ 0 then padFront sz xs else padBack sz xs)))

/-- `_undifference`, tslearn/forecasting/_arima.py:341-349. -/
def undifference (d : ℕ) (initial : List V) (prediction : V) : V :=
  prediction - ((List.range d).map fun j => (-((1 : ℤ) ^ (j + 1)) * ((j + 1).choose d : ℤ)) • initial.getD (initial.length - d + j) 0).sum

/-- `np.roll(a, -1)` with the last entry overwritten. -/
def rollIn (xs : List V) (x : V) : List V := if xs = [] then [] else xs.drop 1 ++ [x]

/-- `last_timestamps`, `sd_timestamps`, `dd_timestamps`, `last_residuals`. -/
structure VarimaState (V : Type) where
  last : List V
  sd : List V
  dd : List V
  res : List V

/-- One turn of the loop of `predict`, tslearn/forecasting/_arima.py:400-427; `roll` is `n > 1`. -/
def varimaStep (m : Varima V) (roll : Bool) (st : VarimaState V) : VarimaState V × V :=
  let estimate := varmaNext m st.dd st.res
  let st := if 0 < m.p ∧ roll then { st with dd := rollIn st.dd estimate } else st
  let st := if 0 < m.q ∧ roll then { st with res := rollIn st.res 0 } else st
  let (estimate, st) :=
    if m.d ≠ 0 then
      let estimate := undifference m.d st.sd estimate
      (estimate, if roll then { st with sd := rollIn st.sd estimate } else st)
    else (estimate, st)
  if m.s ≠ 0 then
    let estimate := estimate + st.last.getD (st.last.length - m.s) 0
    (if roll then { st with last := rollIn st.last estimate } else st, estimate)
  else (st, estimate)

/-- The loop of `predict`, `n` turns left. -/
def varimaLoop (m : Varima V) (roll : Bool) : ℕ → VarimaState V → List V
  | 0, _ => []
  | n + 1, st => (varimaStep m roll st).2 :: varimaLoop m roll n (varimaStep m roll st).1

/-- What the loop starts from, tslearn/forecasting/_arima.py:393-397. -/
def varimaStart (m : Varima V) (last res : List V) : VarimaState V :=
  ⟨last, seasonalDiff m.s last, diffN m.d (seasonalDiff m.s last), res⟩

/-- `fit(X).predict(n=n)` for a series `xs` of a dataset of series of at most `sz` samples, tslearn/forecasting/_arima.py:369-429; `none`
is the error for too few samples. -/
def varimaFitPredict (m : Varima V) (sz : ℕ) (xs : List V) (n : ℕ) : Except PyErr (List V) :=
  if xs.length < m.minSamples then .error .valueError
  else .ok (varimaLoop m (decide (1 < n)) n (varimaStart m (lastTimestamps m xs) (fitResiduals m sz xs)))

/-- `predict(X, n)`, tslearn/forecasting/_arima.py:373-429. -/
def varimaPredict (m : Varima V) (sz : ℕ) (xs : List V) (n : ℕ) : Except PyErr (List V) :=
  if xs.length < m.minSamples then .error .valueError
  else .ok (varimaLoop m (decide (1 < n)) n (varimaStart m (lastTimestamps m xs) (predictResiduals m sz xs)))

end

section
variable {K : Type} [CommRing K]

/-- `ar_start_params.T.ravel()`, tslearn/forecasting/_arima.py:298-300: `coeffs` has `p * f` rows and `f` columns. -/
def ravelT (p f : ℕ) (coeffs : ℕ → ℕ → K) (i : ℕ) : K := coeffs (i % (p * f)) (i / (p * f))

/-- `ar_coeffs.reshape(p, f, f)` in `_unravel_params`, tslearn/forecasting/_arima.py:313-314. -/
def reshape3 (f : ℕ) (params : ℕ → K) (k a b : ℕ) : K := params ((k * f + a) * f + b)

/-- `ar_coeffs_` of a model without moving average, fitted on one series: tslearn/forecasting/_arima.py:232-235, 279-324. -/
def arCoeffs (p f : ℕ) (coeffs : ℕ → ℕ → K) : ℕ → ℕ → ℕ → K := reshape3 f (ravelT p f coeffs)

/-- Prediction of sample `t` in the regression of `compute_var`, tslearn/forecasting/_arima.py:40-45: a row of `Z` times `coeffs`, where
row `t` holds the `p` samples before, the last one first. -/
def varRow (f : ℕ) (X : ℕ → ℕ → K) (t i : ℕ) : K := X (t - 1 - i / f) (i % f)

/-- `np.dot(Z, coeffs)`, tslearn/forecasting/_arima.py:56, without a constant. -/
def varFitted (p f : ℕ) (coeffs : ℕ → ℕ → K) (X : ℕ → ℕ → K) (t b : ℕ) : K :=
  ((List.range (p * f)).map fun i => varRow f X t i * coeffs i b).sum

/-- `_varma_next` without moving average and constant, on sample `t`: tslearn/forecasting/_arima.py:99-101. -/
def arNext (p f : ℕ) (ar : ℕ → ℕ → ℕ → K) (X : ℕ → ℕ → K) (t b : ℕ) : K :=
  ((List.range p).map fun k => ((List.range f).map fun a => X (t - 1 - k) a * ar k a b).sum).sum

end

end Verif
