import Verif.Model.Varima
import Mathlib.Analysis.SpecialFunctions.Log.Basic
import Mathlib.Analysis.SpecialFunctions.Trigonometric.Basic
/-!
The likelihood of `VARIMA` and what its fit hands to the optimiser: tslearn/forecasting/_arima.py:61-90, 182-245 and 279-339. A dataset is
a list of series; the series are padded to the length of the longest.
-/
namespace Verif
variable {V : Type} [AddCommGroup V]

/-- One turn of the loop of `_loss` on one series: the residuals kept, and the errors added to `sse` so far,
tslearn/forecasting/_arima.py:75-88. -/
def lossTurn (m : Varima V) (X : List (Option V)) (st : List V × List V) (i : ℕ) : List V × List V :=
  match varmaErr m X i st.1 with
  | none => st
  | some e => (if 0 < m.q then st.1.drop 1 ++ [e] else st.1, st.2 ++ [e])

/-- The loop of `_loss` on one series: residuals and errors, tslearn/forecasting/_arima.py:72-88. -/
def lossRun (m : Varima V) (X : List (Option V)) : List V × List V :=
  (List.range' (max m.p m.q) (X.length - max m.p m.q)).foldl (lossTurn m X) (List.replicate m.q 0, [])

/-- `np.isfinite(np.sum(X, axis=-1))` counted on one series, tslearn/forecasting/_arima.py:66. -/
def nValid (X : List (Option V)) : ℕ := (X.filter Option.isSome).length

/-- `n_loglikelihood` of `_loss`, tslearn/forecasting/_arima.py:61-92; `sq` is the sum of the squares of the features of an error. The
logarithm of zero is not infinite here. -/
noncomputable def varimaLoss (sq : V → ℝ) (m : Varima V) (Xs : List (List (Option V))) : ℝ :=
  let n : ℝ := ((Xs.map nValid).sum : ℕ)
  let sse := (Xs.map fun X => ((lossRun m X).2.map sq).sum).sum
  let variance := sse / (n - (Xs.length : ℝ) * ((max m.p m.q : ℕ) : ℝ))
  n * (Real.log (2 * Real.pi) + Real.log variance + 1) / 2

/-- `d_X`: the padded dataset, differenced, tslearn/forecasting/_arima.py:196-200 and 214-217. -/
def differencedData (m : Varima V) (xss : List (List V)) : List (List (Option V)) :=
  let sz := (xss.map List.length).foldl max 0
  xss.map fun xs => diffNan m.d (seasonalNan m.s (padBack sz xs))

/-- `lle_` of a model with these coefficients, tslearn/forecasting/_arima.py:205-211 and 237-241: series that are too short are refused. -/
noncomputable def varimaLle (sq : V → ℝ) (m : Varima V) (xss : List (List V)) : Except PyErr ℝ :=
  if xss.any fun xs => decide (xs.length < m.minSamples) then .error .valueError
  else .ok (-varimaLoss sq m (differencedData m xss))

/-- The coefficients `_fit` settles on, tslearn/forecasting/_arima.py:219-235: `opt f x0` is the point `scipy.optimize.minimize` returns,
`unravel` is `_unravel_params`, `x0` are the `_default_params`. -/
noncomputable def varimaFitted {P : Type} (opt : (P → ℝ) → P → P) (unravel : P → Varima V) (sq : V → ℝ) (x0 : P) (q : ℕ)
    (xss : List (List V)) : Varima V :=
  if 0 < q then unravel (opt (fun x => varimaLoss sq (unravel x) (differencedData (unravel x0) xss)) x0) else unravel x0

section
variable {K : Type} [CommRing K]

/-- The `ma_coeffs` the optimiser starts from, with one feature and one series, from the coefficients of `compute_var(q, residuals)`:
tslearn/forecasting/_arima.py:295-300 and 318-320. -/
def maStart (q : ℕ) (coeffs : ℕ → ℕ → K) (k : ℕ) : K := reshape3 1 (ravelT q 1 coeffs) k 0 0

/-- The model with only that moving average, as the optimiser first tries it. -/
def maModel (q : ℕ) (coeffs : ℕ → ℕ → K) : Varima K := ⟨0, 0, q, 0, fun _ _ => 0, fun k x => x * maStart q coeffs k, 0⟩

end
end Verif
