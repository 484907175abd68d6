import Verif.Model.Py
import Mathlib.Algebra.Order.Field.Basic
import Mathlib.Data.List.Dedup
import Mathlib.Data.Prod.Basic
/-!
Order selection of `AutoVARIMA`: tslearn/forecasting/_arima.py:466-789. Python sets are lists in an order that a parameter chooses anew
each time a set is iterated.
-/
namespace Verif

/-- The adjustable hyper-parameters `(p, q, with_constant)`, tslearn/forecasting/_arima.py:754. -/
abbrev AvKey := ℕ × ℕ × Bool

/-- `_determine_d`, tslearn/forecasting/_arima.py:635-648: `n` differencing orders left below `max_d + 1`, the next is `d`; `st d` tells
whether the data differenced `d` times are stationary. -/
def avDetermineFrom (maxD : ℕ) (default : Option ℕ) (st : ℕ → Bool) : ℕ → ℕ → Except PyErr ℕ
  | 0, _ => .error .notModelled
  | n + 1, d =>
    if st d then .ok d
    else if d + 1 > maxD then
      match default with
      | some e => .ok e
      | none => .error .valueError
    else avDetermineFrom maxD default st n (d + 1)

/-- `_determine_d`, tslearn/forecasting/_arima.py:626-648; the loop makes at most `max_d + 1` turns. -/
def avDetermine (maxD : ℕ) (default : Option ℕ) (st : ℕ → Bool) : Except PyErr ℕ := avDetermineFrom maxD default st (maxD + 1) 0

/-- `_init_models`, tslearn/forecasting/_arima.py:650-710. -/
def avInit (maxP maxQ d : ℕ) : List AvKey :=
  [(0, 0, decide (d < 2))] ++ (if 0 < maxP then [(1, 0, decide (d < 2))] else []) ++ (if 0 < maxQ then [(0, 1, decide (d < 2))] else []) ++
    (if 1 < maxP ∧ 1 < maxQ then [(2, 2, decide (d < 2))] else []) ++ (if d ≤ 1 then [(0, 0, false)] else [])

/-- `p_variations` and `q_variations`, tslearn/forecasting/_arima.py:715-725. -/
def avAround (most n : ℕ) : List ℕ := [n] ++ (if n + 1 > most then [] else [n + 1]) ++ (if 1 ≤ n then [n - 1] else [])

/-- `_compute_model_variations`, tslearn/forecasting/_arima.py:712-751. -/
def avVariations (maxP maxQ : ℕ) (best : AvKey) (computed : List AvKey) : List AvKey :=
  (((best.1, best.2.1, !best.2.2) :: (avAround maxP best.1).flatMap fun p => (avAround maxQ best.2.1).map fun q => (p, q, best.2.2)).dedup).filter
    fun k => k ∉ computed

/-- `2 * (p + q + (2 if with_constant else 1) - lle_)`, tslearn/forecasting/_arima.py:776-778; `none` for a model whose fit is refused, or
that has no likelihood (NaN or -inf: it never is the best one). -/
def avAic {K : Type} [Field K] (lle : AvKey → Option K) (k : AvKey) : Option K :=
  (lle k).map fun l => 2 * ((k.1 : K) + k.2.1 + (if k.2.2 then 2 else 1) - l)

section
variable {K : Type} [LinearOrder K]

/-- `best_model` with `minimal_aic`, and the models fitted, in order (`computed_adjustable_hyperparams`). -/
structure AvState (K : Type) where
  best : Option (AvKey × K)
  log : List AvKey

/-- One turn of the `for` loop, tslearn/forecasting/_arima.py:762-783. -/
def avStep (aic : AvKey → Option K) (s : AvState K) (k : AvKey) : AvState K :=
  match aic k with
  | none => { s with log := s.log ++ [k] }
  | some a =>
    match s.best with
    | none => ⟨some (k, a), s.log ++ [k]⟩
    | some (_, b) => if a < b then ⟨some (k, a), s.log ++ [k]⟩ else { s with log := s.log ++ [k] }

/-- The `while` loop, tslearn/forecasting/_arima.py:761-789, with fuel: round `i`, `ord i` is the order of iteration. `none`: out of fuel. -/
def avLoop (maxP maxQ : ℕ) (aic : AvKey → Option K) (ord : ℕ → List AvKey → List AvKey) :
    ℕ → ℕ → AvState K → List AvKey → Option (Except PyErr (AvState K))
  | 0, _, _, _ => none
  | fuel + 1, i, s, models =>
    if models = [] then some (.ok s)
    else
      let s := (ord i models).foldl (avStep aic) s
      match s.best with
      | none => some (.error .attributeError)
      | some (k, _) => avLoop maxP maxQ aic ord fuel (i + 1) s (avVariations maxP maxQ k s.log)

/-- `_get_best_model_for_given_d(d, X)`, tslearn/forecasting/_arima.py:753-789. -/
def avSearch (maxP maxQ d : ℕ) (aic : AvKey → Option K) (ord : ℕ → List AvKey → List AvKey) (fuel : ℕ) : Option (Except PyErr (AvState K)) :=
  avLoop maxP maxQ aic ord fuel 0 ⟨none, []⟩ (avInit maxP maxQ d)

end
end Verif
