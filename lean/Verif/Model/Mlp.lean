import Verif.Model.Dataset
import Mathlib.Data.Nat.Notation
import Mathlib.Tactic.Common
/-!
`TimeSeriesMLPClassifier` and `TimeSeriesMLPRegressor`: tslearn/neural_network/neural_network.py, which differ in nothing modelled here.
The perceptron of scikit-learn is a parameter, apart from its handling of `n_features_in_`.
-/
namespace Verif

/-- An array given by the user: two or three axes. Simplified: no other number of axes, no series or features of size zero. -/
inductive MlpX (K : Type)
  | two (rows : List (List K))
  | three (series : List (List (List K)))

variable {K N Y O : Type}

/-- `X_.shape` (library: `numpy`). -/
def MlpX.shape : MlpX K → List ℕ
  | .two r => [r.length, (r.headD []).length]
  | .three r => [r.length, (r.headD []).length, ((r.headD []).headD []).length]

/-- Whether all rows have the same sizes, so that the input is an array (library: `numpy`). -/
def MlpX.regular : MlpX K → Bool
  | .two r => r.all fun s => s.length == (r.headD []).length
  | .three r => r.all fun s => s.length == (r.headD []).length && s.all fun v => v.length == ((r.headD []).headD []).length

/-- `check_array(X, force_all_finite=True, allow_nd=True)`, tslearn/neural_network/neural_network.py:54 (library): no samples and
ragged inputs are refused; values are finite here. -/
def MlpX.check (X : MlpX K) : Option PyErr := if X.shape.headD 0 = 0 || !X.regular then some .valueError else none

/-- `to_time_series_dataset(X_)` of a finite array, tslearn/neural_network/neural_network.py:55 (C01), and the reshaping of `check_dims`,
tslearn/utils/utils.py:128-133: series of one feature are made of two axes. -/
def MlpX.series : MlpX K → List (List (List K))
  | .two r => r.map fun s => s.map fun v => [v]
  | .three r => r

/-- `X_.reshape((X_.shape[0], -1))`, tslearn/neural_network/neural_network.py:57. -/
def mlpRows (s : List (List (List K))) : List (List K) := s.map List.flatten

/-- Attributes `_X_fit_dims`, `n_features_in_` and the trained network (`coefs_`, `classes_` and so on), when they exist. -/
structure MlpObj (N : Type) where
  dims : Option (List ℕ)
  nfeat : Option ℕ
  net : Option N
  deriving DecidableEq

/-- The perceptron of scikit-learn: hyper-parameter `warm_start`, validation of targets and parameters (`check`, told whether the call is
`partial_fit`), training from a network or from nothing, number of inputs of a network and its output on a row. -/
structure MlpBase (K N Y O : Type) where
  warm : Bool
  check : Bool → Option N → List (List K) → Y → Option PyErr
  train : Bool → Option N → List (List K) → Y → Option N × Option PyErr
  width : N → ℕ
  eval : N → List K → O

/-- Number of columns (library). -/
def mlpWidth (rows : List (List K)) : ℕ := (rows.headD []).length

/-- `_fit` of scikit-learn's `BaseMultilayerPerceptron` (library): the first pass, and each `fit` without `warm_start`, sets
`n_features_in_` and trains from nothing; other calls compare the number of columns with `n_features_in_` and go on training. -/
def MlpBase.fit (B : MlpBase K N Y O) (incr : Bool) (o : MlpObj N) (rows : List (List K)) (y : Y) : MlpObj N × Option PyErr :=
  match B.check incr o.net rows y with
  | some e => (o, some e)
  | none =>
    if o.net.isNone || (!B.warm && !incr) then
      let (n, e) := B.train incr none rows y
      ({ o with nfeat := some (mlpWidth rows), net := n }, e)
    else if o.nfeat.any fun n => n ≠ mlpWidth rows then (o, some .valueError)
    else
      let (n, e) := B.train incr o.net rows y
      ({ o with net := n }, e)

/-- `fit`, tslearn/neural_network/neural_network.py:54-60 and 174-180. -/
def mlpFit (B : MlpBase K N Y O) (o : MlpObj N) (X : MlpX K) (y : Y) : MlpObj N × Option PyErr :=
  match X.check with
  | some e => (o, some e)
  | none =>
    let shape := (MlpX.three X.series).shape
    let o := { o with dims := some shape }
    match B.fit false o (mlpRows X.series) y with
    | (o, some e) => (o, some e)
    | (o, none) => ({ o with nfeat := shape.getLast? }, none)

/-- `with self._patch_attribute("n_features_in_", v)`, tslearn/bases/bases.py:55-63: the attribute must exist, and comes back whatever
happens inside. -/
def mlpPatch {A : Type} (o : MlpObj N) (v : ℕ) (k : MlpObj N → MlpObj N × Except PyErr A) : MlpObj N × Except PyErr A :=
  match o.nfeat with
  | none => (o, .error .attributeError)
  | some old =>
    let (o, r) := k { o with nfeat := some v }
    ({ o with nfeat := some old }, r)

/-- `partial_fit`, tslearn/neural_network/neural_network.py:81-90 and 201-210. -/
def mlpPartial (B : MlpBase K N Y O) (o : MlpObj N) (X : MlpX K) (y : Y) : MlpObj N × Except PyErr Unit :=
  match X.check with
  | some e => (o, .error e)
  | none =>
    let go (o : MlpObj N) : MlpObj N × Except PyErr Unit :=
      mlpPatch o (mlpWidth (mlpRows X.series)) fun o =>
        match B.fit true o (mlpRows X.series) y with
        | (o, some e) => (o, .error e)
        | (o, none) => (o, .ok ())
    match o.dims with
    | some f =>
      match checkDims (some X.shape) (some f) true false with
      | .error e => (o, .error e)
      | .ok _ => go o
    | none =>
      let shape := (MlpX.three X.series).shape
      go { o with dims := some shape, nfeat := shape.getLast? }

/-- `predict` of scikit-learn's perceptron (library): the number of columns is compared with `n_features_in_`, the network must exist and
its first matrix product must be defined. -/
def MlpBase.predict (B : MlpBase K N Y O) (o : MlpObj N) (rows : List (List K)) : Except PyErr (List O) :=
  if o.nfeat.any fun n => n ≠ mlpWidth rows then .error .valueError
  else
    match o.net with
    | none => .error .attributeError
    | some n => if B.width n ≠ mlpWidth rows then .error .valueError else .ok (rows.map (B.eval n))

/-- `predict` and, with another output of the network, `predict_proba`, tslearn/neural_network/neural_network.py:105-110, 125-130 and
225-230. `check_is_fitted` (library) looks for any attribute whose name ends with an underscore. -/
def mlpPredict (B : MlpBase K N Y O) (o : MlpObj N) (X : MlpX K) : MlpObj N × Except PyErr (List O) :=
  if o.nfeat.isNone && o.net.isNone then (o, .error .notFitted)
  else
    match X.check with
    | some e => (o, .error e)
    | none =>
      match o.dims with
      | none => (o, .error .attributeError)
      | some f =>
        match checkDims (some X.shape) (some f) true false with
        | .error e => (o, .error e)
        | .ok _ => mlpPatch o (mlpWidth (mlpRows X.series)) fun o => (o, B.predict o (mlpRows X.series))

/-- A call that trains. -/
inductive MlpCall (K Y : Type)
  | fit (X : MlpX K) (y : Y)
  | partialFit (X : MlpX K) (y : Y)

/-- Effect of a call and its exception. -/
def mlpCall (B : MlpBase K N Y O) (o : MlpObj N) : MlpCall K Y → MlpObj N × Option PyErr
  | .fit X y => mlpFit B o X y
  | .partialFit X y =>
    match mlpPartial B o X y with
    | (o, .ok _) => (o, none)
    | (o, .error e) => (o, some e)

/-- A fresh estimator. -/
def MlpObj.fresh : MlpObj N := ⟨none, none, none⟩

end Verif
