import Verif.Model.Cast
import Mathlib.Algebra.Order.Field.Basic
import Mathlib.Algebra.BigOperators.Group.List.Basic
import Mathlib.Analysis.Real.Sqrt
/-!
Scalers, tslearn/preprocessing/preprocessing.py. NaN is `none`.
-/
namespace Verif

/-- The observed values an aggregation over the axes `(1,)` (plus the feature axis when not
`per_feature`, plus the series axis when not `per_timeseries`) sees at series `i`, feature `f`:
tslearn/preprocessing/preprocessing.py:226-234 and 355-363. -/
def Arr3.group {K : Type} (X : Arr3 K) (perTs perFeat : Bool) (i f : ℕ) : List K :=
  (List.range X.data.length).flatMap fun i' =>
    if perTs ∧ i' ≠ i then [] else
      (List.range X.sz).flatMap fun t => (List.range X.d).filterMap fun f' =>
        if perFeat ∧ f' ≠ f then none else X.entry i' t f'

section
variable {K : Type} [Field K] [LinearOrder K]

/-- `numpy.nanmin` of a group (NaN when nothing is observed), tslearn/preprocessing/preprocessing.py:233. -/
def nanMin : List K → Option K
  | [] => none
  | x :: xs => some (xs.foldl min x)

/-- `numpy.nanmax` of a group, tslearn/preprocessing/preprocessing.py:234. -/
def nanMax : List K → Option K
  | [] => none
  | x :: xs => some (xs.foldl max x)

/-- Hyper-parameters of `TimeSeriesScalerMinMax`, tslearn/preprocessing/preprocessing.py:183-186. -/
structure MinMaxCfg (K : Type) where
  lo : K
  hi : K
  perTs : Bool
  perFeat : Bool

/-- The scaling of one value, tslearn/preprocessing/preprocessing.py:265-268. -/
def minMaxValue (lo hi : K) (mn mx v : Option K) : Option K :=
  match mn, mx, v with
  | some mn, some mx, some v =>
    let r := mx - mn
    let r := if r = 0 then 1 else r
    some ((v - mn) * (hi - lo) / r + lo)
  | _, _, _ => none

/-- `fit(Xfit).transform(X)` of `TimeSeriesScalerMinMax`,
tslearn/preprocessing/preprocessing.py:188-209 and 238-269, for 3-D arrays. `check_array`
(lines 201, 259) refuses datasets without series, `numpy.nanmin` (line 233) zero-length ones. -/
def minMaxTransform (cfg : MinMaxCfg K) (Xfit X : Arr3 K) : Except PyErr (Arr3 K) := do
  if Xfit.data = [] then throw .valueError
  let F ← toDataset (.series Xfit.slots)
  if ¬ cfg.perTs ∧ F.sz = 0 then throw .valueError
  if cfg.lo ≥ cfg.hi then throw .valueError
  if X.data = [] then throw .valueError
  let Y ← toDataset (.series X.slots)
  if F.d ≠ Y.d then throw .valueError
  if cfg.perTs ∧ Y.sz = 0 then throw .valueError
  return Arr3.build Y.data.length Y.sz Y.d fun i t f =>
    let g := if cfg.perTs then Y.group true cfg.perFeat i f else F.group false cfg.perFeat 0 f
    minMaxValue cfg.lo cfg.hi (nanMin g) (nanMax g) (Y.entry i t f)

end

/-- `numpy.nanmean` of a group, tslearn/preprocessing/preprocessing.py:362. -/
noncomputable def nanMean (g : List ℝ) : Option ℝ := if g = [] then none else some (g.sum / g.length)

/-- `numpy.nanstd` of a group, tslearn/preprocessing/preprocessing.py:363. -/
noncomputable def nanStd (g : List ℝ) : Option ℝ :=
  (nanMean g).map fun m => Real.sqrt ((g.map fun x => (x - m) ^ 2).sum / g.length)

/-- Hyper-parameters of `TimeSeriesScalerMeanVariance`, tslearn/preprocessing/preprocessing.py:326-330. -/
structure MeanVarCfg where
  mu : ℝ
  std : ℝ
  perTs : Bool
  perFeat : Bool

/-- The scaling of one value, tslearn/preprocessing/preprocessing.py:364 and 407. -/
noncomputable def meanVarValue (mu std : ℝ) (mean sd v : Option ℝ) : Option ℝ :=
  match mean, sd, v with
  | some m, some s, some v =>
    let s := if s = 0 then 1 else s
    some ((v - m) * std / s + mu)
  | _, _, _ => none

/-- `fit(Xfit).transform(X)` of `TimeSeriesScalerMeanVariance`,
tslearn/preprocessing/preprocessing.py:332-366 and 383-408, for 3-D arrays. -/
noncomputable def meanVarTransform (cfg : MeanVarCfg) (Xfit X : Arr3 ℝ) : Except PyErr (Arr3 ℝ) := do
  if Xfit.data = [] then throw .valueError
  let F ← toDataset (.series Xfit.slots)
  if X.data = [] then throw .valueError
  let Y ← toDataset (.series X.slots)
  if F.d ≠ Y.d then throw .valueError
  return Arr3.build Y.data.length Y.sz Y.d fun i t f =>
    let g := if cfg.perTs then Y.group true cfg.perFeat i f else F.group false cfg.perFeat 0 f
    meanVarValue cfg.mu cfg.std (nanMean g) (nanStd g) (Y.entry i t f)

end Verif
