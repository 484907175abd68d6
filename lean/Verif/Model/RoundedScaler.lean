import Verif.Model.Scaler
/-!
The scalers in rounded arithmetic, tslearn/preprocessing/preprocessing.py. `rnd` is the rounding of
each arithmetic operation, in the order of the source. Simplification: overflow and underflow are not
modelled, and the zeros NumPy puts in place of NaNs before it sums are left out of the sums.
-/
namespace Verif

section
variable {K : Type} [Field K] [LinearOrder K]

/-- The scaling of one value in rounded arithmetic, tslearn/preprocessing/preprocessing.py:265-268. -/
def rMinMaxValue (rnd : K → K) (lo hi : K) (mn mx v : Option K) : Option K :=
  match mn, mx, v with
  | some mn, some mx, some v =>
    let r := rnd (mx - mn)
    let r := if r = 0 then 1 else r
    let nomin := rnd (rnd (v - mn) * rnd (hi - lo))
    some (rnd (rnd (nomin / r) + lo))
  | _, _, _ => none

/-- `fit(Xfit).transform(X)` of `TimeSeriesScalerMinMax` in rounded arithmetic,
tslearn/preprocessing/preprocessing.py:188-209 and 238-269, for 3-D arrays. `nanmin` and `nanmax` do
not round. -/
def rMinMaxTransform (rnd : K → K) (cfg : MinMaxCfg K) (Xfit X : Arr3 K) : Except PyErr (Arr3 K) := do
  if Xfit.data = [] then throw .valueError
  let F ← toDataset (.series Xfit.slots)
  if ¬ cfg.perTs ∧ F.sz = 0 then throw .valueError
  if cfg.lo ≥ cfg.hi then throw .valueError
  if X.data = [] then throw .valueError
  let Y ← toDataset (.series X.slots)
  if F.d ≠ Y.d then throw .valueError
  if cfg.perTs ∧ Y.sz = 0 then throw .valueError
  return Arr3.build Y.data.length Y.sz Y.d fun i t f =>
    let g := if cfg.perTs then Y.group true cfg.perFeat i f else F.group false cfg.perFeat 0 f
    rMinMaxValue rnd cfg.lo cfg.hi (nanMin g) (nanMax g) (Y.entry i t f)

end

/-- `numpy.nanmean` of a group in rounded arithmetic, tslearn/preprocessing/preprocessing.py:362: the
order of the sum is NumPy's and is the parameter `sum`. -/
noncomputable def rNanMean (rnd : ℝ → ℝ) (sum : List ℝ → ℝ) (g : List ℝ) : Option ℝ :=
  if g = [] then none else some (rnd (sum g / g.length))

/-- `numpy.nanstd` of a group in rounded arithmetic, tslearn/preprocessing/preprocessing.py:363: the
root of the mean of the squared differences to the computed mean. -/
noncomputable def rNanStd (rnd : ℝ → ℝ) (sum : List ℝ → ℝ) (g : List ℝ) : Option ℝ :=
  (rNanMean rnd sum g).map fun m =>
    rnd (Real.sqrt (rnd (sum (g.map fun x => rnd (rnd (x - m) * rnd (x - m))) / g.length)))

/-- The scaling of one value in rounded arithmetic, tslearn/preprocessing/preprocessing.py:364 and
407. -/
noncomputable def rMeanVarValue (rnd : ℝ → ℝ) (mu std : ℝ) (mean sd v : Option ℝ) : Option ℝ :=
  match mean, sd, v with
  | some m, some s, some v =>
    let s := if s = 0 then 1 else s
    some (rnd (rnd (rnd (rnd (v - m) * std) / s) + mu))
  | _, _, _ => none

/-- `fit(Xfit).transform(X)` of `TimeSeriesScalerMeanVariance` in rounded arithmetic,
tslearn/preprocessing/preprocessing.py:332-366 and 383-408, for 3-D arrays. -/
noncomputable def rMeanVarTransform (rnd : ℝ → ℝ) (sum : List ℝ → ℝ) (cfg : MeanVarCfg)
    (Xfit X : Arr3 ℝ) : Except PyErr (Arr3 ℝ) := do
  if Xfit.data = [] then throw .valueError
  let F ← toDataset (.series Xfit.slots)
  if X.data = [] then throw .valueError
  let Y ← toDataset (.series X.slots)
  if F.d ≠ Y.d then throw .valueError
  return Arr3.build Y.data.length Y.sz Y.d fun i t f =>
    let g := if cfg.perTs then Y.group true cfg.perFeat i f else F.group false cfg.perFeat 0 f
    rMeanVarValue rnd cfg.mu cfg.std (rNanMean rnd sum g) (rNanStd rnd sum g) (Y.entry i t f)

end Verif
