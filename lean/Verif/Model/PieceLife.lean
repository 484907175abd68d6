import Verif.Model.Piecewise
/-!
The estimators PAA, SAX and 1d-SAX of tslearn/piecewise/piecewise.py as objects with parameters and fitted
attributes, so that histories of calls can be studied. `ppf` is the quantile function of the standard Gaussian;
`sigma_l` is taken positive. The arithmetic of the transforms is that of `Verif.Model.Piecewise`.
-/
namespace Verif

/-- The three classes, tslearn/piecewise/piecewise.py:61, 276 and 530. -/
inductive PwKind where
  | paa
  | sax
  | oneD
  deriving DecidableEq

/-- Their constructor parameters (a class ignores those it does not have), tslearn/piecewise/piecewise.py:118-119,
344-347 and 612-620. -/
structure PwParams where
  nSeg : ℕ
  alphaAvg : ℕ
  alphaSlope : ℕ
  sigma : Option ℝ
  scale : Bool

/-- An estimator: class, parameters, and the attributes set by `_fit` (`none` is an attribute that is absent):
`_X_fit_dims_` (line 126), `breakpoints_avg_`, `breakpoints_avg_middle_` (356-357), `breakpoints_slope_`,
`breakpoints_slope_middle_` (637-640), `mu_` and `std_` with their number of features (362-364),
tslearn/piecewise/piecewise.py. -/
structure PwEst where
  kind : PwKind
  par : PwParams
  dims : Option (ℕ × ℕ × ℕ) := none
  bps : Option (List ℝ) := none
  med : Option (List ℝ) := none
  bpsl : Option (List ℝ) := none
  medl : Option (List ℝ) := none
  sc : Option (ℕ × Scaling ℝ) := none

/-- A representation handed to `inverse_transform`: numbers, or `S × d` symbols per series. -/
inductive PwRep where
  | nums (P : Arr3 ℝ)
  | words (S d : ℕ) (W : List (List (List ℕ)))

/-- What the calls return. -/
inductive PwAns where
  | nums (P : Arr3 ℝ)
  | words (W : List (List (List ℕ)))
  | num (v : Option ℝ)

/-- The public calls that read an estimator, tslearn/piecewise/piecewise.py:159-259, 425-516, 706-803. A distance
between series hands over two series of `sz × d` samples. -/
inductive PwQuery where
  | transform (X : Arr3 ℝ)
  | distance (sz d : ℕ) (a b : List (List (Option ℝ)))
  | distPaa (P : Arr3 ℝ)
  | distSax (S d : ℕ) (w1 w2 : List (List ℕ))
  | dist1d (S d : ℕ) (w1 w2 : List (List ℕ))
  | inverse (R : PwRep)

namespace PwEst

/-- `check_is_fitted(self, [a, b])`: all named attributes present, as used at
tslearn/piecewise/piecewise.py:122, 350, 352, 623-624. -/
def present (b : Bool) : Except PyErr Unit := if b then .ok () else .error .notFitted

/-- `PiecewiseAggregateApproximation._is_fitted`, tslearn/piecewise/piecewise.py:121-123. -/
def paaFitted (e : PwEst) : Except PyErr Unit := present e.dims.isSome

/-- `SymbolicAggregateApproximation._is_fitted`, tslearn/piecewise/piecewise.py:349-353. -/
def saxFitted (e : PwEst) : Except PyErr Unit := do
  present (e.bps.isSome && e.med.isSome)
  if e.par.scale then present e.sc.isSome
  e.paaFitted

/-- `_is_fitted` of the class, tslearn/piecewise/piecewise.py:121-123, 349-353 and 622-625. -/
def isFitted (e : PwEst) : Except PyErr Unit :=
  match e.kind with
  | .paa => e.paaFitted
  | .sax => e.saxFitted
  | .oneD => do
    present (e.bpsl.isSome && e.medl.isSome)
    e.saxFitted

/-- `PiecewiseAggregateApproximation._fit`, tslearn/piecewise/piecewise.py:125-128 (`n_features_in_` is the last
of the dimensions). -/
def paaFit (e : PwEst) (X : Arr3 ℝ) : PwEst := { e with dims := some (X.data.length, X.sz, X.d) }

/-- `SymbolicAggregateApproximation._fit`, tslearn/piecewise/piecewise.py:355-366: `mu_` and `std_` are only
written with `scale`, and kept otherwise. -/
noncomputable def saxFit (ppf : ℝ → ℝ) (e : PwEst) (X : Arr3 ℝ) : PwEst :=
  paaFit { e with
    bps := some (breakpoints ppf e.par.alphaAvg 1)
    med := some (binMedians ppf e.par.alphaAvg 1)
    sc := if e.par.scale then some (X.d, fitScaling X) else e.sc } X

/-- Assignment of the slope breakpoints, tslearn/piecewise/piecewise.py:636-640. -/
noncomputable def setSlopes (ppf : ℝ → ℝ) (e : PwEst) (s : ℝ) : PwEst :=
  { e with
    bpsl := some (breakpoints ppf e.par.alphaSlope s)
    medl := some (binMedians ppf e.par.alphaSlope s) }

/-- `OneD_SymbolicAggregateApproximation._fit`, tslearn/piecewise/piecewise.py:627-641: the inherited `_fit` runs
first, then `sz // n_segments` and `0.03 / sz_segment` may divide by zero. -/
noncomputable def oneDFit (ppf : ℝ → ℝ) (e : PwEst) (X : Arr3 ℝ) : PwEst × Except PyErr Unit :=
  let e1 := saxFit ppf e X
  if e.par.nSeg = 0 then (e1, .error .zeroDivision)
  else
    match e.par.sigma with
    | some s => (e1.setSlopes ppf s, .ok ())
    | none =>
      if X.sz / e.par.nSeg = 0 then (e1, .error .zeroDivision)
      else (e1.setSlopes ppf (Real.sqrt (3 / 100 / ((X.sz / e.par.nSeg : ℕ) : ℝ))), .ok ())

/-- `_fit` of the class, tslearn/piecewise/piecewise.py:125-128, 355-366 and 627-641. -/
noncomputable def fitCore (ppf : ℝ → ℝ) (e : PwEst) (X : Arr3 ℝ) : PwEst × Except PyErr Unit :=
  match e.kind with
  | .paa => (e.paaFit X, .ok ())
  | .sax => (e.saxFit ppf X, .ok ())
  | .oneD => e.oneDFit ppf X

/-- `fit`, tslearn/piecewise/piecewise.py:130-145, 368-383 and 643-658: a dataset without series is refused by
`check_array`. -/
noncomputable def fit (ppf : ℝ → ℝ) (e : PwEst) (X : Arr3 ℝ) : PwEst × Except PyErr Unit :=
  if X.data = [] then (e, .error .valueError) else e.fitCore ppf X

/-- NumPy's broadcast of a row of `D` statistics against the features of a dataset, as in `X - mu` and `X * std`
at tslearn/piecewise/piecewise.py:406-409 and 415-418: one statistic serves all features, one feature is repeated
for all statistics, other shapes raise. -/
def broadcast (sc : ℕ × Scaling ℝ) (X : Arr3 ℝ) : Except PyErr (Scaling ℝ × Arr3 ℝ) :=
  if sc.1 = X.d then .ok (sc.2, X)
  else if sc.1 = 1 then .ok (fun _ => sc.2 0, X)
  else if X.d = 1 then .ok (sc.2, Arr3.build X.data.length X.sz sc.1 fun i t _ => X.entry i t 0)
  else .error .valueError

/-- `_scale`, tslearn/piecewise/piecewise.py:402-409. -/
noncomputable def scaleX (e : PwEst) (X : Arr3 ℝ) : Except PyErr (Arr3 ℝ) :=
  if e.par.scale then
    match e.sc with
    | none => .error .attributeError
    | some sc => (broadcast sc X).map fun p => saxScale (some p.1) p.2
  else .ok X

/-- `_unscale`, tslearn/piecewise/piecewise.py:411-418. -/
noncomputable def unscaleX (e : PwEst) (X : Arr3 ℝ) : Except PyErr (Arr3 ℝ) :=
  if e.par.scale then
    match e.sc with
    | none => .error .attributeError
    | some sc => (broadcast sc X).map fun p => saxUnscale (some p.1) p.2
  else .ok X

/-- `SymbolicAggregateApproximation._transform`, tslearn/piecewise/piecewise.py:420-423 (with line 151 dividing by
`n_segments`). -/
noncomputable def saxCore (e : PwEst) (X : Arr3 ℝ) : Except PyErr (List (List (List ℕ))) := do
  let X ← e.scaleX X
  if e.par.nSeg = 0 then throw .zeroDivision
  match e.bps with
  | none => throw .attributeError
  | some bps => return paaToSymbols bps (paaRaw e.par.nSeg X)

/-- `OneD_SymbolicAggregateApproximation._transform`, tslearn/piecewise/piecewise.py:689-704. -/
noncomputable def oneDCore (e : PwEst) (X : Arr3 ℝ) : Except PyErr (List (List (List ℕ))) := do
  let X ← e.scaleX X
  let avg ← e.saxCore X
  let sl ← getSlopes e.par.nSeg X
  match e.bpsl with
  | none => throw .attributeError
  | some bpsl => return List.zipWith (List.zipWith (· ++ ·)) avg (paaToSymbols bpsl sl)

/-- `_transform` of the class, tslearn/piecewise/piecewise.py:147-157, 420-423 and 689-704. -/
noncomputable def core (e : PwEst) (X : Arr3 ℝ) : Except PyErr PwAns :=
  match e.kind with
  | .paa => if e.par.nSeg = 0 then .error .zeroDivision else .ok (.nums (paaRaw e.par.nSeg X))
  | .sax => (e.saxCore X).map .words
  | .oneD => (e.oneDCore X).map .words

/-- `transform`, tslearn/piecewise/piecewise.py:159-176, 425-442 and 706-724. -/
noncomputable def transform (e : PwEst) (X : Arr3 ℝ) : Except PyErr PwAns := do
  e.isFitted
  if X.data = [] then throw .valueError
  match e.dims with
  | none => throw .attributeError
  | some (_, _, d) =>
    if X.d ≠ d then throw .valueError
    e.core X

/-- `fit_transform`, tslearn/piecewise/piecewise.py:178-193, 385-400 and 660-677. -/
noncomputable def fitTransform (ppf : ℝ → ℝ) (e : PwEst) (X : Arr3 ℝ) : PwEst × Except PyErr PwAns :=
  if X.data = [] then (e, .error .valueError)
  else
    match e.fitCore ppf X with
    | (e', .error x) => (e', .error x)
    | (e', .ok ()) => (e', e'.core X)

/-- `distance_paa` on the two rows of a representation, tslearn/piecewise/piecewise.py:195-217; the length is that
of the fit, the number of segments the current parameter (a division by zero gives NumPy's infinity or NaN, not
modelled). -/
noncomputable def distPaa (e : PwEst) (P : Arr3 ℝ) : Except PyErr PwAns := do
  e.isFitted
  match e.dims with
  | none => throw .attributeError
  | some (_, sz, _) =>
    if e.par.nSeg = 0 then throw .notModelled
    return .num (distancePaa sz e.par.nSeg P 0 1)

/-- `distance_sax` on words of `S × d` symbols, tslearn/piecewise/piecewise.py:444-467; PAA has no such method. -/
noncomputable def distSax (e : PwEst) (S d : ℕ) (w1 w2 : List (List ℕ)) : Except PyErr PwAns :=
  match e.kind with
  | .paa => .error .attributeError
  | _ => do
    e.isFitted
    match e.dims, e.bps with
    | some (_, sz, _), some bps => return .num (some (cydistSax bps sz S d w1 w2))
    | _, _ => throw .attributeError

/-- `distance_1d_sax` on words of `S × 2d` symbols, tslearn/piecewise/piecewise.py:726-754; only 1d-SAX has it. -/
noncomputable def dist1d (e : PwEst) (S d : ℕ) (w1 w2 : List (List ℕ)) : Except PyErr PwAns :=
  match e.kind with
  | .oneD => do
    e.isFitted
    match e.dims, e.med, e.medl with
    | some (_, sz, _), some med, some medl => return .num (some (cydist1dSax med medl sz S d w1 w2))
    | _, _, _ => throw .attributeError
  | _ => .error .attributeError

/-- `distance(ts1, ts2)`: transform both, then the distance of the class, tslearn/piecewise/piecewise.py:219-240,
469-491 and 756-777. -/
noncomputable def distance (e : PwEst) (sz d : ℕ) (a b : List (List (Option ℝ))) : Except PyErr PwAns := do
  match ← e.transform ⟨sz, d, [a, b]⟩ with
  | .nums P => e.distPaa P
  | .words W =>
    match e.kind with
    | .oneD => e.dist1d e.par.nSeg (((W.getD 0 []).headD []).length / 2) (W.getD 0 []) (W.getD 1 [])
    | _ => e.distSax e.par.nSeg ((W.getD 0 []).headD []).length (W.getD 0 []) (W.getD 1 [])
  | .num _ => throw .notModelled

/-- The symbols of a word as numbers, for the representation methods that take any array. -/
def wordsAsNums (S d : ℕ) (W : List (List (List ℕ))) : Arr3 ℝ :=
  Arr3.build W.length S d fun i s f => some (wordAt (W.getD i []) s f : ℝ)

/-- `inverse_transform`, tslearn/piecewise/piecewise.py:242-259, 493-516 and 779-803. Representations of no
segments and symbols given as fractions are not modelled. -/
noncomputable def inverse (junk : ℕ → ℕ → ℕ → Option ℝ) (e : PwEst) (R : PwRep) : Except PyErr PwAns := do
  e.isFitted
  match e.dims with
  | none => throw .attributeError
  | some (_, sz, fd) =>
    match e.kind with
    | .paa =>
      let P := match R with
        | .nums P => P
        | .words S d W => wordsAsNums S d W
      if P.data = [] then throw .valueError
      if P.sz = 0 then throw .notModelled
      return .nums (invPaa (List.range P.sz) P sz)
    | .sax =>
      match R, e.med with
      | .words S d W, some med =>
        if W = [] then throw .valueError
        if d ≠ fd then throw .valueError
        if S = 0 then throw .notModelled
        (e.unscaleX (invSaxRaw med S d W sz)).map .nums
      | _, _ => throw .notModelled
    | .oneD =>
      match R, e.med, e.medl with
      | .words S d W, some med, some medl =>
        if W = [] then throw .valueError
        if d ≠ 2 * fd then throw .valueError
        if S = 0 then throw .notModelled
        (e.unscaleX (inv1dRaw junk med medl S fd W sz)).map .nums
      | _, _, _ => throw .notModelled

/-- A call that reads the estimator. None of these methods assigns to `self`. -/
noncomputable def ask (junk : ℕ → ℕ → ℕ → Option ℝ) (e : PwEst) : PwQuery → Except PyErr PwAns
  | .transform X => e.transform X
  | .distance sz d a b => e.distance sz d a b
  | .distPaa P => e.distPaa P
  | .distSax S d w1 w2 => e.distSax S d w1 w2
  | .dist1d S d w1 w2 => e.dist1d S d w1 w2
  | .inverse R => e.inverse junk R

end PwEst

/-- A new estimator, tslearn/piecewise/piecewise.py:118-119, 344-347 and 612-620. -/
def PwEst.new (k : PwKind) (p : PwParams) : PwEst := { kind := k, par := p }

/-- The calls of a history; `set_params` is scikit-learn's, it assigns the parameters only. -/
inductive PwCmd where
  | setParams (p : PwParams)
  | fit (X : Arr3 ℝ)
  | fitTransform (X : Arr3 ℝ)
  | query (q : PwQuery)

/-- One call: the estimator afterwards and what the call returned (`none` for `self`) or raised,
tslearn/piecewise/piecewise.py:130-259, 368-516, 643-803. -/
noncomputable def PwEst.step (ppf : ℝ → ℝ) (junk : ℕ → ℕ → ℕ → Option ℝ) (e : PwEst) :
    PwCmd → PwEst × Except PyErr (Option PwAns)
  | .setParams p => ({ e with par := p }, .ok none)
  | .fit X => ((e.fit ppf X).1, (e.fit ppf X).2.map fun _ => none)
  | .fitTransform X => ((e.fitTransform ppf X).1, (e.fitTransform ppf X).2.map some)
  | .query q => (e, (e.ask junk q).map some)

/-- A history of calls. -/
noncomputable def PwEst.run (ppf : ℝ → ℝ) (junk : ℕ → ℕ → ℕ → Option ℝ) (e : PwEst) :
    List PwCmd → PwEst × List (Except PyErr (Option PwAns))
  | [] => (e, [])
  | c :: l =>
    let r := e.step ppf junk c
    let s := r.1.run ppf junk l
    (s.1, r.2 :: s.2)

end Verif
