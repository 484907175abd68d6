import Verif.Model.Interp
/-!
Piecewise representations: tslearn/piecewise/piecewise.py and tslearn/metrics/cysax.py. NaN is `none`.
The quantile function of the standard Gaussian (`scipy.stats.norm.ppf`) is a parameter.
-/
namespace Verif
variable {K : Type} [Field K] [LinearOrder K]

/-- `segment.mean(axis=0)` on one feature: NaN when the segment is empty or contains NaN,
tslearn/piecewise/piecewise.py:156. -/
def meanOpt (l : List (Option K)) : Option K :=
  match l.mapM id with
  | some xs => if xs = [] then none else some (xs.sum / (xs.length : K))
  | none => none

/-- `PiecewiseAggregateApproximation._transform`, tslearn/piecewise/piecewise.py:147-157. -/
def paaRaw (S : ℕ) (X : Arr3 K) : Arr3 K :=
  Arr3.build X.data.length S X.d fun i s f =>
    let q := tsSize (X.data.getD i []) / S
    meanOpt ((List.range q).map fun t => X.entry i (s * q + t) f)

/-- `PiecewiseAggregateApproximation.transform` after a fit with `fitD` features,
tslearn/piecewise/piecewise.py:159-176. -/
def paaTransform (fitD S : ℕ) (X : Arr3 K) : Except PyErr (Arr3 K) := do
  if X.data = [] then throw .valueError
  if X.d ≠ fitD then throw .valueError
  if S = 0 then throw .zeroDivision
  return paaRaw S X

/-- `numpy.linalg.norm(a - b)`, squared, of two `(S, d)` arrays (NaN if an entry is),
tslearn/piecewise/piecewise.py:216. -/
def sqDistOpt (S d : ℕ) (a b : ℕ → ℕ → Option K) : Option K :=
  ((List.range S).flatMap fun s => (List.range d).map fun f =>
    (a s f).bind fun x => (b s f).map fun y => (x - y) ^ 2).mapM id |>.map List.sum

/-- `distance_paa(paa1, paa2)`, tslearn/piecewise/piecewise.py:195-217. -/
noncomputable def distancePaa (fitSz S : ℕ) (P : Arr3 ℝ) (i j : ℕ) : Option ℝ :=
  (sqDistOpt P.sz P.d (P.entry i) (P.entry j)).map fun v => Real.sqrt v * Real.sqrt ((fitSz : ℝ) / (S : ℝ))

/-- Assign `v s` to `out[s*q : s*q + q]` for the segments `s` of `order` (`prange` may run them in any order),
tslearn/metrics/cysax.py:28-33, 96-103 and 209-222. -/
def fillSegs {α : Type} (order : List ℕ) (q : ℕ) (v : ℕ → ℕ → α) (out0 : ℕ → α) : ℕ → α :=
  order.foldl (fun out s => fun t => if s * q ≤ t ∧ t < s * q + q then v s t else out t) out0

/-- `inv_transform_paa(dataset_paa, original_size)`, tslearn/metrics/cysax.py:11-34 (called at
tslearn/piecewise/piecewise.py:259). `order` is the order in which `prange` runs the segments. -/
def invPaa (order : List ℕ) (P : Arr3 K) (size : ℕ) : Arr3 K :=
  Arr3.build P.data.length size P.d fun i t f =>
    fillSegs order (size / P.sz) (fun s _ => P.entry i s f) (fun _ => some 0) t

/-- `X_paa < bp` (false for NaN). -/
def ltOpt (x : Option K) (b : K) : Bool := x.any fun v => decide (v < b)

/-- One breakpoint of the loop of `_paa_to_symbols` on one entry, tslearn/piecewise/piecewise.py:29-31. The
sentinel `-1` is `none`. -/
def symStep (x : Option K) (sym : Option ℕ) (p : K × ℕ) : Option ℕ :=
  if sym.isNone ∧ ltOpt x p.1 then some p.2 else sym

/-- `_paa_to_symbols` on one entry, tslearn/piecewise/piecewise.py:17-33. -/
def paaToSymbol (bps : List K) (x : Option K) : ℕ :=
  (bps.zipIdx.foldl (symStep x) none).getD (bps.length + 1 - 1)

/-- `_paa_to_symbols` on an array. -/
def paaToSymbols (bps : List K) (P : Arr3 K) : List (List (List ℕ)) :=
  P.data.map fun s => s.map fun r => r.map (paaToSymbol bps)

/-- `_breakpoints(n_bins, scale)`, tslearn/piecewise/piecewise.py:36-45. -/
def breakpoints (ppf : K → K) (n : ℕ) (scale : K) : List K :=
  (List.range (n - 1)).map fun (a : ℕ) => scale * ppf (((a + 1 : ℕ) : K) / (n : K))

/-- `_bin_medians(n_bins, scale)`, tslearn/piecewise/piecewise.py:48-58. -/
def binMedians (ppf : K → K) (n : ℕ) (scale : K) : List K :=
  (List.range n).map fun (a : ℕ) => scale * ppf (((2 * a + 1 : ℕ) : K) / ((2 * n : ℕ) : K))

/-- The fitted attributes `mu_` and `std_` of a feature, tslearn/piecewise/piecewise.py:359-364. -/
abbrev Scaling (K : Type) := ℕ → Option K × Option K

/-- `mu_`, `std_` computed by `_fit`, tslearn/piecewise/piecewise.py:359-364. -/
noncomputable def fitScaling (X : Arr3 ℝ) : Scaling ℝ := fun f =>
  let g := X.group false true 0 f
  (nanMean g, (nanStd g).map fun s => if s = 0 then 1 else s)

/-- `_scale`, tslearn/piecewise/piecewise.py:402-409; `none` is `scale=False`. -/
def saxScale (sc : Option (Scaling K)) (X : Arr3 K) : Arr3 K :=
  match sc with
  | none => X
  | some m => Arr3.build X.data.length X.sz X.d fun i t f =>
      (X.entry i t f).bind fun x => (m f).1.bind fun mu => (m f).2.map fun s => (x - mu) / s

/-- `_unscale`, tslearn/piecewise/piecewise.py:411-418. -/
def saxUnscale (sc : Option (Scaling K)) (X : Arr3 K) : Arr3 K :=
  match sc with
  | none => X
  | some m => Arr3.build X.data.length X.sz X.d fun i t f =>
      (X.entry i t f).bind fun x => (m f).1.bind fun mu => (m f).2.map fun s => x * s + mu

/-- `SymbolicAggregateApproximation._transform`, tslearn/piecewise/piecewise.py:420-423. -/
def saxRaw (sc : Option (Scaling K)) (bps : List K) (S : ℕ) (X : Arr3 K) : List (List (List ℕ)) :=
  paaToSymbols bps (paaRaw S (saxScale sc X))

/-- `SymbolicAggregateApproximation.transform`, tslearn/piecewise/piecewise.py:425-442. -/
def saxTransform (fitD : ℕ) (sc : Option (Scaling K)) (bps : List K) (S : ℕ) (X : Arr3 K) :
    Except PyErr (List (List (List ℕ))) := do
  if X.data = [] then throw .valueError
  if X.d ≠ fitD then throw .valueError
  if S = 0 then throw .zeroDivision
  return saxRaw sc bps S X

/-- Symbol `[s, f]` of a word. -/
def wordAt (w : List (List ℕ)) (s f : ℕ) : ℕ := (w.getD s []).getD f 0

/-- The summand of `cydist_sax`, tslearn/metrics/cysax.py:68-71. -/
def saxCell (bps : List K) (a b : ℕ) : K :=
  if a + 1 < b ∨ b + 1 < a then (bps.getD (max a b - 1) 0 - bps.getD (min a b) 0) ^ 2 else 0

/-- `cydist_sax(sax1, sax2, breakpoints, original_size)` on words of `S × d` symbols,
tslearn/metrics/cysax.py:38-74. -/
noncomputable def cydistSax (bps : List ℝ) (size S d : ℕ) (w1 w2 : List (List ℕ)) : ℝ :=
  Real.sqrt (((List.range S).map fun s => ((List.range d).map fun f => saxCell bps (wordAt w1 s f) (wordAt w2 s f)).sum).sum
    * (size : ℝ) / (S : ℝ))

/-- `inv_transform_sax(dataset_sax, breakpoints_middle_, original_size)`, tslearn/metrics/cysax.py:78-103. -/
def invSaxRaw (med : List K) (S d : ℕ) (W : List (List (List ℕ))) (size : ℕ) : Arr3 K :=
  Arr3.build W.length size d fun i t f =>
    fillSegs (List.range S) (size / S) (fun s _ => some (med.getD (wordAt (W.getD i []) s f) 0)) (fun _ => some 0) t

/-- `SymbolicAggregateApproximation.inverse_transform`, tslearn/piecewise/piecewise.py:493-516, on words of
`S × d` symbols. -/
def saxInverse (sc : Option (Scaling K)) (med : List K) (S d : ℕ) (W : List (List (List ℕ))) (size : ℕ) : Arr3 K :=
  saxUnscale sc (invSaxRaw med S d W size)

/-- The slope of `sklearn.linear_model.LinearRegression` on `(t0, x₀), (t0 + 1, x₁), ...`,
tslearn/metrics/cysax.py:122-130: covariance over variance (zero for a single point). -/
def lsSlope (t0 : ℕ) (xs : List K) : K :=
  let n := (xs.length : K)
  let ts := (List.range xs.length).map fun (k : ℕ) => ((t0 + k : ℕ) : K)
  let mt := ts.sum / n
  let mx := xs.sum / n
  ((List.range xs.length).map fun k => (ts.getD k 0 - mt) * (xs.getD k 0 - mx)).sum /
    ((List.range xs.length).map fun k => (ts.getD k 0 - mt) ^ 2).sum

/-- `cyslopes` on one segment and feature, tslearn/metrics/cysax.py:107-131: scikit-learn refuses empty segments
and NaN. -/
def slopeCell (t0 : ℕ) (l : List (Option K)) : Except PyErr (Option K) :=
  match l.mapM id with
  | some xs => if xs = [] then .error .valueError else .ok (some (lsSlope t0 xs))
  | none => .error .valueError

/-- `_get_slopes`, tslearn/piecewise/piecewise.py:679-687. -/
def getSlopes (S : ℕ) (X : Arr3 K) : Except PyErr (Arr3 K) := do
  let q := X.sz / S
  let v ← (List.range X.data.length).mapM fun i => (List.range S).mapM fun s => (List.range X.d).mapM fun f =>
    slopeCell (s * q) ((List.range q).map fun t => X.entry i (s * q + t) f)
  return ⟨S, X.d, v⟩

/-- `OneD_SymbolicAggregateApproximation._transform`, tslearn/piecewise/piecewise.py:689-704. The data are scaled
at line 690 and again by `SymbolicAggregateApproximation._transform` (line 695). -/
def oneDRaw (sc : Option (Scaling K)) (bps bpsl : List K) (S : ℕ) (X : Arr3 K) : Except PyErr (List (List (List ℕ))) := do
  let X := saxScale sc X
  let avg := saxRaw sc bps S X
  let sl ← getSlopes S X
  return List.zipWith (List.zipWith (· ++ ·)) avg (paaToSymbols bpsl sl)

/-- `OneD_SymbolicAggregateApproximation.transform`, tslearn/piecewise/piecewise.py:706-724. -/
def oneDTransform (fitD : ℕ) (sc : Option (Scaling K)) (bps bpsl : List K) (S : ℕ) (X : Arr3 K) :
    Except PyErr (List (List (List ℕ))) := do
  if X.data = [] then throw .valueError
  if X.d ≠ fitD then throw .valueError
  if S = 0 then throw .zeroDivision
  oneDRaw sc bps bpsl S X

/-- The squared sum of `cydist_1d_sax`, tslearn/metrics/cysax.py:164-184, with `t_middle = t0 + 0.5 * seg_sz`. -/
def sqDist1d (med medsl : List K) (size S d : ℕ) (w1 w2 : List (List ℕ)) : K :=
  ((List.range S).map fun s =>
    let q := size / S
    let mid : K := ((s * q : ℕ) : K) + 1 / 2 * (q : K)
    ((List.range d).map fun f =>
      let a1 := med.getD (wordAt w1 s f) 0
      let a2 := med.getD (wordAt w2 s f) 0
      let s1 := medsl.getD (wordAt w1 s (f + d)) 0
      let s2 := medsl.getD (wordAt w2 s (f + d)) 0
      ((List.range q).map fun k =>
        let tt : K := ((s * q + k : ℕ) : K)
        (a1 + s1 * (tt - mid) - (a2 + s2 * (tt - mid))) ^ 2).sum).sum).sum

/-- `cydist_1d_sax`, tslearn/metrics/cysax.py:135-185. -/
noncomputable def cydist1dSax (med medsl : List ℝ) (size S d : ℕ) (w1 w2 : List (List ℕ)) : ℝ :=
  Real.sqrt (sqDist1d med medsl size S d w1 w2)

/-- `inv_transform_1d_sax`, tslearn/metrics/cysax.py:189-223, with `t_middle = t0 + 0.5 * (seg_sz - 1)`. `junk`
is what `np.empty` left in the entries that are never assigned. -/
def inv1dRaw (junk : ℕ → ℕ → ℕ → Option K) (med medsl : List K) (S d : ℕ) (W : List (List (List ℕ))) (size : ℕ) :
    Arr3 K :=
  Arr3.build W.length size d fun i t f =>
    let q := size / S
    fillSegs (List.range S) q (fun s t =>
      let w := W.getD i []
      let mid : K := ((s * q : ℕ) : K) + 1 / 2 * ((q : K) - 1)
      some (med.getD (wordAt w s f) 0 + medsl.getD (wordAt w s (f + d)) 0 * ((t : K) - mid))) (fun t => junk i t f) t

/-- `OneD_SymbolicAggregateApproximation.inverse_transform`, tslearn/piecewise/piecewise.py:779-803. -/
def oneDInverse (junk : ℕ → ℕ → ℕ → Option K) (sc : Option (Scaling K)) (med medsl : List K) (S d : ℕ)
    (W : List (List (List ℕ))) (size : ℕ) : Arr3 K :=
  saxUnscale sc (inv1dRaw junk med medsl S d W size)

end Verif
