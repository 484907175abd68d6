import Verif.Model.Piecewise
/-!
PAA and SAX in rounded arithmetic, tslearn/piecewise/piecewise.py and tslearn/metrics/cysax.py. `rnd` is the rounding of each arithmetic
operation, in the order of the source; the order in which NumPy adds is the parameter `sum` (`dot` for sums of squares). Simplification: overflow
and underflow are not modelled.
-/
namespace Verif

section
variable {K : Type} [Field K] [LinearOrder K]

/-- `segment.mean(axis=0)` on one feature in rounded arithmetic, tslearn/piecewise/piecewise.py:156. -/
def rMeanOpt (rnd : K → K) (sum : List K → K) (l : List (Option K)) : Option K :=
  match l.mapM id with
  | some xs => if xs = [] then none else some (rnd (sum xs / (xs.length : K)))
  | none => none

/-- `PiecewiseAggregateApproximation._transform` in rounded arithmetic, tslearn/piecewise/piecewise.py:147-157. -/
def rPaaRaw (rnd : K → K) (sum : List K → K) (S : ℕ) (X : Arr3 K) : Arr3 K :=
  Arr3.build X.data.length S X.d fun i s f =>
    let q := tsSize (X.data.getD i []) / S
    rMeanOpt rnd sum ((List.range q).map fun t => X.entry i (s * q + t) f)

/-- `PiecewiseAggregateApproximation.transform` in rounded arithmetic, after a fit with `fitD` features,
tslearn/piecewise/piecewise.py:159-176. -/
def rPaaTransform (rnd : K → K) (sum : List K → K) (fitD S : ℕ) (X : Arr3 K) : Except PyErr (Arr3 K) := do
  if X.data = [] then throw .valueError
  if X.d ≠ fitD then throw .valueError
  if S = 0 then throw .zeroDivision
  return rPaaRaw rnd sum S X

/-- `_scale` in rounded arithmetic, tslearn/piecewise/piecewise.py:402-409. -/
def rSaxScale (rnd : K → K) (sc : Option (Scaling K)) (X : Arr3 K) : Arr3 K :=
  match sc with
  | none => X
  | some m => Arr3.build X.data.length X.sz X.d fun i t f =>
      (X.entry i t f).bind fun x => (m f).1.bind fun mu => (m f).2.map fun s => rnd (rnd (x - mu) / s)

/-- `SymbolicAggregateApproximation.transform` in rounded arithmetic, tslearn/piecewise/piecewise.py:420-442. `bps` are the breakpoints as they
are stored; comparisons do not round. -/
def rSaxTransform (rnd : K → K) (sum : List K → K) (fitD : ℕ) (sc : Option (Scaling K)) (bps : List K) (S : ℕ) (X : Arr3 K) :
    Except PyErr (List (List (List ℕ))) := do
  if X.data = [] then throw .valueError
  if X.d ≠ fitD then throw .valueError
  if S = 0 then throw .zeroDivision
  return paaToSymbols bps (rPaaRaw rnd sum S (rSaxScale rnd sc X))

end

/-- `distance_paa(paa1, paa2)` in rounded arithmetic, tslearn/piecewise/piecewise.py:195-217. -/
noncomputable def rDistancePaa (rnd : ℝ → ℝ) (dot : List ℝ → ℝ) (fitSz S : ℕ) (P : Arr3 ℝ) (i j : ℕ) : Option ℝ :=
  (((List.range P.sz).flatMap fun s => (List.range P.d).map fun f =>
    (P.entry i s f).bind fun x => (P.entry j s f).map fun y => rnd (x - y)).mapM id).map fun v =>
      rnd (rnd (Real.sqrt (dot v)) * rnd (Real.sqrt (rnd ((fitSz : ℝ) / (S : ℝ)))))

/-- `cydist_sax` in rounded arithmetic, tslearn/metrics/cysax.py:63-74: the differences of breakpoints of symbols that are not neighbours, their
sum of squares in any order (`prange`, `fastmath`), the factor and the root. -/
noncomputable def rCydistSax (rnd : ℝ → ℝ) (dot : List ℝ → ℝ) (bps : List ℝ) (size S d : ℕ) (w1 w2 : List (List ℕ)) : ℝ :=
  let diffs := (List.range S).flatMap fun s => ((List.range d).filter fun f =>
      decide (wordAt w1 s f + 1 < wordAt w2 s f ∨ wordAt w2 s f + 1 < wordAt w1 s f)).map fun f =>
    rnd (bps.getD (max (wordAt w1 s f) (wordAt w2 s f) - 1) 0 - bps.getD (min (wordAt w1 s f) (wordAt w2 s f)) 0)
  rnd (Real.sqrt (rnd (rnd (dot diffs * (size : ℝ)) / (S : ℝ))))

end Verif
