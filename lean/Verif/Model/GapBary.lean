import Verif.Model.Missing
import Verif.Model.Dba
import Verif.Model.FloatKernelKMeans
/-!
DTW barycenter averaging when series have NaN samples before their last observed one: tslearn/barycenters/dba.py. Finite values are exact, costs may be
`inf` or NaN (`Fl`), samples of the barycenter may be NaN (`none`). Squared DTW values are used for `dist ** 2`. NumPy's matrix products multiply and add
all entries, so that `0 * NaN` counts.
-/
namespace Verif

noncomputable section
open Classical

/-- An array of shape `(sz, d)` whose entries may be NaN. -/
abbrev NanArr := List (List (Option ℝ))

/-- A cost of the table as a number of NumPy. -/
def flOfNv : Nv ℝ → Fl
  | none => .nan
  | some none => .inf
  | some (some v) => .num v

/-- Parameters of the barycenter functions, tslearn/barycenters/dba.py:487-498; `am` is the argmin of the traceback. -/
structure GapBaryCfg where
  gc : DbaGc := .code 0
  radius : Option ℕ := none
  slope : Option ℚ := none
  tol : ℝ
  am : Nv ℝ → Nv ℝ → Nv ℝ → ℕ

/-- `_njit_dtw_path(s1, s2, **metric_params)` with the squared value, tslearn/metrics/_dtw.py:425-436. Empty series are not modelled. -/
def gapBaryPath (cfg : GapBaryCfg) (x y : NanArr) : Except PyErr (Fl × List (ℕ × ℕ)) := do
  if x = [] ∨ y = [] then throw .notModelled
  let mask ← computeMask x.length y.length cfg.gc.toCode cfg.radius cfg.slope
  let acc := nanTable nvAdd x.length y.length mask (nanCost x y)
  match computePath cfg.am acc x.length y.length (x.length + y.length) with
  | some p => return (flOfNv (lastEntry acc x.length y.length), p)
  | none => throw .notModelled

/-- The weighted mean cost, tslearn/barycenters/dba.py:57-59, 292-294 and 303-306. Weights summing to zero are not modelled. -/
def gapBaryCost (vs : List Fl) (ws : List ℝ) : Except PyErr Fl := do
  if ws.sum = 0 then throw .notModelled
  return (((vs.zip ws).map fun r => r.1.mul (.num r.2)).foldl Fl.add (.num 0)).div ws.sum

/-- A sum of which every term counts: NaN as soon as one term is. -/
def nanSum (l : List (Option ℝ)) : Option ℝ := l.foldl (nanOp (· + ·)) (some 0)

/-- `x[j, f]`. -/
def nanAt (x : NanArr) (j f : ℕ) : Option ℝ := (x.getD j []).getD f none

/-- Entry `(i, f)` of `w_k.dot(x_k)`, tslearn/barycenters/dba.py:346-351 and 433. -/
def gapWarp (x : NanArr) (p : List (ℕ × ℕ)) (w : ℝ) (i f : ℕ) : Option ℝ :=
  nanSum ((List.range (pathSz p)).map fun j => nanOp (· * ·) (some (warpMat p i j * w)) (nanAt x j f))

/-- `sum_w_x[i, f]`, tslearn/barycenters/dba.py:431-433. -/
def gapSumWX (xs : List NanArr) (ps : List (List (ℕ × ℕ))) (ws : List ℝ) (i f : ℕ) : Option ℝ :=
  nanSum ((List.range ps.length).map fun k => gapWarp (xs.getD k []) (ps.getD k []) (ws.getD k 0) i f)

/-- `_mm_update_barycenter`, tslearn/barycenters/dba.py:402-436: `numpy.diag(1. / diag_sum_v_k).dot(sum_w_x)`. A timestamp of zero valence has
`inf * 0` or `inf * NaN`, which is NaN (the weights are not negative). -/
def gapMmUpdate (xs : List NanArr) (ws : List ℝ) (size d : ℕ) (ps : List (List (ℕ × ℕ))) : NanArr :=
  (List.range size).map fun i => (List.range d).map fun f =>
    nanSum ((List.range size).map fun j =>
      nanOp (· * ·) (if i = j then (if diagSumV ps ws i = 0 then none else some (1 / diagSumV ps ws i)) else some 0) (gapSumWX xs ps ws j f))

/-- One round, tslearn/barycenters/dba.py:723-734. -/
def gapMmRound (cfg : GapBaryCfg) (xs : List NanArr) (ws : List ℝ) (size d : ℕ) (b : NanArr) : Except PyErr (Fl × NanArr) := do
  let rs ← xs.mapM (gapBaryPath cfg b)
  let cost ← gapBaryCost (rs.map Prod.fst) ws
  return (cost, gapMmUpdate xs ws size d (rs.map Prod.snd))

/-- `_petitjean_update_barycenter`, tslearn/barycenters/dba.py:84-89: `numpy.average` raises when the weights sum to zero, and is NaN if one of the
samples is. -/
def gapPjUpdate (xs : List NanArr) (ws : List ℝ) (size d : ℕ) (qs : List (List (ℕ × ℕ))) : Except PyErr NanArr := do
  if ∃ t < size, ((petitjeanAssign qs t).map fun a => ws.getD a.1 0).sum = 0 then throw .zeroDivision
  return (List.range size).map fun t => (List.range d).map fun f =>
    (nanSum ((petitjeanAssign qs t).map fun a => nanOp (· * ·) (nanAt (xs.getD a.1 []) a.2 f) (some (ws.getD a.1 0)))).map fun s =>
      s / ((petitjeanAssign qs t).map fun a => ws.getD a.1 0).sum

/-- One round of `dtw_barycenter_averaging_petitjean`, tslearn/barycenters/dba.py:214-219 and 34-81: the barycenter is the second argument of the path
computation, and the lists of `assign` are as many as its timestamps. -/
def gapPjRound (cfg : GapBaryCfg) (xs : List NanArr) (ws : List ℝ) (size d : ℕ) (b : NanArr) : Except PyErr (Fl × NanArr) := do
  let rs ← xs.mapM fun x => gapBaryPath cfg x b
  let cost ← gapBaryCost (rs.map Prod.fst) ws
  if b.length < size then throw .indexError
  let b' ← gapPjUpdate xs ws size d (rs.map Prod.snd)
  return (cost, b')

/-- The loop of `dtw_barycenter_averaging_one_init`, tslearn/barycenters/dba.py:721-743, and of `dtw_barycenter_averaging_petitjean`, 213-228. Also
returns the costs of all rounds and whether the warning was raised. -/
def gapBaryLoop (tol : ℝ) (round : NanArr → Except PyErr (Fl × NanArr)) :
    ℕ → NanArr → Fl → List Fl → Except PyErr (NanArr × List Fl × Bool)
  | 0, b, _, hist => .ok (b, hist, false)
  | n + 1, b, prev, hist => do
    let (cost, b') ← round b
    let hist := hist ++ [cost]
    if Fl.lt (Fl.abs (prev.sub cost)) (.num tol) then return (b', hist, false)
    else if Fl.lt prev cost then return (b', hist, true)
    else gapBaryLoop tol round n b' cost hist

/-- The series without their padding, `_to_time_series(X[i], True)`, tslearn/barycenters/dba.py:297. Series without any observed sample leave the model. -/
def gapBarySeries (X : Arr3 ℝ) : Except PyErr (List NanArr) :=
  X.slots.mapM fun t => if t.trim.rows = [] then .error .notModelled else .ok t.trim.rows

/-- `_init_avg(X, barycenter_size)`, tslearn/barycenters/dba.py:23-31, as `initAvg`. -/
def gapInitAvg (X : Arr3 ℝ) (size : ℕ) : Except PyErr NanArr :=
  let avg : ℕ → ℕ → Option ℝ := fun t f => nanMeanK ((List.range X.data.length).map fun i => X.entry i t f)
  if X.sz = size then .ok ((List.range size).map fun t => (List.range X.d).map (avg t))
  else if X.sz = 0 then .error .valueError
  else if X.sz = 1 ∧ 1 < size then .error .valueError
  else .ok ((linspace01 size : List ℝ).map fun x => (List.range X.d).map fun f =>
    interp1 (linspace01 X.sz) ((List.range X.sz).map fun t => avg t f) x)

/-- The initial barycenter and the size of the next ones, tslearn/barycenters/dba.py:202-212 and 710-720: `barycenter_size` is that of the given array
with its padding. -/
def gapBaryInit (X : Arr3 ℝ) (size : Option ℕ) : Option NanArr → Except PyErr (NanArr × ℕ)
  | none => (gapInitAvg X (size.getD X.sz)).map fun b => (b, size.getD X.sz)
  | some b => .ok (b.take (tsSize b), b.length)

/-- `dtw_barycenter_averaging_one_init`, tslearn/barycenters/dba.py:625-743, or with `gapPjRound` for `round` `dtw_barycenter_averaging_petitjean`, 92-228,
and its last cost. Initial barycenters of another number of features are not modelled. -/
def gapBaryOne (round : GapBaryCfg → List NanArr → List ℝ → ℕ → ℕ → NanArr → Except PyErr (Fl × NanArr)) (cfg : GapBaryCfg) (D : DsInput ℝ)
    (size : Option ℕ) (init : Option NanArr) (maxIter : ℕ) (weights : Option (List ℝ)) : Except PyErr (NanArr × Fl) := do
  let X ← toDataset D
  let xs ← gapBarySeries X
  let ws := setWeights weights X.data.length
  let (b, sz) ← gapBaryInit X size init
  if b.any fun r => r.length ≠ X.d then throw .notModelled
  let (b', hist, _) ← gapBaryLoop cfg.tol (round cfg xs ws sz X.d) maxIter b .inf []
  return (b', hist.getLastD .inf)

/-- The loop of `dtw_barycenter_averaging` over `n_init` attempts, tslearn/barycenters/dba.py:602-621. -/
def gapBaryBest (run : Except PyErr (NanArr × Fl)) : ℕ → Fl → Option NanArr → Except PyErr (Option NanArr)
  | 0, _, best => .ok best
  | n + 1, bestCost, best => do
    let (b, loss) ← run
    if Fl.lt loss bestCost then gapBaryBest run n loss (some b) else gapBaryBest run n bestCost best

/-- `dtw_barycenter_averaging`, tslearn/barycenters/dba.py:487-622; `none` is python's `None`. -/
def gapDba (cfg : GapBaryCfg) (D : DsInput ℝ) (size : Option ℕ) (init : Option NanArr) (maxIter : ℕ) (weights : Option (List ℝ)) (nInit : ℕ) :
    Except PyErr (Option NanArr) :=
  gapBaryBest (gapBaryOne gapMmRound cfg D size init maxIter weights) nInit .inf none

/-- `_subgradient_update_barycenter` for the single series of a step, tslearn/barycenters/dba.py:475-484. A zero weight divides by zero, not modelled. -/
def gapSubUpdate (x : NanArr) (w eta : ℝ) (p : List (ℕ × ℕ)) (b : NanArr) : Except PyErr NanArr := do
  if w = 0 then throw .notModelled
  return (List.range b.length).map fun i => (List.range (b.getD i []).length).map fun f =>
    nanOp (· - ·) (nanAt b i f) ((nanOp (· - ·) ((nanAt b i f).map fun v => valence p w i * v) (gapWarp x p w i f)).map fun v => 2 * eta / w * v)

/-- One step of `dtw_barycenter_averaging_subgradient` with series `idx`, tslearn/barycenters/dba.py:868-881. -/
def gapSubStep (cfg : GapBaryCfg) (xs : List NanArr) (ws : List ℝ) (eta : ℝ) (idx : ℕ) (b : NanArr) : Except PyErr (Fl × NanArr) := do
  let r ← gapBaryPath cfg b (xs.getD idx [])
  let cost ← gapBaryCost [r.1] ws
  let b' ← gapSubUpdate (xs.getD idx []) (ws.getD idx 0) eta r.2 b
  return (cost, b')

/-- One epoch, tslearn/barycenters/dba.py:866-883, as `subgradEpoch`. -/
def gapSubEpoch (cfg : GapBaryCfg) (xs : List NanArr) (ws : List ℝ) (delta : ℝ) : List ℕ → ℝ × NanArr × Fl → Except PyErr (ℝ × NanArr × Fl)
  | [], s => .ok s
  | idx :: rest, (eta, b, _) => do
    let (cost, b') ← gapSubStep cfg xs ws eta idx b
    gapSubEpoch cfg xs ws delta rest (eta - delta, b', cost)

/-- The loop of `dtw_barycenter_averaging_subgradient`, tslearn/barycenters/dba.py:862-892, as `subgradLoop`. -/
def gapSubLoop (cfg : GapBaryCfg) (xs : List NanArr) (ws : List ℝ) (delta : ℝ) (perms : ℕ → List ℕ) :
    ℕ → ℕ → ℝ × NanArr × Fl → Fl → Except PyErr NanArr
  | 0, _, (_, b, _), _ => .ok b
  | n + 1, it, s, prev => do
    let (eta, b, cost) ← gapSubEpoch cfg xs ws (if it = 0 then delta else 0) (perms it) s
    if Fl.lt (Fl.abs (prev.sub cost)) (.num cfg.tol) then return b
    else if Fl.lt prev cost then return b
    else gapSubLoop cfg xs ws delta perms n (it + 1) (eta, b, cost) cost

/-- `dtw_barycenter_averaging_subgradient` after validation, tslearn/barycenters/dba.py:862-892; `perms it` is the shuffle of epoch `it`. -/
def gapSubDba (cfg : GapBaryCfg) (xs : List NanArr) (ws : List ℝ) (step final : ℝ) (perms : ℕ → List ℕ) (maxIter : ℕ) (b : NanArr) :
    Except PyErr NanArr :=
  gapSubLoop cfg xs ws ((step - final) / xs.length) perms maxIter 0 (step, b, .inf) .inf

end
end Verif
