import Verif.Model.Dtw
import Verif.Model.Interp
/-!
DTW barycenter averaging: tslearn/barycenters/dba.py, euclidean.py and utils.py, exact arithmetic. NaN is `none`,
`inf` is `⊤`. Squared DTW values are used for `dist ** 2`.
-/
namespace Verif

/-- `metric_params["global_constraint"]` as it reaches the compiled `_njit_dtw_path`: an integer code, or the name
that `dtw_path` documents. -/
inductive DbaGc
  | code (n : ℕ)
  | name (s : String)

/-- `metric_params` is passed on unchanged (tslearn/barycenters/dba.py:281-299), and `_compute_mask_generic`
(tslearn/metrics/_masks.py:325-350) compares it with integers. In compiled code a string equals no integer, which
is the behaviour of a code other than 0, 1, 2. -/
def DbaGc.toCode : DbaGc → ℕ
  | .code n => n
  | .name _ => 3

/-- Parameters of `dtw_barycenter_averaging`, tslearn/barycenters/dba.py:487-498. `am` is the argmin of the
traceback. -/
structure DbaCfg (K : Type) where
  gc : DbaGc := .code 0
  radius : Option ℕ := none
  slope : Option ℚ := none
  tol : K
  am : WithTop K → WithTop K → WithTop K → ℕ

section
variable {K : Type} [Field K] [LinearOrder K]

/-- `_set_weights(w, n)`, tslearn/barycenters/utils.py:7-13. -/
def setWeights (w : Option (List K)) (n : ℕ) : List K :=
  match w with
  | some w => if w.length ≠ n then List.replicate n 1 else w
  | none => List.replicate n 1

/-- `_njit_dtw_path(barycenter, X[i], **metric_params)`, tslearn/barycenters/dba.py:281-299, with the squared value. -/
def dbaPath (cfg : DbaCfg K) (b x : List (List K)) : Except PyErr (WithTop K × List (ℕ × ℕ)) := do
  if b = [] ∨ x = [] then throw .notModelled
  let (v, p) ← dtwPathGeneric b x cfg.gc.toCode cfg.radius cfg.slope cfg.am
  match p with
  | some p => return (v, p)
  | none => throw .notModelled

/-- The common part of `_mm_assignment`, tslearn/barycenters/dba.py:268-307, and `_petitjean_assignment`,
tslearn/barycenters/dba.py:41-81: paths and weighted mean cost (`Parallel` keeps the order, both branches coincide).
`inf` times a weight that is not positive, and weights summing to zero, are not modelled. -/
def assignWith (path : List (List K) → Except PyErr (WithTop K × List (ℕ × ℕ))) (xs : List (List (List K))) (ws : List K) :
    Except PyErr (List (List (ℕ × ℕ)) × WithTop K) := do
  let rs ← xs.mapM path
  if ws.sum = 0 then throw .notModelled
  if (∃ k < xs.length, (rs.getD k (0, [])).1 = ⊤) ∧ ∃ k < xs.length, ws.getD k 0 ≤ 0 then throw .notModelled
  let cost := ((List.range xs.length).map fun k => (rs.getD k (0, [])).1.map fun v => v * ws.getD k 0).sum
  return (rs.map Prod.snd, cost.map fun c => c / ws.sum)

/-- `_mm_assignment`, tslearn/barycenters/dba.py:231-307. -/
def mmAssignment (cfg : DbaCfg K) (xs : List (List (List K))) (ws : List K) (b : List (List K)) :
    Except PyErr (List (List (ℕ × ℕ)) × WithTop K) :=
  assignWith (dbaPath cfg b) xs ws

/-- `w_k`, tslearn/barycenters/dba.py:346-350. -/
def warpMat (p : List (ℕ × ℕ)) : Mat K := p.foldl (fun W c => W.set c.1 c.2 1) (Mat.full 0)

/-- `sz_k`, tslearn/barycenters/dba.py:346. -/
def pathSz (p : List (ℕ × ℕ)) : ℕ := (p.getLastD (0, 0)).2 + 1

/-- `_subgradient_valence_warping`, first component: `w_k.sum(axis=1) * weights[k]`,
tslearn/barycenters/dba.py:352. -/
def valence (p : List (ℕ × ℕ)) (w : K) (i : ℕ) : K := ((List.range (pathSz p)).map fun j => warpMat p i j).sum * w

/-- `_mm_valence_warping`, first component `diag_sum_v_k`, tslearn/barycenters/dba.py:396-399. -/
def diagSumV (ps : List (List (ℕ × ℕ))) (ws : List K) (i : ℕ) : K :=
  ((List.range ps.length).map fun k => valence (ps.getD k []) (ws.getD k 0) i).sum

/-- `sum_w_x[i, f]` of `_mm_update_barycenter`, tslearn/barycenters/dba.py:431-433. -/
def sumWX (xs : List (List (List K))) (ps : List (List (ℕ × ℕ))) (ws : List K) (i f : ℕ) : K :=
  ((List.range ps.length).map fun k => ((List.range (pathSz (ps.getD k []))).map fun j =>
    warpMat (ps.getD k []) i j * ws.getD k 0 * ((xs.getD k []).getD j []).getD f 0).sum).sum

/-- `_mm_update_barycenter`, tslearn/barycenters/dba.py:402-436. A zero valence is a division by zero (NaN), not
modelled. -/
def mmUpdate (xs : List (List (List K))) (ws : List K) (size d : ℕ) (ps : List (List (ℕ × ℕ))) :
    Except PyErr (List (List K)) := do
  if ∃ i < size, diagSumV ps ws i = 0 then throw .notModelled
  return (List.range size).map fun i => (List.range d).map fun f => 1 / diagSumV ps ws i * sumWX xs ps ws i f

/-- `abs(cost_prev - cost) < tol` (false when an operand is `inf`, since `inf` or NaN is compared),
tslearn/barycenters/dba.py:735. -/
def closeTo (tol : K) : WithTop K → WithTop K → Bool
  | some a, some b => decide (|a - b| < tol)
  | _, _ => false

/-- The loop shared by `dtw_barycenter_averaging_one_init`, tslearn/barycenters/dba.py:721-743, and
`dtw_barycenter_averaging_petitjean`, tslearn/barycenters/dba.py:213-228: `round` computes the cost of a barycenter and its
update. Also returns the costs of all rounds (what `verbose` prints) and whether the "loss is increasing" warning was
raised. -/
def dbaLoopWith (tol : K) (round : List (List K) → Except PyErr (WithTop K × List (List K))) :
    ℕ → List (List K) → WithTop K → List (WithTop K) → Except PyErr (List (List K) × List (WithTop K) × Bool)
  | 0, b, _, hist => .ok (b, hist, false)
  | n + 1, b, prev, hist => do
    let (cost, b') ← round b
    let hist := hist ++ [cost]
    if closeTo tol prev cost then return (b', hist, false)
    else if prev < cost then return (b', hist, true)
    else dbaLoopWith tol round n b' cost hist

/-- One round, tslearn/barycenters/dba.py:723-734. -/
def mmRound (cfg : DbaCfg K) (xs : List (List (List K))) (ws : List K) (size d : ℕ) (b : List (List K)) :
    Except PyErr (WithTop K × List (List K)) := do
  let (ps, cost) ← mmAssignment cfg xs ws b
  let b' ← mmUpdate xs ws size d ps
  return (cost, b')

/-- The loop of `dtw_barycenter_averaging_one_init`, tslearn/barycenters/dba.py:721-743. -/
def dbaLoop (cfg : DbaCfg K) (xs : List (List (List K))) (ws : List K) (size d maxIter : ℕ) (b : List (List K)) :
    Except PyErr (List (List K) × List (WithTop K) × Bool) :=
  dbaLoopWith cfg.tol (mmRound cfg xs ws size d) maxIter b ⊤ []

/-- `assign[0][t]`, `assign[1][t]` of `_petitjean_assignment` as pairs (series, sample),
tslearn/barycenters/dba.py:62-77. The paths are those of `_njit_dtw_path(X[i], barycenter)`. -/
def petitjeanAssign (qs : List (List (ℕ × ℕ))) (t : ℕ) : List (ℕ × ℕ) :=
  (List.range qs.length).flatMap fun k => ((qs.getD k []).filter fun c => c.2 = t).map fun c => (k, c.1)

/-- `_petitjean_assignment`, tslearn/barycenters/dba.py:34-81: the barycenter is the second argument of the path
computation. -/
def petitjeanAssignment (cfg : DbaCfg K) (xs : List (List (List K))) (ws : List K) (b : List (List K)) :
    Except PyErr (List (List (ℕ × ℕ)) × WithTop K) :=
  assignWith (fun x => dbaPath cfg x b) xs ws

/-- `_petitjean_update_barycenter`, tslearn/barycenters/dba.py:84-89; `numpy.average` raises when the weights sum to
zero. -/
def petitjeanUpdate (xs : List (List (List K))) (ws : List K) (size d : ℕ) (qs : List (List (ℕ × ℕ))) :
    Except PyErr (List (List K)) := do
  if ∃ t < size, ((petitjeanAssign qs t).map fun a => ws.getD a.1 0).sum = 0 then throw .zeroDivision
  return (List.range size).map fun t => (List.range d).map fun f =>
    ((petitjeanAssign qs t).map fun a => ((xs.getD a.1 []).getD a.2 []).getD f 0 * ws.getD a.1 0).sum /
      ((petitjeanAssign qs t).map fun a => ws.getD a.1 0).sum

/-- One round of `dtw_barycenter_averaging_petitjean`, tslearn/barycenters/dba.py:215-219. -/
def petitjeanRound (cfg : DbaCfg K) (xs : List (List (List K))) (ws : List K) (size d : ℕ) (b : List (List K)) :
    Except PyErr (WithTop K × List (List K)) := do
  let (qs, cost) ← petitjeanAssignment cfg xs ws b
  let b' ← petitjeanUpdate xs ws size d qs
  return (cost, b')

/-- The loop of `dtw_barycenter_averaging_petitjean`, tslearn/barycenters/dba.py:213-228. -/
def petitjeanLoop (cfg : DbaCfg K) (xs : List (List (List K))) (ws : List K) (size d maxIter : ℕ) (b : List (List K)) :
    Except PyErr (List (List K) × List (WithTop K) × Bool) :=
  dbaLoopWith cfg.tol (petitjeanRound cfg xs ws size d) maxIter b ⊤ []

/-- `_subgradient_update_barycenter` for the single series of a step, tslearn/barycenters/dba.py:475-484 (weight `w`,
`weights_sum = wi.sum()`). A zero weight divides zero by zero, not modelled. -/
def subgradUpdate (x : List (List K)) (w eta : K) (p : List (ℕ × ℕ)) (b : List (List K)) : Except PyErr (List (List K)) := do
  if w = 0 then throw .notModelled
  return (List.range b.length).map fun i => (List.range (b.getD i []).length).map fun f =>
    (b.getD i []).getD f 0 - 2 * eta / w * (valence p w i * (b.getD i []).getD f 0 -
      ((List.range (pathSz p)).map fun j => warpMat p i j * w * (x.getD j []).getD f 0).sum)

/-- One step of `dtw_barycenter_averaging_subgradient` with series `idx`, tslearn/barycenters/dba.py:868-881. The whole
list of weights goes to `_mm_assignment`, which uses its first element. -/
def subgradStep (cfg : DbaCfg K) (xs : List (List (List K))) (ws : List K) (eta : K) (idx : ℕ) (b : List (List K)) :
    Except PyErr (WithTop K × List (List K)) := do
  let (ps, cost) ← mmAssignment cfg [xs.getD idx []] ws b
  let b' ← subgradUpdate (xs.getD idx []) (ws.getD idx 0) eta (ps.getD 0 []) b
  return (cost, b')

/-- One epoch over the shuffled indices, tslearn/barycenters/dba.py:866-883; the step size shrinks by `delta` per step
during the first epoch only. State: step size, barycenter, last cost. -/
def subgradEpoch (cfg : DbaCfg K) (xs : List (List (List K))) (ws : List K) (delta : K) :
    List ℕ → K × List (List K) × WithTop K → Except PyErr (K × List (List K) × WithTop K)
  | [], s => .ok s
  | idx :: rest, (eta, b, _) => do
    let (cost, b') ← subgradStep cfg xs ws eta idx b
    subgradEpoch cfg xs ws delta rest (eta - delta, b', cost)

/-- The loop of `dtw_barycenter_averaging_subgradient`, tslearn/barycenters/dba.py:862-892; `perms it` is the shuffle of
epoch `it`. -/
def subgradLoop (cfg : DbaCfg K) (xs : List (List (List K))) (ws : List K) (delta : K) (perms : ℕ → List ℕ) :
    ℕ → ℕ → K × List (List K) × WithTop K → WithTop K → Except PyErr (List (List K))
  | 0, _, (_, b, _), _ => .ok b
  | n + 1, it, s, prev => do
    let (eta, b, cost) ← subgradEpoch cfg xs ws (if it = 0 then delta else 0) (perms it) s
    if closeTo cfg.tol prev cost then return b
    else if prev < cost then return b
    else subgradLoop cfg xs ws delta perms n (it + 1) (eta, b, cost) cost

/-- `dtw_barycenter_averaging_subgradient` after validation, tslearn/barycenters/dba.py:862-892. -/
def subgradDba (cfg : DbaCfg K) (xs : List (List (List K))) (ws : List K) (step final : K) (perms : ℕ → List ℕ) (maxIter : ℕ)
    (b : List (List K)) : Except PyErr (List (List K)) :=
  subgradLoop cfg xs ws ((step - final) / (xs.length : K)) perms maxIter 0 (step, b, ⊤) ⊤

/-- The series of a dataset without their padding, `_to_time_series(X[i], True)`. Missing values inside a series are
not modelled. -/
def dbaSeries (X : Arr3 K) : Except PyErr (List (List (List K))) :=
  X.data.mapM fun s =>
    match denan (s.take (tsSize s)) with
    | some x => .ok x
    | none => .error .notModelled

/-- `_init_avg(X, barycenter_size)`, tslearn/barycenters/dba.py:23-31. `interp1d` refuses points outside the range
of its nodes, which happens when there is a single node. -/
def initAvg (X : Arr3 K) (size : ℕ) : Except PyErr (List (List K)) := do
  let avg : ℕ → ℕ → Option K := fun t f => nanMeanK ((List.range X.data.length).map fun i => X.entry i t f)
  let rows : List (List (Option K)) ←
    if X.sz = size then pure ((List.range size).map fun t => (List.range X.d).map (avg t))
    else if X.sz = 0 then throw .valueError
    else if X.sz = 1 ∧ 1 < size then throw .valueError
    else pure ((linspace01 size : List K).map fun x => (List.range X.d).map fun f =>
      interp1 (linspace01 X.sz) ((List.range X.sz).map fun t => avg t f) x)
  match denan rows with
  | some b => return b
  | none => throw .notModelled

/-- The initial barycenter, tslearn/barycenters/dba.py:712-720. -/
def dbaInit (X : Arr3 K) (size : Option ℕ) : Option (List (List K)) → Except PyErr (List (List K))
  | none => initAvg X (size.getD X.sz)
  | some b => .ok b

/-- `dtw_barycenter_averaging_one_init`, tslearn/barycenters/dba.py:625-743. The initial barycenter has no NaN
(`remove_nans` does nothing then) and the number of features of the data, other cases are not modelled. The
returned cost is that of the last round, `inf` without rounds. -/
def dbaOneInit (cfg : DbaCfg K) (D : DsInput K) (size : Option ℕ) (init : Option (List (List K))) (maxIter : ℕ)
    (weights : Option (List K)) : Except PyErr (List (List K) × WithTop K) := do
  let X ← toDataset D
  let xs ← dbaSeries X
  let ws := setWeights weights X.data.length
  let b ← dbaInit X size init
  if b.any fun r => r.length ≠ X.d then throw .notModelled
  let (b', hist, _) ← dbaLoop cfg xs ws b.length X.d maxIter b
  return (b', hist.getLastD ⊤)

/-- The loop of `dtw_barycenter_averaging` over `n_init` attempts, tslearn/barycenters/dba.py:602-621. -/
def dbaBest (run : Except PyErr (List (List K) × WithTop K)) :
    ℕ → WithTop K → Option (List (List K)) → Except PyErr (Option (List (List K)))
  | 0, _, best => .ok best
  | n + 1, bestCost, best => do
    let (b, loss) ← run
    if loss < bestCost then dbaBest run n loss (some b) else dbaBest run n bestCost best

/-- `dtw_barycenter_averaging`, tslearn/barycenters/dba.py:487-622; `none` is python's `None`. -/
def dba (cfg : DbaCfg K) (D : DsInput K) (size : Option ℕ) (init : Option (List (List K))) (maxIter : ℕ)
    (weights : Option (List K)) (nInit : ℕ) : Except PyErr (Option (List (List K))) :=
  dbaBest (dbaOneInit cfg D size init maxIter weights) nInit ⊤ none

/-- `euclidean_barycenter`, tslearn/barycenters/euclidean.py:42-44: `numpy.average` over the series of the padded array,
NaN as soon as one of them is missing. -/
def euclideanBarycenter (D : DsInput K) (weights : Option (List K)) : Except PyErr (List (List (Option K))) := do
  let X ← toDataset D
  let ws := setWeights weights X.data.length
  if ws.sum = 0 then throw .zeroDivision
  return (List.range X.sz).map fun t => (List.range X.d).map fun f =>
    match ((List.range X.data.length).map fun i => X.entry i t f).mapM id with
    | some col => some ((List.zipWith (· * ·) col ws).sum / ws.sum)
    | none => none

end
end Verif
