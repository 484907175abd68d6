import Verif.Model.Dataset
import Verif.Model.Frechet
/-!
Cross-similarity matrices, tslearn/metrics/utils.py `_cdist_generic` and its callers.
-/
namespace Verif

/-- `range(a, b)`. -/
def pyRange (a b : ℕ) : List ℕ := (List.range (b - a)).map (a + ·)

/-- `triu_indices(n, k=k, m=n)`: row-major indices of the entries with `j - i >= k`. -/
def triuIndices (n k : ℕ) : List (ℕ × ℕ) :=
  (List.range n).flatMap fun i => ((List.range n).filter fun j => decide (i + k ≤ j)).map (i, ·)

/-- `tril_indices(n, k=-1, m=n)`: entries strictly below the diagonal. -/
def trilIndices (n : ℕ) : List (ℕ × ℕ) :=
  (List.range n).flatMap fun i => ((List.range n).filter fun j => decide (j < i)).map (i, ·)

/-- `matrix[indices] = values`. -/
def assignAt {V : Type} (M : Mat V) (idx : List (ℕ × ℕ)) (vals : List V) : Mat V :=
  (idx.zip vals).foldl (fun M e => M.set e.1.1 e.1.2 e.2) M

/-- The comprehension `[dist_fun(...) for i in range(n) for j in range(i or i + 1, n)]`: argument
pairs in generation order, tslearn/metrics/utils.py:136-156. -/
def selfJobs (n : ℕ) (diag : Bool) : List (ℕ × ℕ) :=
  (List.range n).flatMap fun i => (pyRange (if diag then i else i + 1) n).map (i, ·)

/-- `for i in range(n_ts_1) for j in range(n_ts_2)`, tslearn/metrics/utils.py:166-187. -/
def crossJobs (n1 n2 : ℕ) : List (ℕ × ℕ) :=
  (List.range n1).flatMap fun i => (List.range n2).map (i, ·)

/-- Sequential evaluation of the jobs (`n_jobs in [None, 1]`): stops at the first exception. -/
def seqRun {V : Type} (jobs : List (Except PyErr V)) : Except PyErr (List V) := jobs.mapM id

/-- One job of `joblib.Parallel` completes: its result is stored at the position of the job. -/
def parStep {V : Type} (jobs : List (Except PyErr V)) (slots : List (Option V)) (k : ℕ) :
    Except PyErr (List (Option V)) :=
  match jobs[k]? with
  | some (.ok v) => .ok (slots.set k (some v))
  | some (.error e) => .error e
  | none => .error .notModelled

/-- Parallel evaluation (`joblib.Parallel`, tslearn/metrics/utils.py:135-144 and 164-173): jobs
finish in the order `order`, each result is stored at the position of its job; the call returns the
stored list, or raises as soon as a job raises. joblib itself is not modelled beyond this contract. -/
def parRun {V : Type} (order : List ℕ) (jobs : List (Except PyErr V)) : Except PyErr (List V) := do
  let slots ← order.foldlM (parStep jobs) (List.replicate jobs.length none)
  match slots.mapM id with
  | some vals => .ok vals
  | none => .error .notModelled

/-- A schedule: for every number of jobs, an order in which they complete. -/
def IsSchedule (sched : ℕ → List ℕ) : Prop := ∀ n, (sched n).Perm (List.range n)

/-- The two ways the job list is evaluated: in order, or by joblib in some completion order. -/
def Execution {V : Type} (run : List (Except PyErr V) → Except PyErr (List V)) : Prop :=
  run = seqRun ∨
    ∃ sched, IsSchedule sched ∧ run = fun jobs => parRun (sched jobs.length) jobs

variable {S V : Type}

/-- The job list of a dataset pair. -/
def jobsOf (dist : S → S → Except PyErr V) (X Y : List S) (pairs : List (ℕ × ℕ)) :
    List (Except PyErr V) :=
  pairs.map fun ij =>
    match X[ij.1]?, Y[ij.2]? with
    | some x, some y => dist x y
    | _, _ => .error .indexError

/-- `_cdist_generic(dist_fun, dataset1, dataset2, n_jobs, ..., compute_diagonal)`,
tslearn/metrics/utils.py:57-189. `run` is the evaluation of the job list (`seqRun` or `parRun`). -/
def cdistGeneric (dist : S → S → Except PyErr V) (zero : V) (X : List S) (Y : Option (List S))
    (diag : Bool) (run : List (Except PyErr V) → Except PyErr (List V)) : Except PyErr (Mat V) :=
  match Y with
  | none => do
    let n := X.length
    let cdists ← run (jobsOf dist X X (selfJobs n diag))
    let idx := triuIndices n (if diag then 0 else 1)
    -- NumPy refuses an assignment of the wrong length
    if idx.length ≠ cdists.length then throw .valueError
    let M := assignAt (Mat.full zero) idx cdists
    let low := trilIndices n
    return assignAt M low (low.map fun ij => M ij.2 ij.1)
  | some Y => do
    let cdists ← run (jobsOf dist X Y (crossJobs X.length Y.length))
    if cdists.length ≠ X.length * Y.length then throw .valueError
    return fun i j => cdists.getD (i * Y.length + j) zero

section
variable {K : Type} [LinearOrder K] [Add K] [Zero K] [Sub K] [Mul K]

/-- A kernel `_njit_*` applied to two slots: `_to_time_series(·, True)` of each, then the kernel.
Empty series (all NaN) and interior NaN leave the modelled domain. -/
def onSlots {W : Type} (f : List (List K) → List (List K) → Except PyErr W) (t1 t2 : Ts K) :
    Except PyErr W :=
  match denan t1.trim.rows, denan t2.trim.rows with
  | some x, some y => if x = [] ∨ y = [] then .error .notModelled else f x y
  | _, _ => .error .notModelled

/-- Conversion of the arguments shared by all `cdist_*`: `to_time_series_dataset` of both. -/
def cdistOf {W : Type} (f : List (List K) → List (List K) → Except PyErr W) (zero : W) (diag : Bool)
    (X : DsInput K) (Y : Option (DsInput K)) (run : List (Except PyErr W) → Except PyErr (List W)) :
    Except PyErr (Mat W) := do
  let X ← toDataset X
  match Y with
  | none => cdistGeneric (onSlots f) zero X.slots none diag run
  | some Y =>
    let Y ← toDataset Y
    cdistGeneric (onSlots f) zero X.slots (some Y.slots) diag run

/-- Entry-wise square of `cdist_dtw`, tslearn/metrics/_dtw.py:639-793: the constraint name is
translated to its code, the diagonal is not computed. -/
def cdistDtwSq (X : DsInput K) (Y : Option (DsInput K)) (gc : Option String) (radius : Option ℕ)
    (slope : Option ℚ) (run : List (Except PyErr (WithTop K)) → Except PyErr (List (WithTop K))) :
    Except PyErr (Mat (WithTop K)) := do
  let code ← gcCode gc
  cdistOf (fun x y => dtwSqGeneric x y code radius slope) 0 false X Y run

/-- The value a constraint argument has when it reaches `_compute_mask_generic`: an integer code or
(in `_cdist_frechet`) the untranslated `None`/string. -/
inductive GcArg
  | code (c : ℕ)
  | raw (g : Option String)

/-- `_compute_mask_generic`, tslearn/metrics/_masks.py:318-351, on either kind of argument: `None`
and strings compare unequal to 0, 1 and 2. -/
def computeMaskArg (sz1 sz2 : ℕ) (gc : GcArg) (radius : Option ℕ) (slope : Option ℚ) :
    Except PyErr (Mat Bool) :=
  let eq (k : ℕ) : Bool := match gc with
    | .code c => c == k
    | .raw _ => false
  if eq 0 ∧ radius.isSome ∧ slope.isSome then .error .runtimeWarning
  else if eq 2 ∨ (eq 0 ∧ radius.isSome) then .ok (sakoeChibaMask sz1 sz2 (radius.getD 1))
  else if eq 1 ∨ (eq 0 ∧ slope.isSome) then itakuraMask sz1 sz2 (slope.getD 2)
  else .ok (Mat.full true)

/-- `_frechet_generic` called with the argument as it is, tslearn/metrics/_frechet.py:398-407. -/
def frechetSqArg (s1 s2 : List (List K)) (gc : GcArg) (radius : Option ℕ) (slope : Option ℚ) :
    Except PyErr (WithTop K) := do
  let mask ← computeMaskArg s1.length s2.length gc radius slope
  return lastEntry (frechetAccumulatedMatrix s1 s2 mask) s1.length s2.length

/-- Entry-wise square of `cdist_frechet`, tslearn/metrics/_frechet.py:647-804: `global_constraint`
is passed on untranslated (line 801). -/
def cdistFrechetSq (X : DsInput K) (Y : Option (DsInput K)) (gc : Option String) (radius : Option ℕ)
    (slope : Option ℚ) (run : List (Except PyErr (WithTop K)) → Except PyErr (List (WithTop K))) :
    Except PyErr (Mat (WithTop K)) :=
  cdistOf (fun x y => frechetSqArg x y (.raw gc) radius slope) 0 false X Y run
end

end Verif
