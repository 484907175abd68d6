import Verif.Model.Argmin
import Verif.Model.Py
import Mathlib.Algebra.Order.Field.Basic
import Mathlib.Algebra.BigOperators.Group.List.Basic
import Mathlib.Analysis.SpecialFunctions.Log.Basic
/-!
Seeds of k-means: `_k_init_metric`, tslearn/clustering/kmeans.py:46-126, and `_check_initial_guess`, tslearn/clustering/utils.py:218-222.
Draws of the random generator are parameters; arithmetic is exact.
-/
namespace Verif

section
variable {S K : Type} [Field K] [LinearOrder K]

/-- `numpy.cumsum`, tslearn/clustering/kmeans.py:105 (library). -/
def cumSum (acc : K) : List K → List K
  | [] => []
  | x :: l => (acc + x) :: cumSum (acc + x) l

/-- `numpy.searchsorted(cs, v)`, tslearn/clustering/kmeans.py:105 (library): the number of entries before the first that is not below
`v`. -/
def searchLeft (cs : List K) (v : K) : ℕ := (cs.takeWhile fun c => decide (c < v)).length

/-- Indices of the centres so far, `closest_dist_sq` and `current_pot`. -/
structure KppState (K : Type) where
  ids : List ℕ
  closest : List K
  pot : K

/-- The first centre, tslearn/clustering/kmeans.py:92-98; `first` is `random_state.randint(n_samples)`. -/
def kppInit (n : ℕ) (X : ℕ → S) (dist : S → S → K) (first : ℕ) : KppState K :=
  let closest := (List.range n).map fun j => dist (X first) (X j) ^ 2
  ⟨[first], closest, closest.sum⟩

/-- One round, tslearn/clustering/kmeans.py:102-124; `us` is `random_state.random_sample(n_local_trials)`. -/
def kppStep (n : ℕ) (X : ℕ → S) (dist : S → S → K) (us : List K) (st : KppState K) : KppState K :=
  let cands := us.map fun u => min (searchLeft (cumSum 0 st.closest) (u * st.pot)) (st.closest.length - 1)
  let rows := cands.map fun c => List.zipWith min st.closest ((List.range n).map fun j => dist (X c) (X j) ^ 2)
  let pots := rows.map List.sum
  let b := argminL pots
  ⟨st.ids ++ [cands.getD b 0], rows.getD b [], pots.getD b 0⟩

/-- `_k_init_metric(X, k + 1, …)`, tslearn/clustering/kmeans.py:80-126: the state after `k` rounds; `draws c` are the numbers drawn in
round `c`. -/
def kppRun (n : ℕ) (X : ℕ → S) (dist : S → S → K) (first : ℕ) (draws : ℕ → List K) : ℕ → KppState K
  | 0 => kppInit n X dist first
  | k + 1 => kppStep n X dist (draws (k + 1)) (kppRun n X dist first draws k)

/-- `centers`, tslearn/clustering/kmeans.py:82, 93 and 124. -/
def kppCenters (X : ℕ → S) (st : KppState K) : List S := st.ids.map X

end

/-- `n_local_trials` when it is not given, tslearn/clustering/kmeans.py:85-89. -/
noncomputable def kppTrials (k : ℕ) : ℕ := 2 + ⌊Real.log k⌋₊

/-- `_check_initial_guess(init, n_clusters)`, tslearn/clustering/utils.py:218-222; `rows` is `init.shape[0]` when `init` is an array. -/
def checkInitialGuess (rows : Option ℕ) (k : ℕ) : Except PyErr Unit :=
  match rows with
  | none => .ok ()
  | some r => if r = k then .ok () else .error .assertion

end Verif
