import Mathlib.Algebra.Order.Field.Basic
import Mathlib.Algebra.BigOperators.Group.List.Basic
import Mathlib.Algebra.Order.Group.Abs
/-!
Specification of Lloyd iterations and of restarts.
-/
namespace Verif.Spec
variable {P C K : Type} [Field K] [LinearOrder K]

/-- Each series is labelled with the first of its nearest centroids. -/
def Nearest (dist : P → C → K) (data : List P) (cs : List C) (lab : List ℕ) : Prop :=
  lab.length = data.length ∧ ∀ (i : ℕ) (x : P) (l : ℕ), data[i]? = some x → lab[i]? = some l →
    ∃ c, cs[l]? = some c ∧ ∀ (l' : ℕ) (c' : C), cs[l']? = some c' →
      dist x c ≤ dist x c' ∧ (l' < l → dist x c < dist x c')

/-- Mean of the squared distances of the series to the centroids that their labels name. -/
def meanSq (dist : P → C → K) (data : List P) (cs : List C) (lab : List ℕ) : K :=
  ((data.zip lab).map fun xl => match cs[xl.2]? with
    | some c => dist xl.1 c ^ 2
    | none => 0).sum / (data.length : K)

/-- All `k` clusters have a member. -/
def AllUsed (k : ℕ) (lab : List ℕ) : Prop := ∀ c < k, c ∈ lab

/-- Members of cluster `k`, in order. -/
def members (data : List P) (lab : List ℕ) (k : ℕ) : List P :=
  (data.zip lab).filterMap fun xl => if xl.2 = k then some xl.1 else none

/-- Parameters of the clustering problem. -/
structure Problem (P C K : Type) where
  data : List P
  k : ℕ
  maxIter : ℕ
  tol : K
  dist : P → C → K
  idist : P → C → K
  bary : List P → C → C

/-- `t` Lloyd rounds from `init`: centroids, labels and inertias of each round. -/
structure Rounds (p : Problem P C K) (init : List C) (T : ℕ) (cs : ℕ → List C) (lab : ℕ → List ℕ) (v : ℕ → K) : Prop where
  start : cs 0 = init
  near : ∀ t < T, Nearest p.dist p.data (cs t) (lab t)
  used : ∀ t < T, AllUsed p.k (lab t)
  inertia : ∀ t < T, v t = meanSq p.idist p.data (cs t) (lab t)
  update : ∀ t < T, (cs (t + 1)).length = (cs t).length ∧
    ∀ (k : ℕ) (c : C), (cs t)[k]? = some c → (cs (t + 1))[k]? = some (p.bary (members p.data (lab t) k) c)
  running : ∀ t, t + 2 < T → p.tol ≤ |v t - v (t + 1)|

/-- A run from `init` that succeeds after `T` rounds with these centroids and this (last measured) inertia. -/
def Succeeds (p : Problem P C K) (init : List C) (out : List C × K × ℕ) : Prop :=
  ∃ T cs lab v, Rounds p init T cs lab v ∧ 1 ≤ T ∧ T ≤ p.maxIter ∧
    (T < p.maxIter → 2 ≤ T ∧ |v (T - 2) - v (T - 1)| < p.tol) ∧ out = (cs T, v (T - 1), T)

/-- A run from `init` that meets an empty cluster. -/
def FailsEmpty (p : Problem P C K) (init : List C) : Prop :=
  ∃ T cs lab v, Rounds p init T cs lab v ∧ T < p.maxIter ∧ (2 ≤ T → p.tol ≤ |v (T - 2) - v (T - 1)|) ∧
    ∃ l, Nearest p.dist p.data (cs T) l ∧ ¬ AllUsed p.k l

end Verif.Spec
