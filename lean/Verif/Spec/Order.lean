import Verif.Model.KMeans
import Mathlib.Logic.Equiv.Defs
/-!
The same series given in different orders.
-/
namespace Verif.Spec
variable {P C K : Type}

/-- Every series has the same label in both runs, wherever it stands. -/
def LabelsFollow (data data' : List P) : Option (List ℕ) → Option (List ℕ) → Prop
  | none, none => True
  | some l, some l' => ∃ f : P → ℕ, l = data.map f ∧ l' = data'.map f
  | _, _ => False

/-- Estimators that differ by the order of the labels only. -/
structure SameButOrder (data data' : List P) (s s' : KmState C K) : Prop where
  inertia : s'.inertia = s.inertia
  centers : s'.centers = s.centers
  fitted : s'.xfit = s.xfit
  nIter : s'.nIter = s.nIter
  iter : s'.iter = s.iter
  labels : LabelsFollow data data' s.labels s'.labels

/-- `σ` renumbers the series `0, …, n - 1`. -/
def Renumbers (n : ℕ) (σ : Equiv.Perm ℕ) : Prop := ∀ i, σ i < n ↔ i < n

end Verif.Spec
