import Verif.Model.KMeans
import Verif.Spec.Units
/-!
Two runs of k-means that differ by the origin and the unit of the measurements.
-/
namespace Verif.Spec
variable {P C K : Type} [Field K] [LinearOrder K]

/-- The same hyper-parameters, the data seen through `φ` and the centroids through `ψ`: distances are multiplied by `s`, centroids of
non-empty groups correspond, and the tolerance (a difference of squares) is given in the new unit. `Ok` are the centroids that can occur. -/
structure Remeasured (φ : P → P) (ψ : C → C) (s : K) (Ok : C → Prop) (e e' : KmEnv P C K) : Prop where
  data : e'.data = e.data.map φ
  clusters : e'.nClusters = e.nClusters
  rounds : e'.maxIter = e.maxIter
  attempts : e'.nInit = e.nInit
  tol : e'.tol = s ^ 2 * e.tol
  dist : ∀ x ∈ e.data, ∀ c, Ok c → e'.dist (φ x) (ψ c) = s * e.dist x c
  idist : ∀ x ∈ e.data, ∀ c, Ok c → e'.idist (φ x) (ψ c) = s * e.idist x c
  ok : ∀ M, M ≠ [] → (∀ x ∈ M, x ∈ e.data) → ∀ c, Ok c → Ok (e.bary M c)
  bary : ∀ M, M ≠ [] → (∀ x ∈ M, x ∈ e.data) → ∀ c, Ok c → e'.bary (M.map φ) (ψ c) = ψ (e.bary M c)

/-- Attributes of an estimator in the new unit: the same labels and counters, the centroids through `ψ`, the inertia times `s ^ 2`. -/
def stateIn (ψ : C → C) (s : K) (σ : KmState C K) : KmState C K :=
  ⟨σ.labels, rescaleCost s σ.inertia, σ.centers.map (List.map ψ), σ.xfit, σ.nIter, σ.iter⟩

/-- The best attempt in the new unit. -/
def bestIn (ψ : C → C) (s : K) (b : KmBest C K) : KmBest C K :=
  ⟨b.best.map (List.map ψ), rescaleCost s b.minInertia, b.nSuccessful, b.nAttempts⟩

end Verif.Spec
