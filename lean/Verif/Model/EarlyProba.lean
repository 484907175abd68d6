import Mathlib.Analysis.SpecialFunctions.Exp
import Mathlib.Analysis.Real.Sqrt
/-!
`NonMyopicEarlyClassifier.get_cluster_probas`: tslearn/early_classification/early_classification.py:215-284, over the real numbers.
-/
namespace Verif
open scoped Classical

/-- `np.linalg.norm(Xi - cluster_centers_[k, :len(Xi)])`, tslearn/early_classification/early_classification.py:278-279, for a prefix of `t`
samples of `d` features. -/
noncomputable def ecDist (t d : ℕ) (x c : ℕ → ℕ → ℝ) : ℝ :=
  Real.sqrt (((List.range t).map fun i => ((List.range d).map fun j => (x i j - c i j) ^ 2).sum).sum)

/-- `s_k`, tslearn/early_classification/early_classification.py:280-283. -/
noncomputable def ecScoreOf (lamb avg dist : ℝ) : ℝ := 1 / (1 + Real.exp (-lamb * (1 - dist / avg)))

/-- `get_cluster_probas` from the distances to the `n` centers, tslearn/early_classification/early_classification.py:280-284; `none` is an
array of NaN, the average distance being 0. -/
noncomputable def ecProbas (lamb : ℝ) (n : ℕ) (dist : ℕ → ℝ) : Option (ℕ → ℝ) :=
  let avg := ((List.range n).map dist).sum / n
  if avg = 0 then none
  else some fun k => ecScoreOf lamb avg (dist k) / ((List.range n).map fun j => ecScoreOf lamb avg (dist j)).sum

/-- `get_cluster_probas(Xi)` for a prefix of `t` samples of `d` features. -/
noncomputable def ecClusterProbas (lamb : ℝ) (n t d : ℕ) (centers : ℕ → ℕ → ℕ → ℝ) (x : ℕ → ℕ → ℝ) : Option (ℕ → ℝ) :=
  ecProbas lamb n fun k => ecDist t d x (centers k)

end Verif
