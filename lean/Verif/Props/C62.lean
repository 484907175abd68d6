import Verif.Props.C37
import Verif.Props.C57
/-!
C62: `TimeSeriesKMeans(metric="dtw", metric_params=…)` — one metric for assignment and update. False when the constraint is given
by its name: `_cdist_dtw` translates the name, the barycenter ignores it together with its radius or slope.
-/
set_option linter.unusedSectionVars false
namespace Verif
open Spec
variable {K : Type} [Field K] [LinearOrder K] [IsStrictOrderedRing K]

/-- With a named constraint the centroids are updated as without any constraint. -/
theorem C62_update_unconstrained (s : String) (radius : Option ℕ) (slope : Option ℚ) (tol : K) (am) (xs : List (List (List K)))
    (ws : List K) (size d maxIter : ℕ) (b : List (List K)) :
    petitjeanLoop ⟨.name s, radius, slope, tol, am⟩ xs ws size d maxIter b =
      petitjeanLoop ⟨.code 0, none, none, tol, am⟩ xs ws size d maxIter b := by
  have h2 : petitjeanRound ⟨.name s, radius, slope, tol, am⟩ xs ws size d = petitjeanRound ⟨.code 0, none, none, tol, am⟩ xs ws size d := by
    funext b
    simp only [petitjeanRound, petitjeanAssignment, C57_name_ignored s radius slope tol am]
  simp only [petitjeanLoop, h2]

/-- Squared Sakoe-Chiba DTW with radius 0 (what the assignment uses) before and after an update with the same `metric_params`: one
series, the centroid gets worse. Both steps are the model's own functions. -/
theorem C62_false : ∃ (x c c' : List (List ℚ)) (costs : List (WithTop ℚ)) (code : ℕ) (v v' : ℚ),
    gcCode (some "sakoe_chiba") = .ok code ∧
    petitjeanLoop ⟨.name "sakoe_chiba", some 0, none, 1 / 100000, argmin3⟩ [x] (setWeights none 1) 3 1 30 c = .ok (c', costs, false) ∧
    dtwSqGeneric x c code (some 0) none = .ok (v : WithTop ℚ) ∧ dtwSqGeneric x c' code (some 0) none = .ok (v' : WithTop ℚ) ∧
    v < v' := by
  refine ⟨[[0], [0], [1]], [[0], [3 / 5], [1]], [[0], [1], [1]],
    [((4 / 25 : ℚ) : WithTop ℚ), ((0 : ℚ) : WithTop ℚ), ((0 : ℚ) : WithTop ℚ)], 2, 9 / 25, 1, rfl, ?_, ?_, ?_, by norm_num⟩
  · decide +kernel
  · decide +kernel
  · decide +kernel

/-- What holds: without a name (a bare radius or slope, or none) assignment and update use the same distance, and a run never
increases the inertia. Missing: the named constraints, for which this is false. -/
theorem C62_partial (e : KmEnv (List (List ℝ)) (List (List ℝ)) ℝ) (radius : Option ℕ) (slope : Option ℚ) (tol : ℝ) (am) (size d : ℕ)
    (code : ℕ) (hcode : gcCode none = .ok code) (hdist : e.dist = kmDtwDist code radius slope) (hid : e.idist = e.dist)
    (hbary : e.bary = kmDtwBary ⟨.code 0, radius, slope, tol, am⟩ size d) (hsz : 0 < size) (ham : IsArgmin3 am)
    (hs : ∀ s, slope = some s → 1 ≤ s)
    (hdata : ∀ x ∈ e.data, x ≠ [] ∧ Rect x.length d x ∧ ∃ m, computeMask x.length size 0 radius slope = .ok m)
    (init : List (List (List ℝ))) (hk : init.length = e.nClusters) (hI : ∀ c ∈ init, Rect size d c) (T : ℕ)
    (cs : ℕ → List (List (List ℝ))) (lab : ℕ → List ℕ) (v : ℕ → ℝ) (hr : Rounds e.problem init T cs lab v) :
    ∀ t, t + 1 < T → v (t + 1) ≤ v t := by
  have hc : code = 0 := (Except.ok.inj (show Except.ok 0 = Except.ok code from hcode)).symm
  subst hc
  obtain ⟨h1, h2, h3⟩ := C37_dtw e ⟨.code 0, radius, slope, tol, am⟩ size d hdist hid hbary hsz ham hs hdata
  exact (C37_descent e.problem h1 h2 _ h3 init hk hI T cs lab v hr).1

example : gcCode none = .ok 0 := rfl

example : ∀ x ∈ ([[[0], [1]], [[2], [3], [4]]] : List (List (List ℝ))), x ≠ [] ∧ Rect x.length 1 x ∧
    ∃ m, computeMask x.length 3 0 (some 1) none = .ok m := by
  simp [Rect, computeMask]

end Verif
