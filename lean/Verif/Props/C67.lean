import Verif.Props.C66
/-!
C67: what the distances, inertia and labels of `KernelKMeans` mean.
-/
set_option linter.unusedSectionVars false
namespace Verif
open Spec Finset
variable {K : Type} [Field K] [LinearOrder K] [IsStrictOrderedRing K]

/-- Full claim: the distance used is the squared distance, in feature space, to the mean of the cluster. Missing (and false, see
below): the squared norm of the mean is taken to be 1. -/
theorem C67_distance_partial (n : ℕ) (sw : ℕ → K) (M : ℕ → ℕ → K) (lab : ℕ → ℕ) (x j : ℕ) (h1 : M x x = 1) :
    usedDist n sw (M x) lab j = featureDist n sw M lab x j + (1 - meanNorm n sw M lab j) ∧
    (usedDist n sw (M x) lab j = featureDist n sw M lab x j ↔ meanNorm n sw M lab j = 1) := by
  have e : usedDist n sw (M x) lab j = featureDist n sw M lab x j + (1 - meanNorm n sw M lab j) := by
    unfold usedDist featureDist; rw [h1]; ring
  refine ⟨e, ?_⟩
  rw [e]
  constructor
  · intro h; linarith
  · intro h; rw [h]; ring

/-- Full claim: every series gets the cluster with the nearest mean. Missing (and false, see below): clusters whose means have
different norms. -/
theorem C67_nearest_partial (n k : ℕ) (sw : ℕ → K) (M : ℕ → ℕ → K) (lab : ℕ → ℕ) (x l : ℕ)
    (hn : ∀ i < k, ∀ j < k, meanNorm n sw M lab i = meanNorm n sw M lab j) :
    FirstLeast k (usedDist n sw (M x) lab) l ↔ FirstLeast k (featureDist n sw M lab x) l := by
  unfold FirstLeast usedDist featureDist
  refine and_congr_right fun hl => forall_congr' fun j => imp_congr_right fun hj => ?_
  rw [hn j hj l hl]
  constructor
  · rintro ⟨h1, h2⟩
    exact ⟨by linarith, fun h => by linarith [h2 h]⟩
  · rintro ⟨h1, h2⟩
    exact ⟨by linarith, fun h => by linarith [h2 h]⟩

/-- Full claim: `inertia_` is the sum of the squared distances of the training series to the mean of their cluster. Missing (and false,
see below): the squared norms of the means are taken to be 1, and the means are those before the last relabelling. -/
theorem C67_inertia_partial {k n : ℕ} {sw : ℕ → K} {M : ℕ → ℕ → K} {lab lab' : List ℕ} {v : K} (h : KkStep k n sw M lab lab' v)
    (h1 : ∀ x < n, M x x = 1) :
    v = ∑ x ∈ range n, featureDist lab.length sw M (fun i => lab.getD i 0) x (lab'.getD x 0) +
      ∑ x ∈ range n, (1 - meanNorm lab.length sw M (fun i => lab.getD i 0) (lab'.getD x 0)) := by
  rw [h.2.2.2.2, ← sum_add_distrib]
  exact sum_congr rfl fun x hx => (C67_distance_partial _ sw M _ x _ (h1 x (mem_range.1 hx))).1

/-- `predict` on the training data gives `labels_` back exactly when another round would not change them. -/
theorem C67_predict_train (o : KkObj K) (Q : KkQuery K) (M : ℕ → ℕ → K) (lab : List ℕ) (hf : o.fitted = true) (hx : o.xfit = true)
    (hl : o.labels = some lab) (hQ : Q.m = lab.length) (hM : kkQueryMatrix o Q = .ok M) (hw : ∀ i < lab.length, 0 < Q.sw i)
    (hu : AllUsed o.nClusters lab) (hk : 0 < o.nClusters) :
    (kkPredict o Q).2 = .ok lab ↔ ∃ v, KkStep o.nClusters lab.length Q.sw M lab lab v := by
  obtain ⟨p, h1, h2, h3⟩ := C66_predict o Q M lab hf hx hl hM hw hu hk
  rw [hQ] at h2 h3
  rw [h1]
  constructor
  · intro h
    cases h
    exact ⟨_, hu, hu, rfl, h3, rfl⟩
  · rintro ⟨v, -, -, -, h4, -⟩
    congr 1
    apply List.ext_getElem h2
    intro x hx hx'
    have e := FirstLeast.unique (h3 x hx') (h4 x hx')
    rw [List.getD_eq_getElem?_getD, List.getD_eq_getElem?_getD, List.getElem?_eq_getElem hx, List.getElem?_eq_getElem hx'] at e
    exact e

/-- Gram matrix of vectors of the plane. -/
def gram2 (v : List (ℚ × ℚ)) (i j : ℕ) : ℚ := (v.getD i (0, 0)).1 * (v.getD j (0, 0)).1 + (v.getD i (0, 0)).2 * (v.getD j (0, 0)).2

/-- A fit on the Gram matrix of unit vectors (kernel `cosine`), with the given draw. -/
def gramData (v : List (ℚ × ℚ)) (init : List ℕ) : KkData ℚ :=
  { n := v.length, gakMat := fun _ _ _ => 0, pairMat := fun _ => .ok (gram2 v), autoSigma := 1, sw := fun _ => 1, inits := fun _ => init }

/-- Three unit vectors, and a fourth to be predicted. -/
def vecs3 : List (ℚ × ℚ) := [(1, 0), (-3 / 5, 4 / 5), (-3 / 5, -4 / 5)]

/-- The query. -/
def vecs4 : List (ℚ × ℚ) := vecs3 ++ [(11 / 61, 60 / 61)]

/-- The query as data of `predict`. -/
def query4 : KkQuery ℚ := ⟨1, fun _ _ _ => 0, fun _ => .ok fun _ j => gram2 vecs4 3 j, fun _ => 1⟩

/-- False: `predict` gives the cluster whose mean is nearest. Three unit vectors are clustered as `[0, 1, 1]`, which another round
does not change; the fourth is labelled 0, though the mean of cluster 1 is nearer. -/
theorem C67_false_nearest :
    (kkFit (kkO false none) (gramData vecs3 [0, 1, 1])).1.labels = some [0, 1, 1] ∧
    (kkFit (kkO false none) (gramData vecs3 [0, 1, 1])).1.nIter = 2 ∧
    (kkPredict (kkFit (kkO false none) (gramData vecs3 [0, 1, 1])).1 query4).2 = .ok [0] ∧ gram2 vecs4 3 3 = 1 ∧
    featureDist 3 (fun _ => (1 : ℚ)) (gram2 vecs4) (fun i => [0, 1, 1].getD i 0) 3 1 <
      featureDist 3 (fun _ => (1 : ℚ)) (gram2 vecs4) (fun i => [0, 1, 1].getD i 0) 3 0 := by
  refine ⟨by decide +kernel, by decide +kernel, by decide +kernel, by decide +kernel, by decide +kernel⟩

/-- False: `inertia_` is the inertia of the clustering. -/
theorem C67_false_inertia :
    (kkFit (kkO false none) (gramData vecs3 [0, 1, 1])).1.labels = some [0, 1, 1] ∧
    (kkFit (kkO false none) (gramData vecs3 [0, 1, 1])).1.inertia = ((64 / 25 : ℚ) : WithTop ℚ) ∧
    ∑ x ∈ range 3, featureDist 3 (fun _ => (1 : ℚ)) (gram2 vecs3) (fun i => [0, 1, 1].getD i 0) x ([0, 1, 1].getD x 0) = 32 / 25 := by
  refine ⟨by decide +kernel, by decide +kernel, by decide +kernel⟩

/-- Five unit vectors. -/
def vecs5 : List (ℚ × ℚ) := [(-1, 0), (0, -1), (1, 0), (0, 1), (3 / 5, 4 / 5)]

/-- False: a further round never makes the inertia worse. From the same draw, two rounds end with a larger `inertia_` than one, with
the same labels. -/
theorem C67_false_descent :
    (kkFit { kkO false none with maxIter := 1 } (gramData vecs5 [0, 0, 1, 0, 0])).1.inertia = ((31 / 5 : ℚ) : WithTop ℚ) ∧
    (kkFit { kkO false none with maxIter := 2 } (gramData vecs5 [0, 0, 1, 0, 0])).1.inertia = ((94 / 15 : ℚ) : WithTop ℚ) ∧
    (31 / 5 : ℚ) < 94 / 15 ∧
    (kkFit { kkO false none with maxIter := 1 } (gramData vecs5 [0, 0, 1, 0, 0])).1.labels =
      (kkFit { kkO false none with maxIter := 2 } (gramData vecs5 [0, 0, 1, 0, 0])).1.labels := by
  refine ⟨by decide +kernel, by decide +kernel, by decide +kernel, by decide +kernel⟩

/-- Four unit vectors. -/
def vecsP : List (ℚ × ℚ) := [(1, 0), (0, 1), (-1, 0), (3 / 5, 4 / 5)]

/-- False: `fit(X).predict(X)` is `fit_predict(X)`. -/
theorem C67_false_fit_predict :
    (kkFit { kkO false none with maxIter := 1 } (gramData vecsP [0, 1, 0, 0])).1.labels = some [0, 1, 1, 1] ∧
    (kkPredict (kkFit { kkO false none with maxIter := 1 } (gramData vecsP [0, 1, 0, 0])).1
      ⟨4, fun _ _ _ => 0, fun _ => .ok (gram2 vecsP), fun _ => 1⟩).2 = .ok [0, 1, 1, 0] := by
  refine ⟨by decide +kernel, by decide +kernel⟩

example : usedDist 2 (fun _ => (1 : ℚ)) (gram2 [(1, 0), (0, 1)] 0) (fun _ => 0) 0 = 1 ∧
    featureDist 2 (fun _ => (1 : ℚ)) (gram2 [(1, 0), (0, 1)]) (fun _ => 0) 0 0 = 1 / 2 ∧ gram2 [(1, 0), (0, 1)] 0 0 = 1 := by decide +kernel

example : usedDist 2 (fun _ => (1 : ℚ)) (gram2 [(1, 0), (0, 1)] 0) (fun _ => 0) 0 = featureDist 2 (fun _ => (1 : ℚ)) (gram2 [(1, 0), (0, 1)]) (fun _ => 0) 0 0 +
    (1 - meanNorm 2 (fun _ => (1 : ℚ)) (gram2 [(1, 0), (0, 1)]) (fun _ => 0) 0) :=
  (C67_distance_partial 2 (fun _ => (1 : ℚ)) (gram2 [(1, 0), (0, 1)]) (fun _ => 0) 0 0 (by decide +kernel)).1

example : FirstLeast 2 (featureDist 2 (fun _ => (1 : ℚ)) (gram2 [(1, 0), (0, 1), (3 / 5, 4 / 5)]) (fun i => i) 2) 1 := by
  rw [← C67_nearest_partial 2 2 (fun _ => (1 : ℚ)) (gram2 [(1, 0), (0, 1), (3 / 5, 4 / 5)]) (fun i => i) 2 1
    (by intro i hi j hj; interval_cases i <;> interval_cases j <;> decide +kernel)]
  refine ⟨by omega, fun j hj => ?_⟩
  interval_cases j
  · exact ⟨by decide +kernel, fun _ => by decide +kernel⟩
  · exact ⟨by decide +kernel, fun h => by omega⟩

example : (64 / 25 : ℚ) = ∑ x ∈ range 3, featureDist 3 (fun _ => (1 : ℚ)) (gram2 vecs3) (fun i => [0, 1, 1].getD i 0) x ([0, 1, 1].getD x 0) +
    ∑ x ∈ range 3, (1 - meanNorm 3 (fun _ => (1 : ℚ)) (gram2 vecs3) (fun i => [0, 1, 1].getD i 0) ([0, 1, 1].getD x 0)) :=
  C67_inertia_partial (k := 2) (n := 3) (sw := fun _ => (1 : ℚ)) (M := gram2 vecs3) (lab := [0, 1, 1]) (lab' := [0, 1, 1])
    (by
      refine ⟨?_, ?_, rfl, ?_, by decide +kernel⟩
      · intro c hc; interval_cases c <;> simp
      · intro c hc; interval_cases c <;> simp
      · intro x hx
        refine ⟨by interval_cases x <;> decide, fun j hj => ?_⟩
        interval_cases x <;> interval_cases j <;> refine ⟨by decide +kernel, fun h => ?_⟩ <;> first | decide +kernel | simp at h)
    (by intro x hx; interval_cases x <;> decide +kernel)

example : (kkPredict kkFitted ⟨2, fun _ i j => if i = j then 1 else 0, fun _ => .error .keyError, fun _ => 1⟩).2 = .ok [0, 1] := by
  rw [C67_predict_train kkFitted ⟨2, fun _ i j => if i = j then 1 else 0, fun _ => .error .keyError, fun _ => 1⟩
    (fun i j => if i = j then 1 else 0) [0, 1] rfl rfl rfl rfl rfl (fun _ _ => by simp)
    (by intro c hc; have : c < 2 := hc; interval_cases c <;> simp) (by decide)]
  refine ⟨0, ?_, ?_, rfl, ?_, by decide +kernel⟩
  · intro c hc; have : c < 2 := hc; interval_cases c <;> simp
  · intro c hc; have : c < 2 := hc; interval_cases c <;> simp
  · intro x hx
    have hx : x < 2 := hx
    refine ⟨by interval_cases x <;> decide, fun j hj => ?_⟩
    have hj : j < 2 := hj
    interval_cases x <;> interval_cases j <;> refine ⟨by decide +kernel, fun h => ?_⟩ <;> first | decide +kernel | simp at h

end Verif
