import Verif.Proofs.UnitsSeeds
import Verif.Props.C37
/-!
C91: the origin and the unit of the measurements. Barycenters, k-means, its seeds, DBSCAN and silhouettes follow a change of origin; they follow
a change of unit when the tolerances (and `eps`) are converted too. With the tolerances left at their defaults they do not (`C91_false_*`).
-/
set_option linter.unusedSectionVars false
namespace Verif
open Spec

section Dba
variable {K : Type} [Field K] [LinearOrder K] [IsStrictOrderedRing K]

/-- `dtw_barycenter_averaging` (majorize-minimize), from given initial barycenter: samples `a * x + t` give the barycenter `a * b + t`, costs
`a ^ 2` times as large, the same number of rounds, the same warning and the same errors, when `tol` is converted as the costs are. -/
theorem C91_dba {a : K} (ha : a ≠ 0) {t : List K} {d : ℕ} (ht : t.length = d) {xs : List (List (List K))}
    (hxs : ∀ x ∈ xs, ∀ r ∈ x, r.length = d) (ws : List K) (gc : DbaGc) (radius : Option ℕ) (slope : Option ℚ) (tol : K) {size : ℕ}
    {b : List (List K)} (hb : Rect size d b) (n : ℕ) :
    dbaLoop ⟨gc, radius, slope, a ^ 2 * tol, argmin3⟩ (xs.map (rescaleSeries a t)) ws size d n (rescaleSeries a t b) =
      (dbaLoop ⟨gc, radius, slope, tol, argmin3⟩ xs ws size d n b).map fun r => (rescaleSeries a t r.1, r.2.1.map (rescaleCost a), r.2.2) :=
  dbaLoop_rescale ha ht hxs ws ⟨gc, radius, slope, tol, argmin3⟩ (argmin3_unitFree ha) hb n

/-- The same of `dtw_barycenter_averaging_petitjean`. -/
theorem C91_petitjean {a : K} (ha : a ≠ 0) {t : List K} {d : ℕ} (ht : t.length = d) {xs : List (List (List K))}
    (hxs : ∀ x ∈ xs, ∀ r ∈ x, r.length = d) (ws : List K) (gc : DbaGc) (radius : Option ℕ) (slope : Option ℚ) (tol : K) {size : ℕ}
    {b : List (List K)} (hb : Rect size d b) (n : ℕ) :
    petitjeanLoop ⟨gc, radius, slope, a ^ 2 * tol, argmin3⟩ (xs.map (rescaleSeries a t)) ws size d n (rescaleSeries a t b) =
      (petitjeanLoop ⟨gc, radius, slope, tol, argmin3⟩ xs ws size d n b).map fun r =>
        (rescaleSeries a t r.1, r.2.1.map (rescaleCost a), r.2.2) :=
  petitjeanLoop_rescale ha ht hxs ws ⟨gc, radius, slope, tol, argmin3⟩ (argmin3_unitFree ha) hb n

theorem rescaleCost_one (c : WithTop K) : rescaleCost 1 c = c := by
  induction c using WithTop.recTopCoe with
  | top => rfl
  | coe c => rw [rescaleCost_coe, one_pow, one_mul]

/-- Another origin: the barycenter is translated, with the same tolerance; costs, warning and errors are the same. -/
theorem C91_dba_origin {t : List K} {d : ℕ} (ht : t.length = d) {xs : List (List (List K))}
    (hxs : ∀ x ∈ xs, ∀ r ∈ x, r.length = d) (ws : List K) (gc : DbaGc) (radius : Option ℕ) (slope : Option ℚ) (tol : K) {size : ℕ}
    {b : List (List K)} (hb : Rect size d b) (n : ℕ) :
    dbaLoop ⟨gc, radius, slope, tol, argmin3⟩ (xs.map (rescaleSeries 1 t)) ws size d n (rescaleSeries 1 t b) =
      (dbaLoop ⟨gc, radius, slope, tol, argmin3⟩ xs ws size d n b).map fun r => (rescaleSeries 1 t r.1, r.2) := by
  have h := C91_dba (one_ne_zero (α := K)) ht hxs ws gc radius slope tol hb n
  rw [one_pow, one_mul] at h
  rw [h]
  have hc : rescaleCost (1 : K) = id := funext rescaleCost_one
  simp only [hc, List.map_id]


example : dbaLoop ⟨.code 0, none, none, 1 / 100000, argmin3⟩ [[[0], [0], [0]], [[1], [2], [3]]] [1, 1] 3 1 30 [[2], [3], [(0 : ℚ)]] =
      .ok ([[1/2], [1/2], [5/3]], [((23/2 : ℚ) : WithTop ℚ), ((4 : ℚ) : WithTop ℚ), ((25/8 : ℚ) : WithTop ℚ), ((17/6 : ℚ) : WithTop ℚ), ((17/6 : ℚ) : WithTop ℚ)], false) ∧
    dbaLoop ⟨.code 0, none, none, 1 / 100000, argmin3⟩ [[[10], [10], [10]], [[11], [12], [13]]] [1, 1] 3 1 30 [[12], [13], [(10 : ℚ)]] =
      .ok ([[21/2], [21/2], [35/3]], [((23/2 : ℚ) : WithTop ℚ), ((4 : ℚ) : WithTop ℚ), ((25/8 : ℚ) : WithTop ℚ), ((17/6 : ℚ) : WithTop ℚ), ((17/6 : ℚ) : WithTop ℚ)], false) := by decide +kernel

/-- Two series in metres and in kilometres, the same initial barycenter and the default `tol=1e-5`: barycenters of different shapes. -/
theorem C91_false_dba : ∃ (xs : List (List (List ℚ))) (b b1 b2 : List (List ℚ)) (a : ℚ) (h1 h2 : List (WithTop ℚ)) (w1 w2 : Bool), 0 < a ∧
    dbaLoop ⟨.code 0, none, none, 1 / 100000, argmin3⟩ xs [1, 1] 3 1 30 b = .ok (b1, h1, w1) ∧
    dbaLoop ⟨.code 0, none, none, 1 / 100000, argmin3⟩ (xs.map (rescaleSeries a [0])) [1, 1] 3 1 30 (rescaleSeries a [0] b) = .ok (b2, h2, w2) ∧
    b2 ≠ rescaleSeries a [0] b1 := by
  refine ⟨[[[0], [0], [0]], [[1], [2], [3]]], [[2], [3], [0]], [[1/2], [1/2], [5/3]], [[1/2000], [1/1000], [3/2000]], 1 / 1000, [((23/2 : ℚ) : WithTop ℚ), ((4 : ℚ) : WithTop ℚ), ((25/8 : ℚ) : WithTop ℚ), ((17/6 : ℚ) : WithTop ℚ), ((17/6 : ℚ) : WithTop ℚ)], [((23/2000000 : ℚ) : WithTop ℚ), ((1/250000 : ℚ) : WithTop ℚ)],
    false, false, by norm_num, ?_⟩
  decide +kernel

end Dba

section Km

theorem stateIn_abs {C : Type} (ψ : C → C) (a : ℝ) : stateIn ψ |a| = stateIn ψ a := by
  funext σ
  simp only [stateIn, rescaleCost, sq_abs]

theorem bestIn_abs {C : Type} (ψ : C → C) (a : ℝ) : bestIn ψ |a| = bestIn ψ a := by
  funext σ
  simp only [bestIn, rescaleCost, sq_abs]

/-- k-means, any metric and barycenter that follow the change of unit. -/
theorem C91_kmeans {P C K : Type} [Field K] [LinearOrder K] [IsStrictOrderedRing K] {φ : P → P} {ψ : C → C} {s : K} {Ok : C → Prop}
    {e e' : KmEnv P C K} (h : Remeasured φ ψ s Ok e e') (hs : 0 < s) {inits : ℕ → List C}
    (hi : ∀ k, (inits k).length = e.nClusters ∧ ∀ c ∈ inits k, Ok c) (σ : KmState C K) :
    kmFit e' (fun k => (inits k).map ψ) (stateIn ψ s σ) =
      (bestIn ψ s (kmFit e inits σ).1, stateIn ψ s (kmFit e inits σ).2.1, (kmFit e inits σ).2.2) :=
  kmFit_remeasured h hs hi σ

/-- `TimeSeriesKMeans(metric="euclidean").fit`: samples `a * x + t`, initial centroids and tolerance converted, give the same labels, `n_iter_`,
attempts and errors; centroids `a * c + t` and `a ^ 2` times the inertia. -/
theorem C91_kmeans_euclidean {a : ℝ} (ha : a ≠ 0) {t : List ℝ} {n d : ℕ} (ht : t.length = d)
    (e : KmEnv (List (List ℝ)) (List (List ℝ)) ℝ) (hdist : e.dist = kmEucDist) (hid : e.idist = kmEucDist) (hb : e.bary = kmMean n d)
    (hdata : ∀ x ∈ e.data, Rect n d x) (inits : ℕ → List (List (List ℝ)))
    (hi : ∀ k, (inits k).length = e.nClusters ∧ ∀ c ∈ inits k, Rect n d c) (σ : KmState (List (List ℝ)) ℝ) :
    kmFit { e with data := e.data.map (rescaleSeries a t), tol := a ^ 2 * e.tol } (fun k => (inits k).map (rescaleSeries a t))
        (stateIn (rescaleSeries a t) a σ) =
      (bestIn (rescaleSeries a t) a (kmFit e inits σ).1, stateIn (rescaleSeries a t) a (kmFit e inits σ).2.1, (kmFit e inits σ).2.2) := by
  have hr : Remeasured (rescaleSeries a t) (rescaleSeries a t) |a| (Rect n d) e
      { e with data := e.data.map (rescaleSeries a t), tol := a ^ 2 * e.tol } := by
    refine ⟨rfl, rfl, rfl, rfl, by rw [sq_abs], ?_, ?_, ?_, ?_⟩
    · intro x hx c hc
      simp only [hdist]
      exact kmEucDist_rescale ht (hdata x hx).2 hc.2
    · intro x hx c hc
      simp only [hid]
      exact kmEucDist_rescale ht (hdata x hx).2 hc.2
    · intro M _ _ c _
      rw [hb]
      exact ⟨by simp [kmMean], by simp [kmMean]⟩
    · intro M hM hMd c _
      simp only [hb]
      exact kmMean_rescale a ht hM (fun x hx => hdata x (hMd x hx)) c _
  have := kmFit_remeasured hr (abs_pos.2 ha) hi σ
  rwa [stateIn_abs, bestIn_abs] at this

/-- `TimeSeriesKMeans(metric="dtw").fit`: the same, the tolerance inside the barycenters (which k-means does not let one choose) being converted
too. -/
theorem C91_kmeans_dtw {a : ℝ} (ha : a ≠ 0) {t : List ℝ} {size d : ℕ} (ht : t.length = d)
    (e : KmEnv (List (List ℝ)) (List (List ℝ)) ℝ) (cfg : DbaCfg ℝ) (ham : cfg.am = argmin3)
    (hdist : e.dist = kmDtwDist cfg.gc.toCode cfg.radius cfg.slope) (hid : e.idist = e.dist) (hb : e.bary = kmDtwBary cfg size d)
    (hdata : ∀ x ∈ e.data, ∀ r ∈ x, r.length = d) (inits : ℕ → List (List (List ℝ)))
    (hi : ∀ k, (inits k).length = e.nClusters ∧ ∀ c ∈ inits k, Rect size d c) (σ : KmState (List (List ℝ)) ℝ) :
    kmFit { e with
        data := e.data.map (rescaleSeries a t), tol := a ^ 2 * e.tol, bary := kmDtwBary { cfg with tol := a ^ 2 * cfg.tol } size d }
        (fun k => (inits k).map (rescaleSeries a t)) (stateIn (rescaleSeries a t) a σ) =
      (bestIn (rescaleSeries a t) a (kmFit e inits σ).1, stateIn (rescaleSeries a t) a (kmFit e inits σ).2.1, (kmFit e inits σ).2.2) := by
  have hu : UnitFree a cfg.am := ham ▸ argmin3_unitFree ha
  have hr : Remeasured (rescaleSeries a t) (rescaleSeries a t) |a| (Rect size d) e
      { e with
        data := e.data.map (rescaleSeries a t), tol := a ^ 2 * e.tol, bary := kmDtwBary { cfg with tol := a ^ 2 * cfg.tol } size d } := by
    refine ⟨rfl, rfl, rfl, rfl, by rw [sq_abs], ?_, ?_, ?_, ?_⟩
    · intro x hx c hc
      simp only [hdist]
      exact kmDtwDist_rescale ha ht (hdata x hx) hc.2 _ _ _
    · intro x hx c hc
      simp only [hid, hdist]
      exact kmDtwDist_rescale ha ht (hdata x hx) hc.2 _ _ _
    · intro M _ hMd c hc
      rw [hb]
      exact (kmDtwBary_rescale ha ht (fun x hx => hdata x (hMd x hx)) cfg hu hc).2
    · intro M _ hMd c hc
      simp only [hb]
      exact (kmDtwBary_rescale ha ht (fun x hx => hdata x (hMd x hx)) cfg hu hc).1
  have := kmFit_remeasured hr (abs_pos.2 ha) hi σ
  rwa [stateIn_abs, bestIn_abs] at this

/-- Another origin, `metric="euclidean"`, a new estimator and the same hyper-parameters: the same labels, inertia, number of iterations and error;
the centroids are translated. -/
theorem C91_origin_euclidean {t : List ℝ} {n d : ℕ} (ht : t.length = d)
    (e : KmEnv (List (List ℝ)) (List (List ℝ)) ℝ) (hdist : e.dist = kmEucDist) (hid : e.idist = kmEucDist) (hb : e.bary = kmMean n d)
    (hdata : ∀ x ∈ e.data, Rect n d x) (inits : ℕ → List (List (List ℝ)))
    (hi : ∀ k, (inits k).length = e.nClusters ∧ ∀ c ∈ inits k, Rect n d c) :
    let fit := kmFit e inits ⟨none, ⊤, none, false, 0, 0⟩
    let fit' := kmFit { e with data := e.data.map (rescaleSeries 1 t) } (fun k => (inits k).map (rescaleSeries 1 t)) ⟨none, ⊤, none, false, 0, 0⟩
    fit'.2.2 = fit.2.2 ∧ fit'.2.1.labels = fit.2.1.labels ∧ fit'.2.1.inertia = fit.2.1.inertia ∧ fit'.2.1.nIter = fit.2.1.nIter ∧
      fit'.2.1.centers = fit.2.1.centers.map (List.map (rescaleSeries 1 t)) := by
  have h := C91_kmeans_euclidean (one_ne_zero (α := ℝ)) ht e hdist hid hb hdata inits hi ⟨none, ⊤, none, false, 0, 0⟩
  have h0 : stateIn (rescaleSeries 1 t) 1 (⟨none, ⊤, none, false, 0, 0⟩ : KmState (List (List ℝ)) ℝ) = ⟨none, ⊤, none, false, 0, 0⟩ := by
    simp [stateIn, rescaleCost_top]
  rw [h0, one_pow, one_mul] at h
  simp only [h, stateIn, rescaleCost_one, and_self]

/-- The same of `metric="dtw"`. -/
theorem C91_origin_dtw {t : List ℝ} {size d : ℕ} (ht : t.length = d)
    (e : KmEnv (List (List ℝ)) (List (List ℝ)) ℝ) (cfg : DbaCfg ℝ) (ham : cfg.am = argmin3)
    (hdist : e.dist = kmDtwDist cfg.gc.toCode cfg.radius cfg.slope) (hid : e.idist = e.dist) (hb : e.bary = kmDtwBary cfg size d)
    (hdata : ∀ x ∈ e.data, ∀ r ∈ x, r.length = d) (inits : ℕ → List (List (List ℝ)))
    (hi : ∀ k, (inits k).length = e.nClusters ∧ ∀ c ∈ inits k, Rect size d c) :
    let fit := kmFit e inits ⟨none, ⊤, none, false, 0, 0⟩
    let fit' := kmFit { e with data := e.data.map (rescaleSeries 1 t) } (fun k => (inits k).map (rescaleSeries 1 t)) ⟨none, ⊤, none, false, 0, 0⟩
    fit'.2.2 = fit.2.2 ∧ fit'.2.1.labels = fit.2.1.labels ∧ fit'.2.1.inertia = fit.2.1.inertia ∧ fit'.2.1.nIter = fit.2.1.nIter ∧
      fit'.2.1.centers = fit.2.1.centers.map (List.map (rescaleSeries 1 t)) := by
  have h := C91_kmeans_dtw (one_ne_zero (α := ℝ)) ht e cfg ham hdist hid hb hdata inits hi ⟨none, ⊤, none, false, 0, 0⟩
  have h0 : stateIn (rescaleSeries 1 t) 1 (⟨none, ⊤, none, false, 0, 0⟩ : KmState (List (List ℝ)) ℝ) = ⟨none, ⊤, none, false, 0, 0⟩ := by
    simp [stateIn, rescaleCost_top]
  have he : ({ e with bary := kmDtwBary cfg size d } : KmEnv (List (List ℝ)) (List (List ℝ)) ℝ) = e := by rw [← hb]
  rw [h0, one_pow, one_mul, one_mul] at h
  have he' : ({ e with data := e.data.map (rescaleSeries 1 t), tol := e.tol, bary := kmDtwBary { cfg with tol := cfg.tol } size d } :
      KmEnv (List (List ℝ)) (List (List ℝ)) ℝ) = { e with data := e.data.map (rescaleSeries 1 t) } := by rw [← hb]
  rw [he'] at h
  simp only [h, stateIn, rescaleCost_one, and_self]

/-- `predict` of new series, with centroids in the new unit. -/
theorem C91_predict {a : ℝ} (ha : a ≠ 0) {t : List ℝ} {n d : ℕ} (ht : t.length = d) (e e' : KmEnv (List (List ℝ)) (List (List ℝ)) ℝ)
    (cfg : DbaCfg ℝ) (h : (e.dist = kmEucDist ∧ e'.dist = kmEucDist) ∨
      (e.dist = kmDtwDist cfg.gc.toCode cfg.radius cfg.slope ∧ e'.dist = kmDtwDist cfg.gc.toCode cfg.radius cfg.slope))
    (σ : KmState (List (List ℝ)) ℝ) (hσ : ∀ cs, σ.centers = some cs → ∀ c ∈ cs, Rect n d c)
    (X : List (List (List ℝ))) (hX : ∀ x ∈ X, ∀ r ∈ x, r.length = d) :
    kmPredict e' (stateIn (rescaleSeries a t) a σ) (X.map (rescaleSeries a t)) = kmPredict e σ X := by
  unfold kmPredict
  cases hc : σ.centers with
  | none => simp [stateIn, hc]
  | some cs =>
    simp only [stateIn, hc, Option.map_some, Except.ok.injEq, kmLabels, List.map_map]
    refine List.map_congr_left fun x hx => ?_
    have hd : ∀ c ∈ cs, (e'.dist (rescaleSeries a t x) ∘ rescaleSeries a t) c = ((|a| * ·) ∘ e.dist x) c := by
      intro c hcc
      have hr := hσ cs hc c hcc
      simp only [Function.comp]
      rcases h with ⟨h1, h2⟩ | ⟨h1, h2⟩ <;> rw [h1, h2]
      · exact kmEucDist_rescale ht (hX x hx) hr.2
      · exact kmDtwDist_rescale ha ht (hX x hx) hr.2 _ _ _
    simp only [Function.comp, List.map_map]
    rw [List.map_congr_left hd, ← List.map_map]
    exact argminL_mono (|a| * ·) (fun x y => mul_lt_mul_iff_right₀ (abs_pos.2 ha)) _

/-- Four univariate series of two samples, two clusters. -/
noncomputable def four : KmEnv (List (List ℝ)) (List (List ℝ)) ℝ :=
  ⟨[[[0], [1]], [[1], [1]], [[10], [11]], [[11], [11]]], 2, 50, 1, 1 / 1000000, kmEucDist, kmEucDist, kmMean 2 1⟩

example : ∃ r, kmFit { four with data := [[[32], [33.8]], [[33.8], [33.8]], [[50], [51.8]], [[51.8], [51.8]]], tol := 1.8 ^ 2 * four.tol }
      (fun _ => [[[32], [33.8]], [[50], [51.8]]]) ⟨none, ⊤, none, false, 0, 0⟩ = r ∧
    r.2.1.labels = (kmFit four (fun _ => [[[0], [1]], [[10], [11]]]) ⟨none, ⊤, none, false, 0, 0⟩).2.1.labels := by
  have h := C91_kmeans_euclidean (a := 1.8) (t := [32]) (n := 2) (d := 1) (by norm_num) rfl four rfl rfl rfl (by simp [four, Rect])
    (fun _ => [[[0], [1]], [[10], [11]]]) (by simp [four, Rect]) ⟨none, ⊤, none, false, 0, 0⟩
  have h0 : stateIn (rescaleSeries 1.8 [32]) 1.8 (⟨none, ⊤, none, false, 0, 0⟩ : KmState (List (List ℝ)) ℝ) = ⟨none, ⊤, none, false, 0, 0⟩ := by
    simp [stateIn, rescaleCost_top]
  have h1 : four.data.map (rescaleSeries 1.8 [32]) = [[[32], [33.8]], [[33.8], [33.8]], [[50], [51.8]], [[51.8], [51.8]]] := by
    norm_num [four, rescaleSeries, rescale]
  have h2 : ([[[0], [1]], [[10], [11]]] : List (List (List ℝ))).map (rescaleSeries 1.8 [32]) = [[[32], [33.8]], [[50], [51.8]]] := by
    norm_num [rescaleSeries, rescale]
  rw [h0, h1, h2] at h
  exact ⟨_, h, rfl⟩

/-- The same series under DTW. -/
noncomputable def fourDtw : KmEnv (List (List ℝ)) (List (List ℝ)) ℝ :=
  { four with
    dist := kmDtwDist 2 (some 1) none, idist := kmDtwDist 2 (some 1) none,
    bary := kmDtwBary ⟨.code 2, some 1, none, 1 / 100000, argmin3⟩ 2 1 }

example := C91_origin_dtw (t := [7]) (size := 2) (d := 1) rfl fourDtw ⟨.code 2, some 1, none, 1 / 100000, argmin3⟩ rfl rfl rfl rfl
  (by simp [fourDtw, four]) (fun _ => [[[0], [1]], [[10], [11]]]) (by simp [fourDtw, four, Rect])

end Km

/-- k-means++: the same draws choose the same series when all distances are multiplied by the same factor. -/
theorem C91_seeds {S K : Type} [Field K] [LinearOrder K] [IsStrictOrderedRing K] {n : ℕ} {X : ℕ → S} {dist dist' : S → S → K} {s : K} (hs : 0 < s)
    (h : ∀ x y, dist' x y = s * dist x y) (first : ℕ) (draws : ℕ → List K) (k : ℕ) :
    kppCenters X (kppRun n X dist' first draws k) = kppCenters X (kppRun n X dist first draws k) := by
  rw [kppRun_mul hs h]
  rfl

example : kppCenters (fun i => ([0, 1, 10, 11, 30] : List ℚ).getD i 0)
      (kppRun 5 (fun i => ([0, 1, 10, 11, 30] : List ℚ).getD i 0) (fun x y => |x - y|) 1 (fun _ => [1 / 10, 9 / 10]) 2) = [1, 30, 10] ∧
    kppCenters (fun i => ([0, 1, 10, 11, 30] : List ℚ).getD i 0)
      (kppRun 5 (fun i => ([0, 1, 10, 11, 30] : List ℚ).getD i 0) (fun x y => 3 * |x - y|) 1 (fun _ => [1 / 10, 9 / 10]) 2) = [1, 30, 10] := by
  decide +kernel

/-- DBSCAN: the same fit when `eps` is in the unit of the distances. -/
theorem C91_dbscan {K : Type} [Field K] [LinearOrder K] [IsStrictOrderedRing K] {D : ℕ → ℕ → K} {s : K} (hs : 0 < s) (eps : K) (minTs n sz d : ℕ) :
    dbFit (fun i j => s * D i j) (s * eps) minTs n sz d = dbFit D eps minTs n sz d :=
  dbFit_mul hs eps minTs n sz d

example : (dbFit (fun i j : ℕ => |((i : ℚ) - j) * 2|) 5 3 5 7 1).map (fun f => (f.coreIndices, f.labels 4)) = some ([0, 1, 2, 3, 4], some 0) ∧
    (dbFit (fun i j : ℕ => 10 * |((i : ℚ) - j) * 2|) 50 3 5 7 1).map (fun f => (f.coreIndices, f.labels 4)) = some ([0, 1, 2, 3, 4], some 0) := by
  decide +kernel

/-- Silhouettes do not depend on the unit of the distances. -/
theorem C91_silhouette {L : Type} [LinearOrder L] (n : ℕ) (lab : ℕ → L) (D : ℕ → ℕ → ℝ) {s : ℝ} (hs : 0 < s) :
    silScore n lab (fun i j => s * D i j) = silScore n lab D := by
  unfold silScore
  rw [funext (silSample_mul n lab D hs)]

example : silScore 4 (fun i => i / 2) (fun i j => 1000 * |(i : ℝ) - j|) = silScore 4 (fun i => i / 2) (fun i j => |(i : ℝ) - j|) :=
  C91_silhouette 4 _ _ (by norm_num)

/-- The same six lengths in metres and in kilometres, the same initial centroids and the default `tol=1e-6`: different labels. -/
theorem C91_false_kmeans : ∃ (data init : List ℚ) (a : ℚ), 0 < a ∧
    (kmFit (pts (data.map (a * ·)) 2 50 1) (fun _ => init.map (a * ·)) km0).2.2 = none ∧ (kmFit (pts data 2 50 1) (fun _ => init) km0).2.2 = none ∧
    (kmFit (pts (data.map (a * ·)) 2 50 1) (fun _ => init.map (a * ·)) km0).2.1.labels ≠ (kmFit (pts data 2 50 1) (fun _ => init) km0).2.1.labels := by
  refine ⟨[0, 1, 3, 4, 5, 11], [0, 1], 1 / 1000, by norm_num, ?_⟩
  decide +kernel

example : (kmFit (pts [0, 1, 3, 4, 5, 11] 2 50 1) (fun _ => [0, 1]) km0).2.1.labels = some [0, 0, 0, 0, 0, 1] ∧
    (kmFit (pts ([0, 1, 3, 4, 5, 11].map (1 / 1000 * ·)) 2 50 1) (fun _ => [0, 1].map (1 / 1000 * ·)) km0).2.1.labels = some [0, 0, 0, 0, 1, 1] ∧
    (kmFit { pts ([0, 1, 3, 4, 5, 11].map (1 / 1000 * ·)) 2 50 1 with tol := (1 / 1000) ^ 2 * (1 / 1000000) } (fun _ => [0, 1].map (1 / 1000 * ·)) km0).2.1.labels =
      some [0, 0, 0, 0, 0, 1] := by decide +kernel

end Verif
