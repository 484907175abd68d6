import Verif.Proofs.OrderKm
import Verif.Proofs.OrderIndex
import Verif.Proofs.OrderData
import Verif.Proofs.CdistOf
import Verif.Model.KMeansMetric
import Verif.Props.C39
import Verif.Props.C71
import Mathlib.Logic.Equiv.Basic
/-!
C93: the order in which the series of a dataset are given does not matter.
-/
set_option linter.unusedSectionVars false
namespace Verif
open Spec

section Data
variable {α K : Type} [Field K] [LinearOrder K]

/-- Full claim: `to_time_series_dataset` of reordered series is the reordered array. Missing (see `C93_false_features`): series with different
numbers of features. -/
theorem C93_dataset_partial {d : ℕ} {l l' : List (Ts α)} (h : l.Perm l') (hd : ∀ t ∈ l, t.d = d) {X : Arr3 α} (hX : toDataset (.series l) = .ok X) :
    ∃ X', toDataset (.series l') = .ok X' ∧ X'.sz = X.sz ∧ X'.d = X.d ∧ X'.data.Perm X.data := by
  have hz : ∀ m : List (Ts α), (m.map fun t => (t, ())).map Prod.fst = m := fun m => by simp [List.map_map, Function.comp_def]
  have := toDatasetSeries_order (β := Unit) d (h.map fun t => (t, ())) (by simpa using hd)
  rw [hz, hz] at this
  rw [toDataset_series] at hX
  rcases this with ⟨⟨e, he⟩, _⟩ | ⟨g, sz, dd, hg, hg'⟩
  · rw [he] at hX; cases hX
  · rw [hg] at hX
    cases hX
    exact ⟨_, hg', rfl, rfl, (h.map g).symm⟩

example : ∃ X', toDataset (.series [⟨1, [[some (3 : ℚ)], [some 4]]⟩, ⟨1, [[some 1]]⟩]) = .ok X' ∧ X'.sz = 2 ∧ X'.d = 1 ∧
    X'.data.Perm [[[some 1], [none]], [[some 3], [some 4]]] :=
  C93_dataset_partial (l := [⟨1, [[some 1]]⟩, ⟨1, [[some 3], [some 4]]⟩]) (List.Perm.swap ..) (d := 1) (by simp) (X := ⟨2, 1, _⟩) rfl

/-- False in general: the number of features is that of the first series. With two features first, a series of one feature is repeated; with one
feature first, the same two series are refused. -/
theorem C93_false_features : toDataset (.series [⟨2, [[some (1 : ℚ), some 2]]⟩, ⟨1, [[some 3]]⟩]) = .ok ⟨1, 2, [[[some 1, some 2]], [[some 3, some 3]]]⟩ ∧
    toDataset (.series [⟨1, [[some (3 : ℚ)]]⟩, ⟨2, [[some 1, some 2]]⟩]) = .error .valueError :=
  ⟨rfl, rfl⟩

/-- `euclidean_barycenter`, weights being reordered with the series. -/
theorem C93_euclidean {d : ℕ} {z z' : List (Ts K × K)} (h : z.Perm z') (hd : ∀ p ∈ z, p.1.d = d) :
    (euclideanBarycenter (.series (z'.map Prod.fst)) (some (z'.map Prod.snd))).toOption =
      (euclideanBarycenter (.series (z.map Prod.fst)) (some (z.map Prod.snd))).toOption :=
  euclideanBarycenter_order h hd (by simp [setWeights]) (by simp [setWeights])

theorem setWeights_none_pairs (l : List (Ts K)) : setWeights (none : Option (List K)) (l.map fun t => (t, (1 : K))).length = (l.map fun t => (t, (1 : K))).map Prod.snd := by
  simp [setWeights, List.map_map, Function.comp_def, List.map_const']

/-- The same without weights. -/
theorem C93_euclidean_uniform {d : ℕ} {l l' : List (Ts K)} (h : l.Perm l') (hd : ∀ t ∈ l, t.d = d) :
    (euclideanBarycenter (.series l') none).toOption = (euclideanBarycenter (.series l) none).toOption := by
  have hz : ∀ m : List (Ts K), (m.map fun t => (t, (1 : K))).map Prod.fst = m := fun m => by simp [List.map_map, Function.comp_def]
  have := euclideanBarycenter_order (h.map fun t => (t, (1 : K))) (d := d) (by simpa using hd) (setWeights_none_pairs l) (setWeights_none_pairs l')
  rwa [hz, hz] at this

example : (euclideanBarycenter (.series [⟨1, [[some (1 : ℚ)], [some 2]]⟩, ⟨1, [[some 5], [some 4]]⟩]) (some [3, 1])).toOption = some [[some 2], [some (5 / 2)]] ∧
    (euclideanBarycenter (.series [⟨1, [[some (5 : ℚ)], [some 4]]⟩, ⟨1, [[some 1], [some 2]]⟩]) (some [1, 3])).toOption = some [[some 2], [some (5 / 2)]] := by
  decide +kernel

/-- `dtw_barycenter_averaging`, all parameters: the same barycenter, with the default start or a given one. -/
theorem C93_dba (cfg : DbaCfg K) {d : ℕ} {z z' : List (Ts K × K)} (h : z.Perm z') (hd : ∀ p ∈ z, p.1.d = d)
    (size : Option ℕ) (init : Option (List (List K))) (maxIter nInit : ℕ) :
    (dba cfg (.series (z'.map Prod.fst)) size init maxIter (some (z'.map Prod.snd)) nInit).toOption =
      (dba cfg (.series (z.map Prod.fst)) size init maxIter (some (z.map Prod.snd)) nInit).toOption :=
  dba_order cfg h hd (by simp [setWeights]) (by simp [setWeights]) size init maxIter nInit

/-- The same without weights. -/
theorem C93_dba_uniform (cfg : DbaCfg K) {d : ℕ} {l l' : List (Ts K)} (h : l.Perm l') (hd : ∀ t ∈ l, t.d = d)
    (size : Option ℕ) (init : Option (List (List K))) (maxIter nInit : ℕ) :
    (dba cfg (.series l') size init maxIter none nInit).toOption = (dba cfg (.series l) size init maxIter none nInit).toOption := by
  have hz : ∀ m : List (Ts K), (m.map fun t => (t, (1 : K))).map Prod.fst = m := fun m => by simp [List.map_map, Function.comp_def]
  have := dba_order cfg (h.map fun t => (t, (1 : K))) (d := d) (by simpa using hd) (setWeights_none_pairs l) (setWeights_none_pairs l') size init maxIter nInit
  rwa [hz, hz] at this

example : (dba ⟨.code 0, none, none, 1 / 100000, argmin3⟩ (.series [⟨1, [[some (0 : ℚ)], [some 0]]⟩, ⟨1, [[some 1], [some 2], [some 3]]⟩]) none none 5 none 1).toOption =
      (dba ⟨.code 0, none, none, 1 / 100000, argmin3⟩ (.series [⟨1, [[some (1 : ℚ)], [some 2], [some 3]]⟩, ⟨1, [[some 0], [some 0]]⟩]) none none 5 none 1).toOption ∧
    (dba ⟨.code 0, none, none, 1 / 100000, argmin3⟩ (.series [⟨1, [[some (0 : ℚ)], [some 0]]⟩, ⟨1, [[some 1], [some 2], [some 3]]⟩]) none none 5 none 1).toOption ≠ none := by
  decide +kernel

/-- `dtw_barycenter_averaging_petitjean`: barycenter, costs of all rounds and the warning. -/
theorem C93_petitjean (cfg : DbaCfg K) {z z' : List (List (List K) × K)} (h : z.Perm z') (size d n : ℕ) (b : List (List K)) :
    (petitjeanLoop cfg (z'.map Prod.fst) (z'.map Prod.snd) size d n b).toOption =
      (petitjeanLoop cfg (z.map Prod.fst) (z.map Prod.snd) size d n b).toOption :=
  petitjeanLoop_order cfg h size d n b

/-- `softdtw_barycenter`: the function given to the optimizer, value and gradient. -/
theorem C93_softdtw (γ : ℝ) (g : Option String) (radius : Option ℕ) (slope : Option ℚ) (junk : Mat Fl) {z z' : List (List (List ℝ) × ℝ)}
    (h : z.Perm z') (d : ℕ) (c : List (List ℝ)) :
    (softBaryObjective γ g radius slope junk z' d c).toOption = (softBaryObjective γ g radius slope junk z d c).toOption := by
  unfold softBaryObjective
  cases gcCode g with
  | error e => rfl
  | ok code => exact accSoftdtwFunc_order γ code radius slope junk c d h _ _

end Data

section Matrix
variable {S V : Type}

/-- Cross-distance matrices (all `cdist_*` of `_cdist_generic`) of reordered datasets: rows and columns follow. -/
theorem C93_cdist_cross {dist : S → S → Except PyErr V} {zero : V} {diag : Bool} {X X' Y Y' : List S} {σ τ : ℕ → ℕ}
    (hX : ∀ i, X'[i]? = X[σ i]?) (hY : ∀ j, Y'[j]? = Y[τ j]?) {run : List (Except PyErr V) → Except PyErr (List V)} (hrun : Execution run) {M M' : Mat V}
    (h : cdistGeneric dist zero X (some Y) diag run = .ok M) (h' : cdistGeneric dist zero X' (some Y') diag run = .ok M') {i j : ℕ}
    (hi : i < X'.length) (hj : j < Y'.length) : M' i j = M (σ i) (τ j) := by
  have hx := List.getElem?_eq_getElem hi
  have hy := List.getElem?_eq_getElem hj
  have h1 := cdistGeneric_cross hrun.faithful h' i j _ _ hx hy
  have h2 := cdistGeneric_cross hrun.faithful h (σ i) (τ j) _ _ (by rw [← hX, hx]) (by rw [← hY, hy])
  rw [h1] at h2
  exact Except.ok.inj h2

/-- The matrix of a reordered dataset with itself, for a symmetric function. -/
theorem C93_cdist_self {dist : S → S → Except PyErr V} (hsymm : ∀ x y, dist x y = dist y x) {zero : V} {diag : Bool} {X X' : List S} {σ : Equiv.Perm ℕ}
    (hX : ∀ i, X'[i]? = X[σ i]?) {run : List (Except PyErr V) → Except PyErr (List V)} (hrun : Execution run) {M M' : Mat V}
    (h : cdistGeneric dist zero X none diag run = .ok M) (h' : cdistGeneric dist zero X' none diag run = .ok M') {i j : ℕ}
    (hi : i < X'.length) (hj : j < X'.length) : M' i j = M (σ i) (σ j) := by
  have hx := List.getElem?_eq_getElem hi
  have hy := List.getElem?_eq_getElem hj
  obtain ⟨a1, a2, a3⟩ := cdistGeneric_self hrun.faithful h' i j _ _ hx hy
  obtain ⟨b1, b2, b3⟩ := cdistGeneric_self hrun.faithful h (σ i) (σ j) _ _ (by rw [← hX, hx]) (by rw [← hX, hy])
  rcases lt_trichotomy i j with hij | hij | hij
  · have ha := a1 hij
    rcases lt_trichotomy (σ i) (σ j) with hs | hs | hs
    · have := b1 hs; rw [ha] at this; exact Except.ok.inj this
    · exact absurd (σ.injective hs) hij.ne
    · have := b2 hs; rw [hsymm, ha] at this; exact Except.ok.inj this
  · subst hij
    have ha := a3 rfl
    have hb := b3 rfl
    cases diag with
    | true =>
      simp only [if_true] at ha hb
      rw [ha] at hb
      exact Except.ok.inj hb
    | false =>
      simp only [Bool.false_eq_true, if_false] at ha hb
      rw [ha, hb]
  · have ha := a2 hij
    rcases lt_trichotomy (σ i) (σ j) with hs | hs | hs
    · have := b1 hs; rw [hsymm, ha] at this; exact Except.ok.inj this
    · exact absurd (σ.injective hs) hij.ne'
    · have := b2 hs; rw [ha] at this; exact Except.ok.inj this

example : ∀ M M' : Mat ℚ, cdistGeneric (fun x y : ℚ => .ok |x - y|) 0 [1, 5, 7] none false seqRun = .ok M →
    cdistGeneric (fun x y : ℚ => .ok |x - y|) 0 [5, 1, 7] none false seqRun = .ok M' → M' 0 2 = M 1 2 := by
  intro M M' h h'
  have := C93_cdist_self (fun x y : ℚ => by rw [abs_sub_comm]) (σ := Equiv.swap 0 1) (X := [1, 5, 7]) (X' := [5, 1, 7]) (fun i => ?_) (Or.inl rfl) h h'
    (i := 0) (j := 2) (by simp) (by simp)
  · simpa [Equiv.swap_apply_def] using this
  · match i with
    | 0 => rfl
    | 1 => rfl
    | 2 => rfl
    | i + 3 => rw [Equiv.swap_apply_of_ne_of_ne (by omega) (by omega)]; simp

end Matrix

section Km
variable {P C K : Type} [Field K] [LinearOrder K]

/-- `TimeSeriesKMeans.fit` on reordered series from the same initial centroids: the same centroids, inertia, iterations, attempts and error, and
each series keeps its label; provided the average of a cluster does not depend on the order of its members. -/
theorem C93_kmeans (e : KmEnv P C K) {data' : List P} (h : e.data.Perm data') (hb : ∀ M M' c, M.Perm M' → (∀ x ∈ M, x ∈ e.data) → e.bary M' c = e.bary M c)
    (inits : ℕ → List C) {s s' : KmState C K} (hi : s'.iter = s.iter) :
    (kmFit { e with data := data' } inits s').1 = (kmFit e inits s).1 ∧
      SameButOrder e.data data' (kmFit e inits s).2.1 (kmFit { e with data := data' } inits s').2.1 ∧
      (kmFit { e with data := data' } inits s').2.2 = (kmFit e inits s).2.2 :=
  kmFit_reordered (e' := { e with data := data' }) ⟨h, rfl, rfl, rfl, rfl, rfl, rfl, hb⟩ inits hi

/-- `metric="euclidean"`. -/
theorem C93_kmeans_euclidean {n d : ℕ} (e : KmEnv (List (List ℝ)) (List (List ℝ)) ℝ) (hbary : e.bary = kmMean n d) {data' : List (List (List ℝ))}
    (h : e.data.Perm data') (inits : ℕ → List (List (List ℝ))) {s s' : KmState (List (List ℝ)) ℝ} (hi : s'.iter = s.iter) :
    (kmFit { e with data := data' } inits s').1 = (kmFit e inits s).1 ∧
      SameButOrder e.data data' (kmFit e inits s).2.1 (kmFit { e with data := data' } inits s').2.1 ∧
      (kmFit { e with data := data' } inits s').2.2 = (kmFit e inits s).2.2 := by
  refine C93_kmeans e h (fun M M' c hM _ => ?_) inits hi
  rw [hbary]
  unfold kmMean
  refine List.map_congr_left fun t _ => List.map_congr_left fun f _ => ?_
  rw [(hM.map _).sum_eq, hM.length_eq]

theorem kmDtwBary_perm (cfg : DbaCfg ℝ) (size d : ℕ) {M M' : List (List (List ℝ))} (h : M.Perm M') (c : List (List ℝ)) :
    kmDtwBary cfg size d M' c = kmDtwBary cfg size d M c := by
  have hz : ∀ m : List (List (List ℝ)), (m.map fun t => (t, (1 : ℝ))).map Prod.fst = m := fun m => by simp [List.map_map, Function.comp_def]
  have hw : ∀ m : List (List (List ℝ)), (m.map fun t => (t, (1 : ℝ))).map Prod.snd = setWeights none m.length := fun m => by
    simp [setWeights, List.map_map, Function.comp_def, List.map_const']
  have := petitjeanLoop_order cfg (h.map fun t => (t, (1 : ℝ))) size d 30 c
  rw [hz, hz, hw, hw] at this
  unfold kmDtwBary
  revert this
  generalize petitjeanLoop cfg M (setWeights none M.length) size d 30 c = r
  generalize petitjeanLoop cfg M' (setWeights none M'.length) size d 30 c = r'
  intro h
  cases r <;> cases r' <;> simp_all [Except.toOption]

/-- `metric="dtw"`, with its barycenters. -/
theorem C93_kmeans_dtw {size d : ℕ} (e : KmEnv (List (List ℝ)) (List (List ℝ)) ℝ) (cfg : DbaCfg ℝ) (hbary : e.bary = kmDtwBary cfg size d)
    {data' : List (List (List ℝ))} (h : e.data.Perm data') (inits : ℕ → List (List (List ℝ))) {s s' : KmState (List (List ℝ)) ℝ} (hi : s'.iter = s.iter) :
    (kmFit { e with data := data' } inits s').1 = (kmFit e inits s).1 ∧
      SameButOrder e.data data' (kmFit e inits s).2.1 (kmFit { e with data := data' } inits s').2.1 ∧
      (kmFit { e with data := data' } inits s').2.2 = (kmFit e inits s).2.2 :=
  C93_kmeans e h (fun M M' c hM _ => by rw [hbary]; exact kmDtwBary_perm cfg size d hM c) inits hi

/-- Numbers, their mean as centroid. -/
def kmLine (data : List ℚ) : KmEnv ℚ ℚ ℚ := ⟨data, 2, 10, 1, 1 / 1000, fun x c => |x - c|, fun x c => |x - c|, fun M _ => M.sum / M.length⟩

example : (kmFit (kmLine [0, 10, 1, 12]) (fun _ => [0, 9]) ⟨none, ⊤, none, false, 0, 0⟩).2.1.labels = some [0, 1, 0, 1] ∧
    (kmFit (kmLine [12, 10, 1, 0]) (fun _ => [0, 9]) ⟨none, ⊤, none, false, 0, 0⟩).2.1.labels = some [1, 1, 0, 0] ∧
    (kmFit (kmLine [12, 10, 1, 0]) (fun _ => [0, 9]) ⟨none, ⊤, none, false, 0, 0⟩).2.1.centers = some [1 / 2, 11] := by
  decide +kernel

end Km

section Index
variable {n : ℕ} {σ : Equiv.Perm ℕ}

/-- `silhouette_score` of renumbered series with their labels. -/
theorem C93_silhouette {L : Type} [LinearOrder L] (h : Renumbers n σ) (lab : ℕ → L) (D : ℕ → ℕ → ℝ) :
    silScore n (fun i => lab (σ i)) (fun i j => D (σ i) (σ j)) = silScore n lab D :=
  silScore_order h lab D

theorem swap_renumbers {a b n : ℕ} (ha : a < n) (hb : b < n) : Renumbers n (Equiv.swap a b) := by
  intro i
  rw [Equiv.swap_apply_def]
  split_ifs <;> simp_all

example (lab : ℕ → ℕ) (D : ℕ → ℕ → ℝ) :
    silScore 5 (fun i => lab (Equiv.swap 1 3 i)) (fun i j => D (Equiv.swap 1 3 i) (Equiv.swap 1 3 j)) = silScore 5 lab D :=
  C93_silhouette (swap_renumbers (by omega) (by omega)) lab D

/-- `kneighbors`: whatever the ties and the selection algorithm, the distances returned are the same. -/
theorem C93_kneighbors {K : Type} [LinearOrder K] {S S' : Selector K} (hS : S.Valid) (hS' : S'.Valid) (h : Renumbers n σ) (f : ℕ → K) {k : ℕ} (hk : 0 < k)
    (hn : 0 < n) : knnDist S' (fun i => f (σ i)) n k false = knnDist S f n k false :=
  KNearest_values_order h (C39_partial hS f n k hk hn) (C39_partial hS' (fun i => f (σ i)) n k hk hn)

section
variable {K : Type} [Field K] [LinearOrder K] {S S' : Selector K} (hS : S.Valid) (hS' : S'.Valid) (h : Renumbers n σ) (f : ℕ → K) {k : ℕ} (hk : 0 < k)
  (hn : 0 < n) (hgap : ∀ i ∈ knnRow S f n k false, ∀ j < n, j ∉ knnRow S f n k false → f i < f j) {w : KnnWeights K} (hw : w = .uniform ∨ w = .distance)
include hS hS' h hk hn hgap

/-- Full claim: `kneighbors` returns the same series. Missing (see `C93_false_knn_ties`): a tie between the last neighbour and another series. -/
theorem C93_neighbours_partial : ((knnRow S' (fun i => f (σ i)) n k false).map σ).Perm (knnRow S f n k false) :=
  KNearest_order h (C39_partial hS f n k hk hn) (C39_partial hS' (fun i => f (σ i)) n k hk hn) hgap

include hw

/-- Full claim: the predicted class does not depend on the order of the training series. Missing: ties as above, and user-defined weights, which may
tell apart neighbours at the same distance. -/
theorem C93_classifier_partial (m : ℕ) (y : ℕ → ℕ) :
    knnPredict S' w m n k (fun i => f (σ i)) (fun i => y (σ i)) = knnPredict S w m n k f y ∧
      ∀ c, knnPredictProba S' w m n k (fun i => f (σ i)) (fun i => y (σ i)) c = knnPredictProba S w m n k f y c := by
  have hp := C93_neighbours_partial hS hS' h f hk hn hgap
  have hs : knnScore (knnWeights w (knnDist S' (fun i => f (σ i)) n k false)) ((knnRow S' (fun i => f (σ i)) n k false).map fun i => y (σ i)) =
      knnScore (knnWeights w (knnDist S f n k false)) ((knnRow S f n k false).map y) := by
    funext c
    rw [knnDist, knnDist, ← knnScore_perm w hw f y hp c, List.map_map, List.map_map]
    rfl
  unfold knnPredict knnPredictProba knnClass knnProba
  simp only [hs, true_and, implies_true]

/-- The same of the regressor. -/
theorem C93_regressor_partial (y : ℕ → K) :
    knnPredictTarget S' w n k (fun i => f (σ i)) (fun i => y (σ i)) = knnPredictTarget S w n k f y := by
  have hp := C93_neighbours_partial hS hS' h f hk hn hgap
  unfold knnPredictTarget
  rw [knnDist, knnDist, ← knnRegress_perm w hw f y hp, List.map_map, List.map_map]
  rfl

end

/-- Distances of four training series from a query, and their classes. -/
def knnFour (i : ℕ) : ℚ := ([4, 1, 3, 2] : List ℚ).getD i 0

example : knnPredict numpySel .uniform 2 4 3 (fun i => knnFour (Equiv.swap 0 2 i)) (fun i => (fun i => i % 2) (Equiv.swap 0 2 i)) =
    knnPredict numpySel .uniform 2 4 3 knnFour (fun i => i % 2) := by
  have hgap : ∀ i ∈ knnRow numpySel knnFour 4 3 false, ∀ j < 4, j ∉ knnRow numpySel knnFour 4 3 false → knnFour i < knnFour j := by decide +kernel
  exact (C93_classifier_partial (σ := Equiv.swap 0 2) numpySel_valid numpySel_valid (swap_renumbers (by omega) (by omega)) knnFour (by omega) (by omega) hgap
    (w := .uniform) (Or.inl rfl) 2 fun i => i % 2).1

/-- False with ties: two training series at the same distance from the query, of classes 0 and 1; the one given first decides. -/
theorem C93_false_knn_ties : knnPredict numpySel .uniform 2 2 1 (fun _ => (1 : ℚ)) (fun i => ([0, 1] : List ℕ).getD i 0) = 0 ∧
    knnPredict numpySel .uniform 2 2 1 (fun _ => (1 : ℚ)) (fun i => ([0, 1] : List ℕ).getD (Equiv.swap 0 1 i) 0) = 1 := by
  decide +kernel

section
variable {K : Type} [LinearOrder K] (D : ℕ → ℕ → K) (eps : K) (minTs sz d : ℕ) (hD : ∀ i < n, ∀ j < n, D i j ≤ eps → D j i ≤ eps)
  (hσ : Renumbers n σ) {r r' : DbFit} (h : dbFit D eps minTs n sz d = some r) (h' : dbFit (fun i j => D (σ i) (σ j)) eps minTs n sz d = some r')
include hD hσ h h'

/-- Full claim: DBSCAN finds the same clusters in any order. Proved: the same noise, the same core series, and these are grouped alike. Missing (see
`C93_false_dbscan_border`): the cluster of series that are within `eps` of the core series of several clusters. -/
theorem C93_dbscan_partial :
    (∀ i < n, r'.labels i = none ↔ r.labels (σ i) = none) ∧
    (∀ i, DbCore (fun i j => D (σ i) (σ j)) eps minTs n i ↔ DbCore D eps minTs n (σ i)) ∧
    (∀ i, i ∈ r'.coreIndices ↔ σ i ∈ r.coreIndices) ∧
    ∀ u v, DbCore D eps minTs n (σ u) → DbCore D eps minTs n (σ v) → (r'.labels u = r'.labels v ↔ r.labels (σ u) = r.labels (σ v)) := by
  have hD' : ∀ i < n, ∀ j < n, D (σ i) (σ j) ≤ eps → D (σ j) (σ i) ≤ eps := fun i hi j hj => hD _ ((hσ i).2 hi) _ ((hσ j).2 hj)
  have hcore := DbCore_order hσ D eps minTs
  refine ⟨fun i hi => ?_, hcore, ?_, fun u v hu hv => ?_⟩
  · rw [C71_noise _ eps minTs n sz d hD' r' h' i hi, C71_noise D eps minTs n sz d hD r h (σ i) ((hσ i).2 hi), hcore i]
    refine and_congr_right fun _ => ⟨fun hall u hu => ?_, fun hall u hu => hall (σ u) ((hcore u).1 hu)⟩
    have := hall (σ.symm u) ((hcore _).2 (by simpa using hu))
    simpa using this
  · intro i
    have e1 : r'.coreIndices = (List.range n).filter (dbCore (dbNeighbours (fun i j => D (σ i) (σ j)) eps n) minTs) := by
      unfold dbFit at h'
      obtain ⟨_, _, rfl⟩ := Option.map_eq_some_iff.1 h'
      rfl
    have e2 : r.coreIndices = (List.range n).filter (dbCore (dbNeighbours D eps n) minTs) := by
      unfold dbFit at h
      obtain ⟨_, _, rfl⟩ := Option.map_eq_some_iff.1 h
      rfl
    rw [e1, e2, List.mem_filter, List.mem_filter, List.mem_range, List.mem_range, hσ i]
    refine and_congr_right fun hi => ?_
    rw [dbCore_iff _ eps minTs n i hi, dbCore_iff D eps minTs n (σ i) ((hσ i).2 hi), hcore i]
  · rw [C71_same _ eps minTs n sz d hD' r' h' u v ((hcore u).2 hu) ((hcore v).2 hv), C71_same D eps minTs n sz d hD r h _ _ hu hv,
      DbConnected_order hσ]

end

/-- Seven series on a line: two clusters of three with a series between them. -/
def dbBorder : ℕ → ℕ → ℚ := fun i j => |([0, 0, 1, 3, 5, 6, 6] : List ℚ).getD i 0 - ([0, 0, 1, 3, 5, 6, 6] : List ℚ).getD j 0|

/-- False for border series: series 3, in the middle and within `eps` of both clusters, is in the cluster of series 2 (at 1), and no longer so when
series 2 and 4 are exchanged. -/
theorem C93_false_dbscan_border :
    (dbFit dbBorder 2 4 7 4 1).map (fun r => (List.range 7).map r.labels) = some [some 0, some 0, some 0, some 0, some 1, some 1, some 1] ∧
    (dbFit (fun i j => dbBorder (Equiv.swap 2 4 i) (Equiv.swap 2 4 j)) 2 4 7 4 1).map (fun r => (List.range 7).map r.labels) =
      some [some 1, some 1, some 0, some 0, some 1, some 0, some 0] := by
  decide +kernel

example : ∃ r r', dbFit dbBorder 2 4 7 4 1 = some r ∧ dbFit (fun i j => dbBorder (Equiv.swap 2 4 i) (Equiv.swap 2 4 j)) 2 4 7 4 1 = some r' ∧
    (r'.labels 4 = r'.labels 2 ↔ r.labels 2 = r.labels 4) := by
  have hD : ∀ i < 7, ∀ j < 7, dbBorder i j ≤ 2 → dbBorder j i ≤ 2 := fun i _ j _ h => by rwa [dbBorder, abs_sub_comm]
  have hσ : Renumbers 7 (Equiv.swap 2 4) := swap_renumbers (by omega) (by omega)
  obtain ⟨r, h⟩ := C71_terminates dbBorder 2 4 7 4 1 hD
  obtain ⟨r', h'⟩ := C71_terminates (fun i j => dbBorder (Equiv.swap 2 4 i) (Equiv.swap 2 4 j)) 2 4 7 4 1
    fun i hi j hj => hD _ ((hσ i).2 hi) _ ((hσ j).2 hj)
  refine ⟨r, r', h, h', (C93_dbscan_partial dbBorder 2 4 4 1 hD hσ h h').2.2.2 4 2 ?_ ?_⟩
  · exact ⟨by decide, by decide +kernel⟩
  · exact ⟨by decide, by decide +kernel⟩

end Index
end Verif
