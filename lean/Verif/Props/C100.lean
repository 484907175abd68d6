import Verif.Spec.Margin
import Verif.Proofs.Argmin
import Verif.Model.KMeans
import Verif.Props.C71
import Verif.Props.C72
import Verif.Props.C99
/-!
# C100 — A margin certifies a prediction

If the distances move by at most `δ`, everything that is decided by a gap of more than `2 δ` stays: the neighbours, the class, the
probabilities and the target of uniform neighbours, the nearest cluster, and whole clusterings by DBSCAN when no distance is within `δ`
of `eps`. With the bounds of C99 this covers changes of the samples. For votes weighted by distances no gap of the distances is enough.
-/
set_option linter.unusedSectionVars false
namespace Verif
open Spec
variable {K : Type} [Field K] [LinearOrder K] [IsStrictOrderedRing K]

theorem Spec.Moved.le {n : ℕ} {δ : K} {f f' : ℕ → K} (h : Moved n δ f f') {i : ℕ} (hi : i < n) : f' i ≤ f i + δ ∧ f i ≤ f' i + δ := by
  have := abs_le.1 (h i hi)
  constructor <;> linarith [this.1, this.2]

/-- Nearest candidates of the moved row are the set with the gap. -/
theorem Spec.Gap.mem_iff {f f' : ℕ → K} {n k : ℕ} {δ : K} {N : Finset ℕ} (hN : Gap f n k (2 * δ) N) (h : Moved n δ f f') {out : List ℕ}
    (ho : KNearest f' n k (fun _ => True) out) : out.toFinset = N := by
  symm
  have hc : out.toFinset.card = k := by rw [List.toFinset_card_of_nodup ho.nodup, ho.length]
  apply Finset.eq_of_subset_of_card_le
  · intro i hi
    by_contra hni
    obtain ⟨j, hj, hjN⟩ : ∃ j ∈ out.toFinset, j ∉ N := by
      by_contra hcon
      push Not at hcon
      have hsub : out.toFinset ⊆ N := fun j hj => hcon j hj
      have he := Finset.eq_of_subset_of_card_le hsub (by rw [hc, hN.card])
      exact hni (he ▸ hi)
    have hin := Finset.mem_range.1 (hN.sub hi)
    have hj' := List.mem_toFinset.1 hj
    have hjn := (ho.mem j hj').1
    have h1 := ho.least i hin trivial (fun h => hni (List.mem_toFinset.2 h)) j hj'
    have h2 := hN.gap i hi j hjn hjN
    have h3 := h.le hin
    have h4 := h.le hjn
    linarith [h3.1, h4.2]
  · rw [hc, hN.card]

theorem moved_refl (n : ℕ) {δ : K} (h : 0 ≤ δ) (f : ℕ → K) : Moved n δ f f := fun i _ => by simpa using h

theorem Spec.Moved.nonneg {n : ℕ} {δ : K} {f f' : ℕ → K} (h : Moved n δ f f') (hn : 0 < n) : 0 ≤ δ := (abs_nonneg _).trans (h 0 hn)

theorem uniform_score (y : ℕ → ℕ) (r : ℕ → K) (out : List ℕ) (c : ℕ) :
    knnScore (knnWeights .uniform (out.map r)) (out.map y) c = ((out.filter fun i => y i = c).length : K) := by
  have := knnWeights_of true r out
  rw [show (weightsOf true : KnnWeights K) = .uniform from rfl] at this
  rw [this, knnScore_map, neighbourWeight_true]
  simp [votes]

section
variable {S S' : Selector K} (hS : S.Valid) (hS' : S'.Valid) (row row' : ℕ → K) (n k : ℕ) (hk : 0 < k) (hn : 0 < n) (δ : K)
  (h : Moved n δ row row') (N : Finset ℕ) (hN : Gap row n (min k n) (2 * δ) N)
include hS hS' hk hn h hN

/-- The same neighbours, whatever the selection algorithms do with ties. -/
theorem C100_neighbours : (knnRow S row n k false).toFinset = N ∧ (knnRow S' row' n k false).toFinset = N ∧
    (knnRow S' row' n k false).Perm (knnRow S row n k false) := by
  have h1 := C39_partial hS row n k hk hn
  have h2 := C39_partial hS' row' n k hk hn
  have e1 := hN.mem_iff (moved_refl n (h.nonneg hn) row) h1
  have e2 := hN.mem_iff h h2
  refine ⟨e1, e2, (List.perm_ext_iff_of_nodup h2.nodup h1.nodup).2 fun a => ?_⟩
  rw [← List.mem_toFinset, ← List.mem_toFinset, e1, e2]

/-- The same class. -/
theorem C100_class (m : ℕ) (y : ℕ → ℕ) : knnPredict S' .uniform m n k row' y = knnPredict S .uniform m n k row y := by
  obtain ⟨-, -, hp⟩ := C100_neighbours hS hS' row row' n k hk hn δ h N hN
  unfold knnPredict knnClass knnDist
  congr 1
  funext c
  rw [uniform_score, uniform_score, (hp.filter _).length_eq]

/-- The same probabilities. -/
theorem C100_proba (m : ℕ) (y : ℕ → ℕ) : knnPredictProba S' .uniform m n k row' y = knnPredictProba S .uniform m n k row y := by
  obtain ⟨-, -, hp⟩ := C100_neighbours hS hS' row row' n k hk hn δ h N hN
  have : knnScore (knnWeights .uniform (knnDist S' row' n k false)) ((knnRow S' row' n k false).map y) =
      knnScore (knnWeights .uniform (knnDist S row n k false)) ((knnRow S row n k false).map y) := by
    funext c
    unfold knnDist
    rw [uniform_score, uniform_score, (hp.filter _).length_eq]
  funext c
  unfold knnPredictProba knnProba
  rw [this]

/-- The same target. -/
theorem C100_target (y : ℕ → K) : knnPredictTarget S' .uniform n k row' y = knnPredictTarget S .uniform n k row y := by
  obtain ⟨-, -, hp⟩ := C100_neighbours hS hS' row row' n k hk hn δ h N hN
  unfold knnPredictTarget knnRegress
  simp only []
  rw [(hp.map y).sum_eq, (hp.map y).length_eq]

end

/-- If all gaps are wide the neighbours come in the same order. -/
theorem C100_order {S S' : Selector K} (hS : S.Valid) (hS' : S'.Valid) (row row' : ℕ → K) (n k : ℕ) (hk : 0 < k) (hn : 0 < n) (δ : K)
    (h : Moved n δ row row') (N : Finset ℕ) (hN : Gap row n (min k n) (2 * δ) N)
    (hg : ∀ i ∈ N, ∀ j ∈ N, i ≠ j → 2 * δ < |row i - row j|) : knnRow S' row' n k false = knnRow S row n k false := by
  obtain ⟨e1, e2, hp⟩ := C100_neighbours hS hS' row row' n k hk hn δ h N hN
  have h1 := C39_partial hS row n k hk hn
  have h2 := C39_partial hS' row' n k hk hn
  have hlt : ∀ i ∈ N, i < n := fun i hi => Finset.mem_range.1 (hN.sub hi)
  refine hp.eq_of_pairwise (le := fun i j => row i ≤ row j) ?_ ?_ h1.sorted
  · intro a b ha hb hab hba
    by_contra hne
    have := hg a (e2 ▸ List.mem_toFinset.2 ha) b (e1 ▸ List.mem_toFinset.2 hb) hne
    rw [le_antisymm hab hba, sub_self, abs_zero] at this
    linarith [h.nonneg hn]
  · refine h2.sorted.imp_of_mem fun {a b} ha hb hab => ?_
    have ha' : a ∈ N := e2 ▸ List.mem_toFinset.2 ha
    have hb' : b ∈ N := e2 ▸ List.mem_toFinset.2 hb
    by_contra hlt'
    push Not at hlt'
    have hne : a ≠ b := fun e => by rw [e] at hlt'; exact lt_irrefl _ hlt'
    have h3 := hg a ha' b hb' hne
    rw [abs_of_pos (by linarith)] at h3
    linarith [(h.le (hlt a ha')).2, (h.le (hlt b hb')).1]

/-- `predict` of `TimeSeriesKMeans`: a series nearer to one center by more than `2 δ` keeps its label when all of its distances to the
centers move by at most `δ`. -/
theorem C100_kmeans {P C : Type} (e e' : KmEnv P C K) (x x' : P) (cs cs' : List C) (δ : K) (hl : cs.length = cs'.length)
    (hd : ∀ c (h : c < cs.length), |e'.dist x' (cs'[c]'(hl ▸ h)) - e.dist x cs[c]| ≤ δ)
    (a : ℕ) (ha : a < cs.length) (hg : ∀ c (h : c < cs.length), c ≠ a → e.dist x cs[a] + 2 * δ < e.dist x cs[c]) :
    kmLabels e [x] cs = [a] ∧ kmLabels e' [x'] cs' = [a] := by
  have key : ∀ (l : List K), l.length = cs.length → (∀ c (h : c < l.length) (h' : a < l.length), c ≠ a → l[a] < l[c]) → argminL l = a := by
    intro l hl hlt
    have hne : l ≠ [] := List.length_pos_iff.1 (by omega)
    obtain ⟨v, h1, h2, -⟩ := argminL_spec l hne
    obtain ⟨h3, h4⟩ := List.getElem?_eq_some_iff.1 h1
    by_contra hc
    have h5 := hlt _ h3 (by omega) hc
    have h6 := h2 (l[a]'(by omega)) (List.getElem_mem _)
    rw [← h4] at h6
    exact absurd h5 (not_lt.2 h6)
  have h0 : 0 ≤ δ := (abs_nonneg _).trans (hd a ha)
  constructor
  · simp only [kmLabels, List.map_cons, List.map_nil]
    rw [key _ (by simp)]
    intro c h h' hc
    simp only [List.length_map] at h h'
    simp only [List.getElem_map]
    have := hg c h hc
    linarith
  · simp only [kmLabels, List.map_cons, List.map_nil]
    rw [key _ (by simp [hl])]
    intro c h h' hc
    simp only [List.length_map] at h h'
    simp only [List.getElem_map]
    have h1 := hg c (by omega) hc
    have h2 := abs_le.1 (hd c (by omega))
    have h3 := abs_le.1 (hd a ha)
    linarith [h2.1, h3.2]

/-! ### DBSCAN -/

theorem dbSearch_congr {nb nb' : ℕ → List ℕ} {core core' : ℕ → Bool} {n : ℕ} (hnb : ∀ i < n, nb' i = nb i) (hc : ∀ i < n, core' i = core i)
    (hn : ∀ i < n, ∀ j ∈ nb i, j < n) (label : ℕ) : ∀ (fuel cur : ℕ) (stack : List ℕ) (L : ℕ → Option ℕ), cur < n → (∀ j ∈ stack, j < n) →
      dbSearch nb' core' label fuel cur stack L = dbSearch nb core label fuel cur stack L := by
  intro fuel
  induction fuel with
  | zero => intros; rfl
  | succ fuel ih =>
    intro cur stack L hcur hst
    unfold dbSearch
    simp only [hnb cur hcur, hc cur hcur]
    generalize hL : (if (L cur).isNone = true then fun j => if j = cur then some label else L j else L) = L'
    have hst' : ∀ j ∈ (if ((L cur).isNone && core cur) = true then ((nb cur).filter fun j => (L' j).isNone).reverse ++ stack else stack), j < n := by
      intro j hj
      split at hj
      · rcases List.mem_append.1 hj with hj | hj
        · exact hn cur hcur j (List.mem_of_mem_filter (List.mem_reverse.1 hj))
        · exact hst j hj
      · exact hst j hj
    generalize (if ((L cur).isNone && core cur) = true then ((nb cur).filter fun j => (L' j).isNone).reverse ++ stack else stack) = st at hst'
    cases st with
    | nil => rfl
    | cons v st => exact ih v st L' (hst' v (by simp)) fun j hj => hst' j (by simp [hj])

theorem dbInner_congr {nb nb' : ℕ → List ℕ} {core core' : ℕ → Bool} {n fuel : ℕ} (hnb : ∀ i < n, nb' i = nb i) (hc : ∀ i < n, core' i = core i)
    (hn : ∀ i < n, ∀ j ∈ nb i, j < n) : ∀ (k label : ℕ) (L : ℕ → Option ℕ), k ≤ n →
      dbInner nb' core' n fuel k label L = dbInner nb core n fuel k label L := by
  intro k
  induction k with
  | zero => intros; rfl
  | succ k ih =>
    intro label L hk
    unfold dbInner
    simp only [hc (n - (k + 1)) (by omega), dbSearch_congr hnb hc hn label fuel (n - (k + 1)) [] L (by omega) (by simp), ih _ _ (by omega : k ≤ n)]

/-- A whole clustering: if no distance is within `δ` of `eps` and distances move by at most `δ`, then the labels, the core series and
all the rest of the fitted state are the same. -/
theorem C100_dbscan (D D' : ℕ → ℕ → K) (eps δ : K) (minTs n sz d : ℕ) (h : ∀ i < n, Moved n δ (D i) (D' i))
    (hg : ∀ i < n, ∀ j < n, D i j + δ ≤ eps ∨ eps + δ < D i j) : dbFit D' eps minTs n sz d = dbFit D eps minTs n sz d := by
  have hnb : ∀ i < n, dbNeighbours D' eps n i = dbNeighbours D eps n i := by
    intro i hi
    unfold dbNeighbours
    apply List.filter_congr
    intro j hj
    have hj' := List.mem_range.1 hj
    have h1 := (h i hi).le hj'
    have h2 : D' i j ≤ eps ↔ D i j ≤ eps := by
      have h0 := (h i hi).nonneg (by omega)
      rcases hg i hi j hj' with h3 | h3
      · exact ⟨fun _ => by linarith, fun _ => by linarith [h1.1]⟩
      · exact ⟨fun h4 => by linarith [h1.2], fun h4 => by linarith⟩
    simp only [h2]
  have hc : ∀ i < n, dbCore (dbNeighbours D' eps n) minTs i = dbCore (dbNeighbours D eps n) minTs i := by
    intro i hi
    unfold dbCore
    rw [hnb i hi]
  have hi : (List.range n).filter (dbCore (dbNeighbours D' eps n) minTs) = (List.range n).filter (dbCore (dbNeighbours D eps n) minTs) :=
    List.filter_congr fun i hi => hc i (List.mem_range.1 hi)
  unfold dbFit
  simp only [hi]
  rw [dbInner_congr hnb hc (fun i _ j hj => by simp only [dbNeighbours, List.mem_filter, List.mem_range] at hj; exact hj.1) n 0 _ le_rfl]

/-! ### Votes weighted by distances -/

theorem votes_finset (w : ℕ → K) (y : ℕ → ℕ) (out : List ℕ) (hd : out.Nodup) (c : ℕ) :
    votes w y out c = ∑ i ∈ out.toFinset.filter (fun i => y i = c), w i := by
  unfold votes
  rw [← List.sum_toFinset _ (hd.filter _)]
  congr 1
  ext i
  simp

theorem inverse_moved {a b ρ δ : K} (hδ : δ < ρ) (ha : ρ ≤ a) (h : |b - a| ≤ δ) : |b⁻¹ - a⁻¹| ≤ δ / (ρ * (ρ - δ)) := by
  have h0 : 0 ≤ δ := (abs_nonneg _).trans h
  have hb := abs_le.1 h
  have hb' : ρ - δ ≤ b := by linarith [hb.1]
  have hρ : 0 < ρ := by linarith
  have hρδ : 0 < ρ - δ := by linarith
  have ha0 : 0 < a := by linarith
  have hb0 : 0 < b := by linarith
  rw [inv_sub_inv hb0.ne' ha0.ne', abs_div, abs_of_pos (mul_pos hb0 ha0), abs_sub_comm]
  refine div_le_div₀ h0 h (mul_pos hρ hρδ) ?_
  rw [mul_comm ρ]
  exact mul_le_mul hb' ha hρ.le hb0.le

/-- Inverse distances: besides the gap of the distances, no neighbour may be nearer than `ρ > δ`, and the votes of the class must be ahead
by more than twice `k δ / (ρ (ρ - δ))`. -/
theorem C100_distance {S S' : Selector K} (hS : S.Valid) (hS' : S'.Valid) (row row' : ℕ → K) (n k : ℕ) (hk : 0 < k) (hn : 0 < n) (δ ρ : K)
    (h : Moved n δ row row') (N : Finset ℕ) (hN : Gap row n (min k n) (2 * δ) N) (hδ : δ < ρ) (hρ : ∀ i ∈ N, ρ ≤ row i)
    (m : ℕ) (y : ℕ → ℕ) (hy : ∀ i < n, y i < m) (a : ℕ) (ha : a < m)
    (hv : ∀ c < m, c ≠ a → ∑ i ∈ N.filter (fun i => y i = c), (row i)⁻¹ + 2 * (N.card * (δ / (ρ * (ρ - δ)))) <
      ∑ i ∈ N.filter (fun i => y i = a), (row i)⁻¹) :
    knnPredict S .distance m n k row y = a ∧ knnPredict S' .distance m n k row' y = a := by
  have h0 := h.nonneg hn
  have hlt : ∀ i ∈ N, i < n := fun i hi => Finset.mem_range.1 (hN.sub hi)
  obtain ⟨i0, hi0⟩ : N.Nonempty := by
    rw [← Finset.card_pos, hN.card]
    omega
  have key : ∀ (T : Selector K), T.Valid → ∀ r : ℕ → K, Moved n δ row r → knnPredict T .distance m n k r y = a := by
    intro T hT r hr
    have hrN : ∀ i ∈ N, 0 < r i := fun i hi => by linarith [hρ i hi, (hr.le (hlt i hi)).2]
    have hr0 : ∀ i < n, 0 ≤ r i := by
      intro i hi
      by_cases hiN : i ∈ N
      · exact (hrN i hiN).le
      · linarith [hN.gap i0 hi0 i hi hiN, hρ i0 hi0, (hr.le hi).2]
    obtain ⟨out, ho, f1, f2, f3⟩ := C72_class_partial hT r y m n k hk hn hy false (.inr hr0)
    have ho' := hN.mem_iff hr ho
    change knnPredict T (weightsOf false) m n k r y = a
    generalize knnPredict T (weightsOf false) m n k r y = c at f1 f2 f3
    have e : ∀ c, votes (neighbourWeight false r out) y out c = ∑ i ∈ N.filter (fun i => y i = c), (r i)⁻¹ := by
      intro c
      rw [votes_finset _ _ _ ho.nodup, ho']
      refine Finset.sum_congr rfl fun i hi => ?_
      have : ¬∃ j ∈ out, r j = 0 := by
        rintro ⟨j, hj, h5⟩
        exact (hrN j (ho' ▸ List.mem_toFinset.2 hj)).ne' h5
      rw [neighbourWeight_false, inverseDistance, if_neg this]
    have mv : ∀ c, |∑ i ∈ N.filter (fun i => y i = c), (r i)⁻¹ - ∑ i ∈ N.filter (fun i => y i = c), (row i)⁻¹| ≤ N.card * (δ / (ρ * (ρ - δ))) := by
      intro c
      rw [← Finset.sum_sub_distrib]
      have hq : 0 ≤ δ / (ρ * (ρ - δ)) := div_nonneg h0 (mul_nonneg (by linarith) (by linarith))
      refine (Finset.abs_sum_le_sum_abs _ _).trans ?_
      refine (Finset.sum_le_card_nsmul _ _ (δ / (ρ * (ρ - δ))) fun i hi => ?_).trans ?_
      · have hi' := (Finset.mem_filter.1 hi).1
        exact inverse_moved hδ (hρ i hi') (hr i (hlt i hi'))
      · rw [nsmul_eq_mul]
        exact mul_le_mul_of_nonneg_right (by exact_mod_cast Finset.card_le_card (Finset.filter_subset _ _)) hq
    by_contra hc
    have h1 := f2 a ha
    rw [e, e] at h1
    have h2 := hv c f1 hc
    have h3 := abs_le.1 (mv c)
    have h4 := abs_le.1 (mv a)
    linarith [h3.2, h4.1]
  exact ⟨key S hS row (moved_refl n h0 row), key S' hS' row' h⟩

/-- Full claim: the gap of the distances is enough, whatever the weights. False of inverse distances: two neighbours at one distance, the
third series as much further as one likes, and any change at all of the first distance changes the class. -/
theorem C100_false_distance {S S' : Selector K} (hS : S.Valid) (hS' : S'.Valid) (δ far : K) (hδ : 0 < δ) (hf : 1 + 2 * δ < far) :
    Moved 3 δ (fun i => [1, 1, far].getD i 0) (fun i => [1 + δ, 1, far].getD i 0) ∧
    Gap (fun i => [1, 1, far].getD i 0) 3 2 (2 * δ) {0, 1} ∧
    knnPredict S .distance 2 3 2 (fun i => [1, 1, far].getD i 0) (fun i => [0, 1, 0].getD i 0) = 0 ∧
    knnPredict S' .distance 2 3 2 (fun i => [1 + δ, 1, far].getD i 0) (fun i => [0, 1, 0].getD i 0) = 1 := by
  have hM : Moved 3 δ (fun i => [1, 1, far].getD i 0) (fun i => [1 + δ, 1, far].getD i 0) := by
    intro i hi
    have : i = 0 ∨ i = 1 ∨ i = 2 := by omega
    rcases this with rfl | rfl | rfl <;> simp [abs_of_pos hδ, hδ.le]
  have hG : Gap (fun i => [1, 1, far].getD i 0) 3 2 (2 * δ) ({0, 1} : Finset ℕ) := by
    refine ⟨by decide, by decide, fun i hi j hj hjN => ?_⟩
    have hj2 : j = 2 := by
      simp only [Finset.mem_insert, Finset.mem_singleton, not_or] at hjN
      omega
    subst hj2
    simp only [Finset.mem_insert, Finset.mem_singleton] at hi
    rcases hi with rfl | rfl <;> simpa using hf
  refine ⟨hM, hG, ?_, ?_⟩
  all_goals
    have hy : ∀ i < 3, (fun i => [0, 1, 0].getD i 0) i < 2 := by decide
  · obtain ⟨out, ho, f1, f2, f3⟩ := C72_class_partial hS (fun i => [1, 1, far].getD i 0) (fun i => [0, 1, 0].getD i 0) 2 3 2 (by norm_num)
      (by norm_num) hy false (.inr fun i hi => by
        have : i = 0 ∨ i = 1 ∨ i = 2 := by omega
        rcases this with rfl | rfl | rfl <;> simp
        linarith)
    have ho' := hG.mem_iff (moved_refl 3 hδ.le _) ho
    change knnPredict S (weightsOf false) _ _ _ _ _ = _
    generalize knnPredict S (weightsOf false) 2 3 2 (fun i => [1, 1, far].getD i 0) (fun i => [0, 1, 0].getD i 0) = c at f1 f2 f3
    by_contra hc
    have h1 := f3 0 (by omega)
    have hc1 : c = 1 := by omega
    subst hc1
    rw [votes_finset _ _ _ ho.nodup, votes_finset _ _ _ ho.nodup, ho'] at h1
    have hz : ¬∃ j ∈ out, (fun i => [1, 1, far].getD i 0) j = 0 := by
      rintro ⟨j, hj, h5⟩
      have := ho' ▸ List.mem_toFinset.2 hj
      simp only [Finset.mem_insert, Finset.mem_singleton] at this
      rcases this with rfl | rfl <;> simp at h5
    have t0 : Finset.filter (fun i => [0, 1, 0].getD i 0 = 0) ({0, 1} : Finset ℕ) = {0} := by decide
    have t1 : Finset.filter (fun i => [0, 1, 0].getD i 0 = 1) ({0, 1} : Finset ℕ) = {1} := by decide
    rw [t0, t1] at h1
    simp only [neighbourWeight_false, inverseDistance, if_neg hz, Finset.sum_singleton] at h1
    simp at h1
  · obtain ⟨out, ho, f1, f2, f3⟩ := C72_class_partial hS' (fun i => [1 + δ, 1, far].getD i 0) (fun i => [0, 1, 0].getD i 0) 2 3 2 (by norm_num)
      (by norm_num) hy false (.inr fun i hi => by
        have : i = 0 ∨ i = 1 ∨ i = 2 := by omega
        rcases this with rfl | rfl | rfl <;> simp <;> linarith)
    have ho' := hG.mem_iff hM ho
    change knnPredict S' (weightsOf false) _ _ _ _ _ = _
    generalize knnPredict S' (weightsOf false) 2 3 2 (fun i => [1 + δ, 1, far].getD i 0) (fun i => [0, 1, 0].getD i 0) = c at f1 f2 f3
    by_contra hc
    have h1 := f2 1 (by omega)
    have hc1 : c = 0 := by omega
    subst hc1
    rw [votes_finset _ _ _ ho.nodup, votes_finset _ _ _ ho.nodup, ho'] at h1
    have hz : ¬∃ j ∈ out, (fun i => [1 + δ, 1, far].getD i 0) j = 0 := by
      rintro ⟨j, hj, h5⟩
      have := ho' ▸ List.mem_toFinset.2 hj
      simp only [Finset.mem_insert, Finset.mem_singleton] at this
      rcases this with rfl | rfl <;> simp at h5
      linarith
    have t0 : Finset.filter (fun i => [0, 1, 0].getD i 0 = 0) ({0, 1} : Finset ℕ) = {0} := by decide
    have t1 : Finset.filter (fun i => [0, 1, 0].getD i 0 = 1) ({0, 1} : Finset ℕ) = {1} := by decide
    rw [t0, t1] at h1
    simp only [neighbourWeight_false, inverseDistance, if_neg hz, Finset.sum_singleton] at h1
    simp only [List.getD_cons_zero, List.getD_cons_succ, inv_one] at h1
    have : (1 + δ)⁻¹ < 1 := inv_lt_one_of_one_lt₀ (by linarith)
    linarith

/-- Twice the change is needed: with a gap of exactly `2 δ` the nearest center may be another. -/
theorem C100_sharp (δ : K) (hδ : 0 < δ) : argminL [2 * δ, 0] = 1 ∧ argminL [2 * δ - δ, 0 + δ] = 0 := by
  have h2 : 2 * δ - δ = δ := by ring
  constructor
  · have : (0 : K) < 2 * δ := by linarith
    simp [argminL, hδ]
  · rw [h2, zero_add]
    simp [argminL]

/-! Concrete cases of the hypotheses above. -/

/-- Distances 1, 5, 2, 9 that move by 1: the first and the third series are the two neighbours by a gap of 3. -/
example : Moved 4 (1 : ℚ) (fun i => [1, 5, 2, 9].getD i 0) (fun i => [2, 4, 1, 10].getD i 0) ∧
    Gap (fun i => [1, 5, 2, 9].getD i (0 : ℚ)) 4 2 (2 * 1) {0, 2} :=
  ⟨by unfold Moved; decide +kernel, ⟨by decide, by decide, by decide +kernel⟩⟩
example : knnRow numpySel (fun i => [1, 5, 2, 9].getD i (0 : ℚ)) 4 2 false = [0, 2] ∧
    knnRow numpySel (fun i => [2, 4, 1, 10].getD i (0 : ℚ)) 4 2 false = [2, 0] := by decide +kernel

/-- Three series at distances 1 and 7, `eps = 3`, that move by 1. -/
example : (∀ i < 3, Moved 3 (1 : ℚ) (fun j => [[0, 1, 7], [1, 0, 7], [7, 7, 0]].getD i [] |>.getD j 0)
      (fun j => [[0, 2, 6], [2, 0, 8], [6, 8, 0]].getD i [] |>.getD j 0)) ∧
    ∀ i < 3, ∀ j < 3, ([[0, 1, 7], [1, 0, 7], [7, 7, 0]].getD i [] |>.getD j (0 : ℚ)) + 1 ≤ 3 ∨
      3 + 1 < ([[0, 1, 7], [1, 0, 7], [7, 7, 0]].getD i [] |>.getD j (0 : ℚ)) :=
  ⟨by unfold Moved; decide +kernel, by decide +kernel⟩

/-- Inverse distances 1, 1/2 against 1/4, moved by 1/100. -/
example : ∀ c < 2, c ≠ 0 → ∑ i ∈ ({0, 1, 2} : Finset ℕ).filter (fun i => [0, 0, 1].getD i 0 = c), ([1, 2, 4].getD i (0 : ℚ))⁻¹ +
    2 * (3 * ((1 / 100) / (1 * (1 - 1 / 100)))) <
      ∑ i ∈ ({0, 1, 2} : Finset ℕ).filter (fun i => [0, 0, 1].getD i 0 = 0), ([1, 2, 4].getD i (0 : ℚ))⁻¹ := by decide +kernel

/-! ### From samples to predictions -/

/-- A query whose samples move by at most `ε`, and training series whose samples move by at most `δ`: the class of uniform neighbours
under DTW stays if the `k` neighbours are nearer than all others by more than `2 √L (ε + δ)`, for paths of at most `L` pairs. -/
theorem C100_dtw {S S' : Selector ℝ} (hS : S.Valid) (hS' : S'.Valid) (q q' : TsInput (Option ℝ)) (X X' : ℕ → TsInput (Option ℝ))
    (g : Option String) (radius : Option ℕ) (slope : Option ℚ) (x x' : List (List ℝ)) (z z' : ℕ → List (List ℝ)) (code d L : ℕ) (ε δ : ℝ)
    (n k : ℕ) (hk : 0 < k) (hn : 0 < n) (row row' : ℕ → ℝ)
    (hv : ∀ i < n, validatePair q (X i) g = .ok (x, z i, code)) (hv' : ∀ i < n, validatePair q' (X' i) g = .ok (x', z' i, code))
    (hx : Wiggle d ε x x') (hz : ∀ i < n, Wiggle d δ (z i) (z' i)) (hL : ∀ i < n, x.length + (z i).length - 1 ≤ L)
    (hr : ∀ i < n, dtw q (X i) g radius slope = .ok (row i : WithTop ℝ))
    (hr' : ∀ i < n, dtw q' (X' i) g radius slope = .ok (row' i : WithTop ℝ)) (N : Finset ℕ)
    (hN : Gap row n (min k n) (2 * (Real.sqrt L * (ε + δ))) N) (m : ℕ) (y : ℕ → ℕ) :
    knnPredict S' .uniform m n k row' y = knnPredict S .uniform m n k row y := by
  refine C100_class hS hS' row row' n k hk hn _ (fun i hi => ?_) N hN m y
  obtain ⟨v', h1, -, h3⟩ := C99_dtw q (X i) q' (X' i) g radius slope x (z i) x' (z' i) code d ε δ (hv i hi) (hv' i hi) hx (hz i hi) _ (hr i hi)
  rw [hr' i hi] at h1
  cases h1
  refine (h3 _ _ rfl rfl).trans ?_
  obtain ⟨-, -, -, hxn, hyn, -⟩ := validatePair_ok (hv i hi)
  have h0 : 0 ≤ ε + δ := add_nonneg (hx.nonneg hxn) ((hz i hi).nonneg hyn)
  exact mul_le_mul_of_nonneg_right (Real.sqrt_le_sqrt (by exact_mod_cast hL i hi)) h0

/-- The same for DBSCAN under the Fréchet distance: series that move by at most `ε` keep their clusters if no distance is within `2 ε`
of `eps`. -/
theorem C100_frechet (X X' : ℕ → TsInput (Option ℝ)) (g : Option String) (radius : Option ℕ) (slope : Option ℚ) (z z' : ℕ → List (List ℝ))
    (code d : ℕ) (ε eps : ℝ) (minTs n sz dd : ℕ) (D D' : ℕ → ℕ → ℝ)
    (hv : ∀ i < n, ∀ j < n, validatePair (X i) (X j) g = .ok (z i, z j, code))
    (hv' : ∀ i < n, ∀ j < n, validatePair (X' i) (X' j) g = .ok (z' i, z' j, code)) (hz : ∀ i < n, Wiggle d ε (z i) (z' i))
    (hr : ∀ i < n, ∀ j < n, frechet (X i) (X j) g radius slope = .ok (D i j : WithTop ℝ))
    (hr' : ∀ i < n, ∀ j < n, frechet (X' i) (X' j) g radius slope = .ok (D' i j : WithTop ℝ))
    (hg : ∀ i < n, ∀ j < n, D i j + (ε + ε) ≤ eps ∨ eps + (ε + ε) < D i j) :
    dbFit D' eps minTs n sz dd = dbFit D eps minTs n sz dd := by
  refine C100_dbscan D D' eps (ε + ε) minTs n sz dd (fun i hi j hj => ?_) hg
  obtain ⟨v', h1, -, h3⟩ := C99_frechet _ _ _ _ g radius slope _ _ _ _ code d ε ε (hv i hi j hj) (hv' i hi j hj) (hz i hi) (hz j hj) _ (hr i hi j hj)
  rw [hr' i hi j hj] at h1
  cases h1
  exact h3 _ _ rfl rfl

/-- DTW of series of one sample. -/
theorem dtw_sample (a b : ℝ) : dtw (.oneD [some a]) (.oneD [some b]) none none none = .ok ((|a - b| : ℝ) : WithTop ℝ) := by
  have hv : validatePair (.oneD [some a]) (.oneD [some b]) none = .ok ([[a]], [[b]], 0) := by
    simp [validatePair, toTimeSeries, tsSize, tsSizeLoop, denan, gcCode, nFeatures, bind, Except.bind, pure, Except.pure]
  have h1 : ((a - b) * (a - b) : ℝ) = (a - b) ^ 2 := by ring
  simp [dtw, dtwSq, hv, dtwSqGeneric, computeMask, bind, Except.bind, pure, Except.pure, sqrtTop, lastEntry, accumulatedMatrix,
    accFromDist, accTableWith, dpLoop, Mat.tail, Mat.full, sqDist, localCost, forRange, Mat.set, h1]
  rw [← Real.sqrt_sq_eq_abs]
  rfl

/-- One neighbour among the series 1 and 10 for a query that moves from 0 to -2: the distances move by 2, the gap is 9. -/
example : knnPredict numpySel .uniform 2 2 1 (fun i => [1, 10].getD i (0 : ℝ)) (fun i => [1, 0].getD i 0) =
    knnPredict numpySel .uniform 2 2 1 (fun i => [3, 12].getD i (0 : ℝ)) (fun i => [1, 0].getD i 0) := by
  have hv : ∀ a b : ℝ, validatePair (.oneD [some a]) (.oneD [some b]) none = .ok ([[a]], [[b]], 0) := by
    intro a b
    simp [validatePair, toTimeSeries, tsSize, tsSizeLoop, denan, gcCode, nFeatures, bind, Except.bind, pure, Except.pure]
  have two : ∀ {P : ℕ → Prop}, P 0 → P 1 → ∀ i < 2, P i := by
    intro P h0 h1 i hi
    have : i = 0 ∨ i = 1 := by omega
    rcases this with rfl | rfl
    · exact h0
    · exact h1
  refine (C100_dtw numpySel_valid numpySel_valid (.oneD [some 0]) (.oneD [some (-2)]) (fun i => .oneD [some ([1, 10].getD i 0)])
    (fun i => .oneD [some ([1, 10].getD i 0)]) none none none [[0]] [[-2]] (fun i => [[[1, 10].getD i 0]]) (fun i => [[[1, 10].getD i 0]])
    0 1 1 2 0 2 1 (by norm_num) (by norm_num) (fun i => [1, 10].getD i (0 : ℝ)) (fun i => [3, 12].getD i (0 : ℝ)) (fun i _ => hv _ _)
    (fun i _ => hv _ _) (wiggle_single _ _ _ (by norm_num)) (fun i _ => wiggle_single _ _ _ (by simp)) (fun i _ => by simp) (two ?_ ?_) (two ?_ ?_)
    {0} ⟨by decide, by decide, fun i hi j hj hji => ?_⟩ 2 _).symm
  · rw [dtw_sample]; norm_num
  · rw [dtw_sample]; norm_num
  · rw [dtw_sample]; norm_num
  · rw [dtw_sample]; norm_num
  · have h0 : i = 0 := by simpa using hi
    have h1 : j = 1 := by simp at hji; omega
    subst h0 h1
    norm_num

/-- A series at distances 1, 4 and 9 of three centers, moved by 1. -/
example : kmLabels (⟨[], 3, 1, 1, 0, fun x c => |x - c|, fun x c => |x - c|, fun _ c => c⟩ : KmEnv ℚ ℚ ℚ) [1] [0, 5, 10] = [0] ∧
    kmLabels (⟨[], 3, 1, 1, 0, fun x c => |x - c|, fun x c => |x - c|, fun _ c => c⟩ : KmEnv ℚ ℚ ℚ) [2] [0, 5, 10] = [0] :=
  C100_kmeans _ _ 1 2 [0, 5, 10] [0, 5, 10] 1 rfl (by decide +kernel) 0 (by decide) (by decide +kernel)

end Verif
