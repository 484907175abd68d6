import Verif.Model.Silhouette
import Verif.Model.KnnPredict
import Verif.Spec.Knn
import Verif.Spec.Dbscan
import Verif.Spec.Order
import Mathlib.Algebra.BigOperators.Group.List.Basic
import Mathlib.Data.Finset.Card
import Mathlib.Logic.Equiv.Defs
/-!
Functions of a matrix of distances under a renumbering `σ` of the series.
-/
set_option linter.unusedSectionVars false
namespace Verif
open Spec

theorem Spec.Renumbers.perm {n : ℕ} {σ : Equiv.Perm ℕ} (h : Renumbers n σ) : ((List.range n).map σ).Perm (List.range n) := by
  rw [List.perm_ext_iff_of_nodup (List.nodup_range.map σ.injective) List.nodup_range]
  intro a
  simp only [List.mem_map, List.mem_range]
  constructor
  · rintro ⟨i, hi, rfl⟩
    exact (h i).2 hi
  · intro ha
    exact ⟨σ.symm a, (h _).1 (by simpa using ha), by simp⟩

section Sil
noncomputable section
variable {L : Type} [LinearOrder L] {n : ℕ} {σ : Equiv.Perm ℕ}

theorem silClasses_order (h : Renumbers n σ) (lab : ℕ → L) : silClasses n (fun i => lab (σ i)) = silClasses n lab := by
  unfold silClasses
  have hp : ((List.range n).map fun i => lab (σ i)).Perm ((List.range n).map lab) := by
    have := h.perm.map lab
    rwa [List.map_map] at this
  refine List.Perm.eq_of_pairwise (le := (· ≤ ·)) (fun a b _ _ => le_antisymm) (List.pairwise_insertionSort _ _) (List.pairwise_insertionSort _ _) ?_
  exact (List.perm_insertionSort _ _).trans (hp.dedup.trans (List.perm_insertionSort _ _).symm)

theorem silFreq_order (h : Renumbers n σ) (lab : ℕ → L) (c : L) : silFreq n (fun i => lab (σ i)) c = silFreq n lab c := by
  unfold silFreq
  rw [← h.perm.countP_eq (fun j => decide (lab j = c)), List.countP_map]
  rfl

theorem silBin_order (h : Renumbers n σ) (lab : ℕ → L) (D : ℕ → ℕ → ℝ) (i : ℕ) (c : L) :
    silBin n (fun i => lab (σ i)) (fun i j => D (σ i) (σ j)) i c = silBin n lab D (σ i) c := by
  unfold silBin
  rw [← (h.perm.map fun j => if lab j = c then D (σ i) j else 0).sum_eq, List.map_map]
  rfl

theorem silSample_order (h : Renumbers n σ) (lab : ℕ → L) (D : ℕ → ℕ → ℝ) (i : ℕ) :
    silSample n (fun i => lab (σ i)) (fun i j => D (σ i) (σ j)) i = silSample n lab D (σ i) := by
  unfold silSample silInter silIntra
  simp only [silClasses_order h, silFreq_order h, silBin_order h]

theorem silScore_order (h : Renumbers n σ) (lab : ℕ → L) (D : ℕ → ℕ → ℝ) :
    silScore n (fun i => lab (σ i)) (fun i j => D (σ i) (σ j)) = silScore n lab D := by
  unfold silScore
  rw [silClasses_order h, ← (h.perm.map (silSample n lab D)).sum_eq, List.map_map]
  have : silSample n (fun i => lab (σ i)) (fun i j => D (σ i) (σ j)) = silSample n lab D ∘ σ := funext fun i => silSample_order h lab D i
  rw [this]

end
end Sil

section Knn
variable {K : Type} [LinearOrder K] {n k : ℕ} {σ : Equiv.Perm ℕ}

/-- The distances of the nearest neighbours are the least ones, in order. -/
theorem KNearest_values {f : ℕ → K} {out : List ℕ} (h : KNearest f n k (fun _ => True) out) :
    out.map f = (((List.range n).map f).insertionSort (· ≤ ·)).take k := by
  set rest := (List.range n).filter fun j => decide (j ∉ out) with hrest
  have hp : (out ++ rest).Perm (List.range n) := by
    rw [List.perm_ext_iff_of_nodup]
    · intro a
      simp only [hrest, List.mem_append, List.mem_filter, List.mem_range, decide_eq_true_eq]
      constructor
      · rintro (ha | ⟨ha, _⟩)
        · exact (h.mem a ha).1
        · exact ha
      · intro ha
        by_cases hm : a ∈ out
        · exact Or.inl hm
        · exact Or.inr ⟨ha, hm⟩
    · rw [List.nodup_append]
      refine ⟨h.nodup, List.nodup_range.filter _, ?_⟩
      rintro a ha b hb rfl
      simp only [hrest, List.mem_filter, decide_eq_true_eq] at hb
      exact hb.2 ha
    · exact List.nodup_range
  have he : out.map f ++ (rest.map f).insertionSort (· ≤ ·) = ((List.range n).map f).insertionSort (· ≤ ·) := by
    refine List.Perm.eq_of_pairwise (le := (· ≤ ·)) (fun a b _ _ => le_antisymm) ?_ (List.pairwise_insertionSort _ _) ?_
    · rw [List.pairwise_append]
      refine ⟨?_, List.pairwise_insertionSort _ _, ?_⟩
      · rw [List.pairwise_map]
        exact h.sorted
      · intro a ha b hb
        rw [List.mem_insertionSort] at hb
        obtain ⟨i, hi, rfl⟩ := List.mem_map.1 ha
        obtain ⟨j, hj, rfl⟩ := List.mem_map.1 hb
        simp only [hrest, List.mem_filter, List.mem_range, decide_eq_true_eq] at hj
        exact h.least j hj.1 trivial hj.2 i hi
    · refine List.Perm.trans ?_ (List.perm_insertionSort _ _).symm
      refine List.Perm.trans ?_ (hp.map f)
      rw [List.map_append]
      exact (List.perm_insertionSort _ _).append_left _
  rw [← he]
  have : k = (out.map f).length := by rw [List.length_map, h.length]
  rw [this, List.take_left']
  rfl

theorem KNearest_values_order (hσ : Renumbers n σ) {f : ℕ → K} {out out' : List ℕ} (h : KNearest f n k (fun _ => True) out)
    (h' : KNearest (fun i => f (σ i)) n k (fun _ => True) out') : out'.map (fun i => f (σ i)) = out.map f := by
  rw [KNearest_values h, KNearest_values h']
  congr 1
  have hp : ((List.range n).map fun i => f (σ i)).Perm ((List.range n).map f) := by
    have := hσ.perm.map f
    rwa [List.map_map] at this
  exact List.Perm.eq_of_pairwise (le := (· ≤ ·)) (fun a b _ _ => le_antisymm) (List.pairwise_insertionSort _ _) (List.pairwise_insertionSort _ _)
    ((List.perm_insertionSort _ _).trans (hp.trans (List.perm_insertionSort _ _).symm))

/-- Without a tie between the last neighbour and the others, the neighbours are the same series. -/
theorem KNearest_order (hσ : Renumbers n σ) {f : ℕ → K} {out out' : List ℕ} (h : KNearest f n k (fun _ => True) out)
    (h' : KNearest (fun i => f (σ i)) n k (fun _ => True) out') (hgap : ∀ i ∈ out, ∀ j < n, j ∉ out → f i < f j) :
    (out'.map σ).Perm out := by
  have hn' : (out'.map σ).Nodup := h'.nodup.map σ.injective
  refine (List.perm_ext_iff_of_nodup hn' h.nodup).2 ?_
  have hsub : ∀ a ∈ out'.map σ, a ∈ out := by
    intro a ha
    by_contra hna
    obtain ⟨i, hi, rfl⟩ := List.mem_map.1 ha
    have hb : ∃ b ∈ out, b ∉ out'.map σ := by
      by_contra hall
      push Not at hall
      have hsub : out ⊆ (out'.map σ).erase (σ i) := fun b hb => (hn'.mem_erase_iff).2 ⟨fun hbe => hna (hbe ▸ hb), hall b hb⟩
      have hle := (List.subperm_of_subset h.nodup hsub).length_le
      rw [List.length_erase_of_mem ha, List.length_map, h.length, h'.length] at hle
      have : 0 < out'.length := List.length_pos_of_mem hi
      rw [h'.length] at this
      omega
    obtain ⟨b, hb, hnb⟩ := hb
    have hlt := hgap b hb (σ i) ((hσ i).2 (h'.mem i hi).1) hna
    have hs : σ.symm b ∉ out' := fun hm => hnb (List.mem_map.2 ⟨_, hm, by simp⟩)
    have hbn : σ.symm b < n := (hσ _).1 (by simpa using (h.mem b hb).1)
    have := h'.least (σ.symm b) hbn trivial hs i hi
    simp only [Equiv.apply_symm_apply] at this
    exact absurd hlt (not_lt.2 this)
  intro a
  refine ⟨hsub a, fun ha => ?_⟩
  have hp : (out'.map σ).Perm out := (List.subperm_of_subset hn' hsub).perm_of_length_le (by rw [List.length_map, h.length, h'.length])
  exact hp.mem_iff.2 ha

end Knn

section Score
variable {K : Type} [Field K] [LinearOrder K]

/-- The weight of one neighbour among those at distances `ds`; `none` for user-defined weights. -/
def oneWeight (w : KnnWeights K) (zero : Bool) (d : K) : K :=
  match w with
  | .uniform => 1
  | .distance => if zero then (if d = 0 then 1 else 0) else 1 / d
  | .fn _ => 0

theorem knnWeights_map (w : KnnWeights K) (hw : w = .uniform ∨ w = .distance) (ds : List K) :
    knnWeights w ds = ds.map (oneWeight w (ds.any (· = 0))) := by
  rcases hw with rfl | rfl
  · rfl
  · unfold knnWeights
    cases ds.any (· = 0) <;> rfl

theorem any_perm {l l' : List K} (h : l.Perm l') : l.any (· = 0) = l'.any (· = 0) := by
  rw [Bool.eq_iff_iff, List.any_eq_true, List.any_eq_true]
  simp only [h.mem_iff]

theorem knnScore_perm (w : KnnWeights K) (hw : w = .uniform ∨ w = .distance) (f : ℕ → K) (y : ℕ → ℕ) {l l' : List ℕ} (h : l.Perm l') (c : ℕ) :
    knnScore (knnWeights w (l.map f)) (l.map y) c = knnScore (knnWeights w (l'.map f)) (l'.map y) c := by
  have key : ∀ m : List ℕ, m.Perm l' → knnScore (knnWeights w (m.map f)) (m.map y) c =
      (m.map fun i => if y i = c then oneWeight w ((l'.map f).any (· = 0)) (f i) else 0).sum := by
    intro m hm
    rw [knnWeights_map w hw, any_perm (hm.map f), knnScore, List.map_map, List.zipWith_map, List.zipWith_self]
    rfl
  rw [key l h, key l' (.refl _), (h.map _).sum_eq]

theorem knnRegress_perm (w : KnnWeights K) (hw : w = .uniform ∨ w = .distance) (f y : ℕ → K) {l l' : List ℕ} (h : l.Perm l') :
    knnRegress w (l.map f) (l.map y) = knnRegress w (l'.map f) (l'.map y) := by
  have h1 : (knnWeights w (l.map f)).sum = (knnWeights w (l'.map f)).sum := by
    rw [knnWeights_map w hw, knnWeights_map w hw, any_perm (h.map f), List.map_map, List.map_map, (h.map _).sum_eq]
  have h2 : (List.zipWith (· * ·) (l.map y) (knnWeights w (l.map f))).sum = (List.zipWith (· * ·) (l'.map y) (knnWeights w (l'.map f))).sum := by
    rw [knnWeights_map w hw, knnWeights_map w hw, any_perm (h.map f), List.map_map, List.map_map, List.zipWith_map, List.zipWith_map,
      List.zipWith_self, List.zipWith_self, (h.map _).sum_eq]
  rcases hw with rfl | rfl
  · simp only [knnRegress, (h.map y).sum_eq, List.length_map, h.length_eq]
  · simp only [knnRegress, h1, h2]

end Score

section Db
variable {K : Type} [LinearOrder K] {n : ℕ} {σ : Equiv.Perm ℕ}

theorem DbCore_order (hσ : Renumbers n σ) (D : ℕ → ℕ → K) (eps : K) (minTs i : ℕ) :
    DbCore (fun i j => D (σ i) (σ j)) eps minTs n i ↔ DbCore D eps minTs n (σ i) := by
  unfold DbCore
  have hc : ((Finset.range n).filter fun j => D (σ i) (σ j) ≤ eps).card = ((Finset.range n).filter fun j => D (σ i) j ≤ eps).card := by
    refine Finset.card_bij (fun a _ => σ a) ?_ (fun a _ b _ hab => σ.injective hab) ?_
    · intro a ha
      simp only [Finset.mem_filter, Finset.mem_range] at ha ⊢
      exact ⟨(hσ a).2 ha.1, ha.2⟩
    · intro b hb
      simp only [Finset.mem_filter, Finset.mem_range] at hb
      exact ⟨σ.symm b, by simpa using ⟨(hσ _).1 (by simpa using hb.1), hb.2⟩, by simp⟩
  rw [hc, hσ i]

theorem DbConnected_order (hσ : Renumbers n σ) (D : ℕ → ℕ → K) (eps : K) (minTs u v : ℕ) :
    DbConnected (fun i j => D (σ i) (σ j)) eps minTs n u v ↔ DbConnected D eps minTs n (σ u) (σ v) := by
  unfold DbConnected
  constructor
  · intro h
    refine Relation.ReflTransGen.lift σ (fun a b hab => ?_) _ _ h
    exact ⟨(DbCore_order hσ D eps minTs a).1 hab.1, (DbCore_order hσ D eps minTs b).1 hab.2.1, hab.2.2⟩
  · intro h
    have := Relation.ReflTransGen.lift (p := fun i j => DbCore (fun i j => D (σ i) (σ j)) eps minTs n i ∧ DbCore (fun i j => D (σ i) (σ j)) eps minTs n j ∧
      D (σ i) (σ j) ≤ eps) σ.symm (fun a b hab => ?_) _ _ h
    · simpa [Function.onFun] using this
    · refine ⟨(DbCore_order hσ D eps minTs _).2 ?_, (DbCore_order hσ D eps minTs _).2 ?_, ?_⟩
      · simpa using hab.1
      · simpa using hab.2.1
      · simpa using hab.2.2

end Db
end Verif
