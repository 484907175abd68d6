import Verif.Model.Generators
import Mathlib.Algebra.BigOperators.Group.Finset.Basic
import Mathlib.Algebra.BigOperators.Ring.Finset
import Mathlib.Tactic.Ring
import Mathlib.Tactic.NormNum
/-!
# C78 — Random walks and blobs
-/
set_option linter.unusedSectionVars false
namespace Verif
variable {K : Type} [CommRing K]

/-- Position of the sample `(i, t, f)` among the draws of a dataset of series of `sz` samples of `d` features. -/
def drawIndex (sz d i t f : ℕ) : ℕ := (i * sz + t) * d + f

/-- Every draw is that of one sample, and the draws of `n` series are the first `n * sz * d`. -/
theorem C78_draws (n sz d : ℕ) :
    (∀ i t f, i < n → t < sz → f < d → drawIndex sz d i t f < n * sz * d) ∧
    (∀ i t f i' t' f', t < sz → f < d → t' < sz → f' < d → drawIndex sz d i t f = drawIndex sz d i' t' f' → i = i' ∧ t = t' ∧ f = f') ∧
    ∀ k < n * sz * d, ∃ i < n, ∃ t < sz, ∃ f < d, drawIndex sz d i t f = k := by
  unfold drawIndex
  have dec : ∀ m a b : ℕ, b < m → (a * m + b) / m = a ∧ (a * m + b) % m = b := by
    intro m a b hb
    constructor
    · rw [Nat.add_comm, Nat.add_mul_div_right _ _ (by omega), Nat.div_eq_of_lt hb, Nat.zero_add]
    · rw [Nat.add_comm, Nat.add_mul_mod_self_right, Nat.mod_eq_of_lt hb]
  refine ⟨?_, ?_, ?_⟩
  · intro i t f hi ht hf
    have h1 : i * sz + t + 1 ≤ n * sz := by
      calc i * sz + t + 1 ≤ i * sz + sz := by omega
        _ = (i + 1) * sz := by ring
        _ ≤ n * sz := Nat.mul_le_mul_right _ hi
    calc (i * sz + t) * d + f < (i * sz + t) * d + d := by omega
      _ = (i * sz + t + 1) * d := by ring
      _ ≤ n * sz * d := Nat.mul_le_mul_right _ h1
  · intro i t f i' t' f' ht hf ht' hf' h
    have h1 := dec d (i * sz + t) f hf
    have h2 := dec d (i' * sz + t') f' hf'
    rw [h] at h1
    have e1 : i * sz + t = i' * sz + t' := h1.1.symm.trans h2.1
    have e2 : f = f' := h1.2.symm.trans h2.2
    have h3 := dec sz i t ht
    have h4 := dec sz i' t' ht'
    rw [e1] at h3
    exact ⟨h3.1.symm.trans h4.1, h3.2.symm.trans h4.2, e2⟩
  · intro k hk
    have hd : 0 < d := Nat.pos_of_ne_zero (by rintro rfl; simp at hk)
    have hs : 0 < sz := Nat.pos_of_ne_zero (by rintro rfl; simp at hk)
    have h1 : k / d < n * sz := (Nat.div_lt_iff_lt_mul hd).2 hk
    refine ⟨k / d / sz, (Nat.div_lt_iff_lt_mul hs).2 h1, k / d % sz, Nat.mod_lt _ hs, k % d, Nat.mod_lt _ hd, ?_⟩
    rw [Nat.div_add_mod', Nat.div_add_mod']

/-- First samples and increments of random walks, and their values. -/
theorem C78_walks (n sz d : ℕ) (mu std : K) (z : ℕ → K) (hs : 0 < sz) :
    ∃ X, randomWalks n sz d mu std z = (n * sz * d, .ok X) ∧
      (∀ i f, X i 0 f = mu + std * z (drawIndex sz d i 0 f)) ∧
      (∀ i t f, X i (t + 1) f - X i t f = mu + std * z (drawIndex sz d i (t + 1) f)) ∧
      ∀ i t f, X i t f = (t + 1) * mu + std * ∑ s ∈ Finset.range (t + 1), z (drawIndex sz d i s f) := by
  refine ⟨walkLoop fun i t f => randn sz d z i t f * std + mu, ?_, ?_, ?_, ?_⟩
  · unfold randomWalks; rw [if_neg (by omega)]
  · intro i f; unfold walkLoop randn drawIndex; ring
  · intro i t f
    rw [walkLoop]
    unfold randn drawIndex; ring
  · intro i t f
    induction t with
    | zero => unfold walkLoop randn drawIndex; rw [Finset.sum_range_one]; push_cast; ring
    | succ t ih => rw [walkLoop, ih, Finset.sum_range_succ _ (t + 1)]; unfold randn drawIndex; push_cast; ring

/-- No samples, no walk. -/
theorem C78_empty (n d : ℕ) (mu std noise : K) (nPer : ℕ) (z : ℕ → K) :
    (randomWalks n 0 d mu std z).2 = .error .indexError ∧ randomWalkBlobs nPer 0 d n noise z = .error .indexError := ⟨rfl, rfl⟩

theorem blobLabels_get (r : ℕ) : ∀ (m i : ℕ), i < m * r → ((List.range m).flatMap fun b => List.replicate r b)[i]? = some (i / r)
  | 0, i, h => by simp at h
  | m + 1, i, h => by
    have hlen : ((List.range m).flatMap fun b => List.replicate r b).length = m * r := by
      rw [List.length_flatMap]; simp
    rw [List.range_succ, List.flatMap_append]
    by_cases hi : i < m * r
    · rw [List.getElem?_append_left (by rw [hlen]; exact hi), blobLabels_get r m i hi]
    · have hr : 0 < r := Nat.pos_of_ne_zero (by rintro rfl; simp at h)
      rw [List.getElem?_append_right (by rw [hlen]; omega), hlen]
      have h' : i < m * r + r := by rw [← Nat.succ_mul]; exact h
      simp only [List.flatMap_cons, List.flatMap_nil, List.append_nil]
      rw [List.getElem?_replicate, if_pos (by omega)]
      congr 1
      symm
      rw [Nat.div_eq_iff hr]
      constructor <;> omega

/-- Blobs: labels in order, each as often as there are series per blob; a series is the walk of unit steps of its label plus noise, the walks being made
of the first draws and the noise of the next ones. -/
theorem C78_blobs (nPer sz d nBlobs : ℕ) (noise : K) (z : ℕ → K) (hs : 0 < sz) :
    ∃ X y W, randomWalkBlobs nPer sz d nBlobs noise z = .ok (X, y) ∧ (randomWalks nBlobs sz d 0 1 z).2 = .ok W ∧
      y.length = nPer * nBlobs ∧ (∀ b < nBlobs, y.count b = nPer) ∧ (y.Pairwise fun a b => a ≤ b) ∧
      ∀ i b, y[i]? = some b → b < nBlobs ∧ ∀ t f, X i t f = W b t f + noise * z (nBlobs * sz * d + drawIndex sz d i t f) := by
  have hW : randomWalks nBlobs sz d 0 1 z = (nBlobs * sz * d, .ok (walkLoop fun i t f => randn sz d z i t f * 1 + 0)) := by
    unfold randomWalks; rw [if_neg (by omega)]
  have hlen : ((List.range nBlobs).flatMap fun b => List.replicate nPer b).length = nBlobs * nPer := by
    rw [List.length_flatMap]; simp
  refine ⟨_, _, _, by unfold randomWalkBlobs; rw [hW], by rw [hW], by rw [hlen, Nat.mul_comm], ?_, ?_, ?_⟩
  · intro b hb
    rw [List.count_flatMap]
    have : ((List.range nBlobs).map (List.count b ∘ fun c => List.replicate nPer c)) = (List.range nBlobs).map fun c => if c = b then nPer else 0 := by
      apply List.map_congr_left
      intro c _
      simp [List.count_replicate]
    rw [this]
    clear this hlen hW
    induction nBlobs with
    | zero => omega
    | succ m ih =>
      rw [List.range_succ, List.map_append, List.sum_append]
      by_cases h : b < m
      · rw [ih h]; simp; omega
      · obtain rfl : b = m := by omega
        have : ((List.range b).map fun c => if c = b then nPer else 0).sum = 0 := by
          rw [List.sum_eq_zero]
          intro x hx
          obtain ⟨c, hc, rfl⟩ := List.mem_map.1 hx
          rw [List.mem_range] at hc
          rw [if_neg (by omega)]
        rw [this]; simp
  · rw [List.pairwise_iff_getElem]
    intro i j hi hj hij
    rw [hlen] at hi hj
    have h1 := blobLabels_get nPer nBlobs i hi
    have h2 := blobLabels_get nPer nBlobs j hj
    rw [List.getElem?_eq_getElem (by rw [hlen]; exact hi)] at h1
    rw [List.getElem?_eq_getElem (by rw [hlen]; exact hj)] at h2
    rw [Option.some.inj h1, Option.some.inj h2]
    exact Nat.div_le_div_right hij.le
  · intro i b hb
    have hi : i < nBlobs * nPer := by
      by_contra h
      rw [List.getElem?_eq_none (by rw [hlen]; omega)] at hb
      cases hb
    rw [blobLabels_get nPer nBlobs i hi] at hb
    obtain rfl := Option.some.inj hb
    have hr : 0 < nPer := Nat.pos_of_ne_zero (by rintro rfl; simp at hi)
    refine ⟨(Nat.div_lt_iff_lt_mul hr).2 hi, ?_⟩
    intro t f
    simp only [randn, drawIndex]
    ring

/-- Without noise the series of a blob are equal. -/
theorem C78_no_noise (nPer sz d nBlobs : ℕ) (z : ℕ → K) (X : ℕ → ℕ → ℕ → K) (y : List ℕ)
    (h : randomWalkBlobs nPer sz d nBlobs 0 z = .ok (X, y)) (i j b : ℕ) (hi : y[i]? = some b) (hj : y[j]? = some b) : X i = X j := by
  have hs : 0 < sz := by
    rcases Nat.eq_zero_or_pos sz with rfl | hs
    · rw [(C78_empty nBlobs d (0 : K) 0 0 nPer z).2] at h; cases h
    · exact hs
  obtain ⟨X', y', W, h1, -, -, -, -, h2⟩ := C78_blobs nPer sz d nBlobs (0 : K) z hs
  rw [h] at h1
  simp only [Except.ok.injEq, Prod.mk.injEq] at h1
  obtain ⟨rfl, rfl⟩ := h1
  funext t f
  rw [(h2 i b hi).2, (h2 j b hj).2]
  ring

example : ((randomWalks 2 3 1 (1 : ℤ) 2 fun k => k).2.map fun X => (List.range 2).map fun i => (List.range 3).map fun t => X i t 0) =
    .ok [[1, 4, 9], [7, 16, 27]] := by decide +kernel

example : ((randomWalkBlobs 2 2 1 2 (10 : ℤ) fun k => k).map fun p => ((List.range 4).map fun i => (List.range 2).map fun t => p.1 i t 0, p.2)) =
    .ok ([[40, 51], [60, 71], [82, 95], [102, 115]], [0, 0, 1, 1]) := by decide +kernel

end Verif
