import Verif.Proofs.Psd
import Verif.Proofs.Gak
/-!
The global alignment kernel is positive semidefinite.
-/
namespace Verif
open Spec
noncomputable section
open Classical Filter

/-- A prefix of a series: samples by time and feature, and a length. -/
abbrev Pref := (ℕ → ℕ → ℝ) × ℕ

/-- Gaussian kernel of the last samples. -/
def gk (d : ℕ) (t : ℝ) (u v : ℕ → ℝ) : ℝ := Real.exp (-(∑ f ∈ Finset.range d, (u f - v f) ^ 2) * t)

theorem gk_pos (d t u v) : 0 < gk d t u v := Real.exp_pos _

theorem gk_le_one {d t} (ht : 0 ≤ t) (u v) : gk d t u v ≤ 1 := by
  unfold gk
  rw [Real.exp_le_one_iff]
  have : 0 ≤ ∑ f ∈ Finset.range d, (u f - v f) ^ 2 := Finset.sum_nonneg fun _ _ => by positivity
  nlinarith

/-- Local kernel at a pair of times. -/
def lk (d : ℕ) (t : ℝ) (x y : ℕ → ℕ → ℝ) (i j : ℕ) : ℝ := gk d t (x i) (y j) / (2 - gk d t (x i) (y j))

/-- The kernel on prefixes. -/
def zk (d : ℕ) (t : ℝ) (p q : Pref) : ℝ := zsum (Mat.full true) (lk d t p.1 q.1) p.2 q.2

/-- Remove the last sample. -/
def pre (p : Pref) : Pref := (p.1, p.2 - 1)

/-- Indicator of the empty prefix. -/
def emp (p : Pref) : ℝ := if p.2 = 0 then 1 else 0

/-- The operator whose fixed point is the kernel. -/
def gakT (d : ℕ) (t : ℝ) (Z : Pref → Pref → ℝ) (p q : Pref) : ℝ :=
  emp p * emp q + (1 - emp p) * (1 - emp q) * (1 / 2 * gk d t (p.1 (p.2 - 1)) (q.1 (q.2 - 1)) *
    (Z p q + Z (pre p) q + Z p (pre q) + Z (pre p) (pre q)))

theorem gakT_psd {d t} (ht : 0 ≤ t) {Z} (hZ : IsPsd Z) : IsPsd (gakT d t Z) := by
  have hg := (IsPsd.gaussian d t ht).comp (fun p : Pref => p.1 (p.2 - 1))
  exact (IsPsd.rankOne emp).add ((IsPsd.rankOne fun p => 1 - emp p).mul
    ((hg.smul (by norm_num : (0:ℝ) ≤ 1 / 2)).mul (hZ.pred pre)))

theorem gakT_mono {d t} {Z W : Pref → Pref → ℝ} (h : ∀ p q, Z p q ≤ W p q) (p q) :
    gakT d t Z p q ≤ gakT d t W p q := by
  unfold gakT
  have h0 := gk_pos d t (p.1 (p.2 - 1)) (q.1 (q.2 - 1))
  have h1 : 0 ≤ (1 - emp p) * (1 - emp q) := by
    unfold emp; split <;> split <;> norm_num
  have h2 : Z p q + Z (pre p) q + Z p (pre q) + Z (pre p) (pre q) ≤
      W p q + W (pre p) q + W p (pre q) + W (pre p) (pre q) := by
    have := h p q; have := h (pre p) q; have := h p (pre q); have := h (pre p) (pre q)
    linarith
  gcongr

theorem zk_nonneg {d t} (ht : 0 ≤ t) (p q : Pref) : 0 ≤ zk d t p q := by
  unfold zk zsum
  refine Finset.sum_nonneg fun π _ => List.prod_nonneg ?_
  intro v hv
  obtain ⟨c, -, rfl⟩ := List.mem_map.1 hv
  have := gk_le_one (d := d) ht (p.1 c.1) (q.1 c.2)
  exact div_nonneg (gk_pos ..).le (by linarith)

/-- A fixed point of the operator is determined by its values on shorter prefixes. -/
theorem fix_unique {d t} (ht : 0 ≤ t) {Z W : Pref → Pref → ℝ} (hZ : ∀ p q, Z p q = gakT d t Z p q)
    (hW : ∀ p q, W p q = gakT d t W p q) (p q : Pref) : Z p q = W p q := by
  obtain ⟨x, i⟩ := p
  obtain ⟨y, j⟩ := q
  induction hs : i + j using Nat.strong_induction_on generalizing i j with
  | _ s ih =>
    rw [hZ, hW]
    rcases i with _ | i <;> rcases j with _ | j
    · simp [gakT, emp]
    · simp [gakT, emp]
    · simp [gakT, emp]
    · have e1 := ih (i + (j+1)) (by omega) i (j+1) rfl
      have e2 := ih (i + 1 + j) (by omega) (i+1) j rfl
      have e3 := ih (i + j) (by omega) i j rfl
      have z := hZ (x, i+1) (y, j+1)
      have w := hW (x, i+1) (y, j+1)
      have hg := gk_le_one (d := d) ht (x i) (y j)
      have hz : ∀ V : Pref → Pref → ℝ, gakT d t V (x, i+1) (y, j+1) = 1 / 2 * gk d t (x i) (y j) *
          (V (x, i+1) (y, j+1) + V (x, i) (y, j+1) + V (x, i+1) (y, j) + V (x, i) (y, j)) := by
        intro V; simp [gakT, emp, pre]
      rw [hz] at z w
      rw [← hZ, ← hW]
      rw [e1, e2, e3] at z
      have : (1 - 1 / 2 * gk d t (x i) (y j)) * (Z (x, i+1) (y, j+1) - W (x, i+1) (y, j+1)) = 0 := by
        linear_combination z - w
      rcases mul_eq_zero.1 this with h | h
      · linarith
      · linarith

theorem zk_fix {d t} (ht : 0 ≤ t) (p q : Pref) : zk d t p q = gakT d t (zk d t) p q := by
  obtain ⟨x, i⟩ := p
  obtain ⟨y, j⟩ := q
  rcases i with _ | i <;> rcases j with _ | j
  · simp [gakT, emp, zk, zsum_zero_zero]
  · simp [gakT, emp, zk, zsum_zero_succ]
  · simp [gakT, emp, zk, zsum_succ_zero]
  · have hg := gk_le_one (d := d) ht (x i) (y j)
    have hne : 2 - gk d t (x i) (y j) ≠ 0 := by intro h; linarith
    simp only [gakT, emp, pre, zk, Nat.add_sub_cancel, Nat.succ_ne_zero, if_false]
    have e := zsum_succ_succ (Mat.full true) (lk d t x y) i j
    rw [if_pos (show Mat.full true i j = true from rfl)] at e
    have hl : lk d t x y i j * (2 - gk d t (x i) (y j)) = gk d t (x i) (y j) := div_mul_cancel₀ _ hne
    linear_combination (1 - gk d t (x i) (y j) / 2) * e + (1/2) * (zsum (Mat.full true) (lk d t x y) i (j+1) +
      zsum (Mat.full true) (lk d t x y) (i+1) j + zsum (Mat.full true) (lk d t x y) i j) * hl

/-- The kernel on prefixes is positive semidefinite. -/
theorem zk_psd {d t} (ht : 0 ≤ t) : IsPsd (zk d t) := by
  let Zn : ℕ → Pref → Pref → ℝ := fun n => Nat.rec (fun _ _ => 0) (fun _ Z => gakT d t Z) n
  have hpsd : ∀ n, IsPsd (Zn n) := by
    intro n
    induction n with
    | zero => exact IsPsd.zero
    | succ n ih => exact gakT_psd ht ih
  have hle : ∀ n p q, Zn n p q ≤ zk d t p q := by
    intro n
    induction n with
    | zero => exact fun p q => zk_nonneg ht p q
    | succ n ih => intro p q; rw [zk_fix ht]; exact gakT_mono ih p q
  have hmono : ∀ p q, Monotone fun n => Zn n p q := by
    intro p q
    refine monotone_nat_of_le_succ fun n => ?_
    induction n generalizing p q with
    | zero =>
      have : (0:ℝ) ≤ emp p * emp q := by unfold emp; split <;> split <;> norm_num
      show (0:ℝ) ≤ gakT d t (fun _ _ => 0) p q
      simpa [gakT] using this
    | succ n ih => exact gakT_mono ih p q
  have hlim : ∀ p q, Tendsto (fun n => Zn n p q) atTop (nhds (⨆ n, Zn n p q)) := fun p q =>
    tendsto_atTop_ciSup (hmono p q) ⟨zk d t p q, by rintro _ ⟨n, rfl⟩; exact hle n p q⟩
  have hfix : ∀ p q, (⨆ n, Zn n p q) = gakT d t (fun p q => ⨆ n, Zn n p q) p q := by
    intro p q
    refine tendsto_nhds_unique ((tendsto_add_atTop_iff_nat 1).2 (hlim p q)) ?_
    show Tendsto (fun n => gakT d t (Zn n) p q) atTop _
    unfold gakT
    exact ((((((hlim p q).add (hlim _ q)).add (hlim p _)).add (hlim _ _)).const_mul _).const_mul _).const_add _
  refine IsPsd.lim hpsd fun p q => ?_
  rw [fix_unique ht (zk_fix ht) hfix p q]
  exact hlim p q

/-- Samples of a series by time and feature. -/
def serOf (x : List (List ℝ)) : ℕ → ℕ → ℝ := fun i f => (x.getD i []).getD f 0

theorem sqEuclid_eq_range (d : ℕ) (u v : List ℝ) (hu : u.length = d) (hv : v.length = d) :
    sqEuclid u v = ∑ f ∈ Finset.range d, (u.getD f 0 - v.getD f 0) ^ 2 := by
  induction d generalizing u v with
  | zero =>
    obtain rfl := List.length_eq_zero_iff.1 hu
    simp [sqEuclid]
  | succ d ih =>
    rcases u with _ | ⟨a, u⟩
    · simp at hu
    rcases v with _ | ⟨b, v⟩
    · simp at hv
    have := ih u v (by simpa using hu) (by simpa using hv)
    rw [Finset.sum_range_succ']
    simp only [List.getD_cons_succ, List.getD_cons_zero]
    rw [← this]
    simp [sqEuclid]
    ring

theorem zsum_congr {mask : ℕ → ℕ → Bool} {k k' : ℕ → ℕ → ℝ} {n m : ℕ} (h : ∀ i < n, ∀ j < m, k i j = k' i j) :
    zsum mask k n m = zsum mask k' n m := by
  induction hs : n + m using Nat.strong_induction_on generalizing n m with
  | _ s ih =>
    rcases n with _ | n <;> rcases m with _ | m
    · rw [zsum_zero_zero, zsum_zero_zero]
    · rw [zsum_zero_succ, zsum_zero_succ]
    · rw [zsum_succ_zero, zsum_succ_zero]
    · rw [zsum_succ_succ, zsum_succ_succ, h n (by omega) m (by omega),
        ih _ (by omega) (fun i hi j hj => h i (by omega) j hj) rfl,
        ih _ (by omega) (fun i hi j hj => h i hi j (by omega)) rfl,
        ih _ (by omega) (fun i hi j hj => h i (by omega) j (by omega)) rfl]

theorem unnormGak_eq_zk {d : ℕ} {x y : List (List ℝ)} (hx : ∀ r ∈ x, r.length = d) (hy : ∀ r ∈ y, r.length = d)
    (σ : ℝ) : unnormGak x y σ = zk d (1 / (2 * σ ^ 2)) (serOf x, x.length) (serOf y, y.length) := by
  rw [unnormGak_eq_zsum, zk]
  refine zsum_congr fun i hi j hj => ?_
  have e : ∀ (z : List (List ℝ)) (i : ℕ), i < z.length → z.getD i [] ∈ z := by
    intro z i hi
    rw [List.getD_eq_getElem?_getD, List.getElem?_eq_getElem hi]
    exact List.getElem_mem hi
  have hg : gaussian σ (x.getD i []) (y.getD j []) = gk d (1 / (2 * σ ^ 2)) (serOf x i) (serOf y j) := by
    unfold gaussian gk
    rw [sqEuclid_eq_range d _ _ (hx _ (e x i hi)) (hy _ (e y j hj)), ← mul_one_div]
    rfl
  simp only [localKernel, lk, hg]

end
end Verif
