import Verif.Model.Shapelets
import Verif.Spec.Shapelets
import Verif.Proofs.Argmin
import Mathlib.Algebra.Order.Ring.Rat
import Mathlib.Algebra.Field.Rat
import Mathlib.Algebra.BigOperators.Ring.Finset
import Mathlib.Algebra.BigOperators.Intervals
import Mathlib.Tactic.Ring
/-!
C45: the shapelet transform.
-/
set_option linter.unusedSectionVars false
namespace Verif
open Spec

theorem patching_eq {α : Type} (d : ℕ) (x : ℕ → ℕ → α) (t l f : ℕ) (hf : f < d) : patching d x t l f = x (t + l) f := by
  unfold patching reshape2 extractSeq flatten2
  have h : t * d + (l * d + f) = f + d * (t + l) := by ring
  rw [h, Nat.add_mul_div_left _ _ (by omega), Nat.add_mul_mod_self_left, Nat.div_eq_of_lt hf, Nat.mod_eq_of_lt hf, Nat.zero_add]

/-- Sequences extracted from the flattened series are the windows of the series. -/
theorem C45_patching {α : Type} (d : ℕ) (x : ℕ → ℕ → α) (t l f : ℕ) (hf : f < d) : patching d x t l f = x (t + l) f := patching_eq d x t l f hf

theorem windowMask_iff {K : Type} (sz L d : ℕ) (x : ℕ → ℕ → Option K) (t : ℕ) (ht : t + L ≤ sz) :
    windowMask L d (patching d x t) = true ↔ ValidWindow sz L d x t := by
  unfold windowMask ValidWindow
  simp only [List.all_eq_true, List.mem_range, Option.isSome_iff_ne_none]
  constructor
  · intro h
    exact ⟨ht, fun l hl f hf => by rw [← patching_eq d x t l f hf]; exact h l hl f hf⟩
  · intro h l hl f hf
    rw [patching_eq d x t l f hf]
    exact h.2 l hl f hf

section
variable {K : Type} [Field K]

theorem sum_blocks (L d : ℕ) (g : ℕ → K) : ∑ i ∈ Finset.range (L * d), g i = ∑ l ∈ Finset.range L, ∑ f ∈ Finset.range d, g (l * d + f) := by
  induction L with
  | zero => simp
  | succ L ih => rw [Nat.succ_mul, Finset.sum_range_add, ih, Finset.sum_range_succ]

theorem kernelRows_eq (nb d : ℕ) (ker : ℕ → ℕ → ℕ → K) (l f k : ℕ) (hk : k < nb) (hf : f < d) :
    kernelRows nb d ker (l * d + f) k = ker ((f * nb + k) / d) l ((f * nb + k) % d) := by
  have hlt : (f * nb + k) / d < nb := by
    rw [Nat.div_lt_iff_lt_mul (by omega)]
    calc f * nb + k < f * nb + nb := by omega
      _ = (f + 1) * nb := by ring
      _ ≤ d * nb := Nat.mul_le_mul_right _ hf
      _ = nb * d := Nat.mul_comm _ _
  have h : (l * d + f) * nb + k = (f * nb + k) + d * (l * nb) := by ring
  unfold kernelRows
  simp only
  rw [h, Nat.add_mul_div_left _ _ (by omega), Nat.add_mul_mod_self_left, Nat.add_mul_mod_self_right, Nat.mod_eq_of_lt hlt,
    Nat.add_mul_div_right _ _ (by omega), Nat.div_eq_of_lt hlt, Nat.zero_add]

/-- What the layer computes: the cross term takes its values from other shapelets and features, by the order in which a transposed tensor
is read. -/
theorem C45_actual (L d nb : ℕ) (ker : ℕ → ℕ → ℕ → K) (x : ℕ → ℕ → Option K) (t k : ℕ) (hk : k < nb) :
    localDist L d nb ker (patching d x t) k =
      (∑ l ∈ Finset.range L, ∑ f ∈ Finset.range d, (((x (t + l) f).getD 0) ^ 2 + ker k l f ^ 2 -
        2 * ((x (t + l) f).getD 0 * ker ((f * nb + k) / d) l ((f * nb + k) % d)))) / L := by
  have hw : ∀ l, ∀ f ∈ Finset.range d, patching d x t l f = x (t + l) f := fun l f hf => patching_eq d x t l f (Finset.mem_range.mp hf)
  unfold localDist
  simp only
  congr 1
  rw [sum_blocks, Finset.mul_sum, ← Finset.sum_add_distrib, ← Finset.sum_sub_distrib]
  refine Finset.sum_congr rfl fun l _ => ?_
  rw [Finset.mul_sum, ← Finset.sum_add_distrib, ← Finset.sum_sub_distrib]
  refine Finset.sum_congr rfl fun f hf => ?_
  have hf' := Finset.mem_range.mp hf
  have hfl : flatten2 d (fun l f => (patching d x t l f).getD 0) (l * d + f) = (x (t + l) f).getD 0 := by
    unfold flatten2
    rw [Nat.add_comm (l * d), Nat.add_mul_div_right _ _ (by omega), Nat.add_mul_mod_self_right, Nat.div_eq_of_lt hf', Nat.mod_eq_of_lt hf',
      Nat.zero_add]
    exact congrArg (fun o => o.getD 0) (hw l f hf)
  rw [kernelRows_eq nb d ker l f k hk hf', hfl, hw l f hf]

/-- With a single feature, or a single shapelet of that length, entry `k` of a window is its distance to shapelet `k`. Missing: several
shapelets and features, where it is false (`C45_false_features`). -/
theorem C45_distance_partial (L d nb : ℕ) (ker : ℕ → ℕ → ℕ → K) (x : ℕ → ℕ → Option K) (t k : ℕ) (hk : k < nb) (h : d = 1 ∨ nb = 1) :
    localDist L d nb ker (patching d x t) k = windowDist L d x (ker k) t := by
  rw [C45_actual L d nb ker x t k hk]
  unfold windowDist
  congr 1
  refine Finset.sum_congr rfl fun l _ => Finset.sum_congr rfl fun f hf => ?_
  have hf' := Finset.mem_range.mp hf
  have : (f * nb + k) / d = k ∧ (f * nb + k) % d = f := by
    rcases h with rfl | rfl
    · have : f = 0 := by omega
      subst this
      simp [Nat.mod_one]
    · have : k = 0 := by omega
      subst this
      simp [Nat.div_eq_of_lt hf', Nat.mod_eq_of_lt hf']
  rw [this.1, this.2]
  ring

end

section
variable {K : Type} [Field K] [LinearOrder K]

theorem foldlMax_ge (l : List K) (a : K) : a ≤ l.foldl max a ∧ ∀ x ∈ l, x ≤ l.foldl max a := by
  induction l generalizing a with
  | nil => simp
  | cons b l ih =>
    obtain ⟨h1, h2⟩ := ih (max a b)
    refine ⟨le_trans (le_max_left _ _) h1, fun x hx => ?_⟩
    rcases List.mem_cons.mp hx with rfl | hx
    · exact le_trans (le_max_right _ _) h1
    · exact h2 x hx

theorem tensorMax_ge (l : List K) : ∀ x ∈ l, x ≤ tensorMax l := by
  cases l with
  | nil => simp
  | cons a l =>
    intro x hx
    rcases List.mem_cons.mp hx with rfl | hx
    · exact (foldlMax_ge l x).1
    · exact (foldlMax_ge l a).2 x hx

theorem foldlMin_le (l : List K) (a : K) : (l.foldl min a = a ∨ l.foldl min a ∈ l) ∧ l.foldl min a ≤ a ∧ ∀ x ∈ l, l.foldl min a ≤ x := by
  induction l generalizing a with
  | nil => simp
  | cons b l ih =>
    obtain ⟨h0, h1, h2⟩ := ih (min a b)
    refine ⟨?_, le_trans h1 (min_le_left _ _), fun x hx => ?_⟩
    · rcases h0 with h0 | h0
      · rcases min_choice a b with h | h
        · left; rw [List.foldl_cons, h0, h]
        · right; rw [List.foldl_cons, h0, h]; simp
      · right; rw [List.foldl_cons]; exact List.mem_cons_of_mem _ h0
    · rcases List.mem_cons.mp hx with rfl | hx
      · exact le_trans h1 (min_le_right _ _)
      · exact h2 x hx

theorem tensorMin_spec (l : List K) (h : l ≠ []) : tensorMin l ∈ l ∧ ∀ x ∈ l, tensorMin l ≤ x := by
  cases l with
  | nil => exact absurd rfl h
  | cons a l =>
    obtain ⟨h0, h1, h2⟩ := foldlMin_le l a
    refine ⟨?_, fun x hx => ?_⟩
    · rcases h0 with h0 | h0
      · show l.foldl min a ∈ a :: l; rw [h0]; simp
      · exact List.mem_cons_of_mem _ h0
    · rcases List.mem_cons.mp hx with rfl | hx
      · exact h1
      · exact h2 x hx

theorem maskedDist_ge (B n nb : ℕ) (dist : ℕ → ℕ → ℕ → K) (mask : ℕ → ℕ → Bool) (b t k t' : ℕ) (hb : b < B) (ht : t < n) (hk : k < nb)
    (hm : mask b t' = false) : dist b t k ≤ maskedDist B n nb dist mask b t' k := by
  unfold maskedDist
  rw [hm]
  simp only [Bool.false_eq_true, if_false]
  apply tensorMax_ge
  simp only [List.mem_flatMap, List.mem_range, List.mem_map]
  exact ⟨b, hb, t, ht, k, hk, rfl⟩

/-- For every batch and padding: a series with at least one valid window gets, for each shapelet, the least distance to a valid window,
whatever the other series of the batch. Missing: several features with several shapelets of one length. -/
theorem C45_transform_partial (sz L d nb B : ℕ) (ker : ℕ → ℕ → ℕ → K) (X : ℕ → ℕ → ℕ → Option K) (b k : ℕ) (hb : b < B) (hk : k < nb)
    (h : d = 1 ∨ nb = 1) (hv : ∃ t, ValidWindow sz L d (X b) t) :
    ShapeletDist sz L d (X b) (ker k) (shapeletTransform sz L d nb B ker X b k) := by
  obtain ⟨t0, h0⟩ := hv
  have hn : ∀ {t}, t < sz - L + 1 → t + L ≤ sz := by have := h0.1; omega
  have hn' : ∀ {t}, t + L ≤ sz → t < sz - L + 1 := by intro t; omega
  unfold shapeletTransform minPooling
  obtain ⟨h1, h2⟩ := tensorMin_spec ((List.range (sz - L + 1)).map fun t => maskedDist B (sz - L + 1) nb
    (fun b t => localDist L d nb ker (patching d (X b) t)) (fun b t => windowMask L d (patching d (X b) t)) b t k) (by simp)
  generalize tensorMin (K := K) _ = v at h1 h2 ⊢
  simp only [List.mem_map, List.mem_range, forall_exists_index, and_imp, forall_apply_eq_imp_iff₂] at h1 h2
  have hval : ∀ t, ValidWindow sz L d (X b) t → maskedDist B (sz - L + 1) nb (fun b t => localDist L d nb ker (patching d (X b) t))
      (fun b t => windowMask L d (patching d (X b) t)) b t k = windowDist L d (X b) (ker k) t := by
    intro t ht
    unfold maskedDist
    rw [if_pos ((windowMask_iff sz L d (X b) t ht.1).mpr ht)]
    exact C45_distance_partial L d nb ker (X b) t k hk h
  have hle : ∀ t, ValidWindow sz L d (X b) t → v ≤ windowDist L d (X b) (ker k) t := by
    intro t ht
    rw [← hval t ht]
    exact h2 t (hn' ht.1)
  refine ⟨?_, ?_⟩
  · obtain ⟨t, ht, hvt⟩ := h1
    by_cases hm : windowMask L d (patching d (X b) t) = true
    · have hw := (windowMask_iff sz L d (X b) t (hn ht)).mp hm
      exact ⟨t, hw, by rw [← hvt, hval t hw]⟩
    · refine ⟨t0, h0, le_antisymm (hle t0 h0) ?_⟩
      rw [← hvt, ← C45_distance_partial L d nb ker (X b) t0 k hk h]
      exact maskedDist_ge B (sz - L + 1) nb (fun b t => localDist L d nb ker (patching d (X b) t)) (fun b t => windowMask L d (patching d (X b) t))
        b t0 k t hb (hn' h0.1) hk (by simpa using hm)
  · rintro w ⟨t, ht, rfl⟩
    exact hle t ht

/-- When missing values are only at the end, `locate` gives the first valid window of least distance. Missing: values missing before the
end (`C45_false_locate`), several features with several shapelets. -/
theorem C45_locate_partial (sz L d nb B : ℕ) (ker : ℕ → ℕ → ℕ → K) (X : ℕ → ℕ → ℕ → Option K) (b k : ℕ) (hb : b < B) (hk : k < nb)
    (h : d = 1 ∨ nb = 1) (hv : ∃ t, ValidWindow sz L d (X b) t)
    (hpre : ∀ t t', t' ≤ t → ValidWindow sz L d (X b) t → ValidWindow sz L d (X b) t') :
    ValidWindow sz L d (X b) (shapeletLocate sz L d nb B ker X b k) ∧
    windowDist L d (X b) (ker k) (shapeletLocate sz L d nb B ker X b k) = shapeletTransform sz L d nb B ker X b k ∧
    ∀ t < shapeletLocate sz L d nb B ker X b k, shapeletTransform sz L d nb B ker X b k < windowDist L d (X b) (ker k) t := by
  have hT := C45_transform_partial sz L d nb B ker X b k hb hk h hv
  obtain ⟨⟨t0, h0, hv0⟩, hmin⟩ := hT
  generalize shapeletTransform sz L d nb B ker X b k = v at hv0 hmin ⊢
  have hn : ∀ {t}, t < sz - L + 1 → t + L ≤ sz := by have := h0.1; omega
  unfold shapeletLocate argminPooling
  obtain ⟨w, h1, h2, h3⟩ := argminL_spec ((List.range (sz - L + 1)).map fun t => maskedDist B (sz - L + 1) nb
    (fun b t => localDist L d nb ker (patching d (X b) t)) (fun b t => windowMask L d (patching d (X b) t)) b t k) (by simp)
  generalize argminL (C := K) _ = a at h1 h3 ⊢
  have hval : ∀ t, ValidWindow sz L d (X b) t → maskedDist B (sz - L + 1) nb (fun b t => localDist L d nb ker (patching d (X b) t))
      (fun b t => windowMask L d (patching d (X b) t)) b t k = windowDist L d (X b) (ker k) t := by
    intro t ht
    unfold maskedDist
    rw [if_pos ((windowMask_iff sz L d (X b) t ht.1).mpr ht)]
    exact C45_distance_partial L d nb ker (X b) t k hk h
  have ht0 : t0 < sz - L + 1 := by have := h0.1; omega
  have ha : a < sz - L + 1 := by
    by_contra hc
    rw [List.getElem?_eq_none (by simp; omega)] at h1
    cases h1
  have hwle : w ≤ v := by
    rw [hv0, ← hval t0 h0]
    exact h2 _ (List.mem_map.mpr ⟨t0, List.mem_range.mpr ht0, rfl⟩)
  have hge : ∀ t < sz - L + 1, v ≤ maskedDist B (sz - L + 1) nb (fun b t => localDist L d nb ker (patching d (X b) t))
      (fun b t => windowMask L d (patching d (X b) t)) b t k := by
    intro t ht
    by_cases hm : windowMask L d (patching d (X b) t) = true
    · have hw := (windowMask_iff sz L d (X b) t (hn ht)).mp hm
      rw [hval t hw]
      exact hmin ⟨t, hw, rfl⟩
    · rw [hv0, ← C45_distance_partial L d nb ker (X b) t0 k hk h]
      exact maskedDist_ge B (sz - L + 1) nb (fun b t => localDist L d nb ker (patching d (X b) t)) (fun b t => windowMask L d (patching d (X b) t))
        b t0 k t hb ht0 hk (by simpa using hm)
  rw [List.getElem?_map, List.getElem?_range ha, Option.map_some, Option.some_inj] at h1
  have hwv : w = v := le_antisymm hwle (h1 ▸ hge a ha)
  have hle0 : a ≤ t0 := by
    by_contra hc
    have := h3 t0 (by omega) _ (by rw [List.getElem?_map, List.getElem?_range ht0, Option.map_some])
    rw [hval t0 h0, ← hv0, hwv] at this
    exact lt_irrefl _ this
  have hav := hpre t0 a hle0 h0
  refine ⟨hav, ?_, fun t ht => ?_⟩
  · rw [← hval a hav, h1, hwv]
  · have := h3 t ht _ (by rw [List.getElem?_map, List.getElem?_range (by omega), Option.map_some])
    rw [hval t (hpre a t (by omega) hav), hwv] at this
    exact this

end

/-- False: the distance to a shapelet when there are several features and shapelets. A sample equal to the first of two shapelets of one
sample and two features is at "squared distance" -8 from it. -/
theorem C45_false_features : ∃ (ker : ℕ → ℕ → ℕ → ℚ) (X : ℕ → ℕ → ℕ → Option ℚ), ValidWindow 1 1 2 (X 0) 0 ∧ windowDist 1 2 (X 0) (ker 0) 0 = 0 ∧
    shapeletTransform 1 1 2 2 1 ker X 0 0 = -8 :=
  ⟨fun k _ f => if k = 0 then (if f = 0 then 0 else 1) else (if f = 0 then 5 else 0), fun _ _ f => if f = 0 then some 0 else some 1,
    ⟨by decide, by intro l _ f _; simp only; split <;> simp⟩, by decide +kernel, by decide +kernel⟩

/-- False: `locate` gives a window without missing values. Here the first sample is missing and the two others are equally distant. -/
theorem C45_false_locate : ∃ (ker : ℕ → ℕ → ℕ → ℚ) (X : ℕ → ℕ → ℕ → Option ℚ), ValidWindow 3 1 1 (X 0) 1 ∧
    shapeletLocate 3 1 1 1 1 ker X 0 0 = 0 ∧ ¬ValidWindow 3 1 1 (X 0) 0 :=
  ⟨fun _ _ _ => 0, fun _ t _ => if t = 0 then none else some 1, ⟨by decide, by intro l _ f _; simp⟩, by decide +kernel,
    fun h => h.2 0 (by decide) 0 (by decide) (by decide)⟩

/-- False: a series is transformed by itself. Without a valid window its entries are the largest distance in the batch. -/
theorem C45_false_batch : ∃ (ker : ℕ → ℕ → ℕ → ℚ) (X X' : ℕ → ℕ → ℕ → Option ℚ), X 0 = X' 0 ∧
    shapeletTransform 2 2 1 1 2 ker X 0 0 ≠ shapeletTransform 2 2 1 1 2 ker X' 0 0 :=
  ⟨fun _ _ _ => 0, fun b t _ => if b = 0 then (if t = 0 then some 1 else none) else some 2,
    fun b t _ => if b = 0 then (if t = 0 then some 1 else none) else some 3, rfl, by decide +kernel⟩

/-- Two series of four samples, the first padded. -/
def shpDemo : ℕ → ℕ → ℕ → Option ℚ := fun b t _ => if b = 0 then (if t < 3 then some t else none) else some 5

/-- One shapelet. -/
def shpKer : ℕ → ℕ → ℕ → ℚ := fun _ l _ => 1 + l

example : shapeletTransform 4 2 1 1 2 shpKer shpDemo 0 0 = 0 ∧ shapeletLocate 4 2 1 1 2 shpKer shpDemo 0 0 = 1 := by
  decide +kernel

example : ShapeletDist 4 2 1 (shpDemo 0) (shpKer 0) (shapeletTransform 4 2 1 1 2 shpKer shpDemo 0 0) :=
  C45_transform_partial 4 2 1 1 2 shpKer shpDemo 0 0 (by decide) (by decide) (.inl rfl)
    ⟨0, by decide, by intro l hl f _; simp only [shpDemo]; rw [if_pos trivial, if_pos (by omega)]; simp⟩

example : ∀ t t', t' ≤ t → ValidWindow 4 2 1 (shpDemo 0) t → ValidWindow 4 2 1 (shpDemo 0) t' := by
  intro t t' h ⟨h1, h2⟩
  refine ⟨by omega, fun l hl f _ => ?_⟩
  have h3 : t < 2 := by
    by_contra hc
    have := h2 1 (by decide) 0 (by decide)
    simp only [shpDemo] at this
    rw [if_pos trivial, if_neg (by omega)] at this
    exact this rfl
  simp only [shpDemo]
  rw [if_pos trivial, if_pos (by omega)]
  simp

end Verif
