import Verif.Model.Keogh
import Verif.Spec.Envelope
import Verif.Spec.Band
import Verif.Proofs.Masks
import Verif.Proofs.Dataset
/-!
LB_Keogh.
-/
set_option linter.unusedSectionVars false
namespace Verif
open Spec

section
variable {K : Type} [LinearOrder K]

theorem foldl_min_spec (l : List K) : ∀ a, (l.foldl min a = a ∨ l.foldl min a ∈ l) ∧
    l.foldl min a ≤ a ∧ ∀ x ∈ l, l.foldl min a ≤ x := by
  induction l with
  | nil => intro a; simp
  | cons b l ih =>
    intro a
    obtain ⟨h1, h2, h3⟩ := ih (min a b)
    simp only [List.foldl_cons]
    refine ⟨?_, h2.trans (min_le_left _ _), ?_⟩
    · rcases h1 with h1 | h1
      · rcases min_choice a b with h | h
        · exact .inl (h1.trans h)
        · exact .inr (by rw [h1, h]; simp)
      · exact .inr (List.mem_cons_of_mem _ h1)
    · intro x hx
      rcases List.mem_cons.1 hx with rfl | hx
      · exact h2.trans (min_le_right _ _)
      · exact h3 x hx

theorem foldl_max_spec (l : List K) : ∀ a, (l.foldl max a = a ∨ l.foldl max a ∈ l) ∧
    a ≤ l.foldl max a ∧ ∀ x ∈ l, x ≤ l.foldl max a := by
  induction l with
  | nil => intro a; simp
  | cons b l ih =>
    intro a
    obtain ⟨h1, h2, h3⟩ := ih (max a b)
    simp only [List.foldl_cons]
    refine ⟨?_, (le_max_left _ _).trans h2, ?_⟩
    · rcases h1 with h1 | h1
      · rcases max_choice a b with h | h
        · exact .inl (h1.trans h)
        · exact .inr (by rw [h1, h]; simp)
      · exact .inr (List.mem_cons_of_mem _ h1)
    · intro x hx
      rcases List.mem_cons.1 hx with rfl | hx
      · exact (le_max_right _ _).trans h2
      · exact h3 x hx

theorem npMin_spec {l : List K} (h : l ≠ []) : ∃ m, npMin l = .ok m ∧ IsLeast {x | x ∈ l} m := by
  cases l with
  | nil => exact absurd rfl h
  | cons a l =>
    obtain ⟨h1, h2, h3⟩ := foldl_min_spec l a
    refine ⟨_, rfl, ?_, ?_⟩
    · rcases h1 with h1 | h1
      · simp [h1]
      · simp [h1]
    · intro x hx
      rcases List.mem_cons.1 hx with rfl | hx
      · exact h2
      · exact h3 x hx

theorem npMax_spec {l : List K} (h : l ≠ []) : ∃ m, npMax l = .ok m ∧ IsGreatest {x | x ∈ l} m := by
  cases l with
  | nil => exact absurd rfl h
  | cons a l =>
    obtain ⟨h1, h2, h3⟩ := foldl_max_spec l a
    refine ⟨_, rfl, ?_, ?_⟩
    · rcases h1 with h1 | h1
      · simp [h1]
      · simp [h1]
    · intro x hx
      rcases List.mem_cons.1 hx with rfl | hx
      · exact h2
      · exact h3 x hx

theorem mem_envWindow (col : List K) (r i : ℕ) (x : K) : x ∈ envWindow col r i ↔ x ∈ Near col r i := by
  unfold envWindow Near
  simp only [Set.mem_ofPred_eq, List.mem_iff_getElem?]
  constructor
  · rintro ⟨k, hk⟩
    rw [List.getElem?_take] at hk
    split_ifs at hk with h
    rw [List.getElem?_drop] at hk
    exact ⟨_, hk, by omega, by omega⟩
  · rintro ⟨j, hj, h1, h2⟩
    have hlt := (List.getElem?_eq_some_iff.1 hj).1
    refine ⟨j - (i - r), ?_⟩
    rw [List.getElem?_take, if_pos (by omega), List.getElem?_drop,
      show i - r + (j - (i - r)) = j by omega, hj]

theorem envWindow_ne_nil (col : List K) (r i : ℕ) (hi : i < col.length) : envWindow col r i ≠ [] := by
  have : col[i] ∈ envWindow col r i := (mem_envWindow col r i _).2 ⟨i, by simp [hi], by omega, by omega⟩
  exact List.ne_nil_of_mem this

theorem mapM_except_total {β γ : Type} (f : β → Except PyErr γ) : ∀ l : List β,
    (∀ b ∈ l, ∃ c, f b = .ok c) → ∃ r, l.mapM f = .ok r := by
  intro l
  induction l with
  | nil => intro _; exact ⟨[], rfl⟩
  | cons a l ih =>
    intro h
    obtain ⟨c, hc⟩ := h a (by simp)
    obtain ⟨r, hr⟩ := ih (fun b hb => h b (by simp [hb]))
    exact ⟨c :: r, by rw [List.mapM_cons, hc, hr]; rfl⟩

theorem mapM_range_get {γ : Type} {f : ℕ → Except PyErr γ} {n : ℕ} {r : List γ}
    (h : (List.range n).mapM f = .ok r) : r.length = n ∧
    ∀ i < n, ∃ c, r[i]? = some c ∧ f i = .ok c := by
  have hf := mapM_except_inv f _ _ h
  have hl := hf.length_eq
  rw [List.length_range] at hl
  refine ⟨hl.symm, fun i hi => ?_⟩
  have := (List.forall₂_iff_get.1 hf).2 i (by simpa using hi) (by omega)
  refine ⟨r[i]'(by omega), by simp [hl ▸ hi], ?_⟩
  simpa using this

/-- `lb_envelope` returns, for each position, the windowed minimum and maximum. -/
theorem lbEnvelope_spec (col : List K) (r : ℕ) : ∃ down up, lbEnvelope col r = .ok (down, up) ∧
    down.length = col.length ∧ up.length = col.length ∧
    ∀ i < col.length, ∃ l u, down[i]? = some l ∧ up[i]? = some u ∧
      IsLeast (Near col r i) l ∧ IsGreatest (Near col r i) u := by
  have hset : ∀ i, {x | x ∈ envWindow col r i} = Near col r i :=
    fun i => Set.ext fun x => mem_envWindow col r i x
  obtain ⟨down, hdown⟩ := mapM_except_total (fun i => npMin (envWindow col r i)) (List.range col.length)
    (fun i hi => (npMin_spec (envWindow_ne_nil col r i (by simpa using hi))).imp fun _ h => h.1)
  obtain ⟨up, hup⟩ := mapM_except_total (fun i => npMax (envWindow col r i)) (List.range col.length)
    (fun i hi => (npMax_spec (envWindow_ne_nil col r i (by simpa using hi))).imp fun _ h => h.1)
  obtain ⟨hdl, hd⟩ := mapM_range_get hdown
  obtain ⟨hul, hu⟩ := mapM_range_get hup
  refine ⟨down, up, ?_, hdl, hul, fun i hi => ?_⟩
  · simp only [lbEnvelope, hdown, hup, bind, Except.bind, pure, Except.pure]
  · obtain ⟨l, hl, hle⟩ := hd i hi
    obtain ⟨u, hu, hue⟩ := hu i hi
    obtain ⟨l', hl', hl''⟩ := npMin_spec (envWindow_ne_nil col r i hi)
    obtain ⟨u', hu', hu''⟩ := npMax_spec (envWindow_ne_nil col r i hi)
    rw [hl'] at hle; cases hle
    rw [hu'] at hue; cases hue
    exact ⟨l, u, hl, hu, hset i ▸ hl'', hset i ▸ hu''⟩
end

section
variable {K : Type} [CommRing K] [LinearOrder K] [IsStrictOrderedRing K]

/-- Contribution of one query sample: squared distance to the interval `[l, u]`. -/
def gap (q l u : K) : K := (if u < q then (q - u) * (q - u) else 0) + (if q < l then (q - l) * (q - l) else 0)

theorem sum_filter_map {α : Type} (l : List α) (P : α → Bool) (f : α → K) :
    ((l.filter P).map f).sum = (l.map fun a => if P a then f a else 0).sum := by
  induction l with
  | nil => simp
  | cons a l ih =>
    by_cases h : P a
    · simp [h, ih]
    · simp [h, ih]

theorem keoghSq_eq (q down up : List K) (n : ℕ) (hq : q.length = n) (hd : down.length = n)
    (hu : up.length = n) :
    keoghSq q down up = ((List.range n).map fun i => gap (q.getD i 0) (down.getD i 0) (up.getD i 0)).sum := by
  unfold keoghSq
  simp only [foldl_add_eq_sum, zero_add, sum_filter_map]
  have hz : ∀ (l : List K), l.length = n → q.zip l = (List.range n).map fun i => (q.getD i 0, l.getD i 0) := by
    intro l hl
    apply List.ext_getElem
    · simp [hq, hl]
    · intro i h1 h2
      simp at h1 h2
      simp [List.getD_eq_getElem?_getD, h1.1, h1.2]
  rw [hz up hu, hz down hd, List.map_map, List.map_map, ← List.sum_map_add]
  simp [gap]

theorem gap_nonneg (q l u : K) : 0 ≤ gap q l u := by
  unfold gap
  apply add_nonneg <;> split_ifs <;> first | exact mul_self_nonneg _ | exact le_rfl

theorem gap_le {q l u c : K} (hl : l ≤ c) (hu : c ≤ u) : gap q l u ≤ (q - c) * (q - c) := by
  unfold gap
  split_ifs with h1 h2 h2
  · exact absurd (h1.trans h2) (not_lt.2 (hl.trans hu))
  · nlinarith
  · nlinarith
  · simp [mul_self_nonneg]

/-- A path reaching row `i` pays every row up to `i`. -/
theorem rows_le_sumCost {D : ℕ → ℕ → K} {g : ℕ → K} {p i j} (hp : WP false p i j)
    (hg : ∀ c ∈ p, g c.1 ≤ D c.1 c.2) (hD : ∀ c ∈ p, 0 ≤ D c.1 c.2) :
    ((List.range (i+1)).map g).sum ≤ sumCost D p := by
  have app : ∀ (p : List (ℕ × ℕ)) (c : ℕ × ℕ), sumCost D (p ++ [c]) = sumCost D p + D c.1 c.2 := by
    intro p c; simp [sumCost]
  induction hp with
  | start j0 h => simpa [sumCost] using hg (0, j0) (by simp)
  | @down p i j h ih =>
    have := ih (fun c hc => hg c (by simp [hc])) (fun c hc => hD c (by simp [hc]))
    rw [List.range_succ, List.map_append, List.sum_append, app]
    have := hg (i+1, j) (by simp)
    simp only [List.map_cons, List.map_nil, List.sum_singleton]
    linarith
  | @right p i j h ih =>
    have := ih (fun c hc => hg c (by simp [hc])) (fun c hc => hD c (by simp [hc]))
    rw [app]
    have := hD (i, j+1) (by simp)
    linarith
  | @diag p i j h ih =>
    have := ih (fun c hc => hg c (by simp [hc])) (fun c hc => hD c (by simp [hc]))
    rw [List.range_succ, List.map_append, List.sum_append, app]
    have := hg (i+1, j+1) (by simp)
    simp only [List.map_cons, List.map_nil, List.sum_singleton]
    linarith
end
end Verif
