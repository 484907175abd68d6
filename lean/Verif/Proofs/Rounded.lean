import Verif.Model.Rounded
import Verif.Spec.Rounded
import Verif.Props.C01
import Verif.Props.C02
import Verif.Proofs.Frechet
import Verif.Proofs.Masks
import Mathlib.Tactic.Linarith
import Mathlib.Tactic.Positivity
import Mathlib.Tactic.Ring
import Mathlib.Data.List.GetD
import Mathlib.Algebra.Order.Ring.Pow
/-!
Rounded arithmetic: error propagation and structural laws.
-/
set_option linter.unusedSectionVars false
namespace Verif
open Spec

section
variable {K : Type} [Field K] [LinearOrder K] [IsStrictOrderedRing K]

theorem Spec.RelErr.zero {rnd : K → K} {u : K} (h : RelErr rnd u) : rnd 0 = 0 := by
  have := h 0
  simpa using this

theorem Spec.NearRel.nonneg {u : K} {N : ℕ} {w' w : K} (h : NearRel u N w' w) (hu1 : u ≤ 1) (hw : 0 ≤ w) :
    0 ≤ w' :=
  (mul_nonneg (pow_nonneg (by linarith) N) hw).trans h.1

theorem Spec.NearRel.refl (u w : K) : NearRel u 0 w w := by simp [NearRel]

theorem Spec.NearRel.zero (u : K) (N : ℕ) : NearRel u N 0 0 := by simp [NearRel]

theorem Spec.NearRel.mono {u : K} {N M : ℕ} {w' w : K} (hu : 0 ≤ u) (hu1 : u ≤ 1) (hw : 0 ≤ w)
    (hNM : N ≤ M) (h : NearRel u N w' w) : NearRel u M w' w := by
  constructor
  · exact (mul_le_mul_of_nonneg_right
      (pow_le_pow_of_le_one (by linarith) (by linarith) hNM) hw).trans h.1
  · exact h.2.trans (mul_le_mul_of_nonneg_right (pow_le_pow_right₀ (by linarith) hNM) hw)

theorem Spec.NearRel.add {u : K} {N : ℕ} {a' a b' b : K} (ha : NearRel u N a' a) (hb : NearRel u N b' b) :
    NearRel u N (a' + b') (a + b) := by
  constructor
  · rw [mul_add]; exact add_le_add ha.1 hb.1
  · rw [mul_add]; exact add_le_add ha.2 hb.2

theorem Spec.RelErr.bounds {rnd : K → K} {u : K} (h : RelErr rnd u) {a : K} (ha : 0 ≤ a) :
    (1 - u) * a ≤ rnd a ∧ rnd a ≤ (1 + u) * a := by
  have := h a
  rw [abs_of_nonneg ha, abs_le] at this
  constructor <;> linarith [this.1, this.2]

theorem Spec.NearRel.rnd {rnd : K → K} {u : K} (hr : RelErr rnd u) (hu : 0 ≤ u) (hu1 : u ≤ 1) {N : ℕ}
    {w' w : K} (hw : 0 ≤ w) (h : NearRel u N w' w) : NearRel u (N + 1) (rnd w') w := by
  have hw' := h.nonneg hu1 hw
  obtain ⟨h1, h2⟩ := hr.bounds hw'
  constructor
  · calc (1 - u) ^ (N + 1) * w = (1 - u) * ((1 - u) ^ N * w) := by ring
      _ ≤ (1 - u) * w' := mul_le_mul_of_nonneg_left h.1 (by linarith)
      _ ≤ _ := h1
  · calc rnd w' ≤ (1 + u) * w' := h2
      _ ≤ (1 + u) * ((1 + u) ^ N * w) := mul_le_mul_of_nonneg_left h.2 (by linarith)
      _ = _ := by ring

/-- A rounded difference, squared and rounded: three relative errors. -/
theorem near_sq {rnd : K → K} {u : K} (hr : RelErr rnd u) (hu : 0 ≤ u) (hu1 : u ≤ 1) (a : K) :
    NearRel u 3 (rnd (rnd a * rnd a)) (a ^ 2) := by
  apply NearRel.rnd hr hu hu1 (sq_nonneg a) (N := 2)
  have h := hr a
  have hb : (1 - u) * |a| ≤ |rnd a| ∧ |rnd a| ≤ (1 + u) * |a| := by
    have h1 := abs_sub_abs_le_abs_sub (rnd a) a
    have h2 := abs_sub_abs_le_abs_sub a (rnd a)
    rw [abs_sub_comm] at h2
    constructor <;> linarith
  have e : rnd a * rnd a = |rnd a| ^ 2 := by rw [sq_abs]; ring
  rw [e, ← sq_abs a]
  constructor
  · rw [← mul_pow]
    exact pow_le_pow_left₀ (mul_nonneg (by linarith) (abs_nonneg a)) hb.1 2
  · rw [← mul_pow]
    exact pow_le_pow_left₀ (abs_nonneg _) hb.2 2

theorem rSqDist_near_aux {rnd : K → K} {u : K} (hr : RelErr rnd u) (hu : 0 ≤ u) (hu1 : u ≤ 1)
    (a : List K) : ∀ (b : List K) (s' s : K) (N : ℕ), 0 ≤ s → NearRel u (N + 3) s' s →
    NearRel u (N + 3 + a.length)
      ((List.zipWith (fun u v => rnd (u - v)) a b).foldl
        (fun s diff => rnd (s + rnd (diff * diff))) s') (s + sqEuclid a b) := by
  induction a with
  | nil => intro b s' s N hs h; simpa [sqEuclid] using h
  | cons x a ih =>
    intro b s' s N hs h
    cases b with
    | nil => simpa [sqEuclid] using h.mono hu hu1 hs (by omega)
    | cons y b =>
      have hx := ((near_sq hr hu hu1 (x - y)).mono hu hu1 (sq_nonneg _) (by omega : 3 ≤ N + 3))
      have hs' : 0 ≤ s + (x - y) ^ 2 := by positivity
      have := ih b (rnd (s' + rnd (rnd (x - y) * rnd (x - y)))) (s + (x - y) ^ 2) (N + 1) hs'
        ((h.add hx).rnd hr hu hu1 hs')
      have e : s + sqEuclid (x :: a) (y :: b) = s + (x - y) ^ 2 + sqEuclid a b := by
        simp [sqEuclid, add_assoc]
      rw [e]
      simp only [List.zipWith_cons_cons, List.foldl_cons, List.length_cons]
      have e2 : N + 3 + (a.length + 1) = N + 1 + 3 + a.length := by omega
      rw [e2]
      exact this

/-- The rounded squared distance of two samples of at most `d` features. -/
theorem rSqDist_near {rnd : K → K} {u : K} (hr : RelErr rnd u) (hu : 0 ≤ u) (hu1 : u ≤ 1)
    (a b : List K) (d : ℕ) (ha : a.length ≤ d) : NearRel u (d + 3) (rSqDist rnd a b) (sqEuclid a b) := by
  have := rSqDist_near_aux hr hu hu1 a b 0 0 0 le_rfl (NearRel.zero _ _)
  rw [zero_add, zero_add] at this
  exact this.mono hu hu1 (sqEuclid_nonneg a b) (by omega)

theorem rLocalCost_near {rnd : K → K} {u : K} (hr : RelErr rnd u) (hu : 0 ≤ u) (hu1 : u ≤ 1)
    (x y : List (List K)) (d : ℕ) (hd : ∀ r ∈ x, r.length ≤ d) (i j : ℕ) :
    NearRel u (d + 3) (rLocalCost rnd x y i j) (sampleCost x y i j) := by
  refine rSqDist_near hr hu hu1 _ _ d ?_
  by_cases hi : i < x.length
  · rw [List.getD_eq_getElem _ _ hi]
    exact hd _ (List.getElem_mem hi)
  · rw [List.getD_eq_default _ _ (by omega)]
    simp

/-- The rounded cost of a path is finite and carries one more error per pair. -/
theorem rPathCost_near {rnd : K → K} {u : K} (hr : RelErr rnd u) (hu : 0 ≤ u) (hu1 : u ≤ 1)
    {d' d : ℕ → ℕ → K} {N : ℕ} (hd : ∀ i j, 0 ≤ d i j) (h : ∀ i j, NearRel u N (d' i j) (d i j))
    (p : List (ℕ × ℕ)) :
    ∃ w' : K, pathCost (rAdd rnd) 0 d' p = (w' : WithTop K) ∧ NearRel u (N + p.length) w' (sumCost d p) := by
  induction p using List.reverseRecOn with
  | nil => exact ⟨0, rfl, by simpa [sumCost] using NearRel.zero u N⟩
  | append_singleton q c ih =>
    obtain ⟨w', e, hw⟩ := ih
    refine ⟨rnd (d' c.1 c.2 + w'), ?_, ?_⟩
    · rw [pathCost_append, e]; rfl
    · have hs : sumCost d (q ++ [c]) = d c.1 c.2 + sumCost d q := by simp [sumCost, add_comm]
      rw [hs, List.length_append, List.length_singleton, ← add_assoc]
      have h0 := sumCost_nonneg hd q
      refine NearRel.rnd hr hu hu1 (add_nonneg (hd _ _) h0) (NearRel.add ?_ hw)
      exact (h c.1 c.2).mono hu hu1 (hd _ _) (by omega)

theorem WP.length_le {p i j} (h : WP false p i j) : p.length ≤ i + j + 1 := by
  induction h with
  | start j0 h => simp
  | down h ih => simp; omega
  | right h ih => simp; omega
  | diag h ih => simp; omega

theorem Spec.IsWarpingPath.length_le {n m p} (h : IsWarpingPath n m p) : p.length ≤ n + m - 1 := by
  obtain ⟨i, j, hi, hj, hw⟩ := isWarpingPath_iff.1 h
  have := hw.length_le
  omega

end

section
variable {K : Type} [CommRing K] [LinearOrder K] [IsStrictOrderedRing K]

theorem rAdd_mono {rnd : K → K} (hr : Monotone rnd) (d : K) : Monotone (rAdd rnd d) := by
  intro a b h
  cases b with
  | top => exact le_top
  | coe b =>
    cases a with
    | top => simp at h
    | coe a =>
      rw [WithTop.coe_le_coe] at h
      exact WithTop.coe_le_coe.2 (hr (by linarith))

theorem rAdd_top (rnd : K → K) (d : K) : rAdd rnd d ⊤ = ⊤ := rfl

theorem rPathCost_finite (rnd : K → K) (d : ℕ → ℕ → K) (p : List (ℕ × ℕ)) :
    ∃ w : K, pathCost (rAdd rnd) 0 d p = (w : WithTop K) := by
  induction p using List.reverseRecOn with
  | nil => exact ⟨0, rfl⟩
  | append_singleton q c ih =>
    obtain ⟨w, e⟩ := ih
    exact ⟨rnd (d c.1 c.2 + w), by rw [pathCost_append, e]; rfl⟩

/-- The last entry of a min-type table over non-empty series: least path cost, attained. -/
theorem lastEntry_spec {D C : Type*} [LinearOrder C] [OrderTop C] {add : D → C → C} {zero : C}
    (hmono : ∀ d, Monotone (add d)) (htop : ∀ d, add d ⊤ = ⊤) {n m : ℕ} (hn : 0 < n) (hm : 0 < m)
    (mask : Mat Bool) (dist : ℕ → ℕ → D) :
    (∀ p, Admissible n m mask p →
      lastEntry (accTableWith add zero n m mask dist).tail n m ≤ pathCost add zero dist p) ∧
    (lastEntry (accTableWith add zero n m mask dist).tail n m ≠ ⊤ → ∃ p, Admissible n m mask p ∧
      pathCost add zero dist p = lastEntry (accTableWith add zero n m mask dist).tail n m) := by
  have := C01_accumulated_matrix_optimal add zero hmono htop n m mask dist (n - 1) (m - 1)
    (by omega) (by omega)
  rw [show n - 1 + 1 = n by omega, show m - 1 + 1 = m by omega] at this
  exact this

/-- Comparing two tables through their admissible paths. -/
theorem lastEntry_le {D C : Type*} [LinearOrder C] [OrderTop C] {add : D → C → C} {zero : C}
    (hmono : ∀ d, Monotone (add d)) (htop : ∀ d, add d ⊤ = ⊤) {n m n' m' : ℕ} (hn : 0 < n)
    (hm : 0 < m) (hn' : 0 < n') (hm' : 0 < m') {mask mask' : Mat Bool} {dist dist' : ℕ → ℕ → D}
    (h : ∀ p', Admissible n' m' mask' p' → ∃ p, Admissible n m mask p ∧
      pathCost add zero dist p ≤ pathCost add zero dist' p') :
    lastEntry (accTableWith add zero n m mask dist).tail n m ≤
      lastEntry (accTableWith add zero n' m' mask' dist').tail n' m' := by
  by_cases hf : lastEntry (accTableWith add zero n' m' mask' dist').tail n' m' = ⊤
  · rw [hf]; exact le_top
  · obtain ⟨p', hp', e⟩ := (lastEntry_spec hmono htop hn' hm' mask' dist').2 hf
    obtain ⟨p, hp, hle⟩ := h p' hp'
    exact ((lastEntry_spec hmono htop hn hm mask dist).1 p hp).trans (hle.trans e.le)

theorem pathCost_swap {D C : Type*} (step : D → C → C) (z : C) (d : ℕ → ℕ → D)
    (p : List (ℕ × ℕ)) :
    pathCost step z (fun i j => d j i) (p.map Prod.swap) = pathCost step z d p := by
  simp [pathCost, List.foldl_map]

theorem rSqDist_comm {rnd : K → K} (ho : ∀ a, rnd (-a) = - rnd a) (a b : List K) :
    rSqDist rnd a b = rSqDist rnd b a := by
  unfold rSqDist
  generalize (0 : K) = s
  induction a generalizing b s with
  | nil => simp
  | cons x a ih =>
    cases b with
    | nil => simp
    | cons y b =>
      simp only [List.zipWith_cons_cons, List.foldl_cons]
      have e : rnd (y - x) = - rnd (x - y) := by rw [← ho]; congr 1; ring
      rw [e, neg_mul_neg]
      exact ih _ _

theorem rSqDist_self {rnd : K → K} (h0 : rnd 0 = 0) (a : List K) : rSqDist rnd a a = 0 := by
  unfold rSqDist
  induction a with
  | nil => simp
  | cons x a ih => simpa [h0] using ih

theorem rSqDist_nonneg {rnd : K → K} (hr : Monotone rnd) (h0 : rnd 0 = 0) (a b : List K) :
    0 ≤ rSqDist rnd a b := by
  have hn : ∀ {a : K}, 0 ≤ a → 0 ≤ rnd a := fun h => h0 ▸ hr h
  unfold rSqDist
  have : ∀ s : K, 0 ≤ s → 0 ≤ (List.zipWith (fun u v => rnd (u - v)) a b).foldl
      (fun s diff => rnd (s + rnd (diff * diff))) s := by
    induction a generalizing b with
    | nil => intro s hs; simpa using hs
    | cons x a ih =>
      intro s hs
      cases b with
      | nil => simpa using hs
      | cons y b => exact ih b _ (hn (add_nonneg hs (hn (mul_self_nonneg _))))
  exact this 0 le_rfl

theorem Spec.OddMono.zero {rnd : K → K} (h : OddMono rnd) : rnd 0 = 0 := by
  have := h.odd 0
  rw [neg_zero] at this
  linarith

theorem lastEntry_nonneg {D : Type*} {add : D → WithTop K → WithTop K}
    (hmono : ∀ d, Monotone (add d)) (htop : ∀ d, add d ⊤ = ⊤) {n m : ℕ} (hn : 0 < n) (hm : 0 < m)
    (mask : Mat Bool) (dist : ℕ → ℕ → D) (h : ∀ i j c, 0 ≤ c → 0 ≤ add (dist i j) c) :
    0 ≤ lastEntry (accTableWith add 0 n m mask dist).tail n m := by
  by_cases hv : lastEntry (accTableWith add 0 n m mask dist).tail n m = ⊤
  · rw [hv]; exact le_top
  · obtain ⟨p, -, e⟩ := (lastEntry_spec hmono htop hn hm mask dist).2 hv
    rw [← e]
    clear e
    induction p using List.reverseRecOn with
    | nil => exact le_rfl
    | append_singleton q c ih => rw [pathCost_append]; exact h _ _ _ ih

theorem rAdd_nonneg {rnd : K → K} (hr : OddMono rnd) {d : K} (hd : 0 ≤ d) {c : WithTop K}
    (hc : 0 ≤ c) : 0 ≤ rAdd rnd d c := by
  cases c with
  | top => exact le_top
  | coe c =>
    have hc' : 0 ≤ c := WithTop.coe_nonneg.1 hc
    have : 0 ≤ rnd (d + c) := by rw [← hr.zero]; exact hr.mono (by linarith)
    exact WithTop.coe_nonneg.2 this

theorem getD_map_nil {A B : Type*} (f : A → B) (x : List (List A)) (i : ℕ) :
    (x.map (·.map f)).getD i [] = (x.getD i []).map f := by
  by_cases hi : i < x.length
  · rw [List.getD_eq_getElem _ _ (by simpa using hi), List.getD_eq_getElem _ _ hi]
    simp
  · rw [List.getD_eq_default _ _ (by simpa using hi), List.getD_eq_default _ _ (by omega)]
    rfl

theorem rSqDist_scale {rnd : K → K} {c : K} (hc : ∀ a, rnd (c * a) = c * rnd a)
    (hc2 : ∀ a, rnd (c ^ 2 * a) = c ^ 2 * rnd a) (a b : List K) :
    rSqDist rnd (a.map (c * ·)) (b.map (c * ·)) = c ^ 2 * rSqDist rnd a b := by
  unfold rSqDist
  have : ∀ s : K, (List.zipWith (fun u v => rnd (u - v)) (a.map (c * ·)) (b.map (c * ·))).foldl
      (fun s diff => rnd (s + rnd (diff * diff))) (c ^ 2 * s) =
      c ^ 2 * (List.zipWith (fun u v => rnd (u - v)) a b).foldl
        (fun s diff => rnd (s + rnd (diff * diff))) s := by
    induction a generalizing b with
    | nil => intro s; simp
    | cons x a ih =>
      intro s
      cases b with
      | nil => simp
      | cons y b =>
        simp only [List.map_cons, List.zipWith_cons_cons, List.foldl_cons]
        rw [← mul_sub, hc, show c * rnd (x - y) * (c * rnd (x - y)) =
          c ^ 2 * (rnd (x - y) * rnd (x - y)) by ring, hc2, ← mul_add, hc2]
        exact ih b _
  have h := this 0
  rw [mul_zero] at h
  exact h

theorem rSqDist_int {rnd : K → K} {B M : ℤ} (hB : ∀ z : ℤ, |z| ≤ B → rnd (z : K) = z)
    {a b : List ℤ} (ha : ∀ z ∈ a, |z| ≤ M) (hb : ∀ z ∈ b, |z| ≤ M) (s : ℤ) (hs : 0 ≤ s)
    (hsz : s + a.length * (2 * M) ^ 2 ≤ B) :
    (List.zipWith (fun u v => rnd (u - v)) (a.map (Int.cast : ℤ → K)) (b.map Int.cast)).foldl
      (fun s diff => rnd (s + rnd (diff * diff))) (s : K) = ((s + sqEuclid a b : ℤ) : K) ∧
    s + sqEuclid a b ≤ s + a.length * (2 * M) ^ 2 := by
  induction a generalizing b s with
  | nil => simp [sqEuclid]
  | cons x a ih =>
    cases b with
    | nil =>
      refine ⟨by simp [sqEuclid], ?_⟩
      simp only [sqEuclid, List.zip_nil_right, List.map_nil, List.sum_nil, add_zero]
      have : (0 : ℤ) ≤ ((x :: a).length : ℤ) * (2 * M) ^ 2 := by positivity
      linarith
    | cons y b =>
      simp only [List.length_cons, Nat.cast_add, Nat.cast_one] at hsz ⊢
      have hx := abs_le.1 (ha x (by simp))
      have hy := abs_le.1 (hb y (by simp))
      have hd : |x - y| ≤ 2 * M := abs_le.2 ⟨by linarith [hx.1, hy.2], by linarith [hx.2, hy.1]⟩
      have hM : 0 ≤ 2 * M := (abs_nonneg _).trans hd
      have hsq : (x - y) * (x - y) ≤ (2 * M) ^ 2 := by
        have := abs_le.1 hd
        nlinarith
      have hsq0 : 0 ≤ (x - y) * (x - y) := mul_self_nonneg _
      have hlen : (0 : ℤ) ≤ (a.length : ℤ) * (2 * M) ^ 2 := by positivity
      have hMM : 2 * M ≤ (2 * M) ^ 2 := by
        rcases hM.eq_or_lt with h | h
        · rw [← h]; norm_num
        · nlinarith
      have e1 : rnd ((x : K) - y) = ((x - y : ℤ) : K) := by
        rw [← Int.cast_sub, hB]
        linarith
      have e2 : rnd (((x - y : ℤ) : K) * ((x - y : ℤ) : K)) = (((x - y) * (x - y) : ℤ) : K) := by
        rw [← Int.cast_mul, hB]
        rw [abs_of_nonneg hsq0]
        linarith
      have e3 : rnd ((s : K) + (((x - y) * (x - y) : ℤ) : K)) = ((s + (x - y) * (x - y) : ℤ) : K) := by
        rw [← Int.cast_add, hB]
        rw [abs_of_nonneg (by linarith)]
        linarith
      have h := ih (b := b) (fun z hz => ha z (by simp [hz])) (fun z hz => hb z (by simp [hz]))
        (s + (x - y) * (x - y)) (by linarith) (by linarith)
      have e : s + sqEuclid (x :: a) (y :: b) = s + (x - y) * (x - y) + sqEuclid a b := by
        simp [sqEuclid]; ring
      rw [e]
      refine ⟨?_, by linarith [h.2]⟩
      simp only [List.map_cons, List.zipWith_cons_cons, List.foldl_cons]
      rw [e1, e2, e3]
      exact h.1

/-- Two tables whose admissible paths cost `f` of each other. -/
theorem lastEntry_map {D C D' C' : Type*} [LinearOrder C] [OrderTop C] [LinearOrder C'] [OrderTop C']
    {add : D → C → C} {zero : C} {add' : D' → C' → C'} {zero' : C'}
    (hmono : ∀ d, Monotone (add d)) (htop : ∀ d, add d ⊤ = ⊤)
    (hmono' : ∀ d, Monotone (add' d)) (htop' : ∀ d, add' d ⊤ = ⊤)
    {n m : ℕ} (hn : 0 < n) (hm : 0 < m) {mask : Mat Bool} {dist : ℕ → ℕ → D} {dist' : ℕ → ℕ → D'}
    (f : C → C') (hf : Monotone f) (hft : ∀ c, f c = ⊤ ↔ c = ⊤)
    (h : ∀ p, Admissible n m mask p → pathCost add' zero' dist' p = f (pathCost add zero dist p)) :
    lastEntry (accTableWith add' zero' n m mask dist').tail n m =
      f (lastEntry (accTableWith add zero n m mask dist).tail n m) := by
  have s := lastEntry_spec (zero := zero) hmono htop hn hm mask dist
  have s' := lastEntry_spec (zero := zero') hmono' htop' hn hm mask dist'
  apply le_antisymm
  · by_cases hv : lastEntry (accTableWith add zero n m mask dist).tail n m = ⊤
    · rw [(hft _).2 hv]; exact le_top
    · obtain ⟨p, hp, e⟩ := s.2 hv
      rw [← e, ← h p hp]
      exact s'.1 p hp
  · by_cases hv : lastEntry (accTableWith add' zero' n m mask dist').tail n m = ⊤
    · rw [hv]; exact le_top
    · obtain ⟨p, hp, e⟩ := s'.2 hv
      rw [← e, h p hp]
      exact hf (s.1 p hp)

theorem mapTop_mono {A B : Type*} [Preorder A] [Preorder B] {g : A → B} (hg : Monotone g) :
    Monotone (WithTop.map g) := by
  intro a b h
  cases b with
  | top => exact le_top
  | coe b =>
    cases a with
    | top => simp at h
    | coe a => exact WithTop.coe_le_coe.2 (hg (WithTop.coe_le_coe.1 h))

theorem mapTop_top {A B : Type*} (g : A → B) (c : WithTop A) : c.map g = ⊤ ↔ c = ⊤ := by
  cases c <;> simp

end

section
variable {K : Type} [Field K] [LinearOrder K] [IsStrictOrderedRing K] [FloorRing K]

theorem truncBits_nonneg_eq (p : ℕ) {a : K} (ha : 0 ≤ a) :
    truncBits p a = ⌊a / 2 ^ (Int.log 2 a - p)⌋ * 2 ^ (Int.log 2 a - p) := by
  simp [truncBits, ha, abs_of_nonneg ha]

theorem truncBits_neg (p : ℕ) (a : K) : truncBits p (-a) = - truncBits p a := by
  rcases lt_trichotomy a 0 with h | rfl | h
  · have h1 : 0 ≤ -a := by linarith
    simp [truncBits, h1, not_le.2 h, abs_neg]
  · simp [truncBits]
  · have h1 : ¬ 0 ≤ -a := by linarith
    simp only [truncBits, h1, h.le, if_true, if_false, abs_neg, neg_neg]

theorem truncBits_le (p : ℕ) {a : K} (ha : 0 ≤ a) : truncBits p a ≤ a := by
  rw [truncBits_nonneg_eq p ha]
  have he : (0:K) < 2 ^ (Int.log 2 a - p) := zpow_pos (by norm_num) _
  calc _ ≤ a / 2 ^ (Int.log 2 a - p) * 2 ^ (Int.log 2 a - p) :=
        mul_le_mul_of_nonneg_right (Int.floor_le _) he.le
    _ = a := div_mul_cancel₀ _ he.ne'

theorem truncBits_nonneg (p : ℕ) {a : K} (ha : 0 ≤ a) : 0 ≤ truncBits p a := by
  rw [truncBits_nonneg_eq p ha]
  have he : (0:K) < 2 ^ (Int.log 2 a - p) := zpow_pos (by norm_num) _
  have : (0:ℤ) ≤ ⌊a / 2 ^ (Int.log 2 a - p)⌋ := Int.floor_nonneg.2 (by positivity)
  have : (0:K) ≤ (⌊a / 2 ^ (Int.log 2 a - p)⌋ : K) := by exact_mod_cast this
  positivity

theorem zpow_log_le_truncBits (p : ℕ) {a : K} (ha : 0 < a) :
    2 ^ (Int.log 2 a) ≤ truncBits p a := by
  rw [truncBits_nonneg_eq p ha.le]
  have he : (0:K) < 2 ^ (Int.log 2 a - p) := zpow_pos (by norm_num) _
  have hl : (2:K) ^ Int.log 2 a ≤ a := by
    simpa using Int.zpow_log_le_self (b := 2) (by norm_num) ha
  have e : (2:K) ^ Int.log 2 a = ((2 ^ p : ℤ) : K) * 2 ^ (Int.log 2 a - p) := by
    push_cast
    rw [← zpow_natCast, ← zpow_add₀ (by norm_num)]
    congr 1; ring
  rw [e]
  refine mul_le_mul_of_nonneg_right ?_ he.le
  have : (2 ^ p : ℤ) ≤ ⌊a / 2 ^ (Int.log 2 a - p)⌋ := by
    rw [Int.le_floor, le_div_iff₀ he, ← e]
    exact hl
  exact_mod_cast this

theorem truncBits_mono_pos (p : ℕ) {a b : K} (ha : 0 < a) (h : a ≤ b) :
    truncBits p a ≤ truncBits p b := by
  have hb := ha.trans_le h
  rcases (Int.log_mono_right (b := 2) ha h).lt_or_eq with hlt | heq
  · have h1 : a < 2 ^ (Int.log 2 a + 1) := by
      simpa using Int.lt_zpow_succ_log_self (b := 2) (by norm_num) a
    calc truncBits p a ≤ a := truncBits_le p ha.le
      _ ≤ 2 ^ (Int.log 2 a + 1) := h1.le
      _ ≤ 2 ^ Int.log 2 b := zpow_le_zpow_right₀ (by norm_num) (by omega)
      _ ≤ _ := zpow_log_le_truncBits p hb
  · rw [truncBits_nonneg_eq p ha.le, truncBits_nonneg_eq p hb.le, heq]
    have he : (0:K) < 2 ^ (Int.log 2 b - p) := zpow_pos (by norm_num) _
    refine mul_le_mul_of_nonneg_right ?_ he.le
    have : ⌊a / 2 ^ (Int.log 2 b - p)⌋ ≤ ⌊b / 2 ^ (Int.log 2 b - p)⌋ :=
      Int.floor_le_floor (div_le_div_of_nonneg_right h he.le)
    exact_mod_cast this

/-- Truncation to `p + 1` bits is monotone and odd. -/
theorem truncBits_oddMono (p : ℕ) : OddMono (truncBits p : K → K) := by
  refine ⟨fun a b h => ?_, truncBits_neg p⟩
  rcases lt_or_ge 0 a with ha | ha
  · exact truncBits_mono_pos p ha h
  · rcases lt_or_ge b 0 with hb | hb
    · have := truncBits_mono_pos p (by linarith : 0 < -b) (neg_le_neg h)
      rw [truncBits_neg, truncBits_neg] at this
      linarith
    · have h1 := truncBits_nonneg p (by linarith : 0 ≤ -a)
      rw [truncBits_neg] at h1
      linarith [truncBits_nonneg p hb]

/-- Truncation to `p + 1` bits has relative error `2⁻ᵖ`. -/
theorem truncBits_relErr (p : ℕ) : RelErr (truncBits p : K → K) (2 ^ p)⁻¹ := by
  have pos : ∀ a : K, 0 < a → |truncBits p a - a| ≤ (2 ^ p)⁻¹ * |a| := by
    intro a ha
    rw [abs_of_pos ha, abs_sub_comm, abs_of_nonneg (by linarith [truncBits_le p ha.le])]
    rw [truncBits_nonneg_eq p ha.le]
    have he : (0:K) < 2 ^ (Int.log 2 a - p) := zpow_pos (by norm_num) _
    have hfl := Int.lt_floor_add_one (a / 2 ^ (Int.log 2 a - p))
    rw [div_lt_iff₀ he, add_mul, one_mul] at hfl
    have hl : (2:K) ^ Int.log 2 a ≤ a := by
      simpa using Int.zpow_log_le_self (b := 2) (by norm_num) ha
    have e : (2:K) ^ (Int.log 2 a - p) = (2 ^ p)⁻¹ * 2 ^ Int.log 2 a := by
      rw [zpow_sub₀ (by norm_num), zpow_natCast, div_eq_mul_inv, mul_comm]
    calc _ ≤ (2:K) ^ (Int.log 2 a - p) := by linarith
      _ = _ := e
      _ ≤ _ := mul_le_mul_of_nonneg_left hl (by positivity)
  intro a
  rcases lt_trichotomy a 0 with h | rfl | h
  · have := pos (-a) (by linarith)
    rw [truncBits_neg, abs_neg] at this
    rwa [show -truncBits p a - -a = -(truncBits p a - a) by ring, abs_neg] at this
  · simp [truncBits]
  · exact pos a h

/-- Truncation commutes with the doubling of a number. -/
theorem truncBits_two (p : ℕ) (a : K) : truncBits p (2 * a) = 2 * truncBits p a := by
  have pos : ∀ a : K, 0 < a → truncBits p (2 * a) = 2 * truncBits p a := by
    intro a ha
    have h2 : 0 < 2 * a := by linarith
    have el : Int.log 2 (2 * a) = Int.log 2 a + 1 := by
      apply le_antisymm
      · have : Int.log 2 (2 * a) < Int.log 2 a + 2 := by
          rw [← Int.lt_zpow_iff_log_lt (by norm_num) h2]
          have := Int.lt_zpow_succ_log_self (b := 2) (by norm_num) a
          push_cast at this ⊢
          rw [show Int.log 2 a + 2 = (Int.log 2 a + 1) + 1 by ring, zpow_add_one₀ (by norm_num)]
          linarith
        omega
      · rw [← Int.zpow_le_iff_le_log (by norm_num) h2]
        have := Int.zpow_log_le_self (b := 2) (by norm_num) ha
        push_cast at this ⊢
        rw [zpow_add_one₀ (by norm_num)]
        linarith
    rw [truncBits_nonneg_eq p ha.le, truncBits_nonneg_eq p h2.le, el]
    have e : (2:K) ^ (Int.log 2 a + 1 - p) = 2 * 2 ^ (Int.log 2 a - p) := by
      rw [show Int.log 2 a + 1 - p = (Int.log 2 a - p) + 1 by ring, zpow_add_one₀ (by norm_num)]
      ring
    rw [e, mul_div_mul_left _ _ (by norm_num)]
    ring
  rcases lt_trichotomy a 0 with h | rfl | h
  · have := pos (-a) (by linarith)
    rw [show 2 * -a = -(2 * a) by ring, truncBits_neg, truncBits_neg] at this
    linarith
  · simp [truncBits]
  · exact pos a h

/-- Integers of at most `p + 1` bits are not changed. -/
theorem truncBits_int (p : ℕ) (z : ℤ) (hz : |z| < 2 ^ (p + 1)) : truncBits p (z : K) = z := by
  have pos : ∀ z : ℤ, 0 < z → z < 2 ^ (p + 1) → truncBits p (z : K) = z := by
    intro z hz h
    have hzK : (0:K) < z := by exact_mod_cast hz
    rw [truncBits_nonneg_eq p hzK.le]
    have hlog : Int.log 2 (z : K) < p + 1 := by
      rw [← Int.lt_zpow_iff_log_lt (by norm_num) hzK]
      have : (z : K) < 2 ^ (p + 1) := by exact_mod_cast h
      push_cast
      rw [show ((p : ℤ) + 1) = ((p + 1 : ℕ) : ℤ) by push_cast; ring, zpow_natCast]
      exact this
    obtain ⟨k, hk⟩ : ∃ k : ℕ, Int.log 2 (z : K) - p = -(k : ℤ) :=
      ⟨(p - Int.log 2 (z : K)).toNat, by omega⟩
    rw [hk, zpow_neg, zpow_natCast, div_inv_eq_mul]
    have : (z : K) * 2 ^ k = ((z * 2 ^ k : ℤ) : K) := by push_cast; ring
    rw [this, Int.floor_intCast, ← this, mul_assoc, mul_inv_cancel₀ (by positivity), mul_one]
  rcases lt_trichotomy z 0 with h | rfl | h
  · have := pos (-z) (by omega) (by rw [abs_of_neg h] at hz; exact hz)
    push_cast at this
    rw [truncBits_neg] at this
    linarith
  · simp [truncBits]
  · exact pos z h (by rwa [abs_of_pos h] at hz)

end
end Verif
