import Verif.Props.C01
import Verif.Props.C10
import Verif.Props.C17
import Verif.Props.C21
import Verif.Props.C51
import Verif.Props.C15
/-!
Reversing time: warping paths read backwards, and the masks they stay in.
-/
set_option linter.unusedSectionVars false
namespace Verif
open Spec

/-- The cell reached when both series are read backwards. -/
def revCell (n m : ℕ) (c : ℕ × ℕ) : ℕ × ℕ := (n - 1 - c.1, m - 1 - c.2)

/-- The path read backwards. -/
def revPath (n m : ℕ) (p : List (ℕ × ℕ)) : List (ℕ × ℕ) := (p.map (revCell n m)).reverse

theorem Spec.IsWarpingPath.lt {n m : ℕ} {p : List (ℕ × ℕ)} (h : IsWarpingPath n m p) :
    ∀ c ∈ p, c.1 < n ∧ c.2 < m := by
  obtain ⟨i, j, hi, hj, hw⟩ := isWarpingPath_iff.1 h
  intro c hc
  have := hw.mem_le c hc
  omega

theorem revPath_isWarpingPath {n m : ℕ} {p : List (ℕ × ℕ)} (h : IsWarpingPath n m p) :
    IsWarpingPath n m (revPath n m p) := by
  have hlt := h.lt
  obtain ⟨i, j, hl, hi, hj⟩ := h.ends
  refine ⟨?_, ⟨n - 1, m - 1, ?_, by omega, by omega⟩, ?_⟩
  · simp only [revPath, List.head?_reverse, List.getLast?_map, hl, Option.map_some, revCell]
    congr 2 <;> omega
  · simp [revPath, List.getLast?_reverse, List.head?_map, h.starts, revCell]
  · unfold revPath
    rw [List.isChain_reverse, List.isChain_map]
    rw [List.isChain_iff_getElem]
    intro k hk
    have hab := List.isChain_iff_getElem.1 h.steps k hk
    have h1 := hlt _ (List.getElem_mem (by omega : k < p.length))
    have h2 := hlt _ (List.getElem_mem hk)
    have key : ∀ a b : ℕ × ℕ, WStep a b → a.1 < n ∧ a.2 < m → b.1 < n ∧ b.2 < m →
        WStep (revCell n m b) (revCell n m a) := by
      intro a b hab h1 h2
      rcases hab with rfl | rfl | rfl <;> simp only [WStep, revCell, Prod.mk.injEq, and_true, true_and] at h2 ⊢ <;> omega
    exact key _ _ hab h1 h2

theorem revPath_revPath {n m : ℕ} {p : List (ℕ × ℕ)} (h : IsWarpingPath n m p) :
    revPath n m (revPath n m p) = p := by
  unfold revPath
  rw [List.map_reverse, List.reverse_reverse, List.map_map]
  conv_rhs => rw [← List.map_id p]
  refine List.map_congr_left fun c hc => ?_
  have := h.lt c hc
  simp only [Function.comp, revCell, id]
  ext <;> simp only <;> omega

/-- A mask that reads the same from both ends. -/
def PointSymm (n m : ℕ) (mask : Mat Bool) : Prop :=
  ∀ i < n, ∀ j < m, mask (n - 1 - i) (m - 1 - j) = mask i j

theorem revPath_admissible {n m : ℕ} {mask : Mat Bool} (hm : PointSymm n m mask) {p : List (ℕ × ℕ)}
    (h : Admissible n m mask p) : Admissible n m mask (revPath n m p) := by
  refine ⟨revPath_isWarpingPath h.1, fun c hc => ?_⟩
  obtain ⟨d, hd, rfl⟩ : ∃ d ∈ p, revCell n m d = c := by simpa [revPath] using hc
  have := h.1.lt d hd
  exact (hm d.1 this.1 d.2 this.2).trans (h.2 d hd)

theorem getD_reverse {α : Type} (l : List α) (d : α) {i : ℕ} (hi : i < l.length) :
    l.reverse.getD (l.length - 1 - i) d = l.getD i d := by
  rw [List.getD_eq_getElem?_getD, List.getD_eq_getElem?_getD, List.getElem?_reverse (by omega)]
  congr 2
  omega

section
variable {K : Type} [CommRing K]

theorem sampleCost_reverse (x y : List (List K)) {i j : ℕ} (hi : i < x.length) (hj : j < y.length) :
    sampleCost x.reverse y.reverse (x.length - 1 - i) (y.length - 1 - j) = sampleCost x y i j := by
  unfold sampleCost
  rw [getD_reverse x [] hi, getD_reverse y [] hj]

theorem sumCost_revPath (x y : List (List K)) {p : List (ℕ × ℕ)}
    (hp : IsWarpingPath x.length y.length p) :
    sumCost (sampleCost x.reverse y.reverse) (revPath x.length y.length p) =
      sumCost (sampleCost x y) p := by
  unfold sumCost revPath
  rw [List.map_reverse, List.sum_reverse, List.map_map]
  congr 1
  refine List.map_congr_left fun c hc => ?_
  have := hp.lt c hc
  exact sampleCost_reverse x y this.1 this.2

end

section
variable {K : Type} [CommRing K] [LinearOrder K] [IsStrictOrderedRing K]

/-- The optimum of DTW follows a monotone map of the costs of the admissible paths. -/
theorem dtwSq_of_image {x y x' y' : List (List K)} (hx : x ≠ []) (hy : y ≠ [])
    (hlx : x'.length = x.length) (hly : y'.length = y.length) (gc : ℕ) (radius : Option ℕ)
    (slope : Option ℚ) (f : K → K) (hf : Monotone f)
    (h : ∀ mask, computeMask x.length y.length gc radius slope = .ok mask →
      {c | ∃ p, Admissible x.length y.length mask p ∧ c = sumCost (sampleCost x' y') p} =
        f '' {c | ∃ p, Admissible x.length y.length mask p ∧ c = sumCost (sampleCost x y) p}) :
    dtwSqGeneric x' y' gc radius slope =
      (dtwSqGeneric x y gc radius slope).map (WithTop.map f) := by
  cases hm : computeMask x.length y.length gc radius slope with
  | error e => simp [dtwSqGeneric, hlx, hly, hm, bind, Except.bind, Except.map]
  | ok mask =>
    have hx' : x' ≠ [] := by rintro rfl; exact hx (List.length_eq_zero_iff.1 hlx.symm)
    have hy' : y' ≠ [] := by rintro rfl; exact hy (List.length_eq_zero_iff.1 hly.symm)
    obtain ⟨v, h1, h2, h3⟩ := C01_dtw_squared x y hx hy gc radius slope mask hm
    obtain ⟨v', h1', h2', h3'⟩ := C01_dtw_squared x' y' hx' hy' gc radius slope mask (by rw [hlx, hly, hm])
    rw [hlx, hly] at h2' h3'
    rw [h1, h1', Except.map]
    congr 1
    cases v with
    | top => rw [WithTop.map_top, h2', ← h2]
    | coe w =>
      rw [WithTop.map_coe, h3', h mask hm]
      exact hf.map_isLeast ((h3 w).1 rfl)

/-- The bottleneck of the Fréchet distance follows a monotone map of the largest costs. -/
theorem frechetSq_of_image {x y x' y' : List (List K)} (hx : x ≠ []) (hy : y ≠ [])
    (hlx : x'.length = x.length) (hly : y'.length = y.length) (gc : ℕ) (radius : Option ℕ)
    (slope : Option ℚ) (f : K → K) (hf : Monotone f)
    (h : ∀ mask, computeMask x.length y.length gc radius slope = .ok mask →
      {c | ∃ p, Admissible x.length y.length mask p ∧ IsMaxCost (sampleCost x' y') p c} =
        f '' {c | ∃ p, Admissible x.length y.length mask p ∧ IsMaxCost (sampleCost x y) p c}) :
    frechetSqGeneric x' y' gc radius slope =
      (frechetSqGeneric x y gc radius slope).map (WithTop.map f) := by
  cases hm : computeMask x.length y.length gc radius slope with
  | error e => simp [frechetSqGeneric, hlx, hly, hm, bind, Except.bind, Except.map]
  | ok mask =>
    have hx' : x' ≠ [] := by rintro rfl; exact hx (List.length_eq_zero_iff.1 hlx.symm)
    have hy' : y' ≠ [] := by rintro rfl; exact hy (List.length_eq_zero_iff.1 hly.symm)
    obtain ⟨v, h1, h2, h3⟩ := C10_frechet_squared x y hx hy gc radius slope mask hm
    obtain ⟨v', h1', h2', h3'⟩ := C10_frechet_squared x' y' hx' hy' gc radius slope mask (by rw [hlx, hly, hm])
    rw [hlx, hly] at h2' h3'
    rw [h1, h1', Except.map]
    congr 1
    cases v with
    | top => rw [WithTop.map_top, h2', ← h2]
    | coe w =>
      rw [WithTop.map_coe, h3', h mask hm]
      exact hf.map_isLeast ((h3 w).1 rfl)

theorem isMaxCost_revPath (x y : List (List K)) {p : List (ℕ × ℕ)}
    (hp : IsWarpingPath x.length y.length p) (w : K) :
    IsMaxCost (sampleCost x.reverse y.reverse) (revPath x.length y.length p) w ↔
      IsMaxCost (sampleCost x y) p w := by
  have hmem : ∀ P : K → Prop, (∀ c ∈ revPath x.length y.length p, P (sampleCost x.reverse y.reverse c.1 c.2)) ↔
      ∀ c ∈ p, P (sampleCost x y c.1 c.2) := by
    intro P
    simp only [revPath, List.mem_reverse, List.mem_map, forall_exists_index, and_imp,
      forall_apply_eq_imp_iff₂]
    refine forall₂_congr fun c hc => ?_
    have := hp.lt c hc
    rw [← sampleCost_reverse x y this.1 this.2]
    rfl
  have hex : ∀ P : K → Prop, (∃ c ∈ revPath x.length y.length p, P (sampleCost x.reverse y.reverse c.1 c.2)) ↔
      ∃ c ∈ p, P (sampleCost x y c.1 c.2) := by
    intro P
    have := not_congr (hmem fun v => ¬ P v)
    push Not at this
    exact this
  unfold IsMaxCost
  rw [hmem (fun v => v ≤ w), hex (fun v => v = w)]

end

/-- Rounding half to even is odd around an even number. -/
theorem rint_sub (M : ℤ) (hM : M % 2 = 0) (q : ℚ) : rint (M - q) = M - rint q := by
  obtain ⟨f, r, hr0, hr1, rfl⟩ : ∃ (f : ℤ) (r : ℚ), 0 ≤ r ∧ r < 1 ∧ q = f + r :=
    ⟨⌊q⌋, q - ⌊q⌋, by linarith [Int.floor_le q], by linarith [Int.lt_floor_add_one q], by ring⟩
  have hf : ⌊(f : ℚ) + r⌋ = f := Int.floor_eq_iff.2 ⟨by linarith, by linarith⟩
  unfold rint
  rw [hf]
  rcases hr0.eq_or_lt with rfl | hr0
  · have hf' : ⌊(M : ℚ) - (f + 0)⌋ = M - f := Int.floor_eq_iff.2 ⟨by push_cast; linarith, by push_cast; linarith⟩
    rw [hf']
    simp only
    rw [if_pos (by push_cast; norm_num), if_pos (by norm_num)]
  · have hf' : ⌊(M : ℚ) - (f + r)⌋ = M - f - 1 :=
      Int.floor_eq_iff.2 ⟨by push_cast; linarith, by push_cast; linarith⟩
    rw [hf']
    simp only
    have e1 : (M : ℚ) - (f + r) - ((M - f - 1 : ℤ) : ℚ) = 1 - r := by push_cast; ring
    have e2 : (f : ℚ) + r - (f : ℚ) = r := by ring
    rw [e1, e2]
    rcases lt_trichotomy r (1/2) with h | h | h
    · rw [if_neg (by linarith), if_pos (by linarith), if_pos h]; ring
    · subst h
      rw [show (1 : ℚ) - 1 / 2 = 1 / 2 by norm_num]
      simp only [lt_irrefl, if_false]
      rcases Int.emod_two_eq_zero_or_one f with h0 | h0
      · have h1 : ¬ (M - f - 1) % 2 = 0 := by omega
        rw [if_neg h1, if_pos h0]; ring
      · have h1 : (M - f - 1) % 2 = 0 := by omega
        have h2 : ¬ f % 2 = 0 := by omega
        rw [if_pos h1, if_neg h2]; ring
    · rw [if_pos (by linarith), if_neg (by linarith), if_pos h]; ring

theorem round2_sub (N : ℤ) (q : ℚ) : round2 (N - q) = N - round2 q := by
  unfold round2
  have : ((N : ℚ) - q) * 100 = ((100 * N : ℤ) : ℚ) - q * 100 := by push_cast; ring
  rw [this, rint_sub (100 * N) (by omega)]
  push_cast
  ring

theorem itakura_pointSymm {n m : ℕ} {s : ℚ} (hn : 0 < n) (hm : 0 < m) (hs : 1 ≤ s) {mask : Mat Bool}
    (h : itakuraMask n m s = .ok mask) : PointSymm n m mask := by
  intro i hi j hj
  have key : ∀ i < n, ∀ j < m, itakuraLower n m s (m - 1 - j) ≤ ((n - 1 - i : ℕ) : ℤ) ↔
      (i : ℤ) < itakuraUpper n m s j := by
    intro i hi j hj
    have ei : ((n - 1 - i : ℕ) : ℚ) = ((n : ℚ) - 1) - i := by
      rw [Nat.cast_sub (by omega), Nat.cast_sub (by omega)]; simp
    have ej : ((m - 1 - j : ℕ) : ℚ) = ((m : ℚ) - 1) - j := by
      rw [Nat.cast_sub (by omega), Nat.cast_sub (by omega)]; simp
    unfold itakuraLower itakuraUpper
    simp only
    generalize 1 / s * ((n : ℚ) / m) = a
    generalize s * ((n : ℚ) / m) = b
    have r1 : round2 ((n : ℚ) - 1 - a * ((m : ℚ) - 1) + a * j) = ((n : ℚ) - 1) - round2 (a * ((m : ℚ) - 1 - j)) := by
      have := round2_sub ((n : ℤ) - 1) (a * ((m : ℚ) - 1 - j))
      push_cast at this
      rw [← this]; congr 1; ring
    have r2 : round2 ((n : ℚ) - 1 - b * ((m : ℚ) - 1) + b * ((m : ℚ) - 1 - j)) = ((n : ℚ) - 1) - round2 (b * j) := by
      have := round2_sub ((n : ℤ) - 1) (b * j)
      push_cast at this
      rw [← this]; congr 1; ring
    rw [Int.ceil_le, Int.cast_natCast, ei, ej, r1, r2, max_le_iff, ← Int.add_one_le_iff, Int.le_floor]
    push_cast
    rw [add_le_add_iff_right, le_min_iff]
    constructor <;> rintro ⟨h1, h2⟩ <;> constructor <;> linarith
  rw [Bool.eq_iff_iff, itakuraMask_iff hn hm hs h _ _ (by omega) (by omega),
    itakuraMask_iff hn hm hs h _ _ hi hj, key i hi j hj]
  have := key (n - 1 - i) (by omega) (m - 1 - j) (by omega)
  rw [show m - 1 - (m - 1 - j) = j by omega, show n - 1 - (n - 1 - i) = i by omega] at this
  rw [← this, and_comm]

theorem sakoe_pointSymm (n m r : ℕ) : PointSymm n m (sakoeChibaMask n m r) := by
  intro i hi j hj
  rw [Bool.eq_iff_iff, sakoeChibaMask_iff _ _ _ _ _ (by omega) (by omega),
    sakoeChibaMask_iff _ _ _ _ _ hi hj]
  unfold InBand
  omega

theorem computeMask_pointSymm {n m gc : ℕ} {radius : Option ℕ} {slope : Option ℚ} (hn : 0 < n) (hm : 0 < m)
    (hs : ∀ s, slope = some s → 1 ≤ s) {mask : Mat Bool}
    (h : computeMask n m gc radius slope = .ok mask) : PointSymm n m mask := by
  unfold computeMask at h
  split_ifs at h
  · cases h; exact sakoe_pointSymm _ _ _
  · refine itakura_pointSymm hn hm ?_ h
    cases slope with
    | none => norm_num
    | some s => exact hs s rfl
  · cases h; exact fun _ _ _ _ => rfl

end Verif
