import Verif.Proofs.RoundedLimited
import Verif.Proofs.Binary
import Verif.Props.C12
import Verif.Props.C98
/-!
# C123 — DTW with a limited warping length in rounded arithmetic
-/
set_option linter.unusedSectionVars false
namespace Verif
open Spec

section
variable {K : Type} [CommRing K] [LinearOrder K] [IsStrictOrderedRing K]

/-- The value is the least rounded cost over the warping paths of at most `L` pairs, and the path
function returns such a path with that rounded cost, for every tie-breaking of `argmin`. -/
theorem C123_optimal {rnd : K → K} (hm : Monotone rnd) (h0 : rnd 0 = 0)
    (hi : ∀ a, rnd (rnd a) = rnd a) (x y : List (List K)) (hx : x ≠ []) (hy : y ≠ [])
    (hf : nFeatures x = nFeatures y) (L : ℕ) (hL : max x.length y.length ≤ L) (am)
    (ham : IsArgmin3 am) :
    ∃ (w : K) (p : List (ℕ × ℕ)), rDtwLimitedSq rnd x y L = .ok (w : WithTop K) ∧
      rDtwPathLimitedSq rnd x y L am = .ok (some p, (w : WithTop K)) ∧
      IsWarpingPath x.length y.length p ∧ p.length ≤ L ∧
      pathCost (rAdd rnd) 0 (rLocalCost rnd x y) p = (w : WithTop K) ∧
      ∀ q, IsWarpingPath x.length y.length q → q.length ≤ L →
        (w : WithTop K) ≤ pathCost (rAdd rnd) 0 (rLocalCost rnd x y) q := by
  obtain ⟨w, k, p, h1, h2, h3, h4, h5, h6, h7⟩ := rLwlCost_spec hm L x.length y.length
    (rLocalCost rnd x y) (rSqDist_fix h0 hi _ _) (List.length_pos_iff.2 hx)
    (List.length_pos_iff.2 hy) hL ham
  refine ⟨w, p, ?_, ?_, h4, h5, h6, h7⟩
  · simp only [rDtwLimitedSq, not_lt.2 hL, if_false, hx, hy, or_self, hf, ne_eq, not_true]
    exact h1
  · simp only [rDtwPathLimitedSq, not_lt.2 hL, if_false, hx, hy, or_self, hf, ne_eq, not_true, h2,
      Option.getD_some, h3]

/-- A budget below the longer length is rejected, as in exact arithmetic. -/
theorem C123_rejects (rnd : K → K) (x y : List (List K)) (L : ℕ) (hL : L < max x.length y.length)
    (am) : rDtwLimitedSq rnd x y L = .error .valueError ∧
      rDtwPathLimitedSq rnd x y L am = .error .valueError :=
  ⟨by simp only [rDtwLimitedSq, hL, if_true], by simp only [rDtwPathLimitedSq, hL, if_true]⟩

/-- A larger budget never increases the computed value. -/
theorem C123_monotone {rnd : K → K} (hm : Monotone rnd) (h0 : rnd 0 = 0)
    (hi : ∀ a, rnd (rnd a) = rnd a) (x y : List (List K)) (L L' : ℕ) (hLL : L ≤ L')
    (v v' : WithTop K) (h : rDtwLimitedSq rnd x y L = .ok v)
    (h' : rDtwLimitedSq rnd x y L' = .ok v') : v' ≤ v := by
  have key : x ≠ [] ∧ y ≠ [] ∧ nFeatures x = nFeatures y ∧ max x.length y.length ≤ L := by
    unfold rDtwLimitedSq at h
    split_ifs at h with h1 h2 h3
    push Not at h2 h3
    exact ⟨h2.1, h2.2, h3, not_lt.1 h1⟩
  obtain ⟨hx, hy, hf, hL⟩ := key
  obtain ⟨w, p, e, -, hp, hpl, hpc, -⟩ := C123_optimal hm h0 hi x y hx hy hf L hL _ argmin3_isArgmin
  obtain ⟨w', p', e', -, -, -, -, hmin⟩ := C123_optimal hm h0 hi x y hx hy hf L' (hL.trans hLL) _
    argmin3_isArgmin
  rw [h] at e; rw [h'] at e'
  cases e; cases e'
  rw [← hpc]
  exact hmin p hp (hpl.trans hLL)

/-- With a budget of at least `len(x) + len(y) - 1` the result is that of `dtw`, bit for bit, and no
budget gives less than `dtw`. -/
theorem C123_eq_dtw {rnd : K → K} (hm : Monotone rnd) (h0 : rnd 0 = 0)
    (hi : ∀ a, rnd (rnd a) = rnd a) (x y : List (List K)) (hx : x ≠ []) (hy : y ≠ [])
    (hf : nFeatures x = nFeatures y) (L : ℕ) (hL : max x.length y.length ≤ L) :
    (x.length + y.length ≤ L + 1 → rDtwLimitedSq rnd x y L = rDtwSq rnd x y 0 none none) ∧
    ∃ v v', rDtwLimitedSq rnd x y L = .ok v ∧ rDtwSq rnd x y 0 none none = .ok v' ∧ v' ≤ v := by
  obtain ⟨w, p, e, -, hp, hpl, hpc, hmin⟩ := C123_optimal hm h0 hi x y hx hy hf L hL _
    argmin3_isArgmin
  have hdtw : rDtwSq rnd x y 0 none none = .ok (lastEntry (accTableWith (rAdd rnd) 0 x.length
      y.length (Mat.full true) (rLocalCost rnd x y)).tail x.length y.length) := by
    simp [rDtwSq, computeMask, rAccumulated, bind, Except.bind, pure, Except.pure]
  have hadm : ∀ q, IsWarpingPath x.length y.length q →
      Admissible x.length y.length (Mat.full true) q := fun q h => ⟨h, fun _ _ => rfl⟩
  have s := lastEntry_spec (zero := 0) (rAdd_mono hm) (rAdd_top rnd) (List.length_pos_iff.2 hx)
    (List.length_pos_iff.2 hy) (Mat.full true) (rLocalCost rnd x y)
  have hle := s.1 p (hadm p hp)
  rw [hpc] at hle
  refine ⟨fun hbig => ?_, _, _, e, hdtw, hle⟩
  obtain ⟨q, hq, hqc⟩ := s.2 (ne_top_of_le_ne_top WithTop.coe_ne_top hle)
  have hql := hq.1.length_le
  rw [e, hdtw, le_antisymm hle (hqc ▸ hmin q hq.1 (by omega))]

/-- The computed value does not depend on the order of the two series. -/
theorem C123_symm {rnd : K → K} (hr : OddMono rnd) (hi : ∀ a, rnd (rnd a) = rnd a)
    (x y : List (List K)) (hx : x ≠ []) (hy : y ≠ []) (hf : nFeatures x = nFeatures y) (L : ℕ) :
    rDtwLimitedSq rnd x y L = rDtwLimitedSq rnd y x L := by
  by_cases hL : max x.length y.length ≤ L
  · have key : ∀ (x y : List (List K)) (p : List (ℕ × ℕ)),
        pathCost (rAdd rnd) 0 (rLocalCost rnd y x) (p.map Prod.swap) =
          pathCost (rAdd rnd) 0 (rLocalCost rnd x y) p := by
      intro x y p
      rw [← pathCost_swap (rAdd rnd) 0 (rLocalCost rnd x y) p]
      congr 1
      funext i j
      exact rSqDist_comm hr.odd _ _
    obtain ⟨w, p, e, -, hp, hpl, hpc, hmin⟩ := C123_optimal hr.mono hr.zero hi x y hx hy hf L hL _
      argmin3_isArgmin
    obtain ⟨w', p', e', -, hp', hpl', hpc', hmin'⟩ := C123_optimal hr.mono hr.zero hi y x hy hx
      hf.symm L (by omega) _ argmin3_isArgmin
    rw [e, e']
    congr 1
    apply le_antisymm
    · rw [← hpc', ← key y x p']
      exact hmin _ hp'.swap (by simpa using hpl')
    · rw [← hpc, ← key x y p]
      exact hmin' _ hp.swap (by simpa using hpl)
  · rw [(C123_rejects rnd x y L (not_le.1 hL) argmin3).1,
      (C123_rejects rnd y x L (by rw [max_comm]; exact not_le.1 hL) argmin3).1]

/-- The computed value is never negative, and a series is at exactly zero of itself. -/
theorem C123_self {rnd : K → K} (hr : OddMono rnd) (hi : ∀ a, rnd (rnd a) = rnd a)
    (x : List (List K)) (hx : x ≠ []) (L : ℕ) (hL : x.length ≤ L) :
    rDtwLimitedSq rnd x x L = .ok 0 ∧
    ∀ (y : List (List K)) (v : WithTop K), rDtwLimitedSq rnd x y L = .ok v → 0 ≤ v := by
  have hnn : ∀ (y : List (List K)) (p : List (ℕ × ℕ)),
      0 ≤ pathCost (rAdd rnd) 0 (rLocalCost rnd x y) p := by
    intro y p
    induction p using List.reverseRecOn with
    | nil => exact le_rfl
    | append_singleton q c ih =>
      rw [pathCost_append]
      exact rAdd_nonneg hr (rLocalCost_nonneg hr x y _ _) ih
  constructor
  · have hx' := List.length_pos_iff.2 hx
    obtain ⟨w, p, e, -, -, -, hpc, hmin⟩ := C123_optimal hr.mono hr.zero hi x x hx hx rfl L
      (by simpa using hL) _ argmin3_isArgmin
    have hd : IsWarpingPath x.length x.length ((List.range x.length).map fun i => (i, i)) := by
      have := diag_path (x.length - 1)
      rw [show x.length - 1 + 1 = x.length by omega] at this
      exact isWarpingPath_iff.2 ⟨x.length - 1, x.length - 1, by omega, by omega, this⟩
    have hz : pathCost (rAdd rnd) 0 (rLocalCost rnd x x)
        ((List.range x.length).map fun i => (i, i)) = 0 := by
      induction x.length with
      | zero => rfl
      | succ n ih =>
        rw [List.range_succ, List.map_append, List.map_singleton, pathCost_append, ih]
        rw [show rLocalCost rnd x x n n = 0 from rSqDist_self hr.zero _]
        simp [rAdd, hr.zero]
    rw [e]
    congr 1
    exact le_antisymm (hz ▸ hmin _ hd (by simpa using hL)) (hpc ▸ hnn x p)
  · intro y v h
    have key : y ≠ [] ∧ nFeatures x = nFeatures y ∧ max x.length y.length ≤ L := by
      unfold rDtwLimitedSq at h
      split_ifs at h with h1 h2 h3
      push Not at h2 h3
      exact ⟨h2.2, h3, not_lt.1 h1⟩
    obtain ⟨w, p, e, -, -, -, hpc, -⟩ := C123_optimal hr.mono hr.zero hi x y hx key.1 key.2.1 L
      key.2.2 _ argmin3_isArgmin
    rw [h] at e
    cases e
    exact hpc ▸ hnn y p
/-- A change of unit by a factor the rounding commutes with (a power of two in binary floating
point) multiplies the value before the square root exactly. -/
theorem C123_scale {rnd : K → K} (hr : OddMono rnd) (hi : ∀ a, rnd (rnd a) = rnd a) (c : K)
    (hc : ∀ a, rnd (c * a) = c * rnd a) (x y : List (List K)) (hx : x ≠ []) (hy : y ≠ [])
    (hf : nFeatures x = nFeatures y) (L : ℕ) (hL : max x.length y.length ≤ L) :
    rDtwLimitedSq rnd (x.map (·.map (c * ·))) (y.map (·.map (c * ·))) L =
      (rDtwLimitedSq rnd x y L).map (WithTop.map (c ^ 2 * ·)) := by
  have hc2 : ∀ a, rnd (c ^ 2 * a) = c ^ 2 * rnd a := by
    intro a
    rw [show c ^ 2 * a = c * (c * a) by ring, hc, hc]
    ring
  have hmono : Monotone (WithTop.map (c ^ 2 * · : K → K)) :=
    mapTop_mono fun a b h => mul_le_mul_of_nonneg_left h (sq_nonneg c)
  have hp : ∀ p, pathCost (rAdd rnd) 0 (rLocalCost rnd (x.map (·.map (c * ·))) (y.map (·.map (c * ·)))) p
      = (pathCost (rAdd rnd) 0 (rLocalCost rnd x y) p).map (c ^ 2 * ·) := by
    intro p
    induction p using List.reverseRecOn with
    | nil => simp [pathCost]
    | append_singleton q a ih =>
      have hl : rLocalCost rnd (x.map (·.map (c * ·))) (y.map (·.map (c * ·))) a.1 a.2 =
          c ^ 2 * rLocalCost rnd x y a.1 a.2 := by
        simp only [rLocalCost, getD_map_nil]
        exact rSqDist_scale hc hc2 _ _
      rw [pathCost_append, pathCost_append, ih, hl]
      obtain ⟨w, hw⟩ := rPathCost_finite rnd (rLocalCost rnd x y) q
      rw [hw]
      refine congrArg (WithTop.some) ?_
      simp only
      rw [← hc2, mul_add]
  have hnf : ∀ z : List (List K), nFeatures (z.map (·.map (c * ·))) = nFeatures z := by
    intro z
    cases z <;> simp [nFeatures]
  obtain ⟨w, p, e, -, hpw, hpl, hpc, hmin⟩ := C123_optimal hr.mono hr.zero hi x y hx hy hf L hL _
    argmin3_isArgmin
  obtain ⟨w', p', e', -, hpw', hpl', hpc', hmin'⟩ := C123_optimal hr.mono hr.zero hi
    (x.map (·.map (c * ·))) (y.map (·.map (c * ·))) (by simpa using hx) (by simpa using hy)
    (by rw [hnf, hnf, hf]) L (by simpa using hL) _ argmin3_isArgmin
  simp only [List.length_map] at hpw' hmin'
  rw [e, e']
  refine congrArg Except.ok (le_antisymm ?_ ?_)
  · rw [← hpc, ← hp p]
    exact hmin' p hpw hpl
  · rw [← hpc', hp p']
    exact hmono (hmin p' hpw' hpl')

/-- Integer data: when the rounding keeps the integers up to `B`, samples are at most `M` in size
and `(n + m) d (2 M)² ≤ B`, the value before the square root is the exact one. -/
theorem C123_integers {rnd : K → K} (hr : OddMono rnd) (hi : ∀ a, rnd (rnd a) = rnd a) (B M : ℤ)
    (d : ℕ) (hB : ∀ z : ℤ, |z| ≤ B → rnd (z : K) = z) (X Y : List (List ℤ)) (hX : X ≠ [])
    (hY : Y ≠ []) (hf : nFeatures X = nFeatures Y) (hd : ∀ r ∈ X, r.length ≤ d)
    (hXM : ∀ r ∈ X, ∀ z ∈ r, |z| ≤ M) (hYM : ∀ r ∈ Y, ∀ z ∈ r, |z| ≤ M)
    (hsz : (X.length + Y.length) * (d * (2 * M) ^ 2) ≤ B) (L : ℕ)
    (hL : max X.length Y.length ≤ L) :
    rDtwLimitedSq rnd (X.map (·.map (Int.cast : ℤ → K))) (Y.map (·.map Int.cast)) L =
      (dtwLimitedSq X Y L).map (WithTop.map (Int.cast : ℤ → K)) := by
  have hX' := List.length_pos_iff.2 hX
  have hY' := List.length_pos_iff.2 hY
  have hD : 0 ≤ (d : ℤ) * (2 * M) ^ 2 := by positivity
  have hD1 : (d : ℤ) * (2 * M) ^ 2 ≤ B := by
    have : (1 : ℤ) ≤ (X.length : ℤ) + Y.length := by omega
    nlinarith
  have hrow : ∀ i, (X.getD i []).length ≤ d ∧ ∀ z ∈ X.getD i [], |z| ≤ M := by
    intro i
    by_cases hi : i < X.length
    · rw [List.getD_eq_getElem _ _ hi]
      exact ⟨hd _ (List.getElem_mem hi), hXM _ (List.getElem_mem hi)⟩
    · rw [List.getD_eq_default _ _ (by omega)]
      simp
  have hrow' : ∀ j, ∀ z ∈ Y.getD j [], |z| ≤ M := by
    intro j
    by_cases hj : j < Y.length
    · rw [List.getD_eq_getElem _ _ hj]
      exact hYM _ (List.getElem_mem hj)
    · rw [List.getD_eq_default _ _ (by omega)]
      simp
  have hl : ∀ i j, rLocalCost rnd (X.map (·.map (Int.cast : ℤ → K))) (Y.map (·.map Int.cast)) i j =
      ((localCost X Y i j : ℤ) : K) ∧ localCost X Y i j ≤ d * (2 * M) ^ 2 := by
    intro i j
    rw [localCost_eq]
    simp only [rLocalCost, getD_map_nil, sampleCost]
    obtain ⟨h1, h2⟩ := hrow i
    have h3 := rSqDist_int hB h2 (hrow' j) 0 le_rfl (by
      have : ((X.getD i []).length : ℤ) * (2 * M) ^ 2 ≤ d * (2 * M) ^ 2 :=
        mul_le_mul_of_nonneg_right (by exact_mod_cast h1) (sq_nonneg _)
      linarith)
    refine ⟨by simpa [rSqDist] using h3.1, ?_⟩
    have : ((X.getD i []).length : ℤ) * (2 * M) ^ 2 ≤ d * (2 * M) ^ 2 :=
      mul_le_mul_of_nonneg_right (by exact_mod_cast h1) (sq_nonneg _)
    linarith [h3.2]
  have key : ∀ q : List (ℕ × ℕ), q.length ≤ X.length + Y.length →
      pathCost (rAdd rnd) 0 (rLocalCost rnd (X.map (·.map (Int.cast : ℤ → K)))
        (Y.map (·.map Int.cast))) q = ((sumCost (localCost X Y) q : ℤ) : K) ∧
      sumCost (localCost X Y) q ≤ q.length * (d * (2 * M) ^ 2) := by
    intro q
    induction q using List.reverseRecOn with
    | nil => intro _; simp [pathCost, sumCost]
    | append_singleton q a ih =>
      intro hq
      rw [List.length_append, List.length_singleton] at hq
      obtain ⟨e, hle⟩ := ih (by omega)
      obtain ⟨el, hll⟩ := hl a.1 a.2
      have hs : sumCost (localCost X Y) (q ++ [a]) =
          localCost X Y a.1 a.2 + sumCost (localCost X Y) q := by simp [sumCost, add_comm]
      have hn0 : 0 ≤ localCost X Y a.1 a.2 := by
        rw [localCost_eq]; exact sampleCost_nonneg X Y _ _
      have hn1 : 0 ≤ sumCost (localCost X Y) q := by
        rw [localCost_eq]; exact sumCost_nonneg (sampleCost_nonneg X Y) q
      have hle2 : localCost X Y a.1 a.2 + sumCost (localCost X Y) q ≤
          ((q.length : ℤ) + 1) * (d * (2 * M) ^ 2) := by linarith
      have hle3 : ((q.length : ℤ) + 1) * (d * (2 * M) ^ 2) ≤ B := by
        refine le_trans (mul_le_mul_of_nonneg_right ?_ hD) hsz
        exact_mod_cast hq
      refine ⟨?_, ?_⟩
      · rw [pathCost_append, e, el, hs]
        refine congrArg WithTop.some ?_
        simp only
        rw [← Int.cast_add, hB]
        rw [abs_of_nonneg (by linarith)]
        linarith
      · rw [hs, List.length_append, List.length_singleton]
        push_cast
        exact hle2
  have hnf : ∀ z : List (List ℤ), nFeatures (z.map (·.map (Int.cast : ℤ → K))) = nFeatures z := by
    intro z
    cases z <;> simp [nFeatures]
  obtain ⟨w, p, hw, e, -, hp, hpl, hpc⟩ := C12_optimal X Y hX hY hf L hL _ argmin3_isArgmin
  obtain ⟨w', p', e', -, hp', hpl', hpc', hmin'⟩ := C123_optimal hr.mono hr.zero hi
    (X.map (·.map (Int.cast : ℤ → K))) (Y.map (·.map Int.cast)) (by simpa using hX) (by simpa using hY)
    (by rw [hnf, hnf, hf]) L (by simpa using hL) _ argmin3_isArgmin
  simp only [List.length_map] at hp' hmin'
  rw [e, e']
  have h1 := hmin' p hp hpl
  rw [(key p (by have := hp.length_le; omega)).1, localCost_eq, hpc, WithTop.coe_le_coe] at h1
  rw [(key p' (by have := hp'.length_le; omega)).1, localCost_eq, WithTop.coe_inj] at hpc'
  refine congrArg Except.ok (le_antisymm (WithTop.coe_le_coe.2 h1) (WithTop.coe_le_coe.2 ?_))
  rw [← hpc']
  exact_mod_cast hw.2 ⟨p', hp', hpl', rfl⟩
end

section
variable {K : Type} [Field K] [LinearOrder K] [IsStrictOrderedRing K]

/-- Error of the value before the square root: at most `L + d + 3` relative errors of the least cost
over the alignments of at most `L` pairs, however long the series. The returned path is one of these
alignments, optimal up to the same errors. -/
theorem C123_squared_error {rnd : K → K} {u : K} (hr : RelErr rnd u) (hm : Monotone rnd)
    (hi : ∀ a, rnd (rnd a) = rnd a) (hu : 0 ≤ u) (hu1 : u ≤ 1) (x y : List (List K)) (hx : x ≠ [])
    (hy : y ≠ []) (hf : nFeatures x = nFeatures y) (d : ℕ) (hd : ∀ r ∈ x, r.length ≤ d) (L : ℕ)
    (hL : max x.length y.length ≤ L) (am) (ham : IsArgmin3 am) :
    ∃ (w' w : K) (p : List (ℕ × ℕ)), rDtwLimitedSq rnd x y L = .ok (w' : WithTop K) ∧
      IsLeast (ShortCosts x y L) w ∧ NearRel u (L + d + 3) w' w ∧
      rDtwPathLimitedSq rnd x y L am = .ok (some p, (w' : WithTop K)) ∧
      IsWarpingPath x.length y.length p ∧ p.length ≤ L ∧
      (1 - u) ^ (L + d + 3) * sumCost (sampleCost x y) p ≤ (1 + u) ^ (L + d + 3) * w := by
  obtain ⟨w', p, e, ep, hp, hpl, hpc, hmin⟩ := C123_optimal hm hr.zero hi x y hx hy hf L hL am ham
  obtain ⟨w, p0, hw, -⟩ := C12_optimal x y hx hy hf L hL am ham
  have near := fun p => rPathCost_near hr hu hu1 (sampleCost_nonneg x y)
    (rLocalCost_near hr hu hu1 x y d hd) p
  have hnn : ∀ p, 0 ≤ sumCost (sampleCost x y) p := sumCost_nonneg (sampleCost_nonneg x y)
  obtain ⟨a, ea, na⟩ := near p
  rw [hpc, WithTop.coe_inj] at ea
  subst ea
  have na' := na.mono hu hu1 (hnn p) (by omega : d + 3 + p.length ≤ L + d + 3)
  have hup : w' ≤ (1 + u) ^ (L + d + 3) * w := by
    obtain ⟨q, hq, hql, hqc⟩ := hw.1
    obtain ⟨b, eb, nb⟩ := near q
    have := hmin q hq hql
    rw [eb, WithTop.coe_le_coe] at this
    rw [hqc]
    exact this.trans (nb.mono hu hu1 (hnn q) (by omega)).2
  refine ⟨w', w, p, e, hw, ⟨?_, hup⟩, ep, hp, hpl, na'.1.trans hup⟩
  exact (mul_le_mul_of_nonneg_left (hw.2 ⟨p, hp, hpl, rfl⟩) (pow_nonneg (by linarith) _)).trans na'.1
end

/-- Error of the returned distance: relative, at most `2 (L + d + 5) u`. -/
theorem C123_error {rnd : ℝ → ℝ} {u : ℝ} (hr : RelErr rnd u) (hm : Monotone rnd)
    (hi : ∀ a, rnd (rnd a) = rnd a) (hu : 0 ≤ u) (x y : List (List ℝ)) (hx : x ≠ [])
    (hy : y ≠ []) (hf : nFeatures x = nFeatures y) (d : ℕ) (hd : ∀ r ∈ x, r.length ≤ d) (L : ℕ)
    (hL : max x.length y.length ≤ L) (hN : ((L + d + 5 : ℕ) : ℝ) * u ≤ 1 / 2) :
    ∃ v w : ℝ, rDtwLimited rnd x y L = .ok (v : WithTop ℝ) ∧ IsLeast (ShortCosts x y L) w ∧
      |v - Real.sqrt w| ≤ 2 * ((L + d + 5 : ℕ) : ℝ) * u * Real.sqrt w := by
  have hu1 : u ≤ 1 := by
    have : (1 : ℝ) ≤ ((L + d + 5 : ℕ) : ℝ) := by exact_mod_cast (by omega)
    nlinarith
  obtain ⟨w', w, p, e, hw, hn, -⟩ := C123_squared_error hr hm hi hu hu1 x y hx hy hf d hd L hL _
    argmin3_isArgmin
  have hw0 : 0 ≤ w := by
    obtain ⟨q, -, -, hqc⟩ := hw.1
    rw [hqc]
    exact sumCost_nonneg (sampleCost_nonneg x y) q
  refine ⟨rnd (Real.sqrt w'), w, ?_, hw, sqrt_error hr hu hN hw0 hn⟩
  simp only [rDtwLimited, e, bind, Except.bind, pure, Except.pure]
  rfl

/-- The hypotheses hold of rounding to nearest, ties to even, with 53 bits. -/
example : OddMono (nearBits 52 : ℝ → ℝ) ∧ (∀ a : ℝ, nearBits 52 (nearBits 52 a) = nearBits 52 a) ∧
    RelErr (nearBits 52 : ℝ → ℝ) (2 ^ (52 + 1))⁻¹ :=
  ⟨nearBits_oddMono 52, nearBits_idem 52, nearBits_relErr 52⟩

/-- Three bits: with 4 pairs the exact 19 is computed as 16, with 5 pairs the exact 10 as 8, the value
`dtw` computes. -/
example : rDtwLimitedSq (nearBits 2 : ℚ → ℚ) [[0], [1], [4], [6]] [[1], [4], [4], [9]] 4
      = .ok ((16 : ℚ) : WithTop ℚ) ∧
    dtwLimitedSq ([[0], [1], [4], [6]] : List (List ℚ)) [[1], [4], [4], [9]] 4
      = .ok ((19 : ℚ) : WithTop ℚ) ∧
    rDtwLimitedSq (nearBits 2 : ℚ → ℚ) [[0], [1], [4], [6]] [[1], [4], [4], [9]] 5
      = .ok ((8 : ℚ) : WithTop ℚ) ∧
    rDtwSq (nearBits 2 : ℚ → ℚ) [[0], [1], [4], [6]] [[1], [4], [4], [9]] 0 none none
      = .ok ((8 : ℚ) : WithTop ℚ) ∧
    rDtwPathLimitedSq (nearBits 2 : ℚ → ℚ) [[0], [1], [4], [6]] [[1], [4], [4], [9]] 5 argmin3
      = .ok (some [(0, 0), (1, 0), (2, 1), (2, 2), (3, 3)], ((8 : ℚ) : WithTop ℚ)) := by
  decide +kernel

/-- `C123_eq_dtw`, `C123_symm` and `C123_self` on series of different lengths. -/
example : rDtwLimitedSq (nearBits 2 : ℚ → ℚ) [[0], [1], [4]] [[1], [4], [4], [9]] 6
      = rDtwSq (nearBits 2 : ℚ → ℚ) [[0], [1], [4]] [[1], [4], [4], [9]] 0 none none ∧
    rDtwLimitedSq (nearBits 2 : ℚ → ℚ) [[0], [1], [4]] [[1], [4], [4], [9]] 5
      = rDtwLimitedSq (nearBits 2 : ℚ → ℚ) [[1], [4], [4], [9]] [[0], [1], [4]] 5 ∧
    rDtwLimitedSq (nearBits 2 : ℚ → ℚ) [[0], [1], [4]] [[0], [1], [4]] 3 = .ok 0 :=
  ⟨(C123_eq_dtw (nearBits_oddMono 2).mono (nearBits_oddMono 2).zero (nearBits_idem 2) _ _ (by simp)
      (by simp) (by rfl) 6 (by decide)).1 (by decide),
    C123_symm (nearBits_oddMono 2) (nearBits_idem 2) _ _ (by simp) (by simp) (by rfl) 5,
    (C123_self (nearBits_oddMono 2) (nearBits_idem 2) _ (by simp) 3 (by decide)).1⟩

/-- `C123_error` in doubles, on two univariate series and a budget of 4 pairs. -/
example : ∃ v w : ℝ, rDtwLimited (nearBits 52) [[0], [1], [4]] [[1], [4], [4], [9]] 4
      = .ok (v : WithTop ℝ) ∧ IsLeast (ShortCosts [[0], [1], [4]] [[1], [4], [4], [9]] 4) w ∧
    |v - Real.sqrt w| ≤ 2 * ((4 + 1 + 5 : ℕ) : ℝ) * (2 ^ (52 + 1))⁻¹ * Real.sqrt w :=
  C123_error (nearBits_relErr 52) (nearBits_oddMono 52).mono (nearBits_idem 52) (by positivity) _ _
    (by simp) (by simp) (by rfl) 1 (by simp) 4 (by decide) (by norm_num)

/-- Small integers are exact in 53 bits. -/
example : rDtwLimitedSq (nearBits 52 : ℚ → ℚ) [[3], [-4], [5]] [[0], [2]] 3 =
    (dtwLimitedSq ([[3], [-4], [5]] : List (List ℤ)) [[0], [2]] 3).map
      (WithTop.map (Int.cast : ℤ → ℚ)) := by
  have := C123_integers (nearBits_oddMono (K := ℚ) 52) (nearBits_idem 52) (2 ^ 53 - 1) 5 1
    (fun z hz => nearBits_int 52 z (by omega)) [[3], [-4], [5]] [[0], [2]] (by simp) (by simp) rfl
    (by decide) (by decide) (by decide) (by norm_num) 3 (by decide)
  simpa using this

/-- Samples in a unit half as large: the computed 8 becomes 32. -/
example : rDtwLimitedSq (nearBits 2 : ℚ → ℚ)
      (([[0], [1], [4], [6]] : List (List ℚ)).map (·.map (2 ^ (1 : ℤ) * ·)))
      (([[1], [4], [4], [9]] : List (List ℚ)).map (·.map (2 ^ (1 : ℤ) * ·))) 5
    = (rDtwLimitedSq (nearBits 2 : ℚ → ℚ) [[0], [1], [4], [6]] [[1], [4], [4], [9]] 5).map
      (WithTop.map ((2 ^ (1 : ℤ)) ^ 2 * ·)) :=
  C123_scale (nearBits_oddMono 2) (nearBits_idem 2) _ (nearBits_scale 2 1) _ _ (by simp) (by simp)
    (by rfl) 5 (by decide)

example : rDtwLimitedSq (nearBits 2 : ℚ → ℚ) [[0], [2], [8], [12]] [[2], [8], [8], [18]] 5
    = .ok ((32 : ℚ) : WithTop ℚ) := by decide +kernel
end Verif
