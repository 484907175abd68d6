import Verif.Props.C36
/-!
C58: `dtw_barycenter_averaging_petitjean` (kept in the code base to check the documented implementation) updates the
barycenter exactly as the documented implementation for the same alignments, and is a descent of the same kind.
-/
set_option linter.unusedSectionVars false
namespace Verif
open Spec
variable {K : Type} [Field K] [LinearOrder K] [IsStrictOrderedRing K]

theorem filter_map_sum (p : List (ℕ × ℕ)) (i : ℕ) (g : ℕ × ℕ → K) :
    ((p.filter fun c => c.1 = i).map g).sum = (p.map fun c => if c.1 = i then g c else 0).sum := by
  induction p with
  | nil => rfl
  | cons c p ih => by_cases h : c.1 = i <;> simp [h, ih]

/-- A row of a path. -/
theorem row_sum {n m p} (h : IsWarpingPath n m p) {i : ℕ} (hi : i < n) (g : ℕ → K) :
    ((p.filter fun c => c.1 = i).map fun c => g c.2).sum = ∑ j ∈ Finset.range m, (warpMat p : Mat K) i j * g j := by
  rw [filter_map_sum, path_sum h fun a j => if a = i then g j else 0]
  rw [Finset.sum_eq_single i]
  · simp
  · intro a _ ha
    simp [ha]
  · intro h; exact absurd (Finset.mem_range.2 hi) h

theorem assign_sum (qs : List (List (ℕ × ℕ))) (t : ℕ) (g : ℕ → ℕ → K) :
    ((petitjeanAssign qs t).map fun a => g a.1 a.2).sum =
      ∑ k ∈ Finset.range qs.length, ((((qs.map (·.map Prod.swap)).getD k []).filter fun c => c.1 = t).map fun c => g k c.2).sum := by
  unfold petitjeanAssign
  rw [List.map_flatMap, List.flatMap_def, List.sum_flatten, List.map_map, listsum_range]
  refine Finset.sum_congr rfl fun k hk => ?_
  have hk := Finset.mem_range.1 hk
  have : (qs.map (·.map Prod.swap)).getD k [] = (qs.getD k []).map Prod.swap := by
    simp [List.getD_eq_getElem?_getD, hk]
  rw [this, List.filter_map, List.map_map]
  simp only [Function.comp_def, List.map_map]
  rfl

variable {xs : List (List (List K))} {size d : ℕ}

theorem petitjeanUpdate_eq {ws : List K} {qs : List (List (ℕ × ℕ))} (h : PathsOk xs size d (qs.map (·.map Prod.swap)))
    (hw : WeightsOk xs ws) : petitjeanUpdate xs ws size d qs = mmUpdate xs ws size d (qs.map (·.map Prod.swap)) := by
  have hl : qs.length = xs.length := by simpa using h.len
  have hden : ∀ t < size, ((petitjeanAssign qs t).map fun a => ws.getD a.1 0).sum =
      diagSumV (qs.map (·.map Prod.swap)) ws t := by
    intro t ht
    rw [assign_sum qs t fun k _ => ws.getD k 0, diagSumV_eq h, hl]
    refine Finset.sum_congr rfl fun k hk => ?_
    rw [row_sum (h.wp k (Finset.mem_range.1 hk)) ht fun _ => ws.getD k 0, ← Finset.sum_mul, mul_comm]
  have hnum : ∀ t < size, ∀ f, ((petitjeanAssign qs t).map fun a => ((xs.getD a.1 []).getD a.2 []).getD f 0 * ws.getD a.1 0).sum =
      sumWX xs (qs.map (·.map Prod.swap)) ws t f := by
    intro t ht f
    rw [assign_sum qs t fun k j => ((xs.getD k []).getD j []).getD f 0 * ws.getD k 0, sumWX_eq h, hl]
    refine Finset.sum_congr rfl fun k hk => ?_
    rw [row_sum (h.wp k (Finset.mem_range.1 hk)) ht fun j => ((xs.getD k []).getD j []).getD f 0 * ws.getD k 0, Finset.mul_sum]
    exact Finset.sum_congr rfl fun j _ => by ring
  unfold petitjeanUpdate mmUpdate
  rw [if_neg, if_neg]
  · refine congrArg Except.ok (List.map_congr_left fun t ht => List.map_congr_left fun f _ => ?_)
    rw [hden t (List.mem_range.1 ht), hnum t (List.mem_range.1 ht), one_div, mul_comm, div_eq_mul_inv]
  · rintro ⟨t, ht, h0⟩
    exact (diagSumV_pos h hw ht).ne' h0
  · rintro ⟨t, ht, h0⟩
    rw [hden t ht] at h0
    exact (diagSumV_pos h hw ht).ne' h0

/-- Same alignments (the paths are stored the other way round), same update. -/
theorem C58_update (xs : List (List (List K))) (ws : List K) (size d : ℕ) (qs : List (List (ℕ × ℕ)))
    (h : PathsOk xs size d (qs.map (·.map Prod.swap))) (hw : WeightsOk xs ws) :
    petitjeanUpdate xs ws size d qs = mmUpdate xs ws size d (qs.map (·.map Prod.swap)) :=
  petitjeanUpdate_eq h hw

/-- What a run needs; the masks are computed with the barycenter as second series. -/
structure PjOk (cfg : DbaCfg K) (xs : List (List (List K))) (size d : ℕ) (masks : ℕ → Mat Bool) : Prop where
  pos : 0 < size
  ne : ∀ k < xs.length, xs.getD k [] ≠ []
  rect : ∀ k < xs.length, Rect (xs.getD k []).length d (xs.getD k [])
  mask : ∀ k < xs.length, computeMask (xs.getD k []).length size cfg.gc.toCode cfg.radius cfg.slope =
    .ok (fun j i => masks k i j)
  slope : ∀ s, cfg.slope = some s → 1 ≤ s
  am : IsArgmin3 cfg.am

theorem admissible_swap {n m : ℕ} {mask : Mat Bool} {p : List (ℕ × ℕ)} (h : Admissible m n (fun j i => mask i j) p) :
    Admissible n m mask (p.map Prod.swap) := by
  refine ⟨h.1.swap, fun c hc => ?_⟩
  obtain ⟨c', hc', rfl⟩ := List.mem_map.1 hc
  exact h.2 c' hc'

theorem cost_swap (b x : List (List K)) (p : List (ℕ × ℕ)) :
    sumCost (sampleCost b x) (p.map Prod.swap) = sumCost (sampleCost x b) p := by
  rw [← sampleCost_swap x b, sumCost_swap]

theorem petitjeanRound_ok {cfg : DbaCfg K} {masks : ℕ → Mat Bool} (h : PjOk cfg xs size d masks) {ws : List K}
    (hw : WeightsOk xs ws) : RoundOk masks xs ws size d (petitjeanRound cfg xs ws size d) := by
  intro b hb
  have hbne : b ≠ [] := List.length_pos_iff.1 (by rw [hb.1]; exact h.pos)
  obtain ⟨ps, c, h1, h2, h3, h4, -⟩ := assignWith_ok (masks := masks) hw h.rect hb (fun x => dbaPath cfg x b)
    (fun p => p.map Prod.swap) (fun k hk => by
      have hm := h.mask k hk
      rw [← hb.1] at hm
      obtain ⟨v, p, h1, -, h3, h4⟩ := dbaPath_spec cfg h.am (xs.getD k []) b (h.ne k hk) hbne _ hm
      have hv : v ≠ ⊤ := fun hv => h3.1 hv
        (computeMask_reachable (List.length_pos_iff.2 (h.ne k hk)) (List.length_pos_iff.2 hbne) h.slope hm).2
      obtain ⟨a1, a2, a3⟩ := h4 hv
      refine ⟨v, p, h1, admissible_swap a1, by rw [cost_swap]; exact a2, fun q hq => ?_⟩
      rw [cost_swap]
      have := a3 (q.map Prod.swap) (admissible_swap (mask := fun j i => masks k i j) hq)
      rwa [cost_swap] at this)
  obtain ⟨b', u1, u2, u3⟩ := mmUpdate_min h2 hw
  rw [← petitjeanUpdate_eq h2 hw] at u1
  have h1' : petitjeanAssignment cfg xs ws b = .ok (ps, (c : WithTop K)) := h1
  refine ⟨c, b', ?_, u2, h4, u2, _, h3, u3⟩
  simp [petitjeanRound, h1', u1, bind, Except.bind, pure, Except.pure]

/-- Petitjean's loop is a descent and never raises the warning. -/
theorem C58_descent (cfg : DbaCfg K) (xs : List (List (List K))) (ws : List K) (size d : ℕ) (masks : ℕ → Mat Bool)
    (h : PjOk cfg xs size d masks) (hw : WeightsOk xs ws) (b : List (List K)) (hb : Rect size d b) (maxIter : ℕ) :
    ∃ T bs c, IsDescent masks xs ws size d cfg.tol maxIter T bs c ∧ bs 0 = b ∧ (0 < maxIter → 0 < T) ∧
      petitjeanLoop cfg xs ws size d maxIter b = .ok (bs T, (List.range T).map (fun t => ((c t : K) : WithTop K)), false) :=
  dbaLoopWith_descent hw cfg.tol (petitjeanRound_ok h hw) b hb maxIter

/-- Without constraint the two implementations report the same cost for the same barycenter (first rounds agree). -/
theorem C58_same_cost (cfg : DbaCfg K) (hgc : cfg.gc.toCode = 0) (hr : cfg.radius = none) (hs : cfg.slope = none)
    (ham : IsArgmin3 cfg.am) (xs : List (List (List K))) (ws : List K) (size d : ℕ) (hpos : 0 < size)
    (hne : ∀ k < xs.length, xs.getD k [] ≠ []) (hrect : ∀ k < xs.length, Rect (xs.getD k []).length d (xs.getD k []))
    (hw : WeightsOk xs ws) (b : List (List K)) (hb : Rect size d b) :
    ∃ (c : K) (b1 b2 : List (List K)), mmRound cfg xs ws size d b = .ok ((c : WithTop K), b1) ∧
      petitjeanRound cfg xs ws size d b = .ok ((c : WithTop K), b2) := by
  have hm : ∀ n m, computeMask n m cfg.gc.toCode cfg.radius cfg.slope = .ok (Mat.full true) := by
    intro n m; rw [hgc, hr, hs]; rfl
  obtain ⟨c, b1, h1, -, h2, -⟩ := mmRound_ok (masks := fun _ => Mat.full true)
    ⟨hpos, hne, hrect, fun k _ => hm _ _, by simp [hs], ham⟩ hw b hb
  obtain ⟨c', b2, h1', -, h2', -⟩ := petitjeanRound_ok (masks := fun _ => Mat.full true)
    ⟨hpos, hne, hrect, fun k _ => hm _ _, by simp [hs], ham⟩ hw b hb
  obtain rfl := h2.unique h2'
  exact ⟨c, b1, b2, h1, h1'⟩

/-- The hypotheses are met by the example of C36 (the mask is symmetric; an Itakura mask need not be, see C04). -/
example : PjOk exCfg exDba 2 1 (fun _ => Mat.full true) where
  pos := exDba_ok.pos
  ne := exDba_ok.ne
  rect := exDba_ok.rect
  mask := fun _ _ => rfl
  slope := exDba_ok.slope
  am := exDba_ok.am

example : petitjeanUpdate exDba [1, 3] 2 1 [[(0, 0), (1, 1)], [(0, 0), (0, 1)]] = .ok [[3], [7 / 2]] := by
  decide +kernel

example : petitjeanRound exCfg exDba [1, 3] 2 1 [[0], [2]] = mmRound exCfg exDba [1, 3] 2 1 [[0], [2]] := by
  decide +kernel

end Verif
