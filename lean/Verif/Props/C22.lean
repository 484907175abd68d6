import Verif.Model.Ctw
import Verif.Spec.Alternation
import Verif.Props.C02
import Verif.Proofs.Masks
import Mathlib.Algebra.Order.Ring.Rat
/-!
# C22 — CTW: number of alternations, returned score
-/
set_option linter.unusedSectionVars false
namespace Verif
open Spec
section
variable {K : Type} [CommRing K] [LinearOrder K]

theorem warpMatrices_spec (p : List (ℕ × ℕ)) (k c : ℕ) (hk : k < p.length) :
    (warpMatrices (K := K) p).1 k c = (if c = (p.getD k (0, 0)).1 then 1 else 0) ∧
    (warpMatrices (K := K) p).2 k c = (if c = (p.getD k (0, 0)).2 then 1 else 0) := by
  have := forRange_inv (fun n (W : Mat K × Mat K) => ∀ k c,
      W.1 k c = (if k < n ∧ c = (p.getD k (0, 0)).1 then 1 else 0) ∧
      W.2 k c = (if k < n ∧ c = (p.getD k (0, 0)).2 then 1 else 0)) p.length
      ((Mat.full 0, Mat.full 0) : Mat K × Mat K) (fun i W =>
      (W.1.set i (p.getD i (0, 0)).1 1, W.2.set i (p.getD i (0, 0)).2 1)) (by simp [Mat.full]) (by
      intro i W _ h k c
      simp only [Mat.set_apply, h]
      constructor
      · by_cases hk : k = i
        · subst hk; simp
        · have : k < i + 1 ↔ k < i := by omega
          simp [hk, this]
      · by_cases hk : k = i
        · subst hk; simp
        · have : k < i + 1 ↔ k < i := by omega
          simp [hk, this]) k c
  simp only [hk, true_and] at this
  exact this

theorem sum_range_onehot (n a : ℕ) (g : ℕ → K) (ha : a < n) :
    ((List.range n).map fun c => (if c = a then 1 else 0) * g c).sum = g a := by
  induction n with
  | zero => omega
  | succ n ih =>
    rw [List.range_succ, List.map_append, List.sum_append]
    by_cases h : a = n
    · subst h
      have : ((List.range a).map fun c => (if c = a then (1:K) else 0) * g c).sum = 0 := by
        apply List.sum_eq_zero
        intro v hv
        obtain ⟨c, hc, rfl⟩ := List.mem_map.1 hv
        have := List.mem_range.1 hc
        simp [this.ne]
      rw [this]; simp
    · rw [ih (by omega)]
      have : n ≠ a := fun e => h e.symm
      simp [this]

theorem getD_range_map (r : List K) (d : ℕ) (h : r.length = d) :
    ((List.range d).map fun f => r.getD f 0) = r := by
  apply List.ext_getElem
  · simp [h]
  · intro i h1 h2
    simp [List.getD_eq_getElem?_getD, List.getElem?_eq_getElem h2]

/-- The series the projection is fitted on are the two series resampled along the path. -/
theorem C22_warped_series {n m : ℕ} {p : List (ℕ × ℕ)} (hp : IsWarpingPath n m p) (s1 s2 : List (List K))
    (h1 : s1.length = n) (h2 : s2.length = m) (d1 d2 : ℕ) (hd1 : ∀ r ∈ s1, r.length = d1)
    (hd2 : ∀ r ∈ s2, r.length = d2) :
    warpMul p.length ((p.getLastD (0, 0)).1 + 1) d1 (warpMatrices p).1 s1 = p.map (fun c => s1.getD c.1 []) ∧
    warpMul p.length ((p.getLastD (0, 0)).2 + 1) d2 (warpMatrices p).2 s2 = p.map (fun c => s2.getD c.2 []) := by
  have hlt : ∀ c ∈ p, c.1 < n ∧ c.2 < m := fun c hc => hp.mem_lt c hc
  obtain ⟨i, j, rfl, rfl, hw⟩ := isWarpingPath_iff.1 hp
  have hl : p.getLastD (0, 0) = (i, j) := by
    have := hw.getLast
    rw [List.getLastD_eq_getLast?, this]; rfl
  have mem : ∀ (s : List (List K)) (k : ℕ), k < s.length → s.getD k [] ∈ s := by
    intro s k hk
    rw [List.getD_eq_getElem?_getD, List.getElem?_eq_getElem hk]
    exact List.getElem_mem hk
  constructor
  · apply List.ext_getElem
    · simp [warpMul]
    · intro k hk1 hk2
      have hk : k < p.length := by simpa [warpMul] using hk1
      have hc := hlt p[k] (List.getElem_mem _)
      simp only [warpMul, List.getElem_map, List.getElem_range, hl]
      rw [← getD_range_map (s1.getD p[k].1 []) d1 (hd1 _ (mem _ _ (by omega)))]
      congr 1
      funext f
      simp only [fun c => (warpMatrices_spec (K := K) p k c hk).1]
      rw [sum_range_onehot (i + 1) _ (fun c => (s1.getD c []).getD f 0)]
      · simp [List.getD_eq_getElem?_getD, List.getElem?_eq_getElem hk]
      · simp [List.getD_eq_getElem?_getD, List.getElem?_eq_getElem hk]; omega
  · apply List.ext_getElem
    · simp [warpMul]
    · intro k hk1 hk2
      have hk : k < p.length := by simpa [warpMul] using hk1
      have hc := hlt p[k] (List.getElem_mem _)
      simp only [warpMul, List.getElem_map, List.getElem_range, hl]
      rw [← getD_range_map (s2.getD p[k].2 []) d2 (hd2 _ (mem _ _ (by omega)))]
      congr 1
      funext f
      simp only [fun c => (warpMatrices_spec (K := K) p k c hk).2]
      rw [sum_range_onehot (j + 1) _ (fun c => (s2.getD c []).getD f 0)]
      · simp [List.getD_eq_getElem?_getD, List.getElem?_eq_getElem hk]
      · simp [List.getD_eq_getElem?_getD, List.getElem?_eq_getElem hk]; omega

/-- What the loop returns: with no pass left the current state, otherwise the path of one pass with
the score from before it. -/
theorem ctwLoop_eq (align : List (ℕ × ℕ) → Except PyErr (List (ℕ × ℕ) × WithTop K × Proj K)) (n : ℕ)
    (p : List (ℕ × ℕ)) (v : WithTop K) (c : Option (Proj K)) :
    ctwLoop align n p v c = if n = 0 then .ok (p, c, v) else (align p).map fun r => (r.1, some r.2.2, v) := by
  cases n with
  | zero => rfl
  | succ n =>
    simp only [ctwLoop, if_true, bind, Except.bind, pure, Except.pure, Nat.succ_ne_zero, if_false]
    cases align p <;> rfl

variable [IsStrictOrderedRing K]

theorem dtwPathGeneric_inv {x y : List (List K)} (hx : x ≠ []) (hy : y ≠ []) {code radius slope}
    {am : WithTop K → WithTop K → WithTop K → ℕ} (ham : IsArgmin3 am) {v : WithTop K} {p : Option (List (ℕ × ℕ))}
    (h : dtwPathGeneric x y code radius slope am = .ok (v, p)) :
    dtwSqGeneric x y code radius slope = .ok v ∧
    ∃ q mask, p = some q ∧ computeMask x.length y.length code radius slope = .ok mask ∧
      IsWarpingPath x.length y.length q ∧
      (v ≠ ⊤ → InMask mask q ∧ v = ((sumCost (sampleCost x y) q : K) : WithTop K)) := by
  unfold dtwPathGeneric at h
  cases hm : computeMask x.length y.length code radius slope with
  | error e => simp [hm, bind, Except.bind] at h
  | ok mask =>
    simp only [hm, bind, Except.bind, pure, Except.pure, Except.ok.injEq, Prod.mk.injEq] at h
    obtain ⟨rfl, rfl⟩ := h
    have h1 := List.length_pos_iff.2 hx
    have h2 := List.length_pos_iff.2 hy
    refine ⟨by simp [dtwSqGeneric, hm, bind, Except.bind, pure, Except.pure], ?_⟩
    obtain ⟨q, hq, hw⟩ := C02_path_terminates am (accumulatedMatrix x y mask) x.length y.length h1 h2
    refine ⟨q, mask, hq, rfl, hw, fun hf => ?_⟩
    let add := fun (d : K) (c : WithTop K) => (d : WithTop K) + c
    obtain ⟨q', hq', ha, hc⟩ := C02_path_optimal add 0 (fun d => add_top' d) am ham x.length y.length h1 h2 mask
      (localCost x y) hf
    have : some q = some q' := by rw [← hq, ← hq']; rfl
    obtain rfl := Option.some.inj this
    refine ⟨ha.2, ?_⟩
    rw [← localCost_eq, ← pathCost_add_eq]
    exact hc.symm

/-- What `ctw_path` returns, for every projection `fit`. With `max_iter ≤ 1`: path and score of the
first alignment. Otherwise: the path of the second alignment, the score of the first, whatever
`max_iter` is. -/
theorem C22_result (fit : List (List K) → List (List K) → Except PyErr (Proj K)) (s1 s2 : TsInput (Option K))
    (maxIter : ℕ) (nComp : Option ℕ) (gc : Option String) (radius : Option ℕ) (slope : Option ℚ)
    (am : WithTop K → WithTop K → WithTop K → ℕ) (p : List (ℕ × ℕ)) (cca : Option (Proj K)) (v : WithTop K)
    (h : ctwPathSq fit s1 s2 maxIter nComp gc radius slope am = .ok (p, cca, v)) :
    ∃ x y code p0, denan (toTimeSeries s1 true) = some x ∧ denan (toTimeSeries s2 true) = some y ∧
      x ≠ [] ∧ y ≠ [] ∧ gcCode gc = .ok code ∧
      (let nc := nComp.getD (min (nFeatures x) (nFeatures y))
       dtwPathGeneric (eyeMul nc x) (eyeMul nc y) code radius slope am = .ok (v, some p0)) ∧
      (maxIter ≤ 1 → p = p0 ∧ cca = none) ∧
      (2 ≤ maxIter → ∃ T v', ctwAlign fit x y code radius slope am p0 = .ok (p, v', T) ∧ cca = some T) := by
  unfold ctwPathSq at h
  simp only [bind, Except.bind, throw, throwThe, MonadExceptOf.throw] at h
  cases hx : denan (toTimeSeries s1 true) with
  | none => simp [hx] at h
  | some x =>
  cases hy : denan (toTimeSeries s2 true) with
  | none => simp [hx, hy] at h
  | some y =>
  simp only [hx, hy] at h
  split_ifs at h with hne
  push Not at hne
  cases hg : gcCode gc with
  | error e => simp [hg] at h
  | ok code =>
  simp only [hg] at h
  cases hd : dtwPathGeneric (eyeMul (nComp.getD (min (nFeatures x) (nFeatures y))) x)
      (eyeMul (nComp.getD (min (nFeatures x) (nFeatures y))) y) code radius slope am with
  | error e => simp [hd] at h
  | ok r =>
  obtain ⟨v0, path⟩ := r
  simp only [hd] at h
  cases path with
  | none => simp at h
  | some p0 =>
  simp only at h
  rw [ctwLoop_eq] at h
  split_ifs at h with hm
  · simp only [Except.ok.injEq, Prod.mk.injEq] at h
    obtain ⟨rfl, rfl, rfl⟩ := h
    exact ⟨x, y, code, _, rfl, rfl, hne.1, hne.2, rfl, hd, fun _ => ⟨rfl, rfl⟩, fun h => by omega⟩
  · cases ha : ctwAlign fit x y code radius slope am p0 with
    | error e => simp [ha, Except.map] at h
    | ok r =>
      obtain ⟨p1, v1, T⟩ := r
      simp only [ha, Except.map, Except.ok.injEq, Prod.mk.injEq] at h
      obtain ⟨rfl, rfl, rfl⟩ := h
      exact ⟨x, y, code, p0, rfl, rfl, hne.1, hne.2, rfl, hd, fun h => by omega, fun _ => ⟨T, v1, ha, rfl⟩⟩

/-- The returned path is a warping path between the two series; after a projection it is an optimal
admissible one for the projected series (when their alignment is feasible). -/
theorem C22_path_partial (fit : List (List K) → List (List K) → Except PyErr (Proj K)) (s1 s2 : TsInput (Option K))
    (maxIter : ℕ) (nComp : Option ℕ) (gc : Option String) (radius : Option ℕ) (slope : Option ℚ)
    (am : WithTop K → WithTop K → WithTop K → ℕ) (ham : IsArgmin3 am) (p : List (ℕ × ℕ))
    (T : Proj K) (v : WithTop K) (h2 : 2 ≤ maxIter)
    (h : ctwPathSq fit s1 s2 maxIter nComp gc radius slope am = .ok (p, some T, v)) :
    ∃ x y code v', denan (toTimeSeries s1 true) = some x ∧ denan (toTimeSeries s2 true) = some y ∧
      gcCode gc = .ok code ∧ dtwSqGeneric (x.map T.1) (y.map T.2) code radius slope = .ok v' ∧
      IsWarpingPath x.length y.length p ∧
      (v' ≠ ⊤ → v' = ((sumCost (sampleCost (x.map T.1) (y.map T.2)) p : K) : WithTop K)) := by
  obtain ⟨x, y, code, p0, hx, hy, hxn, hyn, hg, -, -, h1⟩ := C22_result _ _ _ _ _ _ _ _ _ _ _ _ h
  obtain ⟨T', v', ha, hT⟩ := h1 h2
  obtain rfl := Option.some.inj hT
  unfold ctwAlign at ha
  simp only [bind, Except.bind, pure, Except.pure, throw, throwThe, MonadExceptOf.throw] at ha
  split at ha
  · simp at ha
  rename_i T0 hfit
  split at ha
  · simp at ha
  rename_i r hd
  obtain ⟨w, path⟩ := r
  cases path with
  | none => simp at ha
  | some q =>
    simp only [Except.ok.injEq, Prod.mk.injEq] at ha
    obtain ⟨rfl, rfl, rfl⟩ := ha
    obtain ⟨hs, q', mask, hq, hm, hw, hc⟩ := dtwPathGeneric_inv (by simpa using hxn) (by simpa using hyn) ham hd
    obtain rfl := Option.some.inj hq
    exact ⟨x, y, code, w, hx, hy, hg, hs, by simpa using hw, fun hf => (hc hf).2⟩
end

/-- The score of `ctw` never depends on the projection, nor on `max_iter`: for series with the same
number of features and the default `n_components` it is the plain DTW distance. -/
theorem C22_ctw_is_dtw (fit : List (List ℝ) → List (List ℝ) → Except PyErr (Proj ℝ))
    (rows1 rows2 : List (List (Option ℝ))) (d : ℕ) (h1 : ∀ r ∈ rows1, r.length = d)
    (h2 : ∀ r ∈ rows2, r.length = d) (maxIter : ℕ) (gc : Option String) (radius : Option ℕ)
    (slope : Option ℚ) (am : WithTop ℝ → WithTop ℝ → WithTop ℝ → ℕ) (ham : IsArgmin3 am) (v : WithTop ℝ)
    (h : ctw fit (.twoD rows1) (.twoD rows2) maxIter none gc radius slope am = .ok v) :
    dtw (.twoD rows1) (.twoD rows2) gc radius slope = .ok v := by
  unfold ctw at h
  cases hc : ctwPathSq fit (.twoD rows1) (.twoD rows2) maxIter none gc radius slope am with
  | error e => simp [hc, bind, Except.bind] at h
  | ok r =>
  obtain ⟨p, cca, w⟩ := r
  simp only [hc, bind, Except.bind, pure, Except.pure, Except.ok.injEq] at h
  subst h
  obtain ⟨x, y, code, p0, hx, hy, hxn, hyn, hg, hd, -, -⟩ := C22_result _ _ _ _ _ _ _ _ _ _ _ _ hc
  have hr1 : ∀ r ∈ toTimeSeries (.twoD rows1) true, r.length = d := fun r hr =>
    h1 r (List.mem_of_mem_take (by simpa [toTimeSeries] using hr))
  have hr2 : ∀ r ∈ toTimeSeries (.twoD rows2) true, r.length = d := fun r hr =>
    h2 r (List.mem_of_mem_take (by simpa [toTimeSeries] using hr))
  have rx := denan_rect hx hr1
  have ry := denan_rect hy hr2
  have nf : ∀ {α : Type} {z : List (List α)}, z ≠ [] → (∀ r ∈ z, r.length = d) → nFeatures z = d := by
    intro α z hz hzr
    cases z with
    | nil => exact absurd rfl hz
    | cons a z => exact hzr a (by simp)
  have e : ∀ z : List (List ℝ), (∀ r ∈ z, r.length = d) → eyeMul d z = z := by
    intro z hz
    unfold eyeMul
    conv_rhs => rw [← List.map_id z]
    exact List.map_congr_left fun r hr => getD_range_map r d (hz r hr)
  simp only [Option.getD_none, nf hxn rx, nf hyn ry, min_self] at hd
  rw [e x rx, e y ry] at hd
  have t1 : toTimeSeries (.twoD rows1) true ≠ [] := by
    intro h0; apply hxn; apply List.length_eq_zero_iff.1; rw [denan_length hx, h0]; rfl
  have t2 : toTimeSeries (.twoD rows2) true ≠ [] := by
    intro h0; apply hyn; apply List.length_eq_zero_iff.1; rw [denan_length hy, h0]; rfl
  have hv : validatePair (.twoD rows1) (.twoD rows2) gc = .ok (x, y, code) := by
    simp only [validatePair, List.length_eq_zero_iff, t1, t2, or_self, if_false, nf t1 hr1, nf t2 hr2, ne_eq,
      not_true, hg, hx, hy, bind, Except.bind, pure, Except.pure]
  simp only [dtw, dtwSq, hv, (dtwPathGeneric_inv hxn hyn ham hd).1, bind, Except.bind, pure, Except.pure]

/-- One alternation as a map on (path, score). -/
def ctwStep {K : Type} (align : List (ℕ × ℕ) → Except PyErr (List (ℕ × ℕ) × WithTop K × Proj K))
    (a : List (ℕ × ℕ) × WithTop K) : List (ℕ × ℕ) × WithTop K :=
  match align a.1 with
  | .ok r => (r.1, r.2.1)
  | .error _ => a

/-- A projection that flattens both series when fitted on four aligned pairs and leaves them unchanged
otherwise. -/
def flatten4 (a _b : List (List ℚ)) : Except PyErr (Proj ℚ) :=
  if a.length = 4 then .ok (fun _ => [0], fun _ => [0]) else .ok (id, id)

/-- C22 is false of the code: with two iterations the returned score is not the score of the returned
path; with three, the returned path is neither the last one nor one at which the alternation has
stabilised. Series `(0, 0, 3)` and `(0, 3, 4)`. -/
theorem C22_false : ∃ (fit : List (List ℚ) → List (List ℚ) → Except PyErr (Proj ℚ))
    (x y : List (List ℚ)) (p0 : List (ℕ × ℕ)) (v0 : WithTop ℚ),
    dtwPathGeneric x y 0 none none argmin3 = .ok (v0, some p0) ∧
    (∃ p T v, ctwPathSq fit (.twoD (x.map (·.map some))) (.twoD (y.map (·.map some))) 2 none none none none argmin3
        = .ok (p, some T, v) ∧
      v ≠ ((sumCost (sampleCost (x.map T.1) (y.map T.2)) p : ℚ) : WithTop ℚ)) ∧
    (∃ p T v, ctwPathSq fit (.twoD (x.map (·.map some))) (.twoD (y.map (·.map some))) 3 none none none none argmin3
        = .ok (p, T, v) ∧
      ¬ ∃ w, StopsWhenStable Prod.fst (ctwStep (ctwAlign fit x y 0 none none argmin3)) (p0, v0) 2 (p, w)) := by
  refine ⟨flatten4, [[0], [0], [3]], [[0], [3], [4]], [(0, 0), (1, 0), (2, 1), (2, 2)], (1 : ℚ), ?_, ?_, ?_⟩
  · have h : (dtwPathGeneric [[(0:ℚ)], [0], [3]] [[0], [3], [4]] 0 none none argmin3).toOption =
        some (((1 : ℚ) : WithTop ℚ), some [(0, 0), (1, 0), (2, 1), (2, 2)]) := by decide +kernel
    revert h
    cases dtwPathGeneric [[(0:ℚ)], [0], [3]] [[0], [3], [4]] 0 none none argmin3 with
    | error e => simp [Except.toOption]
    | ok r => simp only [Except.toOption, Option.some.injEq]; rintro rfl; rfl
  · have h : (ctwPathSq flatten4 (.twoD [[some 0], [some 0], [some 3]]) (.twoD [[some 0], [some 3], [some 4]]) 2 none
        none none none argmin3).toOption.map (fun r => (r.2.1.map fun T => decide (r.2.2 ≠
          ((sumCost (sampleCost ([[0], [0], [3]].map T.1) ([[0], [3], [4]].map T.2)) r.1 : ℚ) : WithTop ℚ)))) =
        some (some true) := by decide +kernel
    revert h
    show _ → ∃ p T v, ctwPathSq flatten4 (.twoD [[some 0], [some 0], [some 3]])
      (.twoD [[some 0], [some 3], [some 4]]) 2 none none none none argmin3 = _ ∧ _
    cases ctwPathSq flatten4 (.twoD [[some 0], [some 0], [some 3]]) (.twoD [[some 0], [some 3], [some 4]]) 2 none
        none none none argmin3 with
    | error e => simp [Except.toOption]
    | ok r =>
      obtain ⟨p, T, v⟩ := r
      cases T with
      | none => simp [Except.toOption]
      | some T =>
        intro h
        simp only [Except.toOption, Option.map_some, Option.some.injEq, decide_eq_true_eq] at h
        exact ⟨p, T, v, rfl, h⟩
  · have h : (ctwPathSq flatten4 (.twoD [[some 0], [some 0], [some 3]]) (.twoD [[some 0], [some 3], [some 4]]) 3 none
        none none none argmin3).toOption.map (fun r => r.1) = some [(0, 0), (1, 1), (2, 2)] := by decide +kernel
    revert h
    show _ → ∃ p T v, ctwPathSq flatten4 (.twoD [[some 0], [some 0], [some 3]])
      (.twoD [[some 0], [some 3], [some 4]]) 3 none none none none argmin3 = _ ∧ _
    cases ctwPathSq flatten4 (.twoD [[some 0], [some 0], [some 3]]) (.twoD [[some 0], [some 3], [some 4]]) 3 none
        none none none argmin3 with
    | error e => simp [Except.toOption]
    | ok r =>
      obtain ⟨p, T, v⟩ := r
      intro h
      simp only [Except.toOption, Option.map_some, Option.some.injEq] at h
      subst h
      refine ⟨_, T, v, rfl, ?_⟩
      rintro ⟨w, k, hk, he, hs⟩
      have s1 : ctwStep (ctwAlign flatten4 [[0], [0], [3]] [[0], [3], [4]] 0 none none argmin3)
          ([(0, 0), (1, 0), (2, 1), (2, 2)], ((1 : ℚ) : WithTop ℚ)) = ([(0, 0), (1, 1), (2, 2)], ((0 : ℚ) : WithTop ℚ)) := by
        decide +kernel
      have s2 : ctwStep (ctwAlign flatten4 [[0], [0], [3]] [[0], [3], [4]] 0 none none argmin3)
          ([(0, 0), (1, 1), (2, 2)], ((0 : ℚ) : WithTop ℚ)) =
          ([(0, 0), (1, 0), (2, 1), (2, 2)], ((1 : ℚ) : WithTop ℚ)) := by
        decide +kernel
      have hk' : k = 0 ∨ k = 1 ∨ k = 2 := by omega
      rcases hk' with rfl | rfl | rfl
      · simp at he
      · simp only [Function.iterate_succ, Function.iterate_zero, Function.comp, id, s1, Nat.sub_self] at hs
        simp at hs
      · simp only [Function.iterate_succ, Function.iterate_zero, Function.comp, id, s1, s2] at he
        simp at he

/-- Non-vacuity of the positive statements: a converging call with four iterations. -/
example : ((ctwPathSq flatten4 (.twoD [[some 0], [some 0], [some 3]]) (.twoD [[some 0], [some 3], [some 4]]) 4
    none none none none argmin3).toOption.map fun r => (r.1, r.2.1.isSome, r.2.2)) =
    some ([(0, 0), (1, 1), (2, 2)], true, ((1 : ℚ) : WithTop ℚ)) := by decide +kernel

end Verif
