import Verif.Props.C18
import Verif.Proofs.CdistOf
/-!
# C19 — cdist_soft_dtw agrees with soft_dtw
True for `gamma ≠ 0`; **false** for `gamma = 0`, where the matrix holds DTW instead of its square.
-/
namespace Verif
open Spec
open Classical

/-- `gamma ≠ 0`, two datasets: every entry, every constraint, every schedule, both backends. -/
theorem C19_cross_partial (be : Backend) (l l' : List (Ts ℝ)) (d : ℕ)
    (hwf : ∀ t ∈ l, t.WF ∧ t.d = d) (hwf' : ∀ t ∈ l', t.WF ∧ t.d = d) (γ : ℝ) (hγ : γ ≠ 0)
    (g : Option String) (radius : Option ℕ) (slope : Option ℚ) (run) (hrun : Execution run) (M : Mat Fl)
    (h : cdistSoftDtw be (.series l) (some (.series l')) γ g radius slope run = .ok M)
    (i j : ℕ) (t t' : Ts ℝ) (hi : l[i]? = some t) (hj : l'[j]? = some t') :
    softDtw be (.twoD t.rows) (.twoD t'.rows) γ g radius slope = .ok (M i j) := by
  unfold cdistSoftDtw at h
  cases hg : gcCode g with
  | error e => simp [hg, bind, Except.bind] at h
  | ok code =>
    simp only [hg, bind, Except.bind, hγ, if_false] at h
    obtain ⟨x, y, hv, -, -, hf⟩ := cdistOf_cross hwf hwf' hrun h hg hi hj
    simp only [softDtw, hv, bind, Except.bind, hγ, if_false]
    exact hf

/-- `gamma > 0`, one dataset, no constraint or a Sakoe-Chiba band: every entry (the lower triangle is
copied from the upper one). -/
theorem C19_self_partial (be : Backend) (l : List (Ts ℝ)) (d : ℕ)
    (hwf : ∀ t ∈ l, t.WF ∧ t.d = d) (γ : ℝ) (hγ : 0 < γ)
    (g : Option String) (hg : g = none ∨ g = some "sakoe_chiba") (radius : Option ℕ)
    (run) (hrun : Execution run) (M : Mat Fl)
    (h : cdistSoftDtw be (.series l) none γ g radius none run = .ok M)
    (i j : ℕ) (t t' : Ts ℝ) (hi : l[i]? = some t) (hj : l[j]? = some t') :
    softDtw be (.twoD t.rows) (.twoD t'.rows) γ g radius none = .ok (M i j) ∧ M i j = M j i := by
  unfold cdistSoftDtw at h
  obtain ⟨code, hcode, hc⟩ : ∃ code, gcCode g = .ok code ∧ (code = 0 ∨ code = 2) := by
    rcases hg with rfl | rfl
    · exact ⟨0, rfl, .inl rfl⟩
    · exact ⟨2, rfl, .inr rfl⟩
  simp only [hcode, bind, Except.bind, hγ.ne', if_false] at h
  obtain ⟨x, y, hv, -, -, hf⟩ := cdistOf_self_symm hwf hrun h (by
    intro x y hx hy
    rcases hc with rfl | rfl
    · exact (C18_symm be x y hx hy γ hγ radius).1
    · exact (C18_symm be x y hx hy γ hγ radius).2) hcode hi hj
  refine ⟨?_, (cdistOf_self hwf hrun h hcode hi hj).1⟩
  simp only [softDtw, hv, bind, Except.bind, hγ.ne', if_false]
  exact hf

/-- `gamma = 0`: what the matrix holds is the DTW distance, whose *square* is `soft_dtw`. -/
theorem C19_gamma_zero (be : Backend) (l l' : List (Ts ℝ)) (d : ℕ)
    (hwf : ∀ t ∈ l, t.WF ∧ t.d = d) (hwf' : ∀ t ∈ l', t.WF ∧ t.d = d)
    (g : Option String) (radius : Option ℕ) (slope : Option ℚ) (run) (hrun : Execution run) (M : Mat Fl)
    (h : cdistSoftDtw be (.series l) (some (.series l')) 0 g radius slope run = .ok M)
    (i j : ℕ) (t t' : Ts ℝ) (hi : l[i]? = some t) (hj : l'[j]? = some t') :
    (∃ v, dtw (.twoD t.rows) (.twoD t'.rows) g radius slope = .ok v ∧ M i j = flOfTop v) ∧
    softDtw be (.twoD t.rows) (.twoD t'.rows) 0 g radius slope = .ok ((M i j).mul (M i j)) := by
  unfold cdistSoftDtw at h
  cases hg : gcCode g with
  | error e => simp [hg, bind, Except.bind] at h
  | ok code =>
    simp only [hg, bind, Except.bind, if_true] at h
    obtain ⟨x, y, hv, -, -, hf⟩ := cdistOf_cross hwf hwf' hrun h hg hi hj
    cases hd : dtwSqGeneric x y code radius slope with
    | error e => simp [hd] at hf
    | ok v =>
      simp only [hd, pure, Except.pure, Except.ok.injEq] at hf
      rw [← hf]
      constructor
      · exact ⟨sqrtTop v, by simp [dtw, dtwSq, hv, hd, bind, Except.bind, pure, Except.pure], rfl⟩
      · simp [softDtw, dtwSquared, hv, hd, bind, Except.bind, pure, Except.pure]

/-- One series `(v)` of length one, one feature. -/
def oneSample (v : ℝ) : Ts ℝ := ⟨1, [[some v]]⟩

/-- The full statement is false at `gamma = 0`: series `(0)` and `(2)` have `soft_dtw = 4`, the entry
of `cdist_soft_dtw` is `2`. -/
theorem C19_false (be : Backend) : ∃ M : Mat Fl,
    cdistSoftDtw be (.series [oneSample 0]) (some (.series [oneSample 2])) 0 none none none seqRun = .ok M ∧
    M 0 0 = .num 2 ∧
    softDtw be (.twoD (oneSample 0).rows) (.twoD (oneSample 2).rows) 0 none none none = .ok (.num 4) := by
  have hwf : ∀ v, ∀ t ∈ [oneSample v], t.WF ∧ t.d = 1 := by
    intro v t ht
    simp only [List.mem_singleton] at ht
    subst ht
    refine ⟨?_, rfl⟩
    intro r hr
    simp only [oneSample, List.mem_singleton] at hr
    subst hr
    rfl
  have hds : ∀ v : ℝ, toDataset (.series [oneSample v]) = .ok ⟨1, 1, [[[some v]]]⟩ := by
    intro v; rfl
  have hd : dtwSqGeneric ([[0]] : List (List ℝ)) [[2]] 0 none none = .ok ((4 : ℝ) : WithTop ℝ) := by
    obtain ⟨v, h1, h2, h3⟩ := C01_dtw_squared ([[0]] : List (List ℝ)) [[2]] (by simp) (by simp) 0 none none
      (Mat.full true) rfl
    rw [h1]
    congr 1
    rw [h3]
    have hw : ∀ p, Admissible 1 1 (Mat.full true) p → p = [(0, 0)] := by
      intro p hp
      have := (mem_pathsB_admissible (by omega) (by omega)).2 hp
      simpa [pathsB, Mat.full] using this
    have hc : sumCost (sampleCost ([[0]] : List (List ℝ)) [[2]]) [(0, 0)] = 4 := by
      simp [sumCost, sampleCost, sqEuclid]; norm_num
    constructor
    · refine ⟨[(0, 0)], (mem_pathsB_admissible (n := 1) (m := 1) one_pos one_pos).1 (by simp [pathsB, Mat.full]), hc.symm⟩
    · rintro c ⟨p, hp, rfl⟩
      rw [hw p hp, hc]
  obtain ⟨M, hM⟩ : ∃ M, cdistSoftDtw be (.series [oneSample 0]) (some (.series [oneSample 2])) 0 none
      none none seqRun = .ok M := by
    unfold cdistSoftDtw cdistOf
    simp only [gcCode, bind, Except.bind, if_true, hds]
    apply C09_total _ _ _ _ _ _ (.inl rfl)
    intro x hx y hy
    simp only [Arr3.slots, List.map_cons, List.map_nil, List.mem_singleton, Option.getD_some] at hx hy
    subst hx hy
    refine ⟨flOfTop (sqrtTop (4 : ℝ)), ?_⟩
    show (match dtwSqGeneric ([[0]] : List (List ℝ)) [[2]] 0 none none with
      | .error e => Except.error e
      | .ok v => Except.ok (flOfTop (sqrtTop v))) = _
    rw [hd]
  obtain ⟨⟨v, hv, hMv⟩, hs⟩ := C19_gamma_zero be _ _ 1 (hwf 0) (hwf 2) none none none seqRun (.inl rfl) M hM 0 0
    _ _ rfl rfl
  have hv' : dtw (.twoD (oneSample 0).rows) (.twoD (oneSample 2).rows) none none none =
      .ok (sqrtTop (4 : ℝ)) := by
    show (match dtwSqGeneric ([[0]] : List (List ℝ)) [[2]] 0 none none with
      | .error e => Except.error e
      | .ok v => Except.ok (sqrtTop v)) = _
    rw [hd]
  have h4 : Real.sqrt 4 = 2 := by
    rw [show (4 : ℝ) = 2 ^ 2 by norm_num]; exact Real.sqrt_sq (by norm_num)
  rw [hv'] at hv
  have e2 : M 0 0 = .num 2 := by
    rw [hMv, ← Except.ok.inj hv]
    simp [sqrtTop, flOfTop, h4]
  refine ⟨M, hM, e2, ?_⟩
  rw [hs, e2]
  simp [Fl.mul, Fl.scale]
  norm_num

/-- The hypotheses of the positive statements are met: well-formed datasets of different lengths on
which the call succeeds. -/
example : ∃ M : Mat Fl, cdistSoftDtw .numpy (.series [⟨1, [[some 0], [some 1]]⟩]) (some (.series [oneSample 2])) 1
    (some "sakoe_chiba") (some 1) none seqRun = .ok M := by
  have hds : toDataset (.series [oneSample 2]) = .ok ⟨1, 1, [[[some 2]]]⟩ := rfl
  have hds' : toDataset (.series [(⟨1, [[some 0], [some 1]]⟩ : Ts ℝ)]) =
    .ok ⟨2, 1, [[[some 0], [some 1]]]⟩ := rfl
  unfold cdistSoftDtw cdistOf
  simp only [gcCode, bind, Except.bind, one_ne_zero, if_false, hds, hds']
  apply C09_total _ _ _ _ _ _ (.inl rfl)
  intro x hx y hy
  simp only [Arr3.slots, List.map_cons, List.map_nil, List.mem_singleton, Option.getD_some] at hx hy
  subst hx hy
  exact ⟨_, rfl⟩

end Verif
