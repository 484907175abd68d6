import Verif.Proofs.Gak
import Verif.Proofs.CdistOf
/-!
# C21 — GAK is a normalised symmetric sum over alignments
-/
namespace Verif
open Spec
open Classical

theorem gakArgs_ok {s1 s2 : TsInput (Option ℝ)} {σ : ℝ} {x y : List (List ℝ)}
    (h : gakArgs s1 s2 σ = .ok (x, y)) : σ ≠ 0 ∧ x ≠ [] ∧ y ≠ [] := by
  unfold gakArgs at h
  simp only [bind, Except.bind, pure, Except.pure, throw, throwThe, MonadExceptOf.throw] at h
  split_ifs at h with h0 h1 h2
  · cases hd1 : denan (toTimeSeries s1 true) with
    | none => simp [hd1] at h
    | some x1 =>
      cases hd2 : denan (toTimeSeries s2 true) with
      | none => simp [hd1, hd2] at h
      | some x2 =>
        simp only [hd1, hd2, Except.ok.injEq, Prod.mk.injEq] at h
        obtain ⟨rfl, rfl⟩ := h
        push Not at h1
        refine ⟨h0, ?_, ?_⟩
        · rintro rfl; exact h1.1 (denan_length hd1).symm
        · rintro rfl; exact h1.2 (denan_length hd2).symm

theorem gakArgs_of_validatePair {s1 s2 : TsInput (Option ℝ)} {σ : ℝ} (hσ : σ ≠ 0) {g : Option String}
    {x y : List (List ℝ)} {code : ℕ} (h : validatePair s1 s2 g = .ok (x, y, code)) :
    gakArgs s1 s2 σ = .ok (x, y) := by
  obtain ⟨d1, d2, -, hx, hy, hf⟩ := validatePair_ok h
  have l1 := denan_length d1
  have l2 := denan_length d2
  have hx' := List.length_pos_iff.2 hx
  have hy' := List.length_pos_iff.2 hy
  have hne : ¬ ((toTimeSeries s1 true).length = 0 ∨ (toTimeSeries s2 true).length = 0) := by omega
  unfold gakArgs
  simp only [bind, Except.bind, pure, Except.pure, throw, throwThe, MonadExceptOf.throw, hσ, if_false, hne, hf,
    ne_eq, not_true, d1, d2]

theorem gakArgs_swap (s1 s2 : TsInput (Option ℝ)) (σ : ℝ) :
    gakArgs s1 s2 σ = (gakArgs s2 s1 σ).map Prod.swap := by
  unfold gakArgs
  simp only [bind, Except.bind, pure, Except.pure, throw, throwThe, MonadExceptOf.throw]
  by_cases h0 : σ = 0
  · simp only [h0, if_true, Except.map]
  · simp only [h0, if_false]
    by_cases h : (toTimeSeries s1 true).length = 0 ∨ (toTimeSeries s2 true).length = 0
    · have h' := h.symm
      simp only [h, h', if_true, Except.map]
    · have h' : ¬ ((toTimeSeries s2 true).length = 0 ∨ (toTimeSeries s1 true).length = 0) :=
        fun h' => h (Or.symm h')
      simp only [h, h', if_false]
      by_cases hf : nFeatures (toTimeSeries s1 true) = nFeatures (toTimeSeries s2 true)
      · simp only [hf, ne_eq, not_true, if_false]
        cases denan (toTimeSeries s1 true) <;> cases denan (toTimeSeries s2 true) <;> rfl
      · have hf' : ¬ nFeatures (toTimeSeries s2 true) = nFeatures (toTimeSeries s1 true) :=
          fun hf' => hf (Eq.symm hf')
        simp only [hf, hf', ne_eq, not_false_eq_true, if_true, Except.map]

/-- The alignments form a finite set, so the sum below ranges over all of them. -/
theorem C21_alignments_finite (n m : ℕ) (hn : 0 < n) (hm : 0 < m) :
    ∃ S : Finset (List (ℕ × ℕ)), ∀ p, p ∈ S ↔ IsWarpingPath n m p :=
  ⟨pathsB (Mat.full true) n m, fun p => by
    rw [mem_pathsB_admissible hn hm]
    exact ⟨fun h => h.1, fun h => ⟨h, fun _ _ => rfl⟩⟩⟩

/-- `unnormalized_gak`: the sum over all alignments of the product of the local kernels. -/
theorem C21_unnormalized (s1 s2 : TsInput (Option ℝ)) (σ : ℝ) (x y : List (List ℝ))
    (h : gakArgs s1 s2 σ = .ok (x, y)) (S : Finset (List (ℕ × ℕ)))
    (hS : ∀ p, p ∈ S ↔ IsWarpingPath x.length y.length p) :
    unnormalizedGak s1 s2 σ = .ok (∑ p ∈ S, alignmentKernel σ x y p) := by
  obtain ⟨-, hx, hy⟩ := gakArgs_ok h
  simp only [unnormalizedGak, h, bind, Except.bind, pure, Except.pure]
  rw [unnormGak_eq_sum hx hy σ hS]

/-- `gak`: the sum over alignments divided by the geometric mean of the two self sums; positive. -/
theorem C21_gak (s1 s2 : TsInput (Option ℝ)) (σ : ℝ) (x y : List (List ℝ))
    (h : gakArgs s1 s2 σ = .ok (x, y)) (S Sx Sy : Finset (List (ℕ × ℕ)))
    (hS : ∀ p, p ∈ S ↔ IsWarpingPath x.length y.length p)
    (hSx : ∀ p, p ∈ Sx ↔ IsWarpingPath x.length x.length p)
    (hSy : ∀ p, p ∈ Sy ↔ IsWarpingPath y.length y.length p) :
    ∃ v, gak s1 s2 σ = .ok v ∧ 0 < v ∧
      v * Real.sqrt ((∑ p ∈ Sx, alignmentKernel σ x x p) * ∑ p ∈ Sy, alignmentKernel σ y y p) =
        ∑ p ∈ S, alignmentKernel σ x y p := by
  obtain ⟨-, hx, hy⟩ := gakArgs_ok h
  refine ⟨gakGeneric x y σ, by simp only [gak, h, bind, Except.bind, pure, Except.pure],
    gakGeneric_pos hx hy σ, ?_⟩
  rw [← unnormGak_eq_sum hx hy σ hS, ← unnormGak_eq_sum hx hx σ hSx, ← unnormGak_eq_sum hy hy σ hSy,
    Real.sqrt_mul (unnormGak_pos hx hx σ).le]
  unfold gakGeneric
  simp only
  exact div_mul_cancel₀ _ (mul_pos (Real.sqrt_pos.2 (unnormGak_pos hx hx σ))
    (Real.sqrt_pos.2 (unnormGak_pos hy hy σ))).ne'

/-- `gak(s1, s2) = gak(s2, s1)`, exceptions included. -/
theorem C21_symm (s1 s2 : TsInput (Option ℝ)) (σ : ℝ) : gak s1 s2 σ = gak s2 s1 σ := by
  unfold gak
  rw [gakArgs_swap s1 s2]
  cases gakArgs s2 s1 σ with
  | error e => rfl
  | ok xy =>
    simp only [Except.map, bind, Except.bind, pure, Except.pure, Prod.swap]
    rw [gakGeneric_comm]

/-- `gak(s, s) = 1`. -/
theorem C21_self (s : TsInput (Option ℝ)) (σ : ℝ) (v : ℝ) (h : gak s s σ = .ok v) : v = 1 := by
  unfold gak at h
  cases hg : gakArgs s s σ with
  | error e => simp [hg, bind, Except.bind] at h
  | ok xy =>
    obtain ⟨x, y⟩ := xy
    obtain ⟨-, hx, hy⟩ := gakArgs_ok hg
    have hxy : (x, y) = (y, x) := by
      have := gakArgs_swap s s σ
      rw [hg] at this
      simpa [Except.map] using this
    obtain ⟨rfl, -⟩ := Prod.mk.inj hxy
    simp only [hg, bind, Except.bind, pure, Except.pure, Except.ok.injEq] at h
    rw [← h, gakGeneric_self hx]

/-- `sigma = 0` is refused. -/
theorem C21_sigma_zero (s1 s2 : TsInput (Option ℝ)) (X : DsInput ℝ) (Y) (run) :
    gak s1 s2 0 = .error .zeroDivision ∧ unnormalizedGak s1 s2 0 = .error .zeroDivision ∧
      cdistGak X Y 0 run = .error .zeroDivision := by
  refine ⟨?_, ?_, ?_⟩ <;>
    simp [gak, unnormalizedGak, gakArgs, cdistGak, bind, Except.bind, throw, throwThe, MonadExceptOf.throw]

/-- `cdist_gak(X)`: every entry is `gak` of the original series, in any schedule; symmetric; unit
diagonal. -/
theorem C21_cdist_self (l : List (Ts ℝ)) (d : ℕ) (hwf : ∀ t ∈ l, t.WF ∧ t.d = d) (σ : ℝ)
    (run) (hrun : Execution run) (M : Mat ℝ) (h : cdistGak (.series l) none σ run = .ok M)
    (i j : ℕ) (t t' : Ts ℝ) (hi : l[i]? = some t) (hj : l[j]? = some t') :
    gak (.twoD t.rows) (.twoD t'.rows) σ = .ok (M i j) ∧ M i j = M j i ∧ M i i = 1 := by
  unfold cdistGak at h
  simp only [bind, Except.bind, pure, Except.pure, throw, throwThe, MonadExceptOf.throw] at h
  split_ifs at h with hσ
  cases hX : toDataset (.series l) with
  | error e => simp [hX] at h
  | ok X =>
  cases hU : cdistOf (fun x y => .ok (unnormGak x y σ)) 0 true (.series l) none run with
  | error e => simp [hX, hU] at h
  | ok U =>
  simp only [hX, hU, Except.ok.injEq] at h
  subst h
  have hlt : ∀ {i t}, l[i]? = some t → i < X.slots.length := by
    intro i t hi
    obtain ⟨s, hs, -⟩ := slot_trim hwf hX hi
    exact (List.getElem?_eq_some_iff.1 hs).1
  have hf : ∀ x y : List (List ℝ), x ≠ [] → y ≠ [] →
      (Except.ok (unnormGak x y σ) : Except PyErr ℝ) = .ok (unnormGak y x σ) := by
    intro x y _ _
    rw [unnormGak_comm]
  have entry : ∀ {i j : ℕ} {t t' : Ts ℝ}, l[i]? = some t → l[j]? = some t' →
      ∃ x y, denan t.trim.rows = some x ∧ denan t'.trim.rows = some y ∧
      gakArgs (.twoD t.rows) (.twoD t'.rows) σ = .ok (x, y) ∧ x ≠ [] ∧ y ≠ [] ∧
      U i j = unnormGak x y σ := by
    intro i j t t' hi hj
    obtain ⟨x, y, hv, hx, hy, hfv⟩ := cdistOf_self_symm hwf hrun hU hf (g := none) (code := 0) rfl hi hj
    obtain ⟨d1, d2, -⟩ := validatePair_ok hv
    exact ⟨x, y, d1, d2, gakArgs_of_validatePair hσ hv, hx, hy, (Except.ok.inj hfv).symm⟩
  have main : ∀ {i j : ℕ} {t t' : Ts ℝ}, l[i]? = some t → l[j]? = some t' →
      ∃ x y, gakArgs (.twoD t.rows) (.twoD t'.rows) σ = .ok (x, y) ∧ x ≠ [] ∧ (t = t' → x = y) ∧
      matMul X.slots.length (matMul X.slots.length (diagMat fun i => Real.sqrt (1 / U i i)) U)
        (diagMat fun i => Real.sqrt (1 / U i i)) i j = gakGeneric x y σ := by
    intro i j t t' hi hj
    obtain ⟨x, y, dx, dy, hg, hx, hy, hu⟩ := entry hi hj
    obtain ⟨x1, x2, dx1, dx2, -, -, -, hux⟩ := entry hi hi
    obtain ⟨y1, y2, dy1, dy2, -, -, -, huy⟩ := entry hj hj
    obtain rfl : x = x1 := by rw [dx] at dx1; exact Option.some.inj dx1
    obtain rfl : x = x2 := by rw [dx] at dx2; exact Option.some.inj dx2
    obtain rfl : y = y1 := by rw [dy] at dy1; exact Option.some.inj dy1
    obtain rfl : y = y2 := by rw [dy] at dy2; exact Option.some.inj dy2
    refine ⟨x, y, hg, hx, ?_, ?_⟩
    · rintro rfl
      rw [dx] at dy
      exact Option.some.inj dy
    · rw [diag_matMul_diag _ _ _ (hlt hi) (hlt hj), hu, hux, huy, Real.sqrt_div zero_le_one,
        Real.sqrt_div zero_le_one, Real.sqrt_one]
      unfold gakGeneric
      simp only
      have h1 := (Real.sqrt_pos.2 (unnormGak_pos hx hx σ)).ne'
      have h2 := (Real.sqrt_pos.2 (unnormGak_pos hy hy σ)).ne'
      field_simp
  obtain ⟨x, y, hg, hx, -, hM⟩ := main hi hj
  obtain ⟨y', x', hg', -, -, hM'⟩ := main hj hi
  obtain ⟨x1, x2, -, hx1, he, hMi⟩ := main hi hi
  refine ⟨?_, ?_, ?_⟩
  · simp only [gak, hg, bind, Except.bind, pure, Except.pure, hM]
  · have := gakArgs_swap (.twoD t.rows) (.twoD t'.rows) σ
    rw [hg, hg'] at this
    simp only [Except.map, Prod.swap, Except.ok.injEq, Prod.mk.injEq] at this
    obtain ⟨rfl, rfl⟩ := this
    rw [hM, hM', gakGeneric_comm]
  · obtain rfl := he rfl
    rw [hMi, gakGeneric_self hx1]

/-- `cdist_gak(X, Y)`: every entry, any schedule. -/
theorem C21_cdist_cross (l l' : List (Ts ℝ)) (d : ℕ) (hwf : ∀ t ∈ l, t.WF ∧ t.d = d)
    (hwf' : ∀ t ∈ l', t.WF ∧ t.d = d) (σ : ℝ) (run) (hrun : Execution run) (M : Mat ℝ)
    (h : cdistGak (.series l) (some (.series l')) σ run = .ok M)
    (i j : ℕ) (t t' : Ts ℝ) (hi : l[i]? = some t) (hj : l'[j]? = some t') :
    gak (.twoD t.rows) (.twoD t'.rows) σ = .ok (M i j) := by
  unfold cdistGak at h
  simp only [bind, Except.bind, pure, Except.pure, throw, throwThe, MonadExceptOf.throw] at h
  split_ifs at h with hσ
  cases hX : toDataset (.series l) with
  | error e => simp [hX] at h
  | ok X =>
  cases hU : cdistOf (fun x y => .ok (unnormGak x y σ)) 0 true (.series l) (some (.series l')) run with
  | error e => simp [hX, hU] at h
  | ok U =>
  cases hY : toDataset (.series l') with
  | error e => simp [hX, hU, hY] at h
  | ok Y =>
  simp only [hX, hU, hY] at h
  cases hL : run (X.slots.map (gakSelf σ)) with
  | error e => simp [hL] at h
  | ok L =>
  cases hR : run (Y.slots.map (gakSelf σ)) with
  | error e => simp [hL, hR] at h
  | ok R =>
  simp only [hL, hR, Except.ok.injEq] at h
  subst h
  obtain ⟨x, y, hv, hx, hy, hfv⟩ := cdistOf_cross hwf hwf' hrun hU (g := none) (code := 0) rfl hi hj
  obtain ⟨d1, d2, -⟩ := validatePair_ok hv
  have d1' : denan t.trim.rows = some x := d1
  have d2' : denan t'.trim.rows = some y := d2
  obtain ⟨s, hs, hst⟩ := slot_trim hwf hX hi
  obtain ⟨s', hs', hst'⟩ := slot_trim hwf' hY hj
  obtain ⟨v, hv1, hr1⟩ := run_get hrun hL (k := i) (by rw [List.getElem?_map, hs]; rfl)
  obtain ⟨v', hv1', hr1'⟩ := run_get hrun hR (k := j) (by rw [List.getElem?_map, hs']; rfl)
  rw [gakSelf, onSlots_congr _ hst hst] at hr1
  rw [gakSelf, onSlots_congr _ hst' hst'] at hr1'
  simp only [onSlots, d1', hx, or_self, if_false, Except.ok.injEq] at hr1
  simp only [onSlots, d2', hy, or_self, if_false, Except.ok.injEq] at hr1'
  simp only [gak, gakArgs_of_validatePair hσ hv, bind, Except.bind, pure, Except.pure, Except.ok.injEq]
  rw [diag_matMul_diag _ _ _ (List.getElem?_eq_some_iff.1 hs).1 (List.getElem?_eq_some_iff.1 hs').1,
    List.getD_eq_getElem?_getD, List.getD_eq_getElem?_getD, hv1, hv1', ← Except.ok.inj hfv]
  simp only [Option.getD_some, ← hr1, ← hr1']
  unfold gakGeneric
  simp only
  have h1 := (Real.sqrt_pos.2 (unnormGak_pos hx hx σ)).ne'
  have h2 := (Real.sqrt_pos.2 (unnormGak_pos hy hy σ)).ne'
  field_simp

/-- The docstrings of `gak` and `unnormalized_gak` give the Gaussian kernel as local kernel. The code
uses `κ / (2 - κ)`: on the one-sample series `(0)` and `(1)` with `sigma = 1` the documented sum
`exp(-1/2)` is not what is returned. -/
theorem C21_documented_kernel_false : ∃ v,
    unnormalizedGak (.twoD [[some 0]]) (.twoD [[some 1]]) 1 = .ok v ∧ v ≠ Real.exp (-(1/2)) := by
  have hS : ∀ p, p ∈ ({[(0, 0)]} : Finset (List (ℕ × ℕ))) ↔ IsWarpingPath 1 1 p := by
    intro p
    have : pathsB (Mat.full true) 1 1 = {[(0, 0)]} := by simp [pathsB, Mat.full]
    rw [← this, mem_pathsB_admissible (n := 1) (m := 1) one_pos one_pos]
    exact ⟨fun h => h.1, fun h => ⟨h, fun _ _ => rfl⟩⟩
  have hargs : gakArgs (.twoD [[some (0:ℝ)]]) (.twoD [[some 1]]) 1 = .ok ([[0]], [[1]]) := by
    refine gakArgs_of_validatePair one_ne_zero (g := none) (code := 0) ?_
    rfl
  refine ⟨_, C21_unnormalized _ _ 1 _ _ hargs _ hS, ?_⟩
  have hg : gaussian 1 [0] [1] = Real.exp (-(1/2)) := by
    simp [gaussian, sqEuclid]
    norm_num
  have h1 : Real.exp (-(1/2)) < 1 := by rw [Real.exp_lt_one_iff]; norm_num
  have h2 := Real.exp_pos (-(1/2))
  simp only [Finset.sum_singleton, alignmentKernel, List.map_cons, List.map_nil, List.prod_cons, List.prod_nil,
    mul_one, localKernel, List.getD_cons_zero, hg]
  intro he
  rw [div_eq_iff (by linarith)] at he
  nlinarith

/-- Non-vacuity of the cdist statements: two series of different lengths. -/
example : ∃ M, cdistGak (.series [⟨1, [[some 0], [some 1]]⟩, ⟨1, [[some 2]]⟩]) none 1 seqRun = .ok M := by
  have hds : toDataset (.series [⟨1, [[some (0:ℝ)], [some 1]]⟩, ⟨1, [[some 2]]⟩]) =
      .ok ⟨2, 1, [[[some 0], [some 1]], [[some 2], [none]]]⟩ := rfl
  have hcd : ∃ U, cdistOf (fun x y => .ok (unnormGak x y 1)) 0 true
      (.series [⟨1, [[some 0], [some 1]]⟩, ⟨1, [[some 2]]⟩]) none seqRun = .ok U := by
    unfold cdistOf
    simp only [bind, Except.bind, hds]
    apply C09_total _ _ _ _ _ _ (.inl rfl)
    intro x hx y hy
    simp only [Arr3.slots, List.map_cons, List.map_nil, List.mem_cons, List.not_mem_nil, or_false,
      Option.getD_none] at hx hy
    rcases hx with rfl | rfl <;> rcases hy with rfl | rfl <;> exact ⟨_, rfl⟩
  obtain ⟨U, hU⟩ := hcd
  unfold cdistGak
  simp only [hds, hU, bind, Except.bind, one_ne_zero, if_false, pure, Except.pure]
  exact ⟨_, rfl⟩

end Verif
