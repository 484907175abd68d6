import Verif.Proofs.MeanVar
import Mathlib.Tactic.NormNum
import Mathlib.Tactic.FinCases
/-!
# C29 — mean-variance scaling has the requested moments, per series
-/
namespace Verif
open Spec

/-- Every transformed value is `mu + (v - m) * std / s`, `m` and `s` the mean and standard deviation of the
reference values (`s` replaced by one if zero): those of the fitted data, or of the series itself in
`per_timeseries` mode. NaN stays NaN. -/
theorem C29_affine (cfg : MeanVarCfg) (F X : Arr3 ℝ) (hF : Formatted F) (hX : Formatted X)
    (hFn : F.data ≠ []) (hXn : X.data ≠ []) (hd : F.d = X.d) :
    ∃ Y, meanVarTransform cfg F X = .ok Y ∧ Y.WF ∧ Y.data.length = X.data.length ∧ Y.sz = X.sz ∧ Y.d = X.d ∧
      ∀ i < X.data.length, ∀ f < X.d, ∀ m s : ℝ,
        IsMean (if cfg.perTs then X else F) cfg.perTs cfg.perFeat i f m →
        IsStd (if cfg.perTs then X else F) cfg.perTs cfg.perFeat i f m s →
        ∀ t < X.sz, Y.entry i t f = (X.entry i t f).map fun v =>
          cfg.mu + (v - m) * (cfg.std / (if s = 0 then 1 else s)) := by
  refine ⟨_, meanVarTransform_ok cfg F X hF hX hFn hXn hd, Arr3.build_wf _ _ _ _,
    Arr3.build_length .., rfl, rfl, ?_⟩
  intro i hi f hf m s hm hs t ht
  rw [Arr3.build_entry hi ht hf]
  have hg : (if cfg.perTs = true then X.group true cfg.perFeat i f else F.group false cfg.perFeat 0 f) =
      (if cfg.perTs then X else F).group cfg.perTs cfg.perFeat i f := by
    cases cfg.perTs with
    | true => rfl
    | false => exact group_congr _ _ _ (by simp) (fun _ => rfl)
  have hne : (if cfg.perTs then X else F).group cfg.perTs cfg.perFeat i f ≠ [] := by
    intro h0
    have := hm.1
    rw [← group_length, h0] at this
    simp at this
  rw [hg]
  obtain ⟨m', s', h1, h2, h3, h4⟩ := nanMean_isMean _ _ _ _ _ hne
  rw [h1, h2]
  obtain rfl := h3.unique hm
  obtain rfl := IsStd.unique hm h4 hs
  cases X.entry i t f with
  | none => rfl
  | some v =>
    simp only [meanVarValue, Option.map_some, Option.some.injEq]
    ring

/-- `fit_transform`: shape and NaNs kept; every group with an observation gets mean `mu`; if it holds two
different values its standard deviation becomes `|std|`; if it is constant every value becomes `mu`. -/
theorem C29_moments (cfg : MeanVarCfg) (X : Arr3 ℝ) (hX : Formatted X) (hXn : X.data ≠ []) :
    ∃ Y, meanVarTransform cfg X X = .ok Y ∧ Formatted Y ∧ Y.data.length = X.data.length ∧ Y.sz = X.sz ∧
      Y.d = X.d ∧
      (∀ i < X.data.length, ∀ t < X.sz, ∀ f < X.d, Y.entry i t f = none ↔ X.entry i t f = none) ∧
      (∀ i < X.data.length, ∀ f < X.d,
        (∃ i₁ < X.data.length, ∃ t₁ < X.sz, ∃ f₁ < X.d, ∃ v, (cfg.perTs = true → i₁ = i) ∧
          (cfg.perFeat = true → f₁ = f) ∧ X.entry i₁ t₁ f₁ = some v) →
        IsMean Y cfg.perTs cfg.perFeat i f cfg.mu) ∧
      (∀ i < X.data.length, ∀ f < X.d,
        (∃ i₁ < X.data.length, ∃ t₁ < X.sz, ∃ f₁ < X.d, ∃ i₂ < X.data.length, ∃ t₂ < X.sz, ∃ f₂ < X.d,
          ∃ v w, (cfg.perTs = true → i₁ = i ∧ i₂ = i) ∧ (cfg.perFeat = true → f₁ = f ∧ f₂ = f) ∧
          X.entry i₁ t₁ f₁ = some v ∧ X.entry i₂ t₂ f₂ = some w ∧ v ≠ w) →
        IsStd Y cfg.perTs cfg.perFeat i f cfg.mu |cfg.std|) ∧
      (∀ i < X.data.length, ∀ f < X.d, ∀ c,
        (∀ i' < X.data.length, ∀ t' < X.sz, ∀ f' < X.d, (cfg.perTs = true → i' = i) →
          (cfg.perFeat = true → f' = f) → ∀ v, X.entry i' t' f' = some v → v = c) →
        ∀ t < X.sz, ∀ y, Y.entry i t f = some y → y = cfg.mu) := by
  obtain ⟨Y, hY, hw, hl, hs, hd, haff⟩ := C29_affine cfg X X hX hX hXn hXn rfl
  have hR : (if cfg.perTs = true then X else X) = X := by split_ifs <;> rfl
  simp only [hR] at haff
  have stats : ∀ i f, (∃ i₁ < X.data.length, ∃ t₁ < X.sz, ∃ f₁ < X.d, ∃ v,
      (cfg.perTs = true → i₁ = i) ∧ (cfg.perFeat = true → f₁ = f) ∧ X.entry i₁ t₁ f₁ = some v) →
      ∃ m s, IsMean X cfg.perTs cfg.perFeat i f m ∧ IsStd X cfg.perTs cfg.perFeat i f m s := by
    rintro i f ⟨i₁, a1, t₁, a2, f₁, a3, v, a4, a5, a6⟩
    have hne : X.group cfg.perTs cfg.perFeat i f ≠ [] :=
      List.ne_nil_of_mem ((mem_group ..).2 ⟨i₁, t₁, f₁, a1, a2, a3, a4, a5, a6⟩)
    obtain ⟨m, s, -, -, h1, h2⟩ := nanMean_isMean X cfg.perTs cfg.perFeat i f hne
    exact ⟨m, s, h1, h2⟩
  have hnone : ∀ i < X.data.length, ∀ t < X.sz, ∀ f < X.d, Y.entry i t f = none ↔ X.entry i t f = none := by
    intro i hi t ht f hf
    cases e : X.entry i t f with
    | some v =>
      obtain ⟨m, s, h1, h2⟩ := stats i f ⟨i, hi, t, ht, f, hf, v, fun _ => rfl, fun _ => rfl, e⟩
      rw [haff i hi f hf m s h1 h2 t ht, e]
      simp
    | none =>
      have e' := meanVarTransform_ok cfg X X hX hX hXn hXn rfl
      rw [hY] at e'
      injection e' with e'
      rw [e', Arr3.build_entry hi ht hf, e]
      refine ⟨fun _ => rfl, fun _ => ?_⟩
      generalize nanMean _ = a
      generalize nanStd _ = b
      cases a <;> cases b <;> rfl
  -- sums over a group of the output
  have hsum : ∀ i < X.data.length, ∀ f < X.d, ∀ m s, IsMean X cfg.perTs cfg.perFeat i f m →
      IsStd X cfg.perTs cfg.perFeat i f m s → ∀ h : ℝ → ℝ,
      obsSum Y cfg.perTs cfg.perFeat i f h = obsSum X cfg.perTs cfg.perFeat i f fun v =>
        h (cfg.mu + (v - m) * (cfg.std / (if s = 0 then 1 else s))) := by
    intro i hi f hf m s hm hs' h
    unfold obsSum
    rw [hl, hs, hd]
    apply Finset.sum_congr rfl
    intro i' hi'
    apply Finset.sum_congr rfl
    intro t ht
    apply Finset.sum_congr rfl
    intro f' hf'
    by_cases hc : (cfg.perTs = true → i' = i) ∧ (cfg.perFeat = true → f' = f)
    · rw [if_pos hc, if_pos hc]
      have hg := group_congr X cfg.perTs cfg.perFeat hc.1 hc.2
      have eq : ∀ g, obsSum X cfg.perTs cfg.perFeat i' f' g = obsSum X cfg.perTs cfg.perFeat i f g := by
        intro g; rw [← group_sum, ← group_sum, hg]
      rw [haff i' (Finset.mem_range.1 hi') f' (Finset.mem_range.1 hf') m s ?_ ?_ t (Finset.mem_range.1 ht)]
      · cases X.entry i' t f' <;> rfl
      · exact ⟨by rw [eq]; exact hm.1, by rw [eq, eq]; exact hm.2⟩
      · exact ⟨hs'.1, by rw [eq, eq]; exact hs'.2⟩
    · rw [if_neg hc, if_neg hc]
  have lin : ∀ i f (a b : ℝ), obsSum X cfg.perTs cfg.perFeat i f (fun v => a + v * b) =
      a * obsSum X cfg.perTs cfg.perFeat i f (fun _ => 1) + obsSum X cfg.perTs cfg.perFeat i f id * b := by
    intro i f a b
    simp only [← group_sum]
    induction X.group cfg.perTs cfg.perFeat i f with
    | nil => simp
    | cons v l ih => simp only [List.map_cons, List.sum_cons, ih, id]; ring
  have scal : ∀ i f (g : ℝ → ℝ) (b : ℝ), obsSum X cfg.perTs cfg.perFeat i f (fun v => g v * b) =
      obsSum X cfg.perTs cfg.perFeat i f g * b := by
    intro i f g b
    simp only [← group_sum]
    rw [List.sum_map_mul_right]
  refine ⟨Y, hY, hX.of_pattern hw hs hd hl hnone, hl, hs, hd, hnone, ?_, ?_, ?_⟩
  · intro i hi f hf hob
    obtain ⟨m, s, h1, h2⟩ := stats i f hob
    have hS := hsum i hi f hf m s h1 h2
    refine ⟨by rw [hS]; exact h1.1, ?_⟩
    rw [hS, hS]
    set b := cfg.std / (if s = 0 then 1 else s)
    have : (fun v => id (cfg.mu + (v - m) * b)) = fun v => (cfg.mu - m * b) + v * b := by
      funext v; simp only [id]; ring
    rw [this, lin, ← h1.2]
    ring
  · rintro i hi f hf ⟨i₁, b1, t₁, b2, f₁, b3, i₂, b4, t₂, b5, f₂, b6, v, w, p1, p2, hv, hw', hne⟩
    obtain ⟨m, s, h1, h2⟩ := stats i f ⟨i₁, b1, t₁, b2, f₁, b3, v, fun e => (p1 e).1, fun e => (p2 e).1, hv⟩
    have hS := hsum i hi f hf m s h1 h2
    have hs0 : s ≠ 0 := by
      rintro rfl
      have hc := h2.zero_const
      apply hne
      rw [hc v ((mem_group ..).2 ⟨i₁, t₁, f₁, b1, b2, b3, fun e => (p1 e).1, fun e => (p2 e).1, hv⟩),
        hc w ((mem_group ..).2 ⟨i₂, t₂, f₂, b4, b5, b6, fun e => (p1 e).2, fun e => (p2 e).2, hw'⟩)]
    refine ⟨abs_nonneg _, ?_⟩
    rw [hS, hS, if_neg hs0]
    have : (fun v => (cfg.mu + (v - m) * (cfg.std / s) - cfg.mu) ^ 2) =
        fun v => (v - m) ^ 2 * (cfg.std / s) ^ 2 := by
      funext v; ring
    rw [this, scal, ← h2.2, sq_abs]
    field_simp
  · intro i hi f hf c hc t ht y hy
    cases e : X.entry i t f with
    | none => rw [(hnone i hi t ht f hf).2 e] at hy; simp at hy
    | some v =>
      obtain ⟨m, s, h1, h2⟩ := stats i f ⟨i, hi, t, ht, f, hf, v, fun _ => rfl, fun _ => rfl, e⟩
      have hall : ∀ w ∈ X.group cfg.perTs cfg.perFeat i f, w = c := by
        intro w hw
        obtain ⟨i', t', f', a1, a2, a3, a4, a5, a6⟩ := (mem_group ..).1 hw
        exact hc i' a1 t' a2 f' a3 a4 a5 w a6
      have hv : v = m := by
        refine (h1.unique ⟨h1.1, ?_⟩).symm
        rw [← group_length, ← group_sum, List.map_id]
        have hvc := hc i hi t ht f hf (fun _ => rfl) (fun _ => rfl) v e
        rw [List.eq_replicate_of_mem hall, hvc]
        simp [mul_comm]
      rw [haff i hi f hf m s h1 h2 t ht, e, Option.map_some, Option.some.injEq] at hy
      rw [← hy, hv, sub_self, zero_mul, add_zero]

/-- Scaling twice is the same as scaling once (`std ≥ 0`). -/
theorem C29_idempotent (cfg : MeanVarCfg) (hstd : 0 ≤ cfg.std) (X : Arr3 ℝ) (hX : Formatted X)
    (hXn : X.data ≠ []) :
    ∃ Y, meanVarTransform cfg X X = .ok Y ∧ meanVarTransform cfg Y Y = .ok Y := by
  obtain ⟨Y, hY, hfmt, hl, hs, hd, hnone, hmean, hstdv, hconst⟩ := C29_moments cfg X hX hXn
  refine ⟨Y, hY, ?_⟩
  have hYn : Y.data ≠ [] := by
    intro e; rw [e] at hl; exact hXn (List.length_eq_zero_iff.1 hl.symm)
  obtain ⟨Z, hZ, hw, hl', hs', hd', haff⟩ := C29_affine cfg Y Y hfmt hfmt hYn hYn rfl
  have hR : (if cfg.perTs = true then Y else Y) = Y := by split_ifs <;> rfl
  simp only [hR] at haff
  rw [hZ]
  congr 1
  apply Arr3.ext_entry hw hfmt.wf hs' hd' hl'
  intro i hi t ht f hf
  rw [hl', hl] at hi
  rw [hs', hs] at ht
  rw [hd', hd] at hf
  have hmv := C29_moments cfg Y hfmt hYn
  cases e : Y.entry i t f with
  | none =>
    obtain ⟨Z', hZ', -, -, -, -, hn, -⟩ := hmv
    rw [hZ] at hZ'
    cases hZ'
    exact (hn i (by omega) t (by omega) f (by omega)).2 e
  | some y =>
    have hxs : ∃ v, X.entry i t f = some v := by
      cases e2 : X.entry i t f with
      | none => rw [(hnone i hi t ht f hf).2 e2] at e; simp at e
      | some v => exact ⟨v, rfl⟩
    obtain ⟨v, hv⟩ := hxs
    have hm := hmean i hi f hf ⟨i, hi, t, ht, f, hf, v, fun _ => rfl, fun _ => rfl, hv⟩
    by_cases hc : ∀ w ∈ X.group cfg.perTs cfg.perFeat i f, w = v
    · have hy := hconst i hi f hf v (fun i' a1 t' a2 f' a3 a4 a5 w hw' =>
        hc w ((mem_group ..).2 ⟨i', t', f', a1, a2, a3, a4, a5, hw'⟩)) t ht y e
      have hne : Y.group cfg.perTs cfg.perFeat i f ≠ [] := by
        intro h0
        have := hm.1
        rw [← group_length, h0] at this
        simp at this
      obtain ⟨m, s, -, -, h1, h2⟩ := nanMean_isMean Y cfg.perTs cfg.perFeat i f hne
      obtain rfl := h1.unique hm
      rw [haff i (by omega) f (by omega) _ s h1 h2 t (by omega), e, hy]
      simp
    · push Not at hc
      obtain ⟨w, hw', hwv⟩ := hc
      obtain ⟨i', t', f', a1, a2, a3, a4, a5, a6⟩ := (mem_group ..).1 hw'
      have hS := hstdv i hi f hf ⟨i, hi, t, ht, f, hf, i', a1, t', a2, f', a3, v, w,
        fun q => ⟨rfl, a4 q⟩, fun q => ⟨rfl, a5 q⟩, hv, a6, hwv.symm⟩
      rw [abs_of_nonneg hstd] at hS
      rw [haff i (by omega) f (by omega) _ _ hm hS t (by omega), e, Option.map_some, Option.some.injEq]
      by_cases h0 : cfg.std = 0
      · -- then every value of the group is `mu`
        rw [h0] at hS
        have := hS.zero_const y ((mem_group ..).2 ⟨i, t, f, by omega, by omega, by omega, fun _ => rfl,
          fun _ => rfl, e⟩)
        rw [this]; ring
      · rw [if_neg h0, div_self h0]; ring

/-- In `per_timeseries` mode the result for a series depends neither on the fitted data nor on the other
series of the dataset. -/
theorem C29_independent (cfg : MeanVarCfg) (hp : cfg.perTs = true) (F X F' X' Y Y' : Arr3 ℝ)
    (hF : Formatted F) (hX : Formatted X) (hF' : Formatted F') (hX' : Formatted X')
    (hs : X.sz = X'.sz) (hd : X.d = X'.d) (i i' : ℕ) (hi : i < X.data.length) (hi' : i' < X'.data.length)
    (heq : ∀ t < X.sz, ∀ f < X.d, X.entry i t f = X'.entry i' t f)
    (h : meanVarTransform cfg F X = .ok Y) (h' : meanVarTransform cfg F' X' = .ok Y') :
    ∀ t < X.sz, ∀ f < X.d, Y.entry i t f = Y'.entry i' t f := by
  have shape : ∀ F X Y : Arr3 ℝ, Formatted F → Formatted X → meanVarTransform cfg F X = .ok Y →
      Y = Arr3.build X.data.length X.sz X.d fun i t f => meanVarValue cfg.mu cfg.std
        (nanMean (X.group true cfg.perFeat i f)) (nanStd (X.group true cfg.perFeat i f)) (X.entry i t f) := by
    intro F X Y hF hX h
    simp only [meanVarTransform, hF.toDataset_slots, hX.toDataset_slots, hp, bind, Except.bind, pure,
      Except.pure, throw, throwThe, MonadExceptOf.throw] at h
    split_ifs at h
    injection h with h
    simpa using h.symm
  intro t ht f hf
  rw [shape F X Y hF hX h, shape F' X' Y' hF' hX' h', Arr3.build_entry hi ht hf,
    Arr3.build_entry hi' (hs ▸ ht) (hd ▸ hf), heq t ht f hf, group_series X X' cfg.perFeat hs hd hi hi' heq]

/-- With a negative `std` the second pass flips the signs again, so `std ≥ 0` is needed for
`C29_idempotent`. -/
theorem C29_negative_std : ∃ (cfg : MeanVarCfg) (X Y Z : Arr3 ℝ), Formatted X ∧ X.data ≠ [] ∧
    meanVarTransform cfg X X = .ok Y ∧ meanVarTransform cfg Y Y = .ok Z ∧ Z.entry 0 0 0 ≠ Y.entry 0 0 0 := by
  have hX : Formatted (⟨2, 1, [[[some 0], [some 2]]]⟩ : Arr3 ℝ) := by
    refine ⟨?_, fun h => by simp at h, .inr ⟨_, List.mem_cons_self, .inr ⟨_, rfl, _, List.mem_cons_self, rfl⟩, ?_⟩⟩
    · intro s hs
      fin_cases hs
      exact ⟨rfl, by intro r hr; fin_cases hr <;> rfl⟩
    · rintro i hi ⟨r, hr, -⟩
      have := (List.getElem?_eq_some_iff.1 hr).1
      simp at this hi
      omega
  set X : Arr3 ℝ := ⟨2, 1, [[[some 0], [some 2]]]⟩
  obtain ⟨Y, hY, hfmt, hl, hs, hd, -, hm, hS, -⟩ := C29_moments ⟨0, -1, true, true⟩ X hX (by simp [X])
  have hYn : Y.data ≠ [] := by
    intro e; rw [e] at hl; simp [X] at hl
  obtain ⟨Y', hY', -, -, -, -, haff⟩ := C29_affine ⟨0, -1, true, true⟩ X X hX hX (by simp [X]) (by simp [X]) rfl
  obtain ⟨Z, hZ, -, -, -, -, haff2⟩ := C29_affine ⟨0, -1, true, true⟩ Y Y hfmt hfmt hYn hYn rfl
  rw [hY] at hY'
  cases hY'
  have sums : ∀ h : ℝ → ℝ, obsSum X true true 0 0 h = h 0 + h 2 := by
    intro h; simp [obsSum, X, Finset.sum_range_succ, Arr3.entry]
  have hv := haff 0 (by simp [X]) 0 (by simp [X]) 1 1 (by
    simp only [if_true]; exact ⟨by rw [sums]; norm_num, by rw [sums, sums]; norm_num⟩) (by
    simp only [if_true]; exact ⟨by norm_num, by rw [sums, sums]; norm_num⟩) 0 (by simp [X])
  have hx : X.entry 0 0 0 = some 0 := rfl
  rw [hx] at hv
  norm_num at hv
  have hv2 := haff2 0 (by rw [hl]; simp [X]) 0 (by rw [hd]; simp [X]) 0 1
    (by simpa using hm 0 (by simp [X]) 0 (by simp [X]) ⟨0, by simp [X], 0, by simp [X], 0, by simp [X], 0, by simp, by simp, rfl⟩)
    (by simpa using hS 0 (by simp [X]) 0 (by simp [X]) ⟨0, by simp [X], 0, by simp [X], 0, by simp [X], 0, by simp [X], 1, by simp [X],
      0, by simp [X], 0, 2, by simp, by simp, rfl, rfl, by norm_num⟩) 0 (by rw [hs]; simp [X])
  rw [hv] at hv2
  norm_num at hv2
  refine ⟨_, X, Y, Z, hX, by simp [X], hY, hZ, ?_⟩
  rw [hv, hv2]
  norm_num

/-- A dataset with a NaN, for the hypotheses above. -/
example : ∃ X : Arr3 ℝ, Formatted X ∧ X.data ≠ [] ∧ X.entry 0 0 0 = none ∧ X.entry 0 1 0 ≠ X.entry 0 2 0 := by
  refine ⟨⟨3, 1, [[[none], [some 3], [some 6]]]⟩, ⟨?_, fun h => by simp at h, .inr ⟨_, List.mem_cons_self,
    .inr ⟨_, rfl, _, List.mem_cons_self, rfl⟩, ?_⟩⟩, by simp, rfl, ?_⟩
  · intro s hs
    fin_cases hs
    exact ⟨rfl, by intro r hr; fin_cases hr <;> rfl⟩
  · rintro i hi ⟨r, hr, -⟩
    have := (List.getElem?_eq_some_iff.1 hr).1
    simp at this hi
    omega
  · simp [Arr3.entry]

end Verif
