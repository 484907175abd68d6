import Verif.Props.C28
import Verif.Props.C31
import Verif.Proofs.MeanVar
import Verif.Spec.Rescale
import Mathlib.Tactic.LinearCombination
/-!
# C103 — preprocessing steps compose
-/
set_option linter.unusedSectionVars false
namespace Verif
open Spec

section scalers
variable {K : Type} [Field K] [LinearOrder K] [IsStrictOrderedRing K]

theorem group_rescaled {a b : ℕ → ℕ → K} {X X' : Arr3 K} (h : Rescaled a b X X') (pt pf : Bool)
    (ha : Groupwise pt pf a) (hb : Groupwise pt pf b) (i f : ℕ) :
    X'.group pt pf i f = (X.group pt pf i f).map fun v => a i f * v + b i f := by
  unfold Arr3.group
  rw [h.len, h.sz, h.d, List.map_flatMap]
  apply List.flatMap_congr
  intro i' hi'
  rw [List.mem_range] at hi'
  by_cases c : pt = true ∧ i' ≠ i
  · rw [if_pos c, if_pos c]; rfl
  rw [if_neg c, if_neg c, List.map_flatMap]
  apply List.flatMap_congr
  intro t ht
  rw [List.mem_range] at ht
  rw [List.map_filterMap]
  apply List.filterMap_congr
  intro f' hf'
  rw [List.mem_range] at hf'
  by_cases c' : pf = true ∧ f' ≠ f
  · rw [if_pos c', if_pos c']; rfl
  rw [if_neg c', if_neg c', h.entry i' hi' t ht f' hf']
  have e1 : pt = true → i' = i := fun e => by by_contra hc; exact c ⟨e, hc⟩
  have e2 : pf = true → f' = f := fun e => by by_contra hc; exact c' ⟨e, hc⟩
  rw [ha i' i f' f e1 e2, hb i' i f' f e1 e2]

theorem nanMin_affine (a b : K) (ha : 0 < a) (g : List K) :
    nanMin (g.map fun v => a * v + b) = (nanMin g).map fun v => a * v + b := by
  cases g with
  | nil => rfl
  | cons x xs =>
    simp only [nanMin, List.map_cons, Option.map_some, Option.some.injEq]
    induction xs generalizing x with
    | nil => rfl
    | cons y ys ih =>
      rw [List.map_cons, List.foldl_cons, List.foldl_cons, ← ih]
      congr 1
      rcases le_total x y with h | h
      · rw [min_eq_left h, min_eq_left (by nlinarith)]
      · rw [min_eq_right h, min_eq_right (by nlinarith)]

theorem nanMax_affine (a b : K) (ha : 0 < a) (g : List K) :
    nanMax (g.map fun v => a * v + b) = (nanMax g).map fun v => a * v + b := by
  cases g with
  | nil => rfl
  | cons x xs =>
    simp only [nanMax, List.map_cons, Option.map_some, Option.some.injEq]
    induction xs generalizing x with
    | nil => rfl
    | cons y ys ih =>
      rw [List.map_cons, List.foldl_cons, List.foldl_cons, ← ih]
      congr 1
      rcases le_total x y with h | h
      · rw [max_eq_right h, max_eq_right (by nlinarith)]
      · rw [max_eq_left h, max_eq_left (by nlinarith)]

theorem minMaxValue_affine (lo hi a b : K) (ha : 0 < a) (mn mx v : Option K) :
    (∀ x ∈ mn, ∀ y ∈ mx, ∀ z ∈ v, x = y → z = x) →
    minMaxValue lo hi (mn.map fun v => a * v + b) (mx.map fun v => a * v + b) (v.map fun v => a * v + b) =
      minMaxValue lo hi mn mx v := by
  intro hc
  cases mn with
  | none => cases mx <;> cases v <;> rfl
  | some x =>
    cases mx with
    | none => cases v <;> rfl
    | some y =>
      cases v with
      | none => rfl
      | some z =>
        simp only [minMaxValue, Option.map_some, Option.some.injEq]
        by_cases e : y - x = 0
        · have hz := hc x rfl y rfl z rfl (sub_eq_zero.1 e).symm
          subst hz
          ring_nf
        · have e'' : a * y + b - (a * x + b) ≠ 0 := by
            intro h
            apply e
            have : a * (y - x) = 0 := by linear_combination h
            exact (mul_eq_zero.1 this).resolve_left ha.ne'
          rw [if_neg e, if_neg e'']
          have : a * y + b - (a * x + b) = a * (y - x) := by ring
          rw [this]
          have ha' := ha.ne'
          field_simp
          ring

/-- What the scalers use of a value next to fitted data that are all equal: it is their common value. -/
def Spec.Covered (pf : Bool) (F X : Arr3 K) : Prop :=
  ∀ i < X.data.length, ∀ t < X.sz, ∀ f < X.d, ∀ z, X.entry i t f = some z → ∀ w,
    (∃ i' < F.data.length, ∃ t' < F.sz, ∃ f' < F.d, (pf = true → f' = f) ∧ F.entry i' t' f' = some w) →
    (∀ i' < F.data.length, ∀ t' < F.sz, ∀ f' < F.d, (pf = true → f' = f) → ∀ w', F.entry i' t' f' = some w' → w' = w) →
    z = w

theorem nanMin_mem {g : List K} {m : K} (h : nanMin g = some m) : m ∈ g ∧ ∀ v ∈ g, m ≤ v := by
  cases g with
  | nil => simp [nanMin] at h
  | cons x xs =>
    injection h with h
    subst h
    exact nanfold_min_spec xs x

theorem nanMax_mem {g : List K} {m : K} (h : nanMax g = some m) : m ∈ g ∧ ∀ v ∈ g, v ≤ m := by
  cases g with
  | nil => simp [nanMax] at h
  | cons x xs =>
    injection h with h
    subst h
    exact nanfold_max_spec xs x

/-- A constant group whose value covers `v`. -/
theorem group_constant (pt pf : Bool) (F X : Arr3 K) (i t f : ℕ) (hi : i < X.data.length) (ht : t < X.sz) (hf : f < X.d)
    (hc : pt = false → Covered pf F X) (x z : K)
    (hx : x ∈ if pt then X.group true pf i f else F.group false pf 0 f)
    (hall : ∀ v ∈ (if pt then X.group true pf i f else F.group false pf 0 f), v = x)
    (hz : X.entry i t f = some z) : z = x := by
  cases pt with
  | true =>
    simp only [if_true] at hx hall
    exact hall z ((mem_group X true pf i f z).2 ⟨i, t, f, hi, ht, hf, fun _ => rfl, fun _ => rfl, hz⟩)
  | false =>
    simp only [Bool.false_eq_true, if_false] at hx hall
    refine hc rfl i hi t ht f hf z hz x ?_ ?_
    · obtain ⟨i', t', f', h1, h2, h3, -, h4, h5⟩ := (mem_group _ _ _ _ _ _).1 hx
      exact ⟨i', h1, t', h2, f', h3, h4, h5⟩
    · intro i' h1 t' h2 f' h3 h4 w' h5
      exact hall w' ((mem_group _ _ _ _ _ _).2 ⟨i', t', f', h1, h2, h3, by simp, h4, h5⟩)

theorem refs_rescaled {a b : ℕ → ℕ → K} {F F' X X' : Arr3 K} (pt pf : Bool) (ha : Groupwise pt pf a)
    (hb : Groupwise pt pf b) (h : Rescaled a b X X') (hF : pt = false → Rescaled a b F F') (i f : ℕ) :
    (if pt then X'.group true pf i f else F'.group false pf 0 f) =
      (if pt then X.group true pf i f else F.group false pf 0 f).map fun v => a i f * v + b i f := by
  cases pt with
  | true => exact group_rescaled h true pf ha hb i f
  | false =>
    simp only [Bool.false_eq_true, if_false]
    rw [group_rescaled (hF rfl) false pf ha hb 0 f, ha 0 i f f (by simp) (fun _ => rfl), hb 0 i f f (by simp) (fun _ => rfl)]

theorem Spec.Rescaled.nonempty {a b : ℕ → ℕ → K} {X X' : Arr3 K} (h : Rescaled a b X X') (hX : X.data ≠ []) :
    X'.data ≠ [] := by
  intro e
  have := h.len
  rw [e] at this
  exact hX (List.length_eq_zero_iff.1 this.symm)

/-- Min-max scaling does not see units and origins: data measured in other (positive) units from other origins,
one per group of values the scaler looks at together, give the same result. Scalers fitted on other data than they
transform, without `per_timeseries`, need fitted data that are not constant, or constant at the transformed values. -/
theorem C103_minmax_units (cfg : MinMaxCfg K) (hr : cfg.lo < cfg.hi) (a b : ℕ → ℕ → K) (hpos : ∀ i f, 0 < a i f)
    (ha : Groupwise cfg.perTs cfg.perFeat a) (hb : Groupwise cfg.perTs cfg.perFeat b) (F F' X X' : Arr3 K)
    (fF : Formatted F) (fF' : Formatted F') (fX : Formatted X) (fX' : Formatted X')
    (nF : F.data ≠ []) (nF' : F'.data ≠ []) (nX : X.data ≠ []) (sF : 0 < F.sz) (sF' : 0 < F'.sz) (sX : 0 < X.sz)
    (hd : F.d = X.d) (hd' : F'.d = X.d) (hX : Rescaled a b X X') (hF : cfg.perTs = false → Rescaled a b F F')
    (hc : cfg.perTs = false → Covered cfg.perFeat F X) :
    minMaxTransform cfg F' X' = minMaxTransform cfg F X ∧ ∃ Y, minMaxTransform cfg F X = .ok Y := by
  refine ⟨?_, _, minMaxTransform_ok cfg F X fF fX nF nX sF sX hd hr⟩
  rw [minMaxTransform_ok cfg F X fF fX nF nX sF sX hd hr,
    minMaxTransform_ok cfg F' X' fF' fX' nF' (hX.nonempty nX) sF' (by rw [hX.sz]; exact sX) (by rw [hd', hX.d]) hr,
    hX.len, hX.sz, hX.d]
  refine congrArg Except.ok (Arr3.build_congr ?_)
  intro i hi t ht f hf
  rw [refs_rescaled _ _ ha hb hX hF, nanMin_affine _ _ (hpos i f), nanMax_affine _ _ (hpos i f), hX.entry i hi t ht f hf,
    minMaxValue_affine _ _ _ _ (hpos i f)]
  intro x hx y hy z hz e
  subst e
  obtain ⟨h1, h2⟩ := nanMin_mem hx
  obtain ⟨-, h3⟩ := nanMax_mem hy
  exact group_constant _ _ F X i t f hi ht hf hc x z h1 (fun v hv => le_antisymm (h3 v hv) (h2 v hv)) hz

end scalers

theorem nanMean_affine (a b : ℝ) (g : List ℝ) :
    nanMean (g.map fun v => a * v + b) = (nanMean g).map fun v => a * v + b := by
  unfold nanMean
  by_cases h : g = []
  · simp [h]
  · rw [if_neg (by simpa using h), if_neg h, Option.map_some, Option.some.injEq, List.length_map]
    have hl : (g.length : ℝ) ≠ 0 := by exact_mod_cast (List.length_pos_iff.2 h).ne'
    have hs : (g.map fun v => a * v + b).sum = a * g.sum + g.length * b := by
      clear h hl
      induction g with
      | nil => simp
      | cons x xs ih => rw [List.map_cons, List.sum_cons, ih]; push_cast [List.sum_cons, List.length_cons]; ring
    rw [hs]
    field_simp

theorem nanStd_affine (a b : ℝ) (ha : 0 < a) (g : List ℝ) :
    nanStd (g.map fun v => a * v + b) = (nanStd g).map fun v => a * v := by
  unfold nanStd
  rw [nanMean_affine]
  cases nanMean g with
  | none => rfl
  | some m =>
    simp only [Option.map_some, Option.some.injEq, List.map_map, List.length_map]
    have : (g.map ((fun x => (x - (a * m + b)) ^ 2) ∘ fun v => a * v + b)).sum = a ^ 2 * (g.map fun x => (x - m) ^ 2).sum := by
      induction g with
      | nil => simp
      | cons x xs ih => simp only [List.map_cons, List.sum_cons, ih, Function.comp]; ring
    rw [this, mul_div_assoc, Real.sqrt_mul (by positivity), Real.sqrt_sq ha.le]

theorem nanStd_zero {g : List ℝ} {m : ℝ} (hm : nanMean g = some m) (hs : nanStd g = some 0) : m ∈ g ∧ ∀ v ∈ g, v = m := by
  unfold nanStd at hs
  rw [hm] at hs
  simp only [Option.map_some, Option.some.injEq] at hs
  have hne : g ≠ [] := by rintro rfl; simp [nanMean] at hm
  have hl : (0 : ℝ) < g.length := by exact_mod_cast List.length_pos_iff.2 hne
  have hnn : ∀ y ∈ g.map fun x => (x - m) ^ 2, 0 ≤ y := by
    intro y hy
    obtain ⟨x, -, rfl⟩ := List.mem_map.1 hy
    positivity
  have h0 : (g.map fun x => (x - m) ^ 2).sum = 0 := by
    have := (Real.sqrt_eq_zero (div_nonneg (List.sum_nonneg hnn) hl.le)).1 hs
    rcases div_eq_zero_iff.1 this with h | h
    · exact h
    · exact absurd h hl.ne'
  have hall : ∀ v ∈ g, v = m := by
    intro v hv
    have h1 := List.single_le_sum hnn ((v - m) ^ 2) (List.mem_map.2 ⟨v, hv, rfl⟩)
    rw [h0] at h1
    have : v - m = 0 := by nlinarith [sq_nonneg (v - m)]
    linarith
  refine ⟨?_, hall⟩
  obtain ⟨x, hx⟩ := List.exists_mem_of_ne_nil g hne
  rw [← hall x hx]; exact hx

theorem meanVarValue_affine (mu std a b : ℝ) (ha : 0 < a) (m s v : Option ℝ)
    (hc : ∀ x ∈ m, (0 : ℝ) ∈ s → ∀ z ∈ v, z = x) :
    meanVarValue mu std (m.map fun v => a * v + b) (s.map fun v => a * v) (v.map fun v => a * v + b) =
      meanVarValue mu std m s v := by
  cases m with
  | none => cases s <;> cases v <;> rfl
  | some x =>
    cases s with
    | none => cases v <;> rfl
    | some y =>
      cases v with
      | none => rfl
      | some z =>
        simp only [meanVarValue, Option.map_some, Option.some.injEq]
        by_cases e : y = 0
        · subst e
          have hz := hc x rfl rfl z rfl
          subst hz
          ring_nf
        · rw [if_neg e, if_neg (mul_ne_zero ha.ne' e)]
          have ha' := ha.ne'
          field_simp
          ring

/-- Nor does mean-variance scaling. -/
theorem C103_meanvar_units (cfg : MeanVarCfg) (a b : ℕ → ℕ → ℝ) (hpos : ∀ i f, 0 < a i f)
    (ha : Groupwise cfg.perTs cfg.perFeat a) (hb : Groupwise cfg.perTs cfg.perFeat b) (F F' X X' : Arr3 ℝ)
    (fF : Formatted F) (fF' : Formatted F') (fX : Formatted X) (fX' : Formatted X')
    (nF : F.data ≠ []) (nF' : F'.data ≠ []) (nX : X.data ≠ []) (hd : F.d = X.d) (hd' : F'.d = X.d)
    (hX : Rescaled a b X X') (hF : cfg.perTs = false → Rescaled a b F F')
    (hc : cfg.perTs = false → Covered cfg.perFeat F X) :
    meanVarTransform cfg F' X' = meanVarTransform cfg F X ∧ ∃ Y, meanVarTransform cfg F X = .ok Y := by
  refine ⟨?_, _, meanVarTransform_ok cfg F X fF fX nF nX hd⟩
  rw [meanVarTransform_ok cfg F X fF fX nF nX hd,
    meanVarTransform_ok cfg F' X' fF' fX' nF' (hX.nonempty nX) (by rw [hd', hX.d]), hX.len, hX.sz, hX.d]
  refine congrArg Except.ok (Arr3.build_congr ?_)
  intro i hi t ht f hf
  rw [refs_rescaled _ _ ha hb hX hF, nanMean_affine, nanStd_affine _ _ (hpos i f), hX.entry i hi t ht f hf,
    meanVarValue_affine _ _ _ _ (hpos i f)]
  intro x hx hs z hz
  obtain ⟨h1, h2⟩ := nanStd_zero hx hs
  exact group_constant _ _ F X i t f hi ht hf hc x z h1 h2 hz
/-- A scaler of either kind with its parameters. -/
inductive AnyScaler
  | minMax (c : MinMaxCfg ℝ)
  | meanVar (c : MeanVarCfg)

namespace AnyScaler

/-- `fit(F).transform(X)`. -/
noncomputable def run : AnyScaler → Arr3 ℝ → Arr3 ℝ → Except PyErr (Arr3 ℝ)
  | minMax c => minMaxTransform c
  | meanVar c => meanVarTransform c

/-- `per_timeseries`. -/
def perTs : AnyScaler → Bool
  | minMax c => c.perTs
  | meanVar c => c.perTs

/-- `per_feature`. -/
def perFeat : AnyScaler → Bool
  | minMax c => c.perFeat
  | meanVar c => c.perFeat

/-- A range that is not empty, or a standard deviation that is positive. -/
def Proper : AnyScaler → Prop
  | minMax c => c.lo < c.hi
  | meanVar c => 0 < c.std

end AnyScaler

/-- Every observed value of `X` has an observed value of `F` in its group. -/
def Spec.Seen (pf : Bool) (F X : Arr3 ℝ) : Prop :=
  ∀ i < X.data.length, ∀ t < X.sz, ∀ f < X.d, X.entry i t f ≠ none →
    ∃ i' < F.data.length, ∃ t' < F.sz, ∃ f' < F.d, (pf = true → f' = f) ∧ F.entry i' t' f' ≠ none

theorem Spec.Groupwise.finer {β : Type} {pt pf pt' pf' : Bool} {a : ℕ → ℕ → β} (h : Groupwise pt pf a)
    (h1 : pt = true → pt' = true) (h2 : pf = true → pf' = true) : Groupwise pt' pf' a :=
  fun i i' f f' e1 e2 => h i i' f f' (fun e => e1 (h1 e)) (fun e => e2 (h2 e))

theorem Formatted.rescaled {a b : ℕ → ℕ → ℝ} {X Y : Arr3 ℝ} (hX : Formatted X) (hw : Y.WF) (h : Rescaled a b X Y) :
    Formatted Y := by
  refine hX.of_observed hw h.sz h.d h.len ?_
  intro i hi t ht f hf hne
  rw [h.entry i hi t ht f hf]
  cases e : X.entry i t f with
  | none => exact absurd e hne
  | some v => simp

/-- What a scaler multiplies by, and adds, in a group with reference values `g`. -/
noncomputable def scaleCoef : AnyScaler → List ℝ → ℝ × ℝ
  | .minMax c, g => match nanMin g, nanMax g with
    | some x, some y => ((c.hi - c.lo) / (if y - x = 0 then 1 else y - x), c.lo - x * (c.hi - c.lo) / (if y - x = 0 then 1 else y - x))
    | _, _ => (1, 0)
  | .meanVar c, g => match nanMean g, nanStd g with
    | some m, some s => (c.std / (if s = 0 then 1 else s), c.mu - m * c.std / (if s = 0 then 1 else s))
    | _, _ => (1, 0)

theorem scaleCoef_minMax (c : MinMaxCfg ℝ) (g : List ℝ) (z : ℝ) (hg : g ≠ []) :
    minMaxValue c.lo c.hi (nanMin g) (nanMax g) (some z) =
      some ((scaleCoef (.minMax c) g).1 * z + (scaleCoef (.minMax c) g).2) := by
  obtain ⟨x, xs, rfl⟩ := List.exists_cons_of_ne_nil hg
  simp only [scaleCoef, nanMin, nanMax, minMaxValue, Option.some.injEq]
  ring

theorem nanMean_some {g : List ℝ} (hg : g ≠ []) : ∃ m s, nanMean g = some m ∧ nanStd g = some s ∧ 0 ≤ s := by
  have hm : nanMean g = some (g.sum / g.length) := if_neg hg
  exact ⟨_, _, hm, by unfold nanStd; rw [hm]; rfl, Real.sqrt_nonneg _⟩

theorem scaleCoef_meanVar (c : MeanVarCfg) (g : List ℝ) (z : ℝ) (hg : g ≠ []) :
    meanVarValue c.mu c.std (nanMean g) (nanStd g) (some z) =
      some ((scaleCoef (.meanVar c) g).1 * z + (scaleCoef (.meanVar c) g).2) := by
  obtain ⟨m, s, h1, h2, -⟩ := nanMean_some hg
  simp only [scaleCoef, h1, h2, meanVarValue, Option.some.injEq]
  ring

theorem scaleCoef_pos (s : AnyScaler) (hs : s.Proper) (g : List ℝ) : 0 < (scaleCoef s g).1 := by
  by_cases hg : g = []
  · subst hg
    cases s with
    | minMax c => simp [scaleCoef, nanMin]
    | meanVar c => simp [scaleCoef, nanMean]
  cases s with
  | minMax c =>
    obtain ⟨x, xs, rfl⟩ := List.exists_cons_of_ne_nil hg
    have hle := (nanfold_min_spec xs x).2 _ (nanfold_max_spec xs x).1
    have hs' : c.lo < c.hi := hs
    simp only [scaleCoef, nanMin, nanMax]
    refine div_pos (by linarith) ?_
    split_ifs with h
    · norm_num
    · exact lt_of_le_of_ne (by linarith) (Ne.symm h)
  | meanVar c =>
    obtain ⟨m, s, h1, h2, h0⟩ := nanMean_some hg
    simp only [scaleCoef, h1, h2]
    refine div_pos hs ?_
    split_ifs with h
    · norm_num
    · exact lt_of_le_of_ne h0 (Ne.symm h)

/-- A scaler is an increasing affine map on every group. -/
theorem scaler_rescales (s : AnyScaler) (hs : s.Proper) (F X : Arr3 ℝ) (fF : Formatted F) (fX : Formatted X)
    (nF : F.data ≠ []) (nX : X.data ≠ []) (sF : 0 < F.sz) (sX : 0 < X.sz) (hd : F.d = X.d)
    (hseen : s.perTs = false → Seen s.perFeat F X) :
    ∃ Y, s.run F X = .ok Y ∧ Formatted Y ∧
      Rescaled (fun i f => (scaleCoef s ((if s.perTs then X else F).group s.perTs s.perFeat i f)).1)
        (fun i f => (scaleCoef s ((if s.perTs then X else F).group s.perTs s.perFeat i f)).2) X Y := by
  have hg : ∀ (pt pf : Bool) (i f : ℕ), (if pt = true then X.group true pf i f else F.group false pf 0 f) =
      (if pt then X else F).group pt pf i f := by
    intro pt pf i f
    cases pt with
    | true => rfl
    | false => exact group_congr _ _ _ (by simp) (fun _ => rfl)
  have hne : ∀ i < X.data.length, ∀ t < X.sz, ∀ f < X.d, ∀ z, X.entry i t f = some z →
      (if s.perTs then X else F).group s.perTs s.perFeat i f ≠ [] := by
    intro i hi t ht f hf z hz h0
    cases e : s.perTs with
    | true =>
      rw [e] at h0
      have : z ∈ X.group true s.perFeat i f :=
        (mem_group _ _ _ _ _ _).2 ⟨i, t, f, hi, ht, hf, fun _ => rfl, fun _ => rfl, hz⟩
      simp only [if_true] at h0
      rw [h0] at this
      simp at this
    | false =>
      rw [e] at h0
      obtain ⟨i', h1, t', h2, f', h3, h4, h5⟩ := hseen e i hi t ht f hf (by rw [hz]; simp)
      obtain ⟨w, hw⟩ := Option.ne_none_iff_exists'.1 h5
      have : w ∈ F.group false s.perFeat i f := (mem_group _ _ _ _ _ _).2 ⟨i', t', f', h1, h2, h3, by simp, h4, hw⟩
      simp only [Bool.false_eq_true, if_false] at h0
      rw [h0] at this
      simp at this
  cases s with
  | minMax c =>
    have hR := minMaxTransform_ok c F X fF fX nF nX sF sX hd hs
    have hresc : Rescaled (fun i f => (scaleCoef (.minMax c) ((if c.perTs then X else F).group c.perTs c.perFeat i f)).1)
        (fun i f => (scaleCoef (.minMax c) ((if c.perTs then X else F).group c.perTs c.perFeat i f)).2) X
        (Arr3.build X.data.length X.sz X.d fun i t f => minMaxValue c.lo c.hi
          (nanMin (if c.perTs then X.group true c.perFeat i f else F.group false c.perFeat 0 f))
          (nanMax (if c.perTs then X.group true c.perFeat i f else F.group false c.perFeat 0 f)) (X.entry i t f)) := by
      refine ⟨Arr3.build_length .., rfl, rfl, ?_⟩
      intro i hi t ht f hf
      rw [Arr3.build_entry hi ht hf, hg]
      cases e : X.entry i t f with
      | none => simp [minMaxValue_none]
      | some z =>
        exact scaleCoef_minMax c _ z (hne i hi t ht f hf z e)
    exact ⟨_, hR, fX.rescaled (Arr3.build_wf _ _ _ _) hresc, hresc⟩
  | meanVar c =>
    have hR := meanVarTransform_ok c F X fF fX nF nX hd
    have hresc : Rescaled (fun i f => (scaleCoef (.meanVar c) ((if c.perTs then X else F).group c.perTs c.perFeat i f)).1)
        (fun i f => (scaleCoef (.meanVar c) ((if c.perTs then X else F).group c.perTs c.perFeat i f)).2) X
        (Arr3.build X.data.length X.sz X.d fun i t f => meanVarValue c.mu c.std
          (nanMean (if c.perTs then X.group true c.perFeat i f else F.group false c.perFeat 0 f))
          (nanStd (if c.perTs then X.group true c.perFeat i f else F.group false c.perFeat 0 f)) (X.entry i t f)) := by
      refine ⟨Arr3.build_length .., rfl, rfl, ?_⟩
      intro i hi t ht f hf
      rw [Arr3.build_entry hi ht hf, hg]
      cases e : X.entry i t f with
      | none => cases nanMean ((if c.perTs then X else F).group c.perTs c.perFeat i f) <;>
          cases nanStd ((if c.perTs then X else F).group c.perTs c.perFeat i f) <;> rfl
      | some z =>
        exact scaleCoef_meanVar c _ z (hne i hi t ht f hf z e)
    exact ⟨_, hR, fX.rescaled (Arr3.build_wf _ _ _ _) hresc, hresc⟩

/-- A scaler forgets an earlier one that looked at values together at least where it does: a pipeline of the two,
fitted on `F` and applied to `X`, is the second one alone. In particular `fit_transform` twice is once, and the kind,
the range and the moments of the first scaler are lost. -/
theorem C103_forgets (s s' : AnyScaler) (hs : s.Proper) (hs' : s'.Proper) (hpt : s.perTs = true → s'.perTs = true)
    (hpf : s.perFeat = true → s'.perFeat = true) (F X : Arr3 ℝ) (fF : Formatted F) (fX : Formatted X)
    (nF : F.data ≠ []) (nX : X.data ≠ []) (sF : 0 < F.sz) (sX : 0 < X.sz) (hd : F.d = X.d)
    (hseen : s.perTs = false → Seen s.perFeat F X) (hc : s'.perTs = false → Covered s'.perFeat F X) :
    ∃ YF YX Z, s.run F F = .ok YF ∧ s.run F X = .ok YX ∧ s'.run YF YX = .ok Z ∧ s'.run F X = .ok Z := by
  have selfSeen : Seen s.perFeat F F := fun i hi t ht f hf hne => ⟨i, hi, t, ht, f, hf, fun _ => rfl, hne⟩
  obtain ⟨YF, hYF, fYF, rF⟩ := scaler_rescales s hs F F fF fF nF nF sF sF rfl fun _ => selfSeen
  obtain ⟨YX, hYX, fYX, rX⟩ := scaler_rescales s hs F X fF fX nF nX sF sX hd hseen
  set a := fun i f => (scaleCoef s ((if s.perTs then X else F).group s.perTs s.perFeat i f)).1 with hadef
  set b := fun i f => (scaleCoef s ((if s.perTs then X else F).group s.perTs s.perFeat i f)).2 with hbdef
  have ga : Groupwise s.perTs s.perFeat a := fun i i' f f' h1 h2 => by
    simp only [hadef]; rw [group_congr _ _ _ (fun e => h1 e) (fun e => h2 e)]
  have gb : Groupwise s.perTs s.perFeat b := fun i i' f f' h1 h2 => by
    simp only [hbdef]; rw [group_congr _ _ _ (fun e => h1 e) (fun e => h2 e)]
  have hpos : ∀ i f, 0 < a i f := fun i f => scaleCoef_pos s hs _
  have hrF : s'.perTs = false → Rescaled a b F YF := by
    intro e
    have e' : s.perTs = false := by
      cases h : s.perTs with
      | false => rfl
      | true => rw [hpt h] at e; simp at e
    simp only [hadef, hbdef]
    simp only [e', ite_self, Bool.false_eq_true, if_false] at rF ⊢
    exact rF
  have nYF := rF.nonempty nF
  have hdY : YF.d = X.d := rF.d.trans hd
  cases s' with
  | minMax c =>
    obtain ⟨h1, Z, h2⟩ := C103_minmax_units c hs' a b hpos (ga.finer hpt hpf) (gb.finer hpt hpf) F YF X YX fF fYF fX fYX
      nF nYF nX sF (by rw [rF.sz]; exact sF) sX hd hdY rX hrF hc
    exact ⟨YF, YX, Z, hYF, hYX, h1.trans h2, h2⟩
  | meanVar c =>
    obtain ⟨h1, Z, h2⟩ := C103_meanvar_units c a b hpos (ga.finer hpt hpf) (gb.finer hpt hpf) F YF X YX fF fYF fX fYX
      nF nYF nX hd hdY rX hrF hc
    exact ⟨YF, YX, Z, hYF, hYX, h1.trans h2, h2⟩

/-- The same for `fit_transform`. -/
theorem C103_forgets_fit_transform (s s' : AnyScaler) (hs : s.Proper) (hs' : s'.Proper)
    (hpt : s.perTs = true → s'.perTs = true) (hpf : s.perFeat = true → s'.perFeat = true) (X : Arr3 ℝ)
    (fX : Formatted X) (nX : X.data ≠ []) (sX : 0 < X.sz) :
    ∃ Y Z, s.run X X = .ok Y ∧ s'.run Y Y = .ok Z ∧ s'.run X X = .ok Z := by
  have hc : Covered s'.perFeat X X := by
    intro i hi t ht f hf z hz w _ hall
    exact hall i hi t ht f hf (fun _ => rfl) z hz
  have hse : Seen s.perFeat X X := fun i hi t ht f hf hne => ⟨i, hi, t, ht, f, hf, fun _ => rfl, hne⟩
  obtain ⟨YF, YX, Z, h1, h2, h3, h4⟩ := C103_forgets s s' hs hs' hpt hpf X X fX fX nX nX sX sX rfl (fun _ => hse) (fun _ => hc)
  rw [h1] at h2
  cases h2
  exact ⟨YF, Z, h1, h3, h4⟩

section impute
variable {K : Type} [Field K] [LinearOrder K] [IsStrictOrderedRing K]

theorem imputeCol_length (m : ImpMethod K) (c r : List (Option K)) (h : imputeCol m c = .ok r) : r.length = c.length := by
  cases m with
  | constant a => injection h with h; rw [← h]; simp [fillWith]
  | mean => injection h with h; rw [← h]; simp [fillWith]
  | median => injection h with h; rw [← h]; simp [fillWith]
  | linear =>
    simp only [imputeCol, interp, bind, Except.bind, pure, Except.pure] at h
    split at h
    · simp at h
    · injection h with h; rw [← h]; simp
  | ffill => injection h with h; rw [← h]; simp [takeIdx]
  | bfill => injection h with h; rw [← h]; simp [takeIdx]
  | unknown => simp [imputeCol] at h

theorem fillWith_none (c : List (Option K)) : fillWith none c = c := by
  unfold fillWith
  conv_rhs => rw [← List.map_id c]
  apply List.map_congr_left
  intro x _
  cases x <;> rfl

theorem fillWith_full (v : Option K) (c : List (Option K)) (h : ∀ x ∈ c, x ≠ none) : fillWith v c = c := by
  unfold fillWith
  conv_rhs => rw [← List.map_id c]
  apply List.map_congr_left
  intro x hx
  cases x with
  | none => exact absurd rfl (h _ hx)
  | some y => rfl

theorem fillWith_some (v : K) (c : List (Option K)) : ∀ x ∈ fillWith (some v) c, x ≠ none := by
  intro x hx
  obtain ⟨y, -, rfl⟩ := List.mem_map.1 hx
  cases y <;> simp

/-- Filling with a statistic of the column. -/
theorem fillWith_twice (st : List (Option K) → Option K) (c : List (Option K)) :
    fillWith (st (fillWith (st c) c)) (fillWith (st c) c) = fillWith (st c) c := by
  cases e : st c with
  | none => rw [fillWith_none, e, fillWith_none]
  | some v => exact fillWith_full _ _ (fillWith_some v c)

theorem getD_ext_none {c r : List (Option K)} (hl : r.length = c.length)
    (h : ∀ t < c.length, r.getD t none = c.getD t none) : r = c :=
  list_ext_getD r c none hl (fun t ht => h t (hl ▸ ht))

/-- The last observation before, if there is one. -/
theorem prevObs_or (u : ℕ → Option K) (t : ℕ) : (∃ p v, PrevObs u t p v) ∨ ∀ s < t, u s = none := by
  induction t with
  | zero => right; intro s hs; omega
  | succ t ih =>
    cases e : u t with
    | some v => exact .inl ⟨t, v, Nat.lt_succ_self t, e, fun s h1 h2 => by omega⟩
    | none =>
      rcases ih with ⟨p, v, h1, h2, h3⟩ | h
      · refine .inl ⟨p, v, by omega, h2, fun s h4 h5 => ?_⟩
        rcases Nat.lt_succ_iff_lt_or_eq.1 h5 with h6 | rfl
        · exact h3 s h4 h6
        · exact e
      · right
        intro s hs
        rcases Nat.lt_succ_iff_lt_or_eq.1 hs with h6 | rfl
        · exact h s h6
        · exact e

/-- The next observation, if there is one. -/
theorem nextObs_or (u : ℕ → Option K) (n t : ℕ) : (∃ q w, NextObs u n t q w) ∨ ∀ s, t < s → s < n → u s = none := by
  by_cases h : ∃ s, t < s ∧ s < n ∧ u s ≠ none
  · left
    classical
    obtain ⟨h1, h2, h3⟩ := Nat.find_spec h
    obtain ⟨w, hw⟩ := Option.ne_none_iff_exists'.1 h3
    refine ⟨Nat.find h, w, h1, h2, hw, fun s h4 h5 => ?_⟩
    by_contra hc
    exact Nat.find_min h h5 ⟨h4, by omega, hc⟩
  · right
    intro s h1 h2
    by_contra hc
    exact h ⟨s, h1, h2, hc⟩

theorem linear_full (c r : List (Option K)) (h : imputeCol .linear c = .ok r) : ∀ t < c.length, r.getD t none ≠ none := by
  intro t ht
  cases e : c.getD t none with
  | some v => rw [linear_observed c r h v e]; simp
  | none =>
    rcases prevObs_or (fun s => c.getD s none) t with ⟨p, v, hp⟩ | hp
    · rcases nextObs_or (fun s => c.getD s none) c.length t with ⟨q, w, hq⟩ | hq
      · rw [linear_between c r h ht e hp hq]; simp
      · rw [linear_after_last c r h ht e hp (fun s hs => by
          rcases Nat.lt_or_ge s c.length with h' | h'
          · exact hq s hs h'
          · exact List.getD_eq_default _ _ h')]
        simp
    · rcases nextObs_or (fun s => c.getD s none) c.length t with ⟨q, w, hq⟩ | hq
      · rw [linear_before_first c r h ht e hq hp]; simp
      · exfalso
        obtain ⟨s, v, hs⟩ := (linear_ok_iff c).1 ⟨r, h⟩
        have hsl : s < c.length := by
          by_contra hc
          rw [List.getD_eq_default _ _ (not_lt.1 hc)] at hs
          simp at hs
        rcases Nat.lt_trichotomy s t with h' | h' | h'
        · have := hp s h'; rw [this] at hs; simp at hs
        · subst h'; rw [e] at hs; simp at hs
        · have := hq s h' hsl; rw [this] at hs; simp at hs

theorem imputeCol_twice (m : ImpMethod K) (c r : List (Option K)) (h : imputeCol m c = .ok r) : imputeCol m r = .ok r := by
  have hl := imputeCol_length m c r h
  cases m with
  | constant a => injection h with h; rw [← h]; exact congrArg Except.ok (fillWith_twice (fun _ => a) c)
  | mean => injection h with h; rw [← h]; exact congrArg Except.ok (fillWith_twice nanMeanK c)
  | median => injection h with h; rw [← h]; exact congrArg Except.ok (fillWith_twice nanMedian c)
  | linear =>
    have hfull := linear_full c r h
    obtain ⟨s, v, hs⟩ := (linear_ok_iff c).1 ⟨r, h⟩
    obtain ⟨r', hr'⟩ := (linear_ok_iff r).2 ⟨s, v, linear_observed c r h v hs⟩
    rw [hr']
    congr 1
    apply getD_ext_none (imputeCol_length .linear r r' hr')
    intro t ht
    obtain ⟨w, hw⟩ := Option.ne_none_iff_exists'.1 (hfull t (by omega))
    rw [linear_observed r r' hr' w hw, hw]
  | ffill =>
    injection h with h
    refine congrArg Except.ok (getD_ext_none (by simp [takeIdx]) ?_)
    intro t ht
    cases e : r.getD t none with
    | some v => rw [takeIdx_getD _ _ ht, e]; rfl
    | none =>
      apply ffill_none r t ht
      have hc : ∀ s ≤ t, c.getD s none = none := by
        rcases prevObs_or (fun s => c.getD s none) t with ⟨p, v, hp⟩ | hp
        · exfalso
          cases e' : c.getD t none with
          | some w => rw [← h, takeIdx_getD _ _ (by omega), e'] at e; simp at e
          | none => rw [← h, ffill_prev c t p v (by omega) e' hp] at e; simp at e
        · intro s hs
          rcases Nat.lt_or_eq_of_le hs with h' | rfl
          · exact hp s h'
          · by_contra hc
            obtain ⟨w, hw⟩ := Option.ne_none_iff_exists'.1 hc
            rw [← h, takeIdx_getD _ _ (by omega), hw] at e; simp at e
      intro s hs
      rw [← h]
      exact ffill_none c s (by omega) (fun s' hs' => hc s' (by omega))
  | bfill =>
    injection h with h
    refine congrArg Except.ok (getD_ext_none (by simp [takeIdx]) ?_)
    intro t ht
    cases e : r.getD t none with
    | some v => rw [takeIdx_getD _ _ ht, e]; rfl
    | none =>
      apply bfill_none r t ht
      have hc : ∀ s, t ≤ s → s < c.length → c.getD s none = none := by
        rcases nextObs_or (fun s => c.getD s none) c.length t with ⟨p, v, hp⟩ | hp
        · exfalso
          cases e' : c.getD t none with
          | some w => rw [← h, takeIdx_getD _ _ (by omega), e'] at e; simp at e
          | none => rw [← h, bfill_next c t p v (by omega) e' hp] at e; simp at e
        · intro s hs hs'
          rcases Nat.lt_or_eq_of_le hs with h' | rfl
          · exact hp s h' hs'
          · by_contra hc
            obtain ⟨w, hw⟩ := Option.ne_none_iff_exists'.1 hc
            rw [← h, takeIdx_getD _ _ (by omega), hw] at e; simp at e
      intro s hs hs'
      rw [← h]
      exact bfill_none c s (by omega) (fun s' h1 h2 => hc s' (by omega) h2)
  | unknown => simp [imputeCol] at h

theorem stopOf_impute (m : ImpMethod K) (keep : Bool) (xF x : DsInput K) (X Y : Arr3 K) (hx : toDataset x = .ok X)
    (hX : Formatted X) (hY : impute m keep xF x = .ok Y) (i : ℕ) (hi : i < X.data.length) :
    stopOf keep Y i = stopOf keep X i := by
  obtain ⟨fY, h1, h2, h3, h4⟩ := impute_inv m keep xF x X Y hx hX hY
  cases keep with
  | false => exact h2
  | true =>
    simp only [stopOf, if_true]
    apply IsSize.unique (tsSize_isSize _)
    have hXs := tsSize_isSize (X.data.getD i [])
    have hle := stopOf_le true X hX.wf hi
    simp only [stopOf, if_true] at hle h4
    constructor
    · rcases hXs.1 with h | h
      · exact .inl h
      · rcases Nat.eq_zero_or_pos (tsSize (X.data.getD i [])) with h0 | h0
        · exact .inl h0
        right
        rw [observed_entry hX.wf] at h
        rw [observed_entry fY.wf]
        obtain ⟨f, hf, hs⟩ := h
        obtain ⟨v, hv⟩ := Option.isSome_iff_exists.1 hs
        obtain ⟨r, hr, he⟩ := h4 i hi f hf
        refine ⟨f, by omega, ?_⟩
        rw [he _ (by omega), if_pos (by omega), imputeCol_observed m _ r hr (v := v) (by rw [col_get X (by omega), hv])]
        rfl
    · intro t ht ho
      rw [observed_entry fY.wf] at ho
      obtain ⟨f, hf, hs⟩ := ho
      by_cases hts : t < X.sz
      · obtain ⟨r, hr, he⟩ := h4 i hi f (by omega)
        rw [he t hts, if_neg (by omega), entry_none ht] at hs
        simp at hs
      · have : Y.entry i t f = none := by
          apply entry_none
          have hle := tsSize_le (Y.data.getD i [])
          rw [List.getD_eq_getElem _ _ (by omega), (fY.wf _ (List.getElem_mem _)).1] at hle
          rw [List.getD_eq_getElem _ _ (by omega)]
          omega
        rw [this] at hs
        simp at hs

/-- Imputing what was imputed changes nothing, for every method. -/
theorem C103_impute_twice (m : ImpMethod K) (keep : Bool) (xF xF' x : DsInput K) (X Y F' : Arr3 K) (hx : toDataset x = .ok X)
    (hX : Formatted X) (hF' : toDataset xF' = .ok F') (hd : F'.d = X.d) (hY : impute m keep xF x = .ok Y) :
    impute m keep xF' (.series Y.slots) = .ok Y := by
  obtain ⟨fY, h1, h2, h3, h4⟩ := impute_inv m keep xF x X Y hx hX hY
  have hm : m ≠ .unknown := by
    rintro rfl
    unfold impute at hY
    cases e : toDataset xF with
    | error _ => simp [e, bind, Except.bind] at hY
    | ok F =>
      simp only [e, hx, bind, Except.bind] at hY
      split_ifs at hY
  have hcol : ∀ i < Y.data.length, ∀ f < Y.d,
      imputeCol m (Y.col i (stopOf keep Y i) f) = .ok (Y.col i (stopOf keep Y i) f) := by
    intro i hi f hf
    rw [h1] at hi
    rw [h3] at hf
    obtain ⟨r, hr, he⟩ := h4 i hi f hf
    have hle := stopOf_le keep X hX.wf hi
    have : Y.col i (stopOf keep Y i) f = r := by
      rw [stopOf_impute m keep xF x X Y hx hX hY i hi]
      have hl := imputeCol_length m _ r hr
      rw [col_length] at hl
      apply getD_ext_none (by rw [col_length, hl])
      intro t ht
      rw [col_get Y (by omega), he t (by omega), if_pos (by omega)]
    rw [this]
    exact imputeCol_twice m _ r hr
  obtain ⟨Y', hY', fY', e1, e2, e3, e4⟩ := impute_ok m keep xF' (.series Y.slots) F' Y hF' fY.toDataset_slots fY
    (by omega) hm _ hcol
  rw [hY']
  congr 1
  apply Arr3.ext_entry fY'.wf fY.wf e2 e3 e1
  intro i hi t ht f hf
  rw [e4 i (by omega) t (by omega) f (by omega)]
  split_ifs with hst
  · rw [col_get Y hst]
  · rfl

theorem getD_map_affine (g : K → K) (c : List (Option K)) (t : ℕ) :
    (c.map (Option.map g)).getD t none = (c.getD t none).map g := by
  rw [List.getD_eq_getElem?_getD, List.getElem?_map, List.getD_eq_getElem?_getD]
  cases c[t]? <;> rfl

theorem isNone_map_affine (g : K → K) (x : Option K) : (x.map g).isNone = x.isNone := by cases x <;> rfl

theorem filterMap_map_affine (g : K → K) (c : List (Option K)) :
    (c.map (Option.map g)).filterMap id = (c.filterMap id).map g := by
  rw [List.filterMap_map, List.map_filterMap]
  rfl

theorem nanMeanK_affine (a b : K) (c : List (Option K)) :
    nanMeanK (c.map (Option.map fun v => a * v + b)) = (nanMeanK c).map fun v => a * v + b := by
  simp only [nanMeanK, filterMap_map_affine]
  generalize c.filterMap id = g
  by_cases h : g = []
  · simp [h]
  · rw [if_neg (by simpa using h), if_neg h, Option.map_some, Option.some.injEq, List.length_map]
    have hl : (g.length : K) ≠ 0 := by exact_mod_cast (List.length_pos_iff.2 h).ne'
    have hs : (g.map fun v => a * v + b).sum = a * g.sum + g.length * b := by
      clear h hl
      induction g with
      | nil => simp
      | cons x xs ih => rw [List.map_cons, List.sum_cons, ih]; push_cast [List.sum_cons, List.length_cons]; ring
    rw [hs]
    field_simp

theorem nanMedian_affine (a b : K) (ha : 0 < a) (c : List (Option K)) :
    nanMedian (c.map (Option.map fun v => a * v + b)) = (nanMedian c).map fun v => a * v + b := by
  have hsort : ((c.filterMap id).map fun v => a * v + b).insertionSort (· ≤ ·) =
      ((c.filterMap id).insertionSort (· ≤ ·)).map fun v => a * v + b := by
    symm
    apply List.map_insertionSort
    intro x _ y _
    constructor
    · intro h; nlinarith
    · intro h
      by_contra hc
      push Not at hc
      nlinarith
  simp only [nanMedian, filterMap_map_affine, hsort]
  generalize (c.filterMap id).insertionSort (· ≤ ·) = o
  by_cases h : o = []
  · simp [h]
  have hl := List.length_pos_iff.2 h
  have hg : ∀ k < o.length, (o.map fun v => a * v + b).getD k 0 = a * o.getD k 0 + b := by
    intro k hk
    rw [List.getD_eq_getElem _ _ (by simpa using hk), List.getElem_map, List.getD_eq_getElem _ _ hk]
  rw [if_neg (by simpa using h), if_neg h, List.length_map]
  split_ifs with hodd
  · rw [hg _ (by omega)]; rfl
  · rw [hg _ (by omega), hg _ (by omega), Option.map_some, Option.some.injEq]; ring

theorem interp1_affine (a b : K) (xp : List K) (fp : List (Option K)) (x : K) :
    interp1 xp (fp.map (Option.map fun v => a * v + b)) x = (interp1 xp fp x).map fun v => a * v + b := by
  simp only [interp1, getD_map_affine]
  split_ifs
  · rfl
  · rfl
  · rfl
  · cases fp.getD ((xp.takeWhile fun y => decide (y ≤ x)).length - 1) none with
    | none => rfl
    | some u =>
      cases fp.getD (xp.takeWhile fun y => decide (y ≤ x)).length none with
      | none => rfl
      | some w =>
        simp only [Option.map_some, Option.some.injEq]
        ring

theorem fillWith_affine (g : K → K) (v : Option K) (c : List (Option K)) :
    fillWith (v.map g) (c.map (Option.map g)) = (fillWith v c).map (Option.map g) := by
  simp only [fillWith, List.map_map]
  apply List.map_congr_left
  intro x _
  cases x <;> rfl

theorem takeIdx_affine (g : K → K) (c : List (Option K)) (idx : List ℕ) :
    takeIdx (c.map (Option.map g)) idx = (takeIdx c idx).map (Option.map g) := by
  simp only [takeIdx, List.map_map, List.length_map, getD_map_affine, isNone_map_affine]
  apply List.map_congr_left
  intro t _
  simp only [Function.comp]
  split_ifs <;> rfl

/-- Imputation commutes with a change of unit and origin, unless a constant is imputed. -/
theorem imputeCol_affine (m : ImpMethod K) (hm : ∀ v, m ≠ .constant v) (a b : K) (ha : 0 < a) (c : List (Option K)) :
    imputeCol m (c.map (Option.map fun v => a * v + b)) = (imputeCol m c).map (List.map (Option.map fun v => a * v + b)) := by
  cases m with
  | constant v => exact absurd rfl (hm v)
  | mean =>
    simp only [imputeCol, Except.map]
    rw [nanMeanK_affine, fillWith_affine]
  | median =>
    simp only [imputeCol, Except.map]
    rw [nanMedian_affine a b ha, fillWith_affine]
  | linear =>
    simp only [imputeCol, List.length_map, getD_map_affine, isNone_map_affine, Option.isSome_map, interp, bind,
      Except.bind, pure, Except.pure]
    split_ifs with h
    · rfl
    · simp only [Except.map, Except.ok.injEq, List.map_map]
      apply List.map_congr_left
      intro t _
      simp only [Function.comp]
      split_ifs with h1
      · have e : ((List.range c.length).filter fun t => (c.getD t none).isSome).map (fun t => (c.getD t none).map fun v => a * v + b) =
            (((List.range c.length).filter fun t => (c.getD t none).isSome).map fun t => c.getD t none).map
              (Option.map fun v => a * v + b) := by rw [List.map_map]; rfl
        have e2 : ∀ (xp : List K) (l : List ℕ) (fp : List (Option K)),
            l.map (interp1 xp (fp.map (Option.map fun v => a * v + b)) ∘ Nat.cast) = (l.map (interp1 xp fp ∘ Nat.cast)).map (Option.map fun v => a * v + b) := by
          intro xp l fp
          rw [List.map_map]
          exact List.map_congr_left fun y _ => interp1_affine a b xp fp y
        rw [e, e2, getD_map_affine]
      · rfl
  | ffill =>
    simp only [imputeCol, Except.map, Except.ok.injEq]
    rw [takeIdx_affine]
    congr 2
    simp only [ffillIdx, List.length_map, getD_map_affine, isNone_map_affine]
  | bfill =>
    simp only [imputeCol, Except.map, Except.ok.injEq]
    rw [takeIdx_affine]
    congr 2
    simp only [bfillIdx, List.length_map, getD_map_affine, isNone_map_affine]
  | unknown => rfl

theorem col_affine {a b : ℕ → ℕ → K} {X X' : Arr3 K} (h : Rescaled a b X X') {i n f : ℕ} (hi : i < X.data.length)
    (hn : n ≤ X.sz) (hf : f < X.d) : X'.col i n f = (X.col i n f).map (Option.map fun v => a i f * v + b i f) := by
  unfold Arr3.col
  rw [List.map_map]
  apply List.map_congr_left
  intro t ht
  rw [List.mem_range] at ht
  exact h.entry i hi t (by omega) f hf

theorem tsSize_affine {a b : ℕ → ℕ → K} {X X' : Arr3 K} (h : Rescaled a b X X') (hX : X.WF) (hX' : X'.WF) {i : ℕ}
    (hi : i < X.data.length) : tsSize (X'.data.getD i []) = tsSize (X.data.getD i []) := by
  have hobs : ∀ t, Observed (X'.data.getD i []) t ↔ Observed (X.data.getD i []) t := by
    intro t
    rw [observed_entry hX', observed_entry hX, h.d]
    by_cases ht : t < X.sz
    · constructor <;> rintro ⟨f, hf, hs⟩ <;> refine ⟨f, hf, ?_⟩
      · rw [h.entry i hi t ht f hf] at hs; simpa using hs
      · rw [h.entry i hi t ht f hf]; simpa using hs
    · have e1 : ∀ f, X.entry i t f = none := fun f => by
        apply entry_none
        have := tsSize_le (X.data.getD i [])
        rw [List.getD_eq_getElem _ _ hi, (hX _ (List.getElem_mem _)).1] at this
        rw [List.getD_eq_getElem _ _ hi]; omega
      have e2 : ∀ f, X'.entry i t f = none := fun f => by
        have hi' : i < X'.data.length := by rw [h.len]; exact hi
        apply entry_none
        have := tsSize_le (X'.data.getD i [])
        rw [List.getD_eq_getElem _ _ hi', (hX' _ (List.getElem_mem _)).1, h.sz] at this
        rw [List.getD_eq_getElem _ _ hi']; omega
      simp [e1, e2]
  obtain ⟨h1, h2⟩ := tsSize_isSize (X'.data.getD i [])
  exact IsSize.unique ⟨h1.imp id (hobs _).1, fun t ht ho => h2 t ht ((hobs t).2 ho)⟩ (tsSize_isSize _)

/-- Imputing data measured in other units from other origins (one per feature of every series) gives the imputed data
in these units, for every method but the constant. -/
theorem C103_impute_units (m : ImpMethod K) (hm : ∀ v, m ≠ .constant v) (keep : Bool) (a b : ℕ → ℕ → K)
    (hpos : ∀ i f, 0 < a i f) (xF x xF' x' : DsInput K) (X X' Y F' : Arr3 K) (hx : toDataset x = .ok X)
    (hx' : toDataset x' = .ok X') (fX : Formatted X) (fX' : Formatted X') (hF' : toDataset xF' = .ok F') (hd : F'.d = X'.d)
    (h : Rescaled a b X X') (hY : impute m keep xF x = .ok Y) :
    ∃ Y', impute m keep xF' x' = .ok Y' ∧ Rescaled a b Y Y' := by
  obtain ⟨fY, h1, h2, h3, h4⟩ := impute_inv m keep xF x X Y hx fX hY
  have hun : m ≠ .unknown := by
    rintro rfl
    unfold impute at hY
    cases e : toDataset xF with
    | error _ => simp [e, bind, Except.bind] at hY
    | ok F =>
      simp only [e, hx, bind, Except.bind] at hY
      split_ifs at hY
  have hstop : ∀ i < X.data.length, stopOf keep X' i = stopOf keep X i := by
    intro i hi
    cases keep with
    | false => exact h.sz
    | true => exact tsSize_affine h fX.wf fX'.wf hi
  have hch : ∀ i f, ∃ r, i < X.data.length → f < X.d → imputeCol m (X.col i (stopOf keep X i) f) = .ok r ∧
      ∀ t < X.sz, Y.entry i t f = if t < stopOf keep X i then r.getD t none else X.entry i t f := by
    intro i f
    by_cases hi : i < X.data.length
    · by_cases hf : f < X.d
      · obtain ⟨r, hr⟩ := h4 i hi f hf
        exact ⟨r, fun _ _ => hr⟩
      · exact ⟨[], fun _ h => absurd h hf⟩
    · exact ⟨[], fun h => absurd h hi⟩
  choose R hR using hch
  obtain ⟨Y', hY', fY', e1, e2, e3, e4⟩ := impute_ok m keep xF' x' F' X' hF' hx' fX' hd hun
    (fun i f => (R i f).map (Option.map fun v => a i f * v + b i f)) (by
      intro i hi f hf
      rw [h.len] at hi
      rw [h.d] at hf
      rw [hstop i hi, col_affine h hi (stopOf_le keep X fX.wf hi) hf, imputeCol_affine m hm _ _ (hpos i f), (hR i f hi hf).1]
      rfl)
  refine ⟨Y', hY', by rw [e1, h.len, h1], by rw [e2, h.sz, h2], by rw [e3, h.d, h3], ?_⟩
  intro i hi t ht f hf
  rw [h1] at hi
  rw [h2] at ht
  rw [h3] at hf
  rw [e4 i (by rw [h.len]; exact hi) t (by rw [h.sz]; exact ht) f (by rw [h.d]; exact hf), (hR i f hi hf).2 t ht, hstop i hi]
  split_ifs
  · exact getD_map_affine _ _ _
  · exact h.entry i hi t ht f hf

/-- So does resampling. -/
theorem C103_resample_units (sz : ℤ) (a b : ℕ → ℕ → K) (xF x xF' x' : DsInput K) (X X' F F' : Arr3 K)
    (hx : toDataset x = .ok X) (hx' : toDataset x' = .ok X') (fX : Formatted X) (fX' : Formatted X')
    (hF : toDataset xF = .ok F) (hF' : toDataset xF' = .ok F') (hd : F.d = X.d) (hd' : F'.d = X'.d)
    (hne : ∀ s ∈ X.data, ¬ IsSize s 0) (h : Rescaled a b X X') :
    ∃ Y Y', resample sz xF x = .ok Y ∧ resample sz xF' x' = .ok Y' ∧ Rescaled a b Y Y' := by
  by_cases hT : (if sz > 0 then sz.toNat else X.sz) = 1
  · refine ⟨Arr3.build X.data.length 1 X.d fun i _ f => nanMeanK (X.col i X.sz f),
      Arr3.build X'.data.length 1 X'.d fun i _ f => nanMeanK (X'.col i X'.sz f), ?_, ?_, ?_⟩
    · simp only [resample, hF, hx, bind, Except.bind, hd, ne_eq, not_true_eq_false, if_false, pure, Except.pure, hT, if_true]
    · simp only [resample, hF', hx', bind, Except.bind, hd', ne_eq, not_true_eq_false, if_false, pure, Except.pure, h.sz, hT,
        if_true]
    · refine ⟨by rw [Arr3.build_length, Arr3.build_length, h.len], rfl, h.d, ?_⟩
      intro i hi t ht f hf
      rw [Arr3.build_length] at hi
      change t < 1 at ht
      change f < X.d at hf
      rw [Arr3.build_entry hi ht hf, Arr3.build_entry (by rw [h.len]; exact hi) ht (by rw [h.d]; exact hf), h.sz,
        col_affine h hi (le_refl _) hf, nanMeanK_affine]
  · have hpos : ∀ s ∈ X.data, 0 < tsSize s := by
      intro s hs
      rcases Nat.eq_zero_or_pos (tsSize s) with h | h
      · exact absurd (h ▸ tsSize_isSize s) (hne s hs)
      · exact h
    have hpos' : ∀ s ∈ X'.data, 0 < tsSize s := by
      intro s hs
      obtain ⟨i, hi, rfl⟩ := List.mem_iff_getElem.1 hs
      have hi' : i < X.data.length := by rw [← h.len]; exact hi
      have e := tsSize_affine h fX.wf fX'.wf hi'
      rw [List.getD_eq_getElem _ _ hi, List.getD_eq_getElem _ _ hi'] at e
      rw [e]
      exact hpos _ (List.getElem_mem _)
    refine ⟨_, _, resample_ok sz xF x F X hF hx fX hd _ rfl hT hpos,
      resample_ok sz xF' x' F' X' hF' hx' fX' hd' _ rfl (by rw [h.sz]; exact hT) hpos', ?_⟩
    refine ⟨by rw [Arr3.build_length, Arr3.build_length, h.len], by simp only [Arr3.build, h.sz], h.d, ?_⟩
    intro i hi t ht f hf
    rw [Arr3.build_length] at hi
    change t < (if sz > 0 then sz.toNat else X.sz) at ht
    change f < X.d at hf
    have hle : tsSize (X.data.getD i []) ≤ X.sz := by
      have := tsSize_le (X.data.getD i [])
      rwa [List.getD_eq_getElem _ _ hi, (fX.wf _ (List.getElem_mem _)).1, ← List.getD_eq_getElem _ [] hi] at this
    rw [Arr3.build_entry hi ht hf, Arr3.build_entry (by rw [h.len]; exact hi) (by rw [h.sz]; exact ht) (by rw [h.d]; exact hf),
      tsSize_affine h fX.wf fX'.wf hi, h.sz, col_affine h hi hle hf, ← getD_map_affine, List.map_map]
    congr 2
    funext y
    exact interp1_affine _ _ _ _ _

/-- The point at `w` on the segment between two samples, NaN if one of them is. -/
def linAt (x y : Option K) (w : K) : Option K := x.bind fun u => y.map fun v => u + (v - u) * w

/-- Resampling through a finer grid that contains the samples. -/
theorem linAt_through (c p e T r r' n m : ℕ) (X : ℕ → Option K) (Y : ℕ → Option K) (hc : 0 < c) (hn : 0 < n - 1)
    (hm : m - 1 = c * (n - 1)) (hT : 0 < T - 1) (hr : r < T - 1) (he : c * r = e * (T - 1) + r')
    (hY : ∀ q e', e' < c → Y (q * c + e') = if e' * (n - 1) = 0 then X q else
      linAt (X q) (X (q + 1)) (((e' * (n - 1) : ℕ) : K) / ((m - 1 : ℕ) : K))) :
    (if r' = 0 then Y (p * c + e) else linAt (Y (p * c + e)) (Y (p * c + e + 1)) ((r' : K) / ((T - 1 : ℕ) : K))) =
      if r = 0 then X p else linAt (X p) (X (p + 1)) ((r : K) / ((T - 1 : ℕ) : K)) := by
  have hec : e < c := by
    by_contra hcon
    have h1 : c * (T - 1) ≤ e * (T - 1) := Nat.mul_le_mul_right _ (not_lt.1 hcon)
    have h2 : c * r < c * (T - 1) := Nat.mul_lt_mul_of_pos_left hr hc
    omega
  have hcK : (c : K) ≠ 0 := by exact_mod_cast hc.ne'
  have hnK : ((n - 1 : ℕ) : K) ≠ 0 := by exact_mod_cast hn.ne'
  have hTK : ((T - 1 : ℕ) : K) ≠ 0 := by exact_mod_cast hT.ne'
  have hw : ∀ e' : ℕ, ((e' * (n - 1) : ℕ) : K) / ((m - 1 : ℕ) : K) = (e' : K) / c := by
    intro e'
    rw [hm]
    push_cast
    field_simp
  have heK : (c : K) * r = e * ((T - 1 : ℕ) : K) + r' := by exact_mod_cast he
  have hz : ∀ e' : ℕ, e' * (n - 1) = 0 ↔ e' = 0 := fun e' => by
    rw [Nat.mul_eq_zero]; exact ⟨fun h => h.resolve_right (by omega), .inl⟩
  simp only [hw, hz] at hY
  have hY0 := hY p e hec
  by_cases hr0 : r = 0
  · have h0 : e * (T - 1) = 0 ∧ r' = 0 := by subst hr0; omega
    have he0 : e = 0 := (Nat.mul_eq_zero.1 h0.1).resolve_right (by omega)
    rw [if_pos hr0, if_pos h0.2, hY0, if_pos he0]
  rw [if_neg hr0]
  have hcr : 0 < c * r := Nat.mul_pos hc (Nat.pos_of_ne_zero hr0)
  by_cases hr0' : r' = 0
  · have he0 : e ≠ 0 := by rintro rfl; omega
    rw [if_pos hr0', hY0, if_neg he0]
    congr 1
    rw [div_eq_div_iff hcK hTK, ← sub_eq_zero]
    have : (r' : K) = 0 := by exact_mod_cast hr0'
    linear_combination -heK - this
  rw [if_neg hr0']
  have hcomb : ∀ u v : K, (u + (v - u) * (e / c)) + ((u + (v - u) * ((e + 1 : K) / c)) - (u + (v - u) * (e / c))) *
      ((r' : K) / ((T - 1 : ℕ) : K)) = u + (v - u) * ((r : K) / ((T - 1 : ℕ) : K)) := by
    intro u v
    have : (r : K) / ((T - 1 : ℕ) : K) = e / c + 1 / c * ((r' : K) / ((T - 1 : ℕ) : K)) := by
      field_simp
      linear_combination heK
    rw [this]
    field_simp
    ring
  by_cases hlast : e + 1 = c
  · have hY1 := hY (p + 1) 0 hc
    rw [if_pos rfl, show (p + 1) * c + 0 = p * c + e + 1 by rw [Nat.add_mul]; omega] at hY1
    rw [hY0, hY1]
    have hone : (e + 1 : K) / c = 1 := by rw [div_eq_one_iff_eq hcK]; exact_mod_cast hlast
    simp only [hone] at hcomb
    by_cases he0 : e = 0
    · rw [if_pos he0]
      cases X p with
      | none => rfl
      | some u =>
        cases X (p + 1) with
        | none => rfl
        | some v =>
          simp only [linAt, Option.bind_some, Option.map_some, Option.some.injEq]
          rw [← hcomb u v]
          simp only [he0, Nat.cast_zero]
          ring
    · rw [if_neg he0]
      cases X p with
      | none => rfl
      | some u =>
        cases X (p + 1) with
        | none => rfl
        | some v =>
          simp only [linAt, Option.bind_some, Option.map_some, Option.some.injEq]
          rw [← hcomb u v]
          ring
  · have hY1 := hY p (e + 1) (by omega)
    rw [if_neg (by omega), ← Nat.add_assoc] at hY1
    rw [hY0, hY1]
    push_cast
    by_cases he0 : e = 0
    · rw [if_pos he0]
      cases X p with
      | none => rfl
      | some u =>
        cases X (p + 1) with
        | none => rfl
        | some v =>
          simp only [linAt, Option.bind_some, Option.map_some, Option.some.injEq]
          rw [← hcomb u v]
          simp only [he0, Nat.cast_zero]
          ring
    · rw [if_neg he0]
      cases X p with
      | none => rfl
      | some u =>
        cases X (p + 1) with
        | none => rfl
        | some v =>
          simp only [linAt, Option.bind_some, Option.map_some, Option.some.injEq]
          rw [← hcomb u v]

/-- The sizes after resampling are all the requested one. -/
theorem resample_sizes (sz : ℤ) (xF x : DsInput K) (F X : Arr3 K) (hF : toDataset xF = .ok F)
    (hx : toDataset x = .ok X) (hX : Formatted X) (hd : F.d = X.d) (T : ℕ)
    (hT : T = if sz > 0 then sz.toNat else X.sz) (hT2 : 2 ≤ T) (hne : ∀ s ∈ X.data, ¬ IsSize s 0) (hn : X.data ≠ []) :
    ∃ Y, resample sz xF x = .ok Y ∧ Formatted Y ∧ Y.data.length = X.data.length ∧ Y.sz = T ∧ Y.d = X.d ∧
      (∀ s ∈ Y.data, IsSize s T) := by
  obtain ⟨Y, hY, hw, hl, hs, hdY, h⟩ := C31_resample sz xF x F X hF hx hX hd T hT hT2 hne
  have hsz : ∀ s ∈ Y.data, IsSize s T := by
    intro s hs'
    obtain ⟨i, hi, rfl⟩ := List.mem_iff_getElem.1 hs'
    have hi' : i < X.data.length := by omega
    have hn0 : tsSize X.data[i] ≠ 0 := fun e => hne _ (List.getElem_mem hi') (e ▸ tsSize_isSize _)
    constructor
    · right
      have ho := (tsSize_isSize X.data[i]).1.resolve_left hn0
      rw [← List.getD_eq_getElem _ [] hi', observed_entry hX.wf] at ho
      obtain ⟨f, hf, hso⟩ := ho
      rw [← List.getD_eq_getElem _ [] hi, observed_entry hw]
      refine ⟨f, by omega, ?_⟩
      rw [(h i X.data[i] _ (by simp [hi']) (tsSize_isSize _) f hf).2.1, ← List.getD_eq_getElem _ [] hi']
      exact hso
    · rintro t ht ⟨r, hr, -⟩
      have := (List.getElem?_eq_some_iff.1 hr).1
      rw [(hw _ (List.getElem_mem hi)).1] at this
      omega
  have hYn : Y.data ≠ [] := by
    intro e
    rw [e] at hl
    exact hn (List.length_eq_zero_iff.1 hl.symm)
  refine ⟨Y, hY, ⟨hw, fun e => absurd e hYn, .inr ?_⟩, hl, hs, hdY, hsz⟩
  obtain ⟨s, hs'⟩ := List.exists_mem_of_ne_nil _ hYn
  exact ⟨s, hs', hs ▸ hsz s hs'⟩

/-- Resampling what was resampled to the same size changes nothing. -/
theorem C103_resample_twice (sz : ℤ) (xF xF' x : DsInput K) (F F' X : Arr3 K) (hF : toDataset xF = .ok F)
    (hF' : toDataset xF' = .ok F') (hx : toDataset x = .ok X) (hX : Formatted X) (hd : F.d = X.d) (hd' : F'.d = X.d)
    (hT : 0 < if sz > 0 then sz.toNat else X.sz) (hne : ∀ s ∈ X.data, ¬ IsSize s 0) (hn : X.data ≠ []) :
    ∃ Y, resample sz xF x = .ok Y ∧ resample sz xF' (.series Y.slots) = .ok Y := by
  by_cases h1 : (if sz > 0 then sz.toNat else X.sz) = 1
  · obtain ⟨Y, hY, hw, hl, hs, hdY, h⟩ := C31_unit sz xF x F X hF hx hd h1
    have hYn : Y.data ≠ [] := by
      intro e
      rw [e] at hl
      exact hn (List.length_eq_zero_iff.1 hl.symm)
    have fY : Formatted Y := by
      refine ⟨hw, fun e => absurd e hYn, .inr ?_⟩
      have hi : 0 < X.data.length := List.length_pos_iff.2 hn
      have hi' : 0 < Y.data.length := by omega
      refine ⟨Y.data[0], List.getElem_mem hi', .inr ?_, ?_⟩
      · have hn0 : tsSize X.data[0] ≠ 0 := (fun (s : List (List (Option K))) (hs : s ∈ X.data) (e : tsSize s = 0) =>
          hne s hs (e ▸ tsSize_isSize s)) _ (List.getElem_mem hi)
        have ho := (tsSize_isSize X.data[0]).1.resolve_left hn0
        rw [← List.getD_eq_getElem _ [] hi, observed_entry hX.wf] at ho
        obtain ⟨f, hf, hso⟩ := ho
        rw [← List.getD_eq_getElem _ [] hi', observed_entry hw, hs]
        refine ⟨f, by omega, ?_⟩
        by_contra hc
        have hc' : Y.entry 0 0 f = none := by simpa using hc
        have hle := tsSize_le X.data[0]
        rw [(hX.wf _ (List.getElem_mem hi)).1] at hle
        have := ((h 0 hi f hf).1.1 hc') (tsSize X.data[0] - 1) (by omega)
        rw [List.getD_eq_getElem _ [] hi, this] at hso
        simp at hso
      · rintro t ht ⟨r, hr, -⟩
        have := (List.getElem?_eq_some_iff.1 hr).1
        rw [(hw _ (List.getElem_mem hi')).1] at this
        omega
    refine ⟨Y, hY, ?_⟩
    have h1' : (if sz > 0 then sz.toNat else 1) = 1 := by
      split_ifs at h1 ⊢ with h'
      · exact h1
      · rfl
    simp only [resample, hF', fY.toDataset_slots, bind, Except.bind, hd', hdY, ne_eq, not_true_eq_false, if_false, pure,
      Except.pure, hs, h1', if_true]
    congr 1
    refine Arr3.ext_entry (Arr3.build_wf _ _ _ _) hw hs.symm hdY.symm (Arr3.build_length ..) ?_
    intro i hi t ht f hf
    rw [Arr3.build_length] at hi
    change t < 1 at ht
    change f < X.d at hf
    rw [Arr3.build_entry hi ht hf]
    have : t = 0 := by omega
    subst this
    simp only [Arr3.col, List.range_one, List.map_cons, List.map_nil, nanMeanK]
    cases Y.entry i 0 f <;> simp
  · obtain ⟨Y, hY, fY, hl, hs, hdY, hsz⟩ := resample_sizes sz xF x F X hF hx hX hd _ rfl (by omega) hne hn
    refine ⟨Y, hY, ?_⟩
    apply C31_identity sz xF' (.series Y.slots) F' Y hF' fY.toDataset_slots fY (by omega) _ (by omega)
      (fun s hs' => hs ▸ hsz s hs')
    rw [hs]
    split_ifs with h'
    · right; omega
    · left; omega

/-- Resampling to a size whose grid contains the samples of every series loses nothing: a later resampling gives what
it gives on the original data, and so the original data can be had back. -/
theorem C103_resample_through (m T : ℕ) (hm : 2 ≤ m) (hT : 2 ≤ T) (xF xF' x : DsInput K) (F F' X : Arr3 K)
    (hF : toDataset xF = .ok F) (hF' : toDataset xF' = .ok F') (hx : toDataset x = .ok X) (hX : Formatted X)
    (hd : F.d = X.d) (hd' : F'.d = X.d) (hn : X.data ≠ []) (hne : ∀ s ∈ X.data, ¬ IsSize s 0)
    (hdiv : ∀ s ∈ X.data, ∀ n, IsSize s n → n = 1 ∨ (n - 1) ∣ (m - 1)) :
    ∃ Y Z, resample m xF x = .ok Y ∧ resample T xF' (.series Y.slots) = .ok Z ∧ resample T xF' x = .ok Z := by
  have hTm : ∀ (T : ℕ) (k : ℕ), 2 ≤ T → T = if (T : ℤ) > 0 then (T : ℤ).toNat else k := by
    intro T k h
    rw [if_pos (by omega)]; simp
  obtain ⟨Y, hY, fY, hl, hs, hdY, hsz⟩ := resample_sizes m xF x F X hF hx hX hd m (hTm m _ hm) hm hne hn
  obtain ⟨Y', hY', -, -, -, -, hex⟩ := C31_exact m xF x F X hF hx hX hd m (hTm m _ hm) hm hne
  rw [hY] at hY'
  cases hY'
  obtain ⟨Z, hZ, hwZ, hlZ, hsZ, hdZ, hexZ⟩ := C31_exact T xF' (.series Y.slots) F' Y hF' fY.toDataset_slots fY (by omega) T
    (hTm T _ hT) hT (fun s hs' h0 => by have := IsSize.unique (hsz s hs') h0; omega)
  obtain ⟨Z', hZ', hwZ', hlZ', hsZ', hdZ', hexZ'⟩ := C31_exact T xF' x F' X hF' hx hX hd' T (hTm T _ hT) hT hne
  refine ⟨Y, Z, hY, hZ, ?_⟩
  rw [hZ']
  congr 1
  apply Arr3.ext_entry hwZ' hwZ (by omega) (by omega) (by omega)
  intro i hi k hk f hf
  rw [hlZ'] at hi
  rw [hsZ'] at hk
  rw [hdZ'] at hf
  have hiY : i < Y.data.length := by omega
  have hsi : X.data[i]? = some X.data[i] := by simp [hi]
  have hn0 : tsSize X.data[i] ≠ 0 := fun e => hne _ (List.getElem_mem hi) (e ▸ tsSize_isSize _)
  have hiZ : X.data[i] ∈ X.data := List.getElem_mem hi
  have hsize := tsSize_isSize X.data[i]
  generalize tsSize X.data[i] = n at hn0 hsize
  have hY1 := hex i X.data[i] n hsi hsize f hf
  have hZ1 := hexZ i Y.data[i] m (by simp [hiY]) (hsz _ (List.getElem_mem hiY)) f (by omega)
  have hZ2 := hexZ' i X.data[i] n hsi hsize f hf
  have dm : ∀ a b : ℕ, 0 < b → a = a / b * b + a % b ∧ a % b < b := fun a b hb =>
    ⟨by rw [Nat.mul_comm]; exact (Nat.div_add_mod _ _).symm, Nat.mod_lt _ hb⟩
  rcases hdiv _ hiZ n hsize with h1 | ⟨c, hc⟩
  · subst h1
    rw [hZ2 k hk 0 0 (by omega) (by simp), if_pos rfl]
    obtain ⟨e1, e2⟩ := dm (k * (m - 1)) (T - 1) (by omega)
    have hall : ∀ j < m, Y.entry i j f = X.entry i 0 f := fun j hj => by
      rw [hY1 j hj 0 0 (by omega) (by simp), if_pos rfl]
    have hle : k * (m - 1) ≤ (T - 1) * (m - 1) := Nat.mul_le_mul_right _ (by omega)
    rw [hZ1 k hk _ _ e2 e1]
    have hp : k * (m - 1) / (T - 1) ≤ m - 1 := by
      exact Nat.div_le_of_le_mul hle
    split_ifs with h0
    · exact (hall _ (by omega)).symm
    · have hp1 : k * (m - 1) / (T - 1) + 1 < m := by
        by_contra hcon
        have : k * (m - 1) / (T - 1) = m - 1 := by omega
        rw [this, Nat.mul_comm (m - 1)] at e1
        omega
      rw [hall _ (by omega), hall _ hp1]
      cases X.entry i 0 f with
      | none => rfl
      | some v => simp
  · have hn1 : 0 < n - 1 := by
      rcases Nat.eq_zero_or_pos (n - 1) with h | h
      · rw [h, Nat.zero_mul] at hc; omega
      · exact h
    have hc0 : 0 < c := by
      rcases Nat.eq_zero_or_pos c with h | h
      · rw [h, Nat.mul_zero] at hc; omega
      · exact h
    rw [Nat.mul_comm] at hc
    obtain ⟨e1, e2⟩ := dm (k * (n - 1)) (T - 1) (by omega)
    set p := k * (n - 1) / (T - 1) with hp
    set r := k * (n - 1) % (T - 1) with hr
    obtain ⟨e3, e4⟩ := dm (c * r) (T - 1) (by omega)
    set e := c * r / (T - 1) with he
    set r' := c * r % (T - 1) with hr'
    have hkm : k * (m - 1) = (p * c + e) * (T - 1) + r' := by
      rw [hc, show k * (c * (n - 1)) = c * (k * (n - 1)) by ring, e1, Nat.mul_add, e3]
      ring
    rw [hZ1 k hk _ _ e4 hkm, hZ2 k hk _ _ e2 e1]
    refine (linAt_through c p e T r r' n m (fun j => X.entry i j f) (fun j => Y.entry i j f) hc0 hn1 hc (by omega) e2 e3 ?_).symm
    intro q e' he'
    have hej : e' * (n - 1) < m - 1 := by rw [hc]; exact Nat.mul_lt_mul_of_pos_right he' hn1
    have hXn : ∀ j, n ≤ j → X.entry i j f = none := fun j hj => by
      apply entry_none
      rw [List.getD_eq_getElem _ _ hi, IsSize.unique (tsSize_isSize _) hsize]; exact hj
    by_cases hj : q * c + e' < m
    · exact hY1 _ hj q _ hej (by rw [hc]; ring)
    · have hYj : Y.entry i (q * c + e') f = none := by
        apply entry_none
        rw [List.getD_eq_getElem _ _ hiY, IsSize.unique (tsSize_isSize _) (hsz _ (List.getElem_mem hiY))]; omega
      have hq : n - 1 ≤ q := by
        by_contra hcon
        have h1 : (q + 1) * c ≤ (n - 1) * c := Nat.mul_le_mul_right _ (by omega)
        rw [Nat.mul_comm (n - 1), ← hc, Nat.add_mul] at h1
        omega
      simp only [hYj]
      split_ifs with h0
      · have he0 : e' = 0 := (Nat.mul_eq_zero.1 h0).resolve_right (by omega)
        rw [hXn q]
        by_contra hcon
        have : q = n - 1 := by omega
        rw [this, he0, Nat.mul_comm (n - 1), ← hc] at hj
        omega
      · rw [hXn (q + 1) (by omega)]
        cases X.entry i q f <;> rfl

end impute

/-! ### Where it stops -/

theorem formatted_full {K : Type} (n sz d : ℕ) (g : ℕ → ℕ → ℕ → K) (hn : 0 < n) (hs : 0 < sz) (hd : 0 < d) :
    Formatted (Arr3.build n sz d fun i t f => some (g i t f)) := by
  have hl : (Arr3.build n sz d fun i t f => some (g i t f)).data.length = n := Arr3.build_length ..
  have hw := Arr3.build_wf n sz d fun i t f => some (g i t f)
  have h0 : 0 < (Arr3.build n sz d fun i t f => some (g i t f)).data.length := by rw [hl]; exact hn
  refine ⟨hw, fun e => ?_, .inr ⟨_, List.getElem_mem h0, .inr ?_, ?_⟩⟩
  · rw [e] at h0; simp at h0
  · rw [← List.getD_eq_getElem _ [] h0, observed_entry hw]
    refine ⟨0, hd, ?_⟩
    rw [Arr3.build_entry hn (by change sz - 1 < sz; omega) hd]
    rfl
  · rintro t ht ⟨r, hr, -⟩
    have := (List.getElem?_eq_some_iff.1 hr).1
    rw [(hw _ (List.getElem_mem h0)).1] at this
    omega

theorem rescaled_full {K : Type} [Ring K] (n sz d : ℕ) (g : ℕ → ℕ → ℕ → K) (a b : ℕ → ℕ → K) :
    Rescaled a b (Arr3.build n sz d fun i t f => some (g i t f))
      (Arr3.build n sz d fun i t f => some (a i f * g i t f + b i f)) := by
  refine ⟨by rw [Arr3.build_length, Arr3.build_length], rfl, rfl, ?_⟩
  intro i hi t ht f hf
  rw [Arr3.build_length] at hi
  change t < sz at ht
  change f < d at hf
  rw [Arr3.build_entry hi ht hf, Arr3.build_entry hi ht hf]
  rfl

theorem ok_of_fields {K : Type} {r : Except PyErr (Arr3 K)} {sz d : ℕ} {l : List (List (List (Option K)))}
    (h1 : r.toOption.map Arr3.sz = some sz) (h2 : r.toOption.map Arr3.d = some d) (h3 : r.toOption.map Arr3.data = some l) :
    r = .ok ⟨sz, d, l⟩ := by
  cases r with
  | error e => simp [Except.toOption] at h1
  | ok Y =>
    obtain ⟨a, b, c⟩ := Y
    simp only [Except.toOption, Option.map_some, Option.some.injEq] at h1 h2 h3
    subst h1 h2 h3
    rfl

/-- A scaler fitted on constant data divides by one whatever the unit: what it makes of other data depends on the
unit of measurement. -/
theorem C103_false_constant_fit : ∃ (cfg : MinMaxCfg ℚ) (F F' X X' Y Y' : Arr3 ℚ), cfg.lo < cfg.hi ∧
    Formatted F ∧ Formatted F' ∧ Formatted X ∧ Formatted X' ∧ F.d = X.d ∧
    Rescaled (fun _ _ => 10) (fun _ _ => 0) F F' ∧ Rescaled (fun _ _ => 10) (fun _ _ => 0) X X' ∧
    minMaxTransform cfg F X = .ok Y ∧ minMaxTransform cfg F' X' = .ok Y' ∧
    Y.entry 0 0 0 = some 2 ∧ Y'.entry 0 0 0 = some 20 := by
  have f1 := formatted_full 1 1 1 (fun _ _ _ => (1 : ℚ)) (by decide) (by decide) (by decide)
  have f2 := formatted_full 1 1 1 (fun _ _ _ => (10 * 1 + 0 : ℚ)) (by decide) (by decide) (by decide)
  have f3 := formatted_full 1 1 1 (fun _ _ _ => (3 : ℚ)) (by decide) (by decide) (by decide)
  have f4 := formatted_full 1 1 1 (fun _ _ _ => (10 * 3 + 0 : ℚ)) (by decide) (by decide) (by decide)
  refine ⟨⟨0, 1, false, true⟩, _, _, _, _, _, _, by norm_num, f1, f2, f3, f4, rfl,
    rescaled_full 1 1 1 _ (fun _ _ => 10) (fun _ _ => 0), rescaled_full 1 1 1 _ (fun _ _ => 10) (fun _ _ => 0),
    minMaxTransform_ok _ _ _ f1 f3 (by simp [Arr3.build]) (by simp [Arr3.build]) (by decide) (by decide) rfl (by norm_num),
    minMaxTransform_ok _ _ _ f2 f4 (by simp [Arr3.build]) (by simp [Arr3.build]) (by decide) (by decide) rfl (by norm_num),
    by decide +kernel, by decide +kernel⟩

/-- A scaler does not forget one that looked at smaller groups: series scaled one by one, then together. -/
theorem C103_false_finer : ∃ X Y Z Z' : Arr3 ℚ, Formatted X ∧ minMaxTransform ⟨0, 1, true, true⟩ X X = .ok Y ∧
    minMaxTransform ⟨0, 1, false, true⟩ Y Y = .ok Z ∧ minMaxTransform ⟨0, 1, false, true⟩ X X = .ok Z' ∧
    Z.entry 0 1 0 = some 1 ∧ Z'.entry 0 1 0 = some (1 / 2) := by
  have f1 := formatted_full 2 2 1 (fun i t _ => ((i + 1) * t : ℚ)) (by decide) (by decide) (by decide)
  obtain ⟨Y, h1, fY, hl, hs, hd, -⟩ := C28_range (K := ℚ) ⟨0, 1, true, true⟩ _ f1 (by simp [Arr3.build]) (by decide) (by norm_num)
  have h1' := minMaxTransform_ok ⟨(0 : ℚ), 1, true, true⟩ _ _ f1 f1 (by simp [Arr3.build]) (by simp [Arr3.build]) (by decide)
    (by decide) rfl (by norm_num)
  rw [h1'] at h1
  injection h1 with h1
  subst h1
  refine ⟨_, _, _, _, f1, h1', minMaxTransform_ok _ _ _ fY fY (by simp [Arr3.build]) (by simp [Arr3.build])
      (by decide) (by decide) rfl (by norm_num),
    minMaxTransform_ok _ _ _ f1 f1 (by simp [Arr3.build]) (by simp [Arr3.build]) (by decide) (by decide) rfl (by norm_num),
    by decide +kernel, by decide +kernel⟩

/-- Resampling through a coarser grid does lose something: `[0, 1, 0]` by way of two samples. -/
theorem C103_false_coarse : ∃ (X Y Z Z' : Arr3 ℚ), toDataset (.series X.slots) = .ok X ∧
    resample 2 (.series X.slots) (.series X.slots) = .ok Y ∧ resample 3 (.series X.slots) (.series Y.slots) = .ok Z ∧
    resample 3 (.series X.slots) (.series X.slots) = .ok Z' ∧ Z.entry 0 1 0 = some 0 ∧ Z'.entry 0 1 0 = some 1 := by
  refine ⟨⟨3, 1, [[[some 0], [some 1], [some 0]]]⟩, ⟨2, 1, [[[some 0], [some 0]]]⟩, ⟨3, 1, [[[some 0], [some 0], [some 0]]]⟩,
    ⟨3, 1, [[[some 0], [some 1], [some 0]]]⟩, ?_, ?_, ?_, ?_, rfl, rfl⟩ <;> exact ok_of_fields (by decide +kernel) (by decide +kernel) (by decide +kernel)

/-! ### Examples -/

/-- Min-max scaling of a measured series with a gap, in degrees Celsius and Fahrenheit. -/
example : ∃ Y, minMaxTransform ⟨0, 1, true, true⟩ exScal exScal = .ok Y ∧
    minMaxTransform ⟨0, 1, true, true⟩ exScal
      ⟨3, 1, [[[some 32], [some (187 / 5)], [some (214 / 5)]], [[none], [some (187 / 5)], [some (187 / 5)]]]⟩ = .ok Y := by
  have fX' : Formatted (⟨3, 1, [[[some 32], [some (187 / 5)], [some (214 / 5)]], [[none], [some (187 / 5)],
      [some (187 / 5)]]]⟩ : Arr3 ℚ) :=
    ⟨by intro s hs; fin_cases hs <;> exact ⟨rfl, by intro r hr; fin_cases hr <;> rfl⟩,
      fun h => by simp at h,
      .inr ⟨_, List.mem_cons_self, .inr ⟨_, rfl, _, List.mem_cons_self, rfl⟩, by
        rintro i hi ⟨r, hr, -⟩
        have := (List.getElem?_eq_some_iff.1 hr).1
        simp at this hi
        omega⟩⟩
  obtain ⟨h1, Y, h2⟩ := C103_minmax_units (K := ℚ) ⟨0, 1, true, true⟩ (by norm_num) (fun _ _ => 9 / 5) (fun _ _ => 32)
    (by intro _ _; norm_num) (fun _ _ _ _ _ _ => rfl) (fun _ _ _ _ _ _ => rfl) exScal exScal exScal _ exScal_formatted
    exScal_formatted exScal_formatted fX' (by simp [exScal]) (by simp [exScal]) (by simp [exScal]) (by simp [exScal])
    (by simp [exScal]) (by simp [exScal]) rfl rfl ⟨rfl, rfl, rfl, by decide +kernel⟩ (by simp) (by simp)
  exact ⟨Y, h2, h1.trans h2⟩

/-- Scaling to the unit interval over the whole dataset is forgotten by scaling every series to mean 0 and
standard deviation 1. -/
example : ∃ Y Z, (AnyScaler.minMax ⟨0, 1, false, false⟩).run
      (Arr3.build 2 3 1 fun i t _ => some ((i + t * t : ℕ) : ℝ)) (Arr3.build 2 3 1 fun i t _ => some ((i + t * t : ℕ) : ℝ)) = .ok Y ∧
    (AnyScaler.meanVar ⟨0, 1, true, true⟩).run Y Y = .ok Z ∧ (AnyScaler.meanVar ⟨0, 1, true, true⟩).run
      (Arr3.build 2 3 1 fun i t _ => some ((i + t * t : ℕ) : ℝ)) (Arr3.build 2 3 1 fun i t _ => some ((i + t * t : ℕ) : ℝ)) = .ok Z :=
  C103_forgets_fit_transform (.minMax ⟨0, 1, false, false⟩) (.meanVar ⟨0, 1, true, true⟩) (by norm_num [AnyScaler.Proper])
    (by norm_num [AnyScaler.Proper]) (fun h => by simp [AnyScaler.perTs] at h) (fun h => by simp [AnyScaler.perFeat] at h) _
    (formatted_full 2 3 1 (fun i t _ => ((i + t * t : ℕ) : ℝ)) (by decide) (by decide) (by decide)) (by simp [Arr3.build]) (by decide)

/-- A linear imputation, and the same again. -/
example : ∃ Y : Arr3 ℚ, impute .linear true (.scalars [some 1, none, none, some 4, none])
      (.scalars [some 1, none, none, some 4, none]) = .ok Y ∧ Y.data = [[[some 1], [some 2], [some 3], [some 4]]] ∧
    impute .linear true (.scalars [some 1, none, none, some 4, none]) (.series Y.slots) = .ok Y :=
  ⟨⟨4, 1, [[[some 1], [some 2], [some 3], [some 4]]]⟩, ok_of_fields (by decide +kernel) (by decide +kernel) (by decide +kernel), rfl, ok_of_fields (by decide +kernel) (by decide +kernel) (by decide +kernel)⟩

/-- Three samples by way of five are had back. -/
example : ∃ Y Z : Arr3 ℚ, resample 5 (.scalars [some 0, some 1, some 4]) (.scalars [some 0, some 1, some 4]) = .ok Y ∧
    resample 3 (.scalars [some 0, some 1, some 4]) (.series Y.slots) = .ok Z ∧
    resample 3 (.scalars [some 0, some 1, some 4]) (.scalars [some 0, some 1, some 4]) = .ok Z := by
  have hX : toDataset (.scalars [some (0 : ℚ), some 1, some 4]) = .ok ⟨3, 1, [[[some 0], [some 1], [some 4]]]⟩ := rfl
  have hs : IsSize [[some (0 : ℚ)], [some 1], [some 4]] 3 := by
    have := tsSize_isSize [[some (0 : ℚ)], [some 1], [some 4]]
    rwa [show tsSize [[some (0 : ℚ)], [some 1], [some 4]] = 3 from rfl] at this
  have fX : Formatted (⟨3, 1, [[[some 0], [some 1], [some 4]]]⟩ : Arr3 ℚ) :=
    formatted_full 1 3 1 (fun _ t _ => if t = 0 then (0 : ℚ) else if t = 1 then 1 else 4) (by decide) (by decide) (by decide)
  exact C103_resample_through 5 3 (by decide) (by decide) _ _ _ _ _ _ hX hX hX fX rfl rfl (by simp)
    (fun s h h0 => by
      simp only [List.mem_singleton] at h
      subst h
      exact absurd (IsSize.unique hs h0) (by decide))
    (fun s h n hn => by
      simp only [List.mem_singleton] at h
      subst h
      rw [← IsSize.unique hs hn]
      exact .inr ⟨2, rfl⟩)

end Verif
