import Verif.Model.RoundedScaler
import Verif.Spec.Binary
import Verif.Proofs.Binary
import Verif.Props.C28
import Verif.Props.C29
import Verif.Props.C98
import Verif.Props.C103
import Mathlib.Tactic.LinearCombination
/-!
# C105 — Scaling in rounded arithmetic

What scaled values may be relied on when every operation rounds: order, range, accuracy, and what
becomes of constant series.
-/
set_option linter.unusedSectionVars false
namespace Verif
open Spec

/-! ## Min-max scaling -/

section
variable {K : Type} [Field K] [LinearOrder K] [IsStrictOrderedRing K]

theorem rMinMaxTransform_ok (rnd : K → K) (cfg : MinMaxCfg K) (F X : Arr3 K)
    (hF : Formatted F) (hX : Formatted X) (hFn : F.data ≠ []) (hXn : X.data ≠ []) (hFs : 0 < F.sz)
    (hXs : 0 < X.sz) (hd : F.d = X.d) (hr : cfg.lo < cfg.hi) :
    rMinMaxTransform rnd cfg F X = .ok (Arr3.build X.data.length X.sz X.d fun i t f =>
      rMinMaxValue rnd cfg.lo cfg.hi
        (nanMin (if cfg.perTs then X.group true cfg.perFeat i f else F.group false cfg.perFeat 0 f))
        (nanMax (if cfg.perTs then X.group true cfg.perFeat i f else F.group false cfg.perFeat 0 f))
        (X.entry i t f)) := by
  simp [rMinMaxTransform, hF.toDataset_slots, hX.toDataset_slots, bind, Except.bind, pure, Except.pure,
    hFn, hXn, hFs.ne', hXs.ne', hd, not_le.2 hr]

/-- A rounding as a factor. -/
theorem Spec.RelErr.factor {rnd : K → K} {u : K} (hr : RelErr rnd u) (hu : 0 ≤ u) (a : K) :
    ∃ δ, |δ| ≤ u ∧ rnd a = a * (1 + δ) := by
  rcases eq_or_ne a 0 with rfl | ha
  · exact ⟨0, by simpa using hu, by simp [hr.zero]⟩
  · refine ⟨(rnd a - a) / a, ?_, by field_simp; ring⟩
    rw [abs_div, div_le_iff₀ (abs_pos.2 ha)]
    exact hr a

theorem factor_two {a b α β : K} (ha : |a| ≤ α) (hb : |b| ≤ β) : |(1 + a) * (1 + b) - 1| ≤ α + β + α * β := by
  rw [show (1 + a) * (1 + b) - 1 = a + b + a * b by ring]
  calc |a + b + a * b| ≤ |a + b| + |a * b| := abs_add_le _ _
    _ ≤ |a| + |b| + |a| * |b| := by rw [abs_mul]; linarith [abs_add_le a b]
    _ ≤ _ := by
      have := mul_le_mul ha hb (abs_nonneg b) ((abs_nonneg a).trans ha)
      linarith

theorem four_errors {u : K} (hu : 0 ≤ u) (hu1 : u ≤ 1 / 10) :
    (u + u + u * u) + (u + u + u * u) + (u + u + u * u) * (u + u + u * u) ≤ 47 / 10 * u := by
  have h1 : u + u + u * u ≤ 21 / 10 * u := by nlinarith
  have h0 : 0 ≤ u + u + u * u := by positivity
  generalize u + u + u * u = P at *
  have : P * P ≤ 21 / 100 * P := mul_le_mul_of_nonneg_right (by linarith) h0
  linarith

theorem quot_error {u p a : K} (hu : 0 ≤ u) (hu1 : u ≤ 1 / 10) (hp : |p - 1| ≤ 47 / 10 * u)
    (ha : |a| ≤ u) : |p / (1 + a) - 1| ≤ 634 / 100 * u := by
  have h2 : 9 / 10 ≤ 1 + a := by linarith [(abs_le.1 ha).1]
  have a1 : 0 < 1 + a := by linarith
  rw [show p / (1 + a) - 1 = (p - 1 - a) / (1 + a) by field_simp; ring, abs_div, abs_of_pos a1,
    div_le_iff₀ a1]
  have h1 : |p - 1 - a| ≤ 57 / 10 * u := (abs_sub _ _).trans (by linarith)
  have h3 : 634 / 100 * u * (9 / 10) ≤ 634 / 100 * u * (1 + a) :=
    mul_le_mul_of_nonneg_left h2 (by positivity)
  linarith

theorem add_error {rnd : K → K} {u : K} (hr : RelErr rnd u) (hu : 0 ≤ u) (hu1 : u ≤ 1 / 10)
    {z q lo : K} (hq : |q - 1| ≤ 634 / 100 * u) :
    |rnd (z * q + lo) - (z + lo)| ≤ 7 * u * |z + lo - lo| + u * |z + lo| := by
  have hy := hr (z * q + lo)
  have h1 : |z * q + lo - (z + lo)| ≤ 634 / 100 * (u * |z|) := by
    rw [show z * q + lo - (z + lo) = (q - 1) * z by ring, abs_mul, ← mul_assoc]
    exact mul_le_mul_of_nonneg_right hq (abs_nonneg z)
  have h2 : |z * q + lo| ≤ |z + lo| + 634 / 100 * (u * |z|) := by
    have := abs_sub_abs_le_abs_sub (z * q + lo) (z + lo)
    linarith
  have h3 : |rnd (z * q + lo) - (z + lo)| ≤ |rnd (z * q + lo) - (z * q + lo)| + |z * q + lo - (z + lo)| := by
    calc _ = |(rnd (z * q + lo) - (z * q + lo)) + (z * q + lo - (z + lo))| := by ring_nf
      _ ≤ _ := abs_add_le _ _
  have h4 : u * |z * q + lo| ≤ u * (|z + lo| + 634 / 100 * (u * |z|)) := mul_le_mul_of_nonneg_left h2 hu
  have h6 : 0 ≤ u * |z| := by positivity
  have h5 : u * (u * |z|) ≤ 1 / 10 * (u * |z|) := mul_le_mul_of_nonneg_right hu1 h6
  rw [show z + lo - lo = z by ring]
  linarith

theorem group_cell (cfg : MinMaxCfg K) (F X : Arr3 K) (i f : ℕ) :
    (if cfg.perTs = true then X.group true cfg.perFeat i f else F.group false cfg.perFeat 0 f) =
      (if cfg.perTs then X else F).group cfg.perTs cfg.perFeat i f := by
  cases cfg.perTs with
  | true => rfl
  | false => exact group_congr _ _ _ (by simp) (fun _ => rfl)

/-- One scaled value: within `7 u` of its distance to the lower end, and one rounding. -/
theorem rMinMaxValue_near {rnd : K → K} {u : K} (hr : RelErr rnd u) (hu : 0 ≤ u) (hu1 : u ≤ 1 / 10)
    (lo hi mn mx v : K) :
    ∃ y y', minMaxValue lo hi (some mn) (some mx) (some v) = some y ∧
      rMinMaxValue rnd lo hi (some mn) (some mx) (some v) = some y' ∧
      |y' - y| ≤ 7 * u * |y - lo| + u * |y| := by
  refine ⟨_, _, rfl, rfl, ?_⟩
  obtain ⟨a, ha, ea⟩ := hr.factor hu (mx - mn)
  obtain ⟨b, hb, eb⟩ := hr.factor hu (v - mn)
  obtain ⟨c, hc, ec⟩ := hr.factor hu (hi - lo)
  have a1 : 0 < 1 + a := by linarith [(abs_le.1 ha).1]
  -- the divisor is the exact one up to a factor
  obtain ⟨a', ha', ea'⟩ : ∃ a', |a'| ≤ u ∧ (if rnd (mx - mn) = 0 then (1 : K) else rnd (mx - mn)) =
      (if mx - mn = 0 then 1 else mx - mn) * (1 + a') := by
    by_cases h0 : mx - mn = 0
    · exact ⟨0, by simpa using hu, by rw [h0, hr.zero]; simp⟩
    · refine ⟨a, ha, ?_⟩
      have : rnd (mx - mn) ≠ 0 := by rw [ea]; exact mul_ne_zero h0 a1.ne'
      rw [if_neg this, if_neg h0, ea]
  have hR : (if mx - mn = 0 then (1 : K) else mx - mn) ≠ 0 := by split_ifs with h <;> simp_all
  generalize (if mx - mn = 0 then (1 : K) else mx - mn) = R at *
  simp only [ea', eb, ec]
  set w := hi - lo with hw
  obtain ⟨d, hd, ed⟩ := hr.factor hu ((v - mn) * (1 + b) * (w * (1 + c)))
  rw [ed]
  obtain ⟨e, he, ee⟩ := hr.factor hu ((v - mn) * (1 + b) * (w * (1 + c)) * (1 + d) / (R * (1 + a')))
  rw [ee]
  have a1' : 0 < 1 + a' := by linarith [(abs_le.1 ha').1]
  set z := (v - mn) * w / R with hz
  have e1 : (v - mn) * (1 + b) * (w * (1 + c)) * (1 + d) / (R * (1 + a')) * (1 + e) =
      z * (((1 + b) * (1 + c)) * ((1 + d) * (1 + e)) / (1 + a')) := by
    rw [hz]; field_simp
  have p1 := factor_two hb hc
  have p2 := factor_two hd he
  have p3 := factor_two p1 p2
  have e2 : (1 + ((1 + b) * (1 + c) - 1)) * (1 + ((1 + d) * (1 + e) - 1)) =
      ((1 + b) * (1 + c)) * ((1 + d) * (1 + e)) := by ring
  rw [e2] at p3
  set p := ((1 + b) * (1 + c)) * ((1 + d) * (1 + e)) with hp
  have hp1 : |p - 1| ≤ 47 / 10 * u := by
    exact p3.trans (four_errors hu hu1)
  have hq := quot_error hu hu1 hp1 ha'
  rw [e1]
  set q := p / (1 + a') with hqd
  exact add_error hr hu hu1 hq

/-- `fit(F).transform(X)` of the min-max scaler: the same NaNs, and every value within rounding of the
exact one. -/
theorem C105_minmax_error {rnd : K → K} {u : K} (hr : RelErr rnd u) (hu : 0 ≤ u) (hu1 : u ≤ 1 / 10)
    (cfg : MinMaxCfg K) (F X : Arr3 K) (hF : Formatted F) (hX : Formatted X) (hFn : F.data ≠ [])
    (hXn : X.data ≠ []) (hFs : 0 < F.sz) (hXs : 0 < X.sz) (hd : F.d = X.d) (hc : cfg.lo < cfg.hi) :
    ∃ Y Y', minMaxTransform cfg F X = .ok Y ∧ rMinMaxTransform rnd cfg F X = .ok Y' ∧
      ∀ i < X.data.length, ∀ t < X.sz, ∀ f < X.d,
        (Y'.entry i t f = none ↔ Y.entry i t f = none) ∧
        ∀ y y', Y.entry i t f = some y → Y'.entry i t f = some y' →
          |y' - y| ≤ 7 * u * |y - cfg.lo| + u * |y| := by
  refine ⟨_, _, minMaxTransform_ok cfg F X hF hX hFn hXn hFs hXs hd hc,
    rMinMaxTransform_ok rnd cfg F X hF hX hFn hXn hFs hXs hd hc, fun i hi t ht f hf => ?_⟩
  rw [Arr3.build_entry hi ht hf, Arr3.build_entry hi ht hf]
  generalize (if cfg.perTs = true then X.group true cfg.perFeat i f else F.group false cfg.perFeat 0 f) = g
  cases nanMin g with
  | none => simp [minMaxValue, rMinMaxValue]
  | some mn =>
    cases nanMax g with
    | none => simp [minMaxValue, rMinMaxValue]
    | some mx =>
      cases X.entry i t f with
      | none => simp [minMaxValue, rMinMaxValue]
      | some v =>
        obtain ⟨y, y', e, e', hy⟩ := rMinMaxValue_near hr hu hu1 cfg.lo cfg.hi mn mx v
        rw [e, e']
        refine ⟨by simp, fun a a' h h' => ?_⟩
        rw [← Option.some.inj h, ← Option.some.inj h']
        exact hy

theorem rMinMaxValue_mono {rnd : K → K} (hm : Monotone rnd) (h0 : rnd 0 = 0) {lo hi mn mx v v' y y' : K}
    (hc : lo ≤ hi) (hmm : mn ≤ mx) (hv : v ≤ v')
    (h : rMinMaxValue rnd lo hi (some mn) (some mx) (some v) = some y)
    (h' : rMinMaxValue rnd lo hi (some mn) (some mx) (some v') = some y') : y ≤ y' := by
  simp only [rMinMaxValue, Option.some.injEq] at h h'
  have nn : ∀ a : K, 0 ≤ a → 0 ≤ rnd a := fun a ha => h0 ▸ hm ha
  subst h h'
  have hR : 0 ≤ (if rnd (mx - mn) = 0 then (1 : K) else rnd (mx - mn)) := by
    split_ifs
    · exact zero_le_one
    · exact nn _ (by linarith)
  refine hm (add_le_add_left (hm (div_le_div_of_nonneg_right (hm ?_) hR)) lo)
  exact mul_le_mul_of_nonneg_right (hm (by linarith)) (nn _ (by linarith))

theorem nanMin_nanMax {g : List K} {mn mx : K} (h1 : nanMin g = some mn) (h2 : nanMax g = some mx) :
    mn ∈ g ∧ mx ∈ g ∧ ∀ v ∈ g, mn ≤ v ∧ v ≤ mx := by
  have hg : g ≠ [] := by rintro rfl; simp [nanMin] at h1
  obtain ⟨m, M, hm, hM, hb⟩ := exists_min_max g hg
  rw [nanMin_spec g m hm fun v hv => (hb v hv).1] at h1
  rw [nanMax_spec g M hM fun v hv => (hb v hv).2] at h2
  obtain rfl := Option.some.inj h1
  obtain rfl := Option.some.inj h2
  exact ⟨hm, hM, hb⟩

/-- Rounded min-max scaling keeps the order of the values that are scaled together. -/
theorem C105_minmax_order {rnd : K → K} (hm : Monotone rnd) (h0 : rnd 0 = 0)
    (cfg : MinMaxCfg K) (F X : Arr3 K) (hF : Formatted F) (hX : Formatted X) (hFn : F.data ≠ [])
    (hXn : X.data ≠ []) (hFs : 0 < F.sz) (hXs : 0 < X.sz) (hd : F.d = X.d) (hc : cfg.lo < cfg.hi) :
    ∃ Y', rMinMaxTransform rnd cfg F X = .ok Y' ∧
      ∀ i < X.data.length, ∀ t < X.sz, ∀ f < X.d, ∀ i' < X.data.length, ∀ t' < X.sz, ∀ f' < X.d,
        (cfg.perTs = true → i' = i) → (cfg.perFeat = true → f' = f) →
        ∀ v v' y y', X.entry i t f = some v → X.entry i' t' f' = some v' → v ≤ v' →
          Y'.entry i t f = some y → Y'.entry i' t' f' = some y' → y ≤ y' := by
  refine ⟨_, rMinMaxTransform_ok rnd cfg F X hF hX hFn hXn hFs hXs hd hc, ?_⟩
  intro i hi t ht f hf i' hi' t' ht' f' hf' h1 h2 v v' y y' hv hv' hle hy hy'
  rw [Arr3.build_entry hi ht hf, group_cell, hv] at hy
  rw [Arr3.build_entry hi' ht' hf', group_cell, hv', group_congr _ _ _ h1 h2] at hy'
  generalize (if cfg.perTs then X else F).group cfg.perTs cfg.perFeat i f = g at hy hy'
  cases hmn : nanMin g with
  | none => simp [hmn, rMinMaxValue] at hy
  | some mn =>
    cases hmx : nanMax g with
    | none => simp [hmn, hmx, rMinMaxValue] at hy
    | some mx =>
      rw [hmn, hmx] at hy hy'
      obtain ⟨ha, -, hb⟩ := nanMin_nanMax hmn hmx
      exact rMinMaxValue_mono hm h0 hc.le (hb _ ha).2 hle hy hy'

/-- `fit_transform` to a range whose width is a power of two (such as the default `(0, 1)`, or
`(-1, 1)`): rounding never leaves the range, and both ends are reached exactly. -/
theorem C105_minmax_range {rnd : K → K} (hm : Monotone rnd) (h0 : rnd 0 = 0) (h1 : rnd 1 = 1)
    (hid : ∀ a, rnd (rnd a) = rnd a) (cfg : MinMaxCfg K)
    (hw : ∀ a, rnd ((cfg.hi - cfg.lo) * a) = (cfg.hi - cfg.lo) * rnd a) (hlo : rnd cfg.lo = cfg.lo)
    (hhi : rnd cfg.hi = cfg.hi) (X : Arr3 K) (hX : Formatted X)
    (hXn : X.data ≠ []) (hXs : 0 < X.sz) (hc : cfg.lo < cfg.hi) :
    ∃ Y', rMinMaxTransform rnd cfg X X = .ok Y' ∧
      ∀ i < X.data.length, ∀ t < X.sz, ∀ f < X.d, ∀ v, X.entry i t f = some v →
        ∃ y, Y'.entry i t f = some y ∧ cfg.lo ≤ y ∧ y ≤ cfg.hi ∧
          ((∀ w ∈ X.group cfg.perTs cfg.perFeat i f, v ≤ w) → y = cfg.lo) ∧
          ∀ w₀ ∈ X.group cfg.perTs cfg.perFeat i f, rnd (v - w₀) ≠ 0 →
            (∀ w ∈ X.group cfg.perTs cfg.perFeat i f, w ≤ v) → y = cfg.hi := by
  refine ⟨_, rMinMaxTransform_ok rnd cfg X X hX hX hXn hXn hXs hXs rfl hc, ?_⟩
  intro i hi t ht f hf v hv
  rw [Arr3.build_entry hi ht hf, group_cell, hv]
  have hvg : v ∈ X.group cfg.perTs cfg.perFeat i f :=
    (mem_group ..).2 ⟨i, t, f, hi, ht, hf, fun _ => rfl, fun _ => rfl, hv⟩
  rw [show (if cfg.perTs = true then X else X) = X by split_ifs <;> rfl]
  generalize X.group cfg.perTs cfg.perFeat i f = g at hvg
  obtain ⟨mn, mx, hmn, hmx, hb⟩ := exists_min_max g (List.ne_nil_of_mem hvg)
  rw [nanMin_spec g mn hmn fun v hv => (hb v hv).1, nanMax_spec g mx hmx fun v hv => (hb v hv).2]
  refine ⟨_, rfl, ?_⟩
  set W := cfg.hi - cfg.lo with hW
  have hW0 : 0 < W := by rw [hW]; linarith
  have hW1 : rnd W = W := by have := hw 1; rwa [mul_one, h1, mul_one] at this
  have hval : ∀ x, rnd (rnd (rnd (rnd x * rnd W) / (if rnd (mx - mn) = 0 then 1 else rnd (mx - mn))) + cfg.lo) =
      rnd (W * rnd (rnd x / (if rnd (mx - mn) = 0 then 1 else rnd (mx - mn))) + cfg.lo) := by
    intro x
    rw [hW1, mul_comm (rnd x), hw, hid, mul_div_assoc, hw]
  have hmn0 := hb v hvg
  have nn : ∀ a : K, 0 ≤ a → 0 ≤ rnd a := fun a ha => h0 ▸ hm ha
  have hR : 0 ≤ rnd (mx - mn) := nn _ (by linarith)
  have hd0 : 0 ≤ rnd (v - mn) := nn _ (by linarith)
  have hd1 : rnd (v - mn) ≤ rnd (mx - mn) := hm (by linarith)
  -- the quotient lies between zero and one
  have hq0 : 0 ≤ rnd (rnd (v - mn) / (if rnd (mx - mn) = 0 then 1 else rnd (mx - mn))) := by
    apply nn
    split_ifs
    · simpa using hd0
    · exact div_nonneg hd0 hR
  have hq1 : rnd (rnd (v - mn) / (if rnd (mx - mn) = 0 then 1 else rnd (mx - mn))) ≤ 1 := by
    refine le_of_le_of_eq (hm ?_) h1
    split_ifs with hz
    · rw [div_one]; rw [hz] at hd1; linarith
    · exact div_le_one_of_le₀ hd1 hR
  rw [hval]
  set q := rnd (rnd (v - mn) / (if rnd (mx - mn) = 0 then 1 else rnd (mx - mn))) with hq
  refine ⟨?_, ?_, ?_, ?_⟩
  · calc cfg.lo = rnd cfg.lo := hlo.symm
      _ ≤ _ := hm (by nlinarith)
  · calc rnd (W * q + cfg.lo) ≤ rnd cfg.hi := hm (by rw [hW] at *; nlinarith)
      _ = cfg.hi := hhi
  · intro hmin
    have e : v = mn := le_antisymm (hmin mn hmn) hmn0.1
    have hq' : q = 0 := by rw [hq, e, sub_self, h0, zero_div, h0]
    rw [hq', mul_zero, zero_add, hlo]
  · intro w₀ hw₀ hne hmax
    have e : v = mx := le_antisymm hmn0.2 (hmax mx hmx)
    have hpos : 0 < rnd (mx - mn) := by
      have p0 : 0 ≤ rnd (v - w₀) := nn _ (by linarith [hmax w₀ hw₀])
      have p1 : rnd (v - w₀) ≤ rnd (mx - mn) := hm (by linarith [(hb w₀ hw₀).1])
      exact (lt_of_le_of_ne p0 hne.symm).trans_le p1
    have hq' : q = 1 := by rw [hq, e, if_neg hpos.ne', div_self hpos.ne', h1]
    rw [hq', mul_one, hW, sub_add_cancel, hhi]

end

/-! ## Sums in an unknown order -/

section
variable {K : Type} [Field K] [LinearOrder K] [IsStrictOrderedRing K]

/-- Whatever the order of summation, the error is at most one rounding per term, relative to the sum of
the absolute values. -/
theorem C105_sum_error {rnd : K → K} {u : K} (hr : RelErr rnd u) (hu : 0 ≤ u) {l : List K} {s : K}
    (h : RoundedSum rnd l s) : |s - l.sum| ≤ ((1 + u) ^ l.length - 1) * (l.map abs).sum := by
  have one : (1 : K) ≤ 1 + u := by linarith
  have nn : ∀ l : List K, 0 ≤ (l.map abs).sum := fun l =>
    List.sum_nonneg (by simp only [List.mem_map]; rintro _ ⟨a, -, rfl⟩; exact abs_nonneg a)
  have tri : ∀ l : List K, |l.sum| ≤ (l.map abs).sum := by
    intro l
    induction l with
    | nil => simp
    | cons a l ih => simp only [List.sum_cons, List.map_cons]; exact (abs_add_le _ _).trans (by linarith)
  induction h with
  | nil => simp
  | single a => simpa using mul_nonneg hu (abs_nonneg a)
  | first a => simpa using hr a
  | @add l l' s s' hl hl' _ _ ih ih' =>
    have e := List.length_pos_iff.2 hl
    have e' := List.length_pos_iff.2 hl'
    obtain ⟨N, hN⟩ : ∃ N, l.length + l'.length = N + 1 := ⟨l.length + l'.length - 1, by omega⟩
    have p1 : (1 + u) ^ l.length ≤ (1 + u) ^ N := pow_le_pow_right₀ one (by omega)
    have p2 : (1 + u) ^ l'.length ≤ (1 + u) ^ N := pow_le_pow_right₀ one (by omega)
    have q1 := mul_le_mul_of_nonneg_right p1 (nn l)
    have q2 := mul_le_mul_of_nonneg_right p2 (nn l')
    have hsum : |s + s' - (l.sum + l'.sum)| ≤ ((1 + u) ^ N - 1) * ((l.map abs).sum + (l'.map abs).sum) := by
      calc _ = |(s - l.sum) + (s' - l'.sum)| := by ring_nf
        _ ≤ |s - l.sum| + |s' - l'.sum| := abs_add_le _ _
        _ ≤ _ := by linarith
    have habs : |s + s'| ≤ (1 + u) ^ N * ((l.map abs).sum + (l'.map abs).sum) := by
      have h1 := abs_sub_abs_le_abs_sub (s + s') (l.sum + l'.sum)
      have h2 := (abs_add_le l.sum l'.sum).trans (add_le_add (tri l) (tri l'))
      linarith
    have hrr := hr (s + s')
    have := mul_le_mul_of_nonneg_left habs hu
    rw [List.length_append, hN, List.sum_append, List.map_append, List.sum_append, pow_succ]
    calc |rnd (s + s') - (l.sum + l'.sum)| =
          |(rnd (s + s') - (s + s')) + (s + s' - (l.sum + l'.sum))| := by ring_nf
      _ ≤ |rnd (s + s') - (s + s')| + |s + s' - (l.sum + l'.sum)| := abs_add_le _ _
      _ ≤ _ := by linarith
  | @perm l l' s hp _ ih =>
    rw [← hp.length_eq, ← hp.sum_eq, ← (hp.map abs).sum_eq]
    exact ih

theorem roundedSum_near {rnd : K → K} {u : K} (hr : RelErr rnd u) (hu : 0 ≤ u) (hu1 : u ≤ 1) {l : List K}
    {s : K} (h : RoundedSum rnd l s) (hl : ∀ a ∈ l, 0 ≤ a) : NearRel u l.length s l.sum := by
  induction h with
  | nil => simpa using NearRel.zero u 0
  | single a =>
    simpa using (NearRel.refl u a).mono hu hu1 (hl a (by simp)) (by omega : 0 ≤ 1)
  | first a =>
    simpa using NearRel.rnd hr hu hu1 (hl a (by simp)) (NearRel.refl u a)
  | @add l l' s s' hn hn' _ _ ih ih' =>
    have e := List.length_pos_iff.2 hn
    have e' := List.length_pos_iff.2 hn'
    have h1 := List.sum_nonneg fun a (ha : a ∈ l) => hl a (by simp [ha])
    have h2 := List.sum_nonneg fun a (ha : a ∈ l') => hl a (by simp [ha])
    have g1 := (ih fun a ha => hl a (by simp [ha])).mono hu hu1 h1
      (by omega : l.length ≤ l.length + l'.length - 1)
    have g2 := (ih' fun a ha => hl a (by simp [ha])).mono hu hu1 h2
      (by omega : l'.length ≤ l.length + l'.length - 1)
    have := NearRel.rnd hr hu hu1 (add_nonneg h1 h2) (g1.add g2)
    rw [show l.length + l'.length - 1 + 1 = (l ++ l').length by simp; omega] at this
    simpa using this
  | @perm l l' s hp _ ih =>
    rw [← hp.length_eq, ← hp.sum_eq]
    exact ih fun a ha => hl a (hp.mem_iff.1 ha)

theorem Spec.NearRel.div {u : K} {N : ℕ} {a' a c : K} (h : NearRel u N a' a) (hc : 0 ≤ c) :
    NearRel u N (a' / c) (a / c) := by
  constructor
  · rw [← mul_div_assoc]; exact div_le_div_of_nonneg_right h.1 hc
  · rw [← mul_div_assoc]; exact div_le_div_of_nonneg_right h.2 hc

theorem Spec.NearRel.sum {u : K} {N : ℕ} {A : Type} (l : List A) (f g : A → K)
    (h : ∀ a ∈ l, NearRel u N (f a) (g a)) : NearRel u N (l.map f).sum (l.map g).sum := by
  induction l with
  | nil => simpa using NearRel.zero u N
  | cons a l ih =>
    simpa using (h a (by simp)).add (ih fun b hb => h b (by simp [hb]))

end

/-! ## Mean-variance scaling -/

/-- The computed mean: an error relative to the mean absolute value. -/
theorem rNanMean_error {rnd : ℝ → ℝ} {u : ℝ} (hr : RelErr rnd u) (hu : 0 ≤ u)
    {sum : List ℝ → ℝ} (hsum : ∀ l, RoundedSum rnd l (sum l)) (g : List ℝ) (hg : g ≠ []) :
    ∃ m', rNanMean rnd sum g = some m' ∧
      |m' - g.sum / g.length| ≤ ((1 + u) ^ (g.length + 1) - 1) * ((g.map abs).sum / g.length) := by
  refine ⟨_, by rw [rNanMean, if_neg hg], ?_⟩
  have hn : (0 : ℝ) < g.length := by exact_mod_cast List.length_pos_iff.2 hg
  have h := C105_sum_error hr hu (hsum g)
  have hA : |g.sum| ≤ (g.map abs).sum := by
    clear h hn hg
    induction g with
    | nil => simp
    | cons a l ih => simp only [List.sum_cons, List.map_cons]; exact (abs_add_le _ _).trans (by linarith)
  set A := (g.map abs).sum
  set P := (1 + u) ^ g.length with hP
  have h1 : |sum g / g.length - g.sum / g.length| ≤ (P - 1) * (A / g.length) := by
    rw [← sub_div, abs_div, abs_of_pos hn, ← mul_div_assoc]
    exact div_le_div_of_nonneg_right h hn.le
  have h2 : |sum g / g.length| ≤ P * (A / g.length) := by
    have := abs_sub_abs_le_abs_sub (sum g / g.length) (g.sum / g.length)
    have h3 : |g.sum / g.length| ≤ A / g.length := by
      rw [abs_div, abs_of_pos hn]; exact div_le_div_of_nonneg_right hA hn.le
    linarith
  have h4 := hr (sum g / g.length)
  have h5 := mul_le_mul_of_nonneg_left h2 hu
  rw [pow_succ, ← hP]
  calc _ = |(rnd (sum g / g.length) - sum g / g.length) + (sum g / g.length - g.sum / g.length)| := by ring_nf
    _ ≤ |rnd (sum g / g.length) - sum g / g.length| + |sum g / g.length - g.sum / g.length| := abs_add_le _ _
    _ ≤ _ := by linarith

theorem sum_sq_shift (g : List ℝ) (c : ℝ) :
    (g.map fun x => (x - c) ^ 2).sum = (g.map fun x => x ^ 2).sum - 2 * c * g.sum + g.length * c ^ 2 := by
  induction g with
  | nil => simp
  | cons a g ih => simp only [List.map_cons, List.sum_cons, ih, List.length_cons]; push_cast; ring

/-- The computed deviation from the computed mean `m'`. -/
theorem rNanStd_near {rnd : ℝ → ℝ} {u : ℝ} (hr : RelErr rnd u) (hu : 0 ≤ u) (hu1 : u ≤ 1)
    {sum : List ℝ → ℝ} (hsum : ∀ l, RoundedSum rnd l (sum l)) (g : List ℝ) (hg : g ≠ []) :
    ∃ m' s', rNanMean rnd sum g = some m' ∧ rNanStd rnd sum g = some s' ∧ 0 ≤ s' ∧
      NearRel u (g.length + 6) (s' ^ 2) ((g.map fun x => (x - m') ^ 2).sum / g.length) := by
  have hm : rNanMean rnd sum g = some (rnd (sum g / g.length)) := by rw [rNanMean, if_neg hg]
  refine ⟨_, _, hm, by rw [rNanStd, hm]; rfl, ?_⟩
  set m' := rnd (sum g / g.length)
  set sq : ℝ → ℝ := fun x => rnd (rnd (x - m') * rnd (x - m')) with hsq
  have hn : (0 : ℝ) ≤ g.length := Nat.cast_nonneg _
  have h1 : ∀ x, NearRel u 3 (sq x) ((x - m') ^ 2) := fun x => near_sq hr hu hu1 (x - m')
  have h0 : ∀ a ∈ g.map sq, 0 ≤ a := by
    simp only [List.mem_map]
    rintro _ ⟨x, -, rfl⟩
    exact (h1 x).nonneg hu1 (sq_nonneg _)
  have h2 := roundedSum_near hr hu hu1 (hsum (g.map sq)) h0
  have h3 : NearRel u 3 (g.map sq).sum (g.map fun x => (x - m') ^ 2).sum :=
    NearRel.sum g _ _ fun x _ => h1 x
  rw [List.length_map] at h2
  have hnn : 0 ≤ (g.map fun x => (x - m') ^ 2).sum :=
    List.sum_nonneg (by simp only [List.mem_map]; rintro _ ⟨a, -, rfl⟩; exact sq_nonneg _)
  have h4 : NearRel u (g.length + 3) (sum (g.map sq)) (g.map fun x => (x - m') ^ 2).sum := by
    constructor
    · rw [pow_add, mul_assoc]
      exact (mul_le_mul_of_nonneg_left h3.1 (pow_nonneg (by linarith) _)).trans h2.1
    · rw [pow_add, mul_assoc]
      exact h2.2.trans (mul_le_mul_of_nonneg_left h3.2 (pow_nonneg (by linarith) _))
  have h5 := NearRel.rnd hr hu hu1 (div_nonneg hnn hn) (h4.div hn)
  exact near_sqrt hr hu1 (div_nonneg hnn hn) h5

theorem rMeanVarTransform_ok (rnd : ℝ → ℝ) (sum : List ℝ → ℝ) (cfg : MeanVarCfg) (F X : Arr3 ℝ)
    (hF : Formatted F) (hX : Formatted X) (hFn : F.data ≠ []) (hXn : X.data ≠ []) (hd : F.d = X.d) :
    rMeanVarTransform rnd sum cfg F X = .ok (Arr3.build X.data.length X.sz X.d fun i t f =>
      rMeanVarValue rnd cfg.mu cfg.std
        (rNanMean rnd sum ((if cfg.perTs then X else F).group cfg.perTs cfg.perFeat i f))
        (rNanStd rnd sum ((if cfg.perTs then X else F).group cfg.perTs cfg.perFeat i f))
        (X.entry i t f)) := by
  have hg : ∀ i f, (if cfg.perTs = true then X.group true cfg.perFeat i f else F.group false cfg.perFeat 0 f) =
      (if cfg.perTs then X else F).group cfg.perTs cfg.perFeat i f := by
    intro i f
    cases cfg.perTs with
    | true => rfl
    | false => exact group_congr _ _ _ (by simp) (fun _ => rfl)
  simp [rMeanVarTransform, hF.toDataset_slots, hX.toDataset_slots, bind, Except.bind, pure, Except.pure,
    hFn, hXn, hd, hg]

/-- What the mean-variance scaler computes: a mean `m'` and a deviation `s'` of each group, with an error
`m' - m` small only against the mean absolute value, and a deviation that is that of the values around
`m'`, not around the mean; then the affine map they give, to four roundings. -/
theorem C105_meanvar_error {rnd : ℝ → ℝ} {u : ℝ} (hr : RelErr rnd u) (hu : 0 ≤ u) (hu1 : u ≤ 1)
    {sum : List ℝ → ℝ} (hsum : ∀ l, RoundedSum rnd l (sum l)) (cfg : MeanVarCfg) (F X : Arr3 ℝ)
    (hF : Formatted F) (hX : Formatted X) (hFn : F.data ≠ []) (hXn : X.data ≠ []) (hd : F.d = X.d) :
    ∃ Y', rMeanVarTransform rnd sum cfg F X = .ok Y' ∧ Y'.sz = X.sz ∧ Y'.d = X.d ∧
      Y'.data.length = X.data.length ∧
      ∀ i < X.data.length, ∀ f < X.d, ∀ (m s : ℝ) (n : ℕ),
        obsSum (if cfg.perTs then X else F) cfg.perTs cfg.perFeat i f (fun _ => 1) = n →
        IsMean (if cfg.perTs then X else F) cfg.perTs cfg.perFeat i f m →
        IsStd (if cfg.perTs then X else F) cfg.perTs cfg.perFeat i f m s →
        ∃ m' s', |m' - m| * n ≤ ((1 + u) ^ (n + 1) - 1) *
            obsSum (if cfg.perTs then X else F) cfg.perTs cfg.perFeat i f abs ∧
          0 ≤ s' ∧ NearRel u (n + 6) (s' ^ 2) (s ^ 2 + (m' - m) ^ 2) ∧
          ∀ t < X.sz, (Y'.entry i t f = none ↔ X.entry i t f = none) ∧
            ∀ v, X.entry i t f = some v → ∃ y' z, Y'.entry i t f = some y' ∧ |y' - (z + cfg.mu)| ≤ u * |z + cfg.mu| ∧
              |z - (v - m') * cfg.std / (if s' = 0 then 1 else s')| ≤
                ((1 + u) ^ 3 - 1) * |(v - m') * cfg.std / (if s' = 0 then 1 else s')| := by
  refine ⟨_, rMeanVarTransform_ok rnd sum cfg F X hF hX hFn hXn hd, rfl, rfl, Arr3.build_length .., ?_⟩
  intro i hi f hf m s n hn hm hs
  set R := (if cfg.perTs then X else F)
  set g := R.group cfg.perTs cfg.perFeat i f with hgd
  have hlen : (g.length : ℝ) = n := by rw [hgd, group_length, hn]
  have hlen' : g.length = n := by exact_mod_cast hlen
  have hne : g ≠ [] := by
    intro h0
    have := hm.1
    rw [← group_length, ← hgd, h0] at this
    simp at this
  have hpos : (0 : ℝ) < n := by rw [← hlen]; exact_mod_cast List.length_pos_iff.2 hne
  have em : m = g.sum / g.length := by
    have := hm.2
    rw [← group_length, ← group_sum, ← hgd, List.map_id, hlen] at this
    rw [hlen, eq_div_iff hpos.ne', this]
  have es : s ^ 2 = (g.map fun x => (x - m) ^ 2).sum / n := by
    have := hs.2
    rw [← group_length, ← group_sum, ← hgd, hlen] at this
    rw [eq_div_iff hpos.ne', this]
  obtain ⟨m', hm', herr⟩ := rNanMean_error hr hu hsum g hne
  obtain ⟨m'', s', hm'', hs', hs0, hnear⟩ := rNanStd_near hr hu hu1 hsum g hne
  obtain rfl : m' = m'' := Option.some.inj (hm'.symm.trans hm'')
  refine ⟨m', s', ?_, hs0, ?_, ?_⟩
  · rw [← em, hlen, hlen', mul_div_assoc', le_div_iff₀ hpos] at herr
    rw [← group_sum, ← hgd]
    exact herr
  · have : s ^ 2 + (m' - m) ^ 2 = (g.map fun x => (x - m') ^ 2).sum / g.length := by
      rw [es, sum_sq_shift, sum_sq_shift, hlen]
      have : g.sum = n * m := by rw [em, hlen]; field_simp
      rw [this]
      field_simp
      ring
    rw [this, ← hlen']
    exact hnear
  · intro t ht
    rw [Arr3.build_entry hi ht hf, hm', hs']
    constructor
    · cases X.entry i t f <;> simp [rMeanVarValue]
    · intro v hv
      rw [hv]
      obtain ⟨a, ha, ea⟩ := hr.factor hu (v - m')
      obtain ⟨b, hb, eb⟩ := hr.factor hu (rnd (v - m') * cfg.std)
      obtain ⟨c, hc, ec⟩ := hr.factor hu (rnd (rnd (v - m') * cfg.std) / (if s' = 0 then 1 else s'))
      refine ⟨_, _, rfl, hr _, ?_⟩
      rw [ec, eb, ea]
      set D := (if s' = 0 then 1 else s')
      have e : (v - m') * (1 + a) * cfg.std * (1 + b) / D * (1 + c) - (v - m') * cfg.std / D =
          ((1 + a) * ((1 + b) * (1 + c)) - 1) * ((v - m') * cfg.std / D) := by ring
      rw [e, abs_mul]
      refine mul_le_mul_of_nonneg_right ?_ (abs_nonneg _)
      have p1 := factor_two hb hc
      have p2 := factor_two ha p1
      have e2 : (1 + a) * (1 + ((1 + b) * (1 + c) - 1)) = (1 + a) * ((1 + b) * (1 + c)) := by ring
      rw [e2] at p2
      exact p2.trans (le_of_eq (by ring))

/-- Rounded mean-variance scaling keeps the order of the values that are scaled together. -/
theorem C105_meanvar_order {rnd : ℝ → ℝ} (hm : Monotone rnd) (h0 : rnd 0 = 0)
    (sum : List ℝ → ℝ) (cfg : MeanVarCfg) (hstd : 0 ≤ cfg.std) (F X : Arr3 ℝ)
    (hF : Formatted F) (hX : Formatted X) (hFn : F.data ≠ []) (hXn : X.data ≠ []) (hd : F.d = X.d) :
    ∃ Y', rMeanVarTransform rnd sum cfg F X = .ok Y' ∧
      ∀ i < X.data.length, ∀ t < X.sz, ∀ f < X.d, ∀ i' < X.data.length, ∀ t' < X.sz, ∀ f' < X.d,
        (cfg.perTs = true → i' = i) → (cfg.perFeat = true → f' = f) →
        ∀ v v' y y', X.entry i t f = some v → X.entry i' t' f' = some v' → v ≤ v' →
          Y'.entry i t f = some y → Y'.entry i' t' f' = some y' → y ≤ y' := by
  refine ⟨_, rMeanVarTransform_ok rnd sum cfg F X hF hX hFn hXn hd, ?_⟩
  intro i hi t ht f hf i' hi' t' ht' f' hf' h1 h2 v v' y y' hv hv' hle hy hy'
  rw [Arr3.build_entry hi ht hf, hv] at hy
  rw [Arr3.build_entry hi' ht' hf', hv', group_congr _ _ _ h1 h2] at hy'
  generalize (if cfg.perTs then X else F).group cfg.perTs cfg.perFeat i f = g at hy hy'
  by_cases hg : g = []
  · simp [hg, rNanMean, rMeanVarValue] at hy
  simp only [rNanStd, rNanMean, if_neg hg, Option.map_some, rMeanVarValue, Option.some.injEq] at hy hy'
  subst hy hy'
  refine hm (add_le_add_left (hm (div_le_div_of_nonneg_right (hm ?_) ?_)) cfg.mu)
  · exact mul_le_mul_of_nonneg_right (hm (by linarith)) hstd
  · split_ifs
    · exact zero_le_one
    · exact h0 ▸ hm (Real.sqrt_nonneg _)

/-- However wrong the computed mean, no value scaled by the deviation of its own group leaves
`± std √n (1 + O(n u))`. -/
theorem C105_meanvar_bounded {rnd : ℝ → ℝ} {u : ℝ} (hr : RelErr rnd u) (hu : 0 ≤ u) (hu1 : u < 1)
    {sum : List ℝ → ℝ} (hsum : ∀ l, RoundedSum rnd l (sum l)) (cfg : MeanVarCfg) (hmu : cfg.mu = 0)
    (X : Arr3 ℝ) (hX : Formatted X) (hXn : X.data ≠ []) :
    ∃ Y', rMeanVarTransform rnd sum cfg X X = .ok Y' ∧
      ∀ i < X.data.length, ∀ t < X.sz, ∀ f < X.d, ∀ n : ℕ,
        obsSum X cfg.perTs cfg.perFeat i f (fun _ => 1) = n → ∀ y, Y'.entry i t f = some y →
          (1 - u) ^ (n + 6) * y ^ 2 ≤ (1 + u) ^ 8 * (n * cfg.std ^ 2) := by
  refine ⟨_, rMeanVarTransform_ok rnd sum cfg X X hX hX hXn hXn rfl, ?_⟩
  intro i hi t ht f hf n hn y hy
  rw [show (if cfg.perTs = true then X else X) = X by split_ifs <;> rfl] at hy
  rw [Arr3.build_entry hi ht hf] at hy
  cases hv : X.entry i t f with
  | none => rw [hv] at hy; simp [rMeanVarValue] at hy
  | some v =>
    have hvg : v ∈ X.group cfg.perTs cfg.perFeat i f :=
      (mem_group ..).2 ⟨i, t, f, hi, ht, hf, fun _ => rfl, fun _ => rfl, hv⟩
    rw [← group_length] at hn
    generalize X.group cfg.perTs cfg.perFeat i f = g at hvg hy hn
    have hlen : g.length = n := by exact_mod_cast hn
    have hne := List.ne_nil_of_mem hvg
    have hpos : (0 : ℝ) < n := by rw [← hn]; exact_mod_cast List.length_pos_iff.2 hne
    obtain ⟨m', s', hm', hs', hs0, hnear⟩ := rNanStd_near hr hu hu1.le hsum g hne
    rw [hv, hm', hs'] at hy
    simp only [rMeanVarValue, Option.some.injEq, hmu, add_zero] at hy
    have hdev : (v - m') ^ 2 ≤ (g.map fun x => (x - m') ^ 2).sum := by
      apply List.single_le_sum (l := g.map fun x => (x - m') ^ 2)
      · simp only [List.mem_map]; rintro _ ⟨a, -, rfl⟩; exact sq_nonneg _
      · exact List.mem_map_of_mem hvg
    have hP : (0 : ℝ) < (1 - u) ^ (n + 6) := pow_pos (by linarith) _
    have key : (1 - u) ^ (n + 6) * (v - m') ^ 2 ≤ n * s' ^ 2 := by
      have h1 := hnear.1
      rw [hlen, ← mul_div_assoc, div_le_iff₀ hpos] at h1
      have := mul_le_mul_of_nonneg_left hdev hP.le
      linarith
    obtain ⟨a, ha, ea⟩ := hr.factor hu (v - m')
    obtain ⟨b, hb, eb⟩ := hr.factor hu (rnd (v - m') * cfg.std)
    obtain ⟨c, hc, ec⟩ := hr.factor hu (rnd (rnd (v - m') * cfg.std) / (if s' = 0 then 1 else s'))
    obtain ⟨d, hd, ed⟩ := hr.factor hu (rnd (rnd (rnd (v - m') * cfg.std) / (if s' = 0 then 1 else s')))
    rw [ed, ec, eb, ea] at hy
    have sqf : ∀ x : ℝ, |x| ≤ u → (1 + x) ^ 2 ≤ (1 + u) ^ 2 := by
      intro x hx
      have := abs_le.1 hx
      exact pow_le_pow_left₀ (by linarith) (by linarith) 2
    have hprod : ((1 + a) * (1 + b) * (1 + c) * (1 + d)) ^ 2 ≤ (1 + u) ^ 8 := by
      rw [mul_pow, mul_pow, mul_pow, show (1 + u) ^ 8 = (1 + u) ^ 2 * (1 + u) ^ 2 * (1 + u) ^ 2 * (1 + u) ^ 2 by ring]
      have := sqf a ha; have := sqf b hb; have := sqf c hc; have := sqf d hd
      gcongr
    have hq : (1 - u) ^ (n + 6) * ((v - m') / (if s' = 0 then 1 else s')) ^ 2 ≤ n := by
      split_ifs with hz
      · rw [hz] at key
        have h2 : (v - m') ^ 2 ≤ 0 := le_of_mul_le_mul_left (by rw [mul_zero]; simpa using key) hP
        have : (v - m') ^ 2 = 0 := le_antisymm h2 (sq_nonneg _)
        rw [div_one, this, mul_zero]; exact hpos.le
      · have : 0 < s' ^ 2 := by positivity
        rw [div_pow, mul_div_assoc', div_le_iff₀ this]
        exact key
    have hy2 : y = ((v - m') / (if s' = 0 then 1 else s')) * ((1 + a) * (1 + b) * (1 + c) * (1 + d)) * cfg.std := by
      rw [← hy]; ring
    rw [hy2, mul_pow, mul_pow]
    calc _ = ((1 - u) ^ (n + 6) * ((v - m') / (if s' = 0 then 1 else s')) ^ 2) *
          (((1 + a) * (1 + b) * (1 + c) * (1 + d)) ^ 2) * cfg.std ^ 2 := by ring
      _ ≤ n * (1 + u) ^ 8 * cfg.std ^ 2 := by
        gcongr
      _ = _ := by ring

/-! ## Constant series, ranges -/

section
variable {K : Type} [Field K] [LinearOrder K] [IsStrictOrderedRing K]

/-- The smallest value of a group goes to the lower end, whatever the range. -/
theorem C105_minmax_low {rnd : K → K} (h0 : rnd 0 = 0) (cfg : MinMaxCfg K) (X : Arr3 K) (hX : Formatted X)
    (hXn : X.data ≠ []) (hXs : 0 < X.sz) (hc : cfg.lo < cfg.hi) :
    ∃ Y', rMinMaxTransform rnd cfg X X = .ok Y' ∧
      ∀ i < X.data.length, ∀ t < X.sz, ∀ f < X.d, ∀ v, X.entry i t f = some v →
        (∀ w ∈ X.group cfg.perTs cfg.perFeat i f, v ≤ w) → Y'.entry i t f = some (rnd cfg.lo) := by
  refine ⟨_, rMinMaxTransform_ok rnd cfg X X hX hX hXn hXn hXs hXs rfl hc, ?_⟩
  intro i hi t ht f hf v hv hmin
  rw [Arr3.build_entry hi ht hf, group_cell, hv]
  have hvg : v ∈ X.group cfg.perTs cfg.perFeat i f :=
    (mem_group ..).2 ⟨i, t, f, hi, ht, hf, fun _ => rfl, fun _ => rfl, hv⟩
  rw [show (if cfg.perTs = true then X else X) = X by split_ifs <;> rfl]
  obtain ⟨mn, mx, hmn, hmx, hb⟩ := exists_min_max _ (List.ne_nil_of_mem hvg)
  rw [nanMin_spec _ v hvg hmin, nanMax_spec _ mx hmx fun v hv => (hb v hv).2]
  simp [rMinMaxValue, h0]

variable [FloorRing K]

/-- Multiples of one power of two whose absolute values do not add up to more than `p + 1` bits are
summed without error, in any order. -/
theorem C105_short_sum (p : ℕ) (e : ℤ) {l : List K} {s : K} (h : RoundedSum (nearBits p) l s)
    (hl : ∀ a ∈ l, ∃ z : ℤ, a = z * 2 ^ e) (hb : (l.map abs).sum < 2 ^ (p + 1) * 2 ^ e) : s = l.sum := by
  have he : (0 : K) < 2 ^ e := zpow_pos (by norm_num) _
  have mult : ∀ l : List K, (∀ a ∈ l, ∃ z : ℤ, a = z * 2 ^ e) → ∃ z : ℤ, l.sum = z * 2 ^ e := by
    intro l hl
    induction l with
    | nil => exact ⟨0, by simp⟩
    | cons a l ih =>
      obtain ⟨z, hz⟩ := hl a (by simp)
      obtain ⟨z', hz'⟩ := ih fun b hb => hl b (by simp [hb])
      exact ⟨z + z', by rw [List.sum_cons, hz, hz']; push_cast; ring⟩
  have tri : ∀ l : List K, |l.sum| ≤ (l.map abs).sum := by
    intro l
    induction l with
    | nil => simp
    | cons a l ih => simp only [List.sum_cons, List.map_cons]; exact (abs_add_le _ _).trans (by linarith)
  have nn : ∀ l : List K, 0 ≤ (l.map abs).sum := fun l =>
    List.sum_nonneg (by simp only [List.mem_map]; rintro _ ⟨a, -, rfl⟩; exact abs_nonneg a)
  have keep : ∀ l : List K, (∀ a ∈ l, ∃ z : ℤ, a = z * 2 ^ e) → (l.map abs).sum < 2 ^ (p + 1) * 2 ^ e →
      nearBits p l.sum = l.sum := by
    intro l hl hb
    obtain ⟨z, hz⟩ := mult l hl
    have := (tri l).trans_lt hb
    rw [hz, abs_mul, abs_of_pos he] at this
    have := lt_of_mul_lt_mul_right this he.le
    rw [hz]
    exact nearBits_exact p e z (by exact_mod_cast this)
  induction h with
  | nil => rfl
  | single a => simp
  | first a => simpa using keep [a] hl hb
  | @add l l' s s' _ _ _ _ ih ih' =>
    have hb' := hb
    rw [List.map_append, List.sum_append] at hb'
    rw [ih (fun a ha => hl a (by simp [ha])) (by linarith [nn l']),
      ih' (fun a ha => hl a (by simp [ha])) (by linarith [nn l]), ← List.sum_append]
    exact keep _ hl hb
  | @perm l l' s hp _ ih =>
    rw [← hp.sum_eq]
    exact ih (fun a ha => hl a (hp.mem_iff.1 ha)) (by rwa [(hp.map abs).sum_eq])

end

/-- Constant values of few bits are scaled to `mu`. -/
theorem C105_constant (p : ℕ) {sum : List ℝ → ℝ} (hsum : ∀ l, RoundedSum (nearBits p) l (sum l))
    (cfg : MeanVarCfg) (F X : Arr3 ℝ) (hF : Formatted F) (hX : Formatted X) (hFn : F.data ≠ [])
    (hXn : X.data ≠ []) (hd : F.d = X.d) (i f : ℕ) (hi : i < X.data.length) (hf : f < X.d) (z e : ℤ) (n : ℕ)
    (hn : obsSum (if cfg.perTs then X else F) cfg.perTs cfg.perFeat i f (fun _ => 1) = n) (hpos : 0 < n)
    (hconst : ∀ w ∈ (if cfg.perTs then X else F).group cfg.perTs cfg.perFeat i f, w = z * 2 ^ e)
    (hz : n * |z| < 2 ^ (p + 1)) :
    ∃ Y', rMeanVarTransform (nearBits p) sum cfg F X = .ok Y' ∧
      ∀ t < X.sz, X.entry i t f = some ((z : ℝ) * 2 ^ e) → Y'.entry i t f = some (nearBits p cfg.mu) := by
  refine ⟨_, rMeanVarTransform_ok _ sum cfg F X hF hX hFn hXn hd, fun t ht hv => ?_⟩
  rw [Arr3.build_entry hi ht hf, hv]
  rw [← group_length] at hn
  generalize (if cfg.perTs then X else F).group cfg.perTs cfg.perFeat i f = g at hn hconst
  have hlen : g.length = n := by exact_mod_cast hn
  obtain rfl : g = List.replicate n ((z : ℝ) * 2 ^ e) := List.eq_replicate_iff.2 ⟨hlen, hconst⟩
  set c : ℝ := (z : ℝ) * 2 ^ e with hc
  have he : (0 : ℝ) < 2 ^ e := zpow_pos (by norm_num) _
  have hnR : (0 : ℝ) < n := by exact_mod_cast hpos
  have h1 : sum (List.replicate n c) = n * c := by
    rw [C105_short_sum p e (hsum _)]
    · simp
    · intro a ha; exact ⟨z, List.eq_of_mem_replicate ha⟩
    · simp only [List.map_replicate, List.sum_replicate, nsmul_eq_mul]
      rw [hc, abs_mul, abs_of_pos he, ← mul_assoc]
      refine mul_lt_mul_of_pos_right ?_ he
      exact_mod_cast hz
  have hzz : |z| < 2 ^ (p + 1) := by
    have : (1 : ℤ) ≤ n := by exact_mod_cast hpos
    nlinarith [abs_nonneg z]
  have h2 : nearBits p c = c := nearBits_exact p e z hzz
  have hne : List.replicate n c ≠ [] := by simp; omega
  have hm : rNanMean (nearBits p) sum (List.replicate n c) = some c := by
    rw [rNanMean, if_neg hne, h1, List.length_replicate, mul_div_cancel_left₀ _ hnR.ne', h2]
  have h0 : sum (List.replicate n 0) = 0 := by
    have := C105_sum_error (nearBits_relErr (K := ℝ) p) (by positivity) (hsum (List.replicate n 0))
    simpa using this
  have hs : rNanStd (nearBits p) sum (List.replicate n c) = some 0 := by
    rw [rNanStd, hm]
    simp [nearBits_zero, h0]
  rw [hm, hs]
  simp [rMeanVarValue, nearBits_zero]

/-- Summation from left to right. -/
noncomputable def seqSum (rnd : ℝ → ℝ) (l : List ℝ) : ℝ := l.foldl (fun s a => rnd (s + a)) 0

theorem seqSum_rounded (rnd : ℝ → ℝ) (l : List ℝ) : RoundedSum rnd l (seqSum rnd l) := by
  induction l using List.reverseRecOn with
  | nil => exact .nil
  | append_singleton l a ih =>
    cases l with
    | nil => simpa [seqSum] using RoundedSum.first a
    | cons b l =>
      have := RoundedSum.add (by simp) (by simp) ih (RoundedSum.single (rnd := rnd) a)
      simpa [seqSum] using this

/-- The series `[0.1, 0.1, 0.1]` in doubles. -/
noncomputable def tenths : Arr3 ℝ :=
  Arr3.build 1 3 1 fun _ _ _ => some (3602879701896397 / 2 ^ 55)

/-- In doubles the constant series `[0.1, 0.1, 0.1]` is not scaled to its mean 0 but to -1: the sum of
its samples rounds up. -/
theorem C105_false_constant :
    nearBits 52 (1 / 10 : ℝ) = 3602879701896397 / 2 ^ 55 ∧
    ∃ Y Y', meanVarTransform ⟨0, 1, true, true⟩ tenths tenths = .ok Y ∧
      rMeanVarTransform (nearBits 52) (seqSum (nearBits 52)) ⟨0, 1, true, true⟩ tenths tenths = .ok Y' ∧
      ∀ t < 3, Y.entry 0 t 0 = some 0 ∧ Y'.entry 0 t 0 = some (-1) := by
  have fT : Formatted tenths :=
    formatted_full 1 3 1 (fun _ _ _ => (3602879701896397 / 2 ^ 55 : ℝ)) (by decide) (by decide) (by decide)
  have hn : tenths.data ≠ [] := by simp [tenths, Arr3.build]
  set c : ℝ := 3602879701896397 / 2 ^ 55 with hc
  have hg : tenths.group true true 0 0 = [c, c, c] := by
    simp [tenths, Arr3.group, Arr3.build, Arr3.entry, List.range, List.range.loop, hc]
  have r1 : nearBits 52 (1 / 10 : ℝ) = c := by
    rw [nearBits_of 52 _ (-4) 7205759403792794] <;> norm_num [hc, abs_of_pos, abs_of_neg]
  have ex : ∀ (z e : ℤ) (a : ℝ), |z| < 2 ^ 53 → a = z * 2 ^ e → nearBits 52 a = a := by
    rintro z e a hz rfl; exact nearBits_exact 52 e z hz
  have s1 : nearBits 52 (0 + c) = c := by
    rw [ex 3602879701896397 (-55) (0 + c) (by norm_num) (by norm_num [hc])]; ring
  have s2 : nearBits 52 (c + c) = 2 * c := by
    rw [ex 3602879701896397 (-54) (c + c) (by norm_num) (by norm_num [hc])]; ring
  have s3 : nearBits 52 (2 * c + c) = 5404319552844596 / 2 ^ 54 := by
    rw [nearBits_of 52 _ (-2) 5404319552844596] <;> norm_num [hc, abs_of_pos, abs_of_neg]
  have s4 : nearBits 52 ((5404319552844596 / 2 ^ 54 : ℝ) / 3) = c + (2 ^ 56)⁻¹ := by
    rw [nearBits_of 52 _ (-4) 7205759403792795] <;> norm_num [hc, abs_of_pos, abs_of_neg]
  have d1 : nearBits 52 (c - (c + (2 ^ 56)⁻¹)) = -(2 ^ 56)⁻¹ := by
    rw [ex (-1) (-56) _ (by norm_num) (by norm_num)]; ring
  have d2 : nearBits 52 (-(2 ^ 56)⁻¹ * -(2 ^ 56)⁻¹ : ℝ) = (2 ^ 112)⁻¹ := by
    rw [ex 1 (-112) _ (by norm_num) (by norm_num)]; norm_num
  have t1 : nearBits 52 (0 + (2 ^ 112)⁻¹ : ℝ) = (2 ^ 112)⁻¹ := by
    rw [ex 1 (-112) _ (by norm_num) (by norm_num)]; ring
  have t2 : nearBits 52 ((2 ^ 112)⁻¹ + (2 ^ 112)⁻¹ : ℝ) = 2 * (2 ^ 112)⁻¹ := by
    rw [ex 1 (-111) _ (by norm_num) (by norm_num)]; ring
  have t3 : nearBits 52 (2 * (2 ^ 112)⁻¹ + (2 ^ 112)⁻¹ : ℝ) = 3 * (2 ^ 112)⁻¹ := by
    rw [ex 3 (-112) _ (by norm_num) (by norm_num)]; ring
  have t4 : nearBits 52 (3 * (2 ^ 112)⁻¹ / 3 : ℝ) = (2 ^ 112)⁻¹ := by
    rw [ex 1 (-112) _ (by norm_num) (by norm_num)]; ring
  have sq : Real.sqrt ((2 ^ 112)⁻¹ : ℝ) = (2 ^ 56)⁻¹ := by
    rw [show ((2 ^ 112)⁻¹ : ℝ) = ((2 ^ 56)⁻¹) ^ 2 by norm_num]
    exact Real.sqrt_sq (by positivity)
  have t5 : nearBits 52 ((2 ^ 56)⁻¹ : ℝ) = (2 ^ 56)⁻¹ := ex 1 (-56) _ (by norm_num) (by norm_num)
  have q0 : nearBits 52 (-(2 ^ 56)⁻¹ * 1 : ℝ) = -(2 ^ 56)⁻¹ := by
    rw [mul_one, nearBits_neg, t5]
  have q1 : nearBits 52 (-(2 ^ 56)⁻¹ / (2 ^ 56)⁻¹ : ℝ) = -1 := by
    rw [ex (-1) 0 _ (by norm_num) (by norm_num)]; norm_num
  have q2 : nearBits 52 (-1 + 0 : ℝ) = -1 := by
    rw [ex (-1) 0 _ (by norm_num) (by norm_num)]; norm_num
  have mean : rNanMean (nearBits 52) (seqSum (nearBits 52)) [c, c, c] = some (c + (2 ^ 56)⁻¹) := by
    simp only [rNanMean, seqSum, List.foldl_cons, List.foldl_nil, s1, s2, s3]
    rw [if_neg (by simp)]
    rw [show (([c, c, c] : List ℝ).length : ℝ) = 3 by norm_num, s4]
  have std : rNanStd (nearBits 52) (seqSum (nearBits 52)) [c, c, c] = some (2 ^ 56)⁻¹ := by
    rw [rNanStd, mean]
    simp only [Option.map_some, seqSum, List.map_cons, List.map_nil, List.foldl_cons, List.foldl_nil, d1, d2, t1,
      t2, t3]
    rw [show (([c, c, c] : List ℝ).length : ℝ) = 3 by norm_num, t4, sq, t5]
  refine ⟨r1, _, _, meanVarTransform_ok _ _ _ fT fT hn hn rfl, rMeanVarTransform_ok _ _ _ _ _ fT fT hn hn rfl,
    fun t ht => ?_⟩
  have he : tenths.entry 0 t 0 = some c := by
    rw [tenths, Arr3.build_entry (by decide) ht (by decide)]
  have b1 : 0 < tenths.data.length := by simp [tenths, Arr3.build]
  have b2 : t < tenths.sz := ht
  have b3 : 0 < tenths.d := by simp [tenths, Arr3.build]
  rw [Arr3.build_entry b1 b2 b3, Arr3.build_entry b1 b2 b3]
  simp only [if_true, he, hg, mean, std, rMeanVarValue]
  constructor
  · have : nanMean [c, c, c] = some c := by
      simp only [nanMean]
      rw [if_neg (by simp)]
      norm_num
    rw [this]
    simp [nanStd, this, meanVarValue]
  · rw [if_neg (by positivity), d1, q0, q1, q2]

/-- In doubles the scaler to the range `(0, 0.1)` leaves it: `[0, 3]` becomes
`[0, 0.10000000000000002]`. -/
theorem C105_false_range : ∃ (X Y' : Arr3 ℚ) (hi y : ℚ), hi = nearBits 52 (1 / 10) ∧
    toDataset (.series X.slots) = .ok X ∧
    rMinMaxTransform (nearBits 52) ⟨0, hi, true, true⟩ X X = .ok Y' ∧ Y'.entry 0 1 0 = some y ∧ hi < y := by
  refine ⟨⟨2, 1, [[[some 0], [some 3]]]⟩, ⟨2, 1, [[[some 0], [some (7205759403792795 / 2 ^ 56)]]]⟩,
    3602879701896397 / 2 ^ 55, 7205759403792795 / 2 ^ 56, by decide +kernel, ?_, ?_, rfl, by norm_num⟩ <;>
  exact ok_of_fields (by decide +kernel) (by decide +kernel) (by decide +kernel)

/-! ## Examples -/

/-- Doubles meet the hypotheses: for `(0, 1)`. -/
example (X : Arr3 ℝ) (hX : Formatted X) (hn : X.data ≠ []) (hs : 0 < X.sz) :
    ∃ Y', rMinMaxTransform (nearBits 52) ⟨0, 1, true, true⟩ X X = .ok Y' ∧
      ∀ i < X.data.length, ∀ t < X.sz, ∀ f < X.d, ∀ v, X.entry i t f = some v →
        ∃ y, Y'.entry i t f = some y ∧ 0 ≤ y ∧ y ≤ 1 := by
  have h1 : nearBits 52 (1 : ℝ) = 1 := by simpa using nearBits_zpow (K := ℝ) 52 0
  obtain ⟨Y', h, hY⟩ := C105_minmax_range (nearBits_oddMono (K := ℝ) 52).mono (nearBits_zero 52) h1 (nearBits_idem 52)
    ⟨0, 1, true, true⟩ (fun a => by simp) (nearBits_zero 52) h1 X hX hn hs (by norm_num)
  exact ⟨Y', h, fun i hi t ht f hf v hv => by
    obtain ⟨y, e, a, b, -⟩ := hY i hi t ht f hf v hv
    exact ⟨y, e, a, b⟩⟩

/-- And for `(-1, 1)`: the width is a power of two. -/
example (a : ℝ) : nearBits 52 ((1 - -1) * a) = (1 - -1) * nearBits 52 a := by
  have := nearBits_scale (K := ℝ) 52 1 a
  rw [zpow_one] at this
  rw [show (1 - -1 : ℝ) = 2 by norm_num, this]

/-- A series with a gap, scaled to `(0, 1)` with three significant bits: `1 / 3` becomes `5 / 16`. -/
example : rMinMaxTransform (nearBits 2) ⟨0, 1, true, true⟩
    (⟨4, 1, [[[some 0], [none], [some 1], [some 3]]]⟩ : Arr3 ℚ) ⟨4, 1, [[[some 0], [none], [some 1], [some 3]]]⟩ =
      .ok ⟨4, 1, [[[some 0], [none], [some (5 / 16)], [some 1]]]⟩ :=
  ok_of_fields (by decide +kernel) (by decide +kernel) (by decide +kernel)

/-- The constant series `[5, 5, 5]` has few bits. -/
example : (3 : ℤ) * |5| < 2 ^ (52 + 1) := by norm_num

/-- A million doubles: the exponents in `C105_meanvar_bounded` are harmless. -/
example : (1 + (2 ^ 53 : ℝ)⁻¹) ^ 8 ≤ 1.0001 := by norm_num

end Verif
