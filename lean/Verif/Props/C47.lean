import Mathlib.Algebra.BigOperators.Intervals
import Verif.Model.Performance
import Mathlib.Algebra.Order.BigOperators.Group.Finset
import Mathlib.Algebra.Order.Ring.Abs
import Mathlib.Algebra.BigOperators.Ring.Finset
import Mathlib.Algebra.BigOperators.Field
import Mathlib.Algebra.Order.Ring.Rat
import Mathlib.Algebra.Field.Rat
import Mathlib.Tactic.Ring
import Mathlib.Tactic.Linarith
/-!
C47: laws of the forecast error metrics.
-/
set_option linter.unusedSectionVars false
namespace Verif
variable {K : Type} [Field K] [LinearOrder K] [IsStrictOrderedRing K]

/-- Weights that are all positive, if given. -/
def Spec.PosWeights (w : Option (ℕ → K)) (n : ℕ) : Prop := ∀ v, w = some v → ∀ i < n, 0 < v i

/-- Arrays of one shape, not empty. -/
structure Spec.SameShape (y p : Arr3D K) : Prop where
  n : p.n = y.n
  sz : p.sz = y.sz
  d : p.d = y.d
  npos : 0 < y.n
  szpos : 0 < y.sz
  dpos : 0 < y.d

/-- Equal entries. -/
def Spec.SameEntries (y p : Arr3D K) : Prop := ∀ i < y.n, ∀ t < y.sz, ∀ f < y.d, y.at i t f = p.at i t f

/-- `w i / Σ w`, or `1 / n`. -/
def Spec.share (w : Option (ℕ → K)) (n i : ℕ) : K :=
  match w with
  | none => 1 / n
  | some w => w i / ∑ j ∈ Finset.range n, w j

/-- The weighted mean over series, timestamps and features, written out. -/
def Spec.meanError (err : K → K → K) (y p : Arr3D K) (tsW timeW featW : Option (ℕ → K)) : K :=
  ∑ i ∈ Finset.range y.n, ∑ t ∈ Finset.range y.sz, ∑ f ∈ Finset.range y.d,
    share tsW y.n i * share timeW y.sz t * share featW y.d f * err (y.at i t f) (p.at i t f)

open Spec

/-- Weights of features. -/
def MultiOut.featW : MultiOut K → Option (ℕ → K)
  | .weights w => some w
  | _ => none

theorem avgOf_share (w : Option (ℕ → K)) (n : ℕ) (a : ℕ → K) : avgOf w n a = ∑ i ∈ Finset.range n, share w n i * a i := by
  unfold avgOf share
  cases w with
  | none => simp only; rw [Finset.sum_div]; exact Finset.sum_congr rfl fun i _ => by ring
  | some w => simp only; rw [Finset.sum_div]; exact Finset.sum_congr rfl fun i _ => by ring

theorem share_pos (w : Option (ℕ → K)) (n : ℕ) (hw : PosWeights w n) (i : ℕ) (hi : i < n) : 0 < share w n i := by
  unfold share
  cases w with
  | none => simp only; have : (0 : K) < n := by exact_mod_cast Nat.lt_of_le_of_lt (Nat.zero_le _) hi
            positivity
  | some w =>
    simp only
    refine div_pos (hw w rfl i hi) (Finset.sum_pos (fun j hj => hw w rfl j (Finset.mem_range.mp hj)) ⟨i, Finset.mem_range.mpr hi⟩)

theorem share_sum (w : Option (ℕ → K)) (n : ℕ) (hn : 0 < n) (hw : PosWeights w n) : ∑ i ∈ Finset.range n, share w n i = 1 := by
  unfold share
  cases w with
  | none =>
    simp only [Finset.sum_const, Finset.card_range, nsmul_eq_mul]
    exact mul_one_div_cancel (by exact_mod_cast hn.ne')
  | some w =>
    simp only
    rw [← Finset.sum_div]
    exact div_self (Finset.sum_pos (fun j hj => hw w rfl j (Finset.mem_range.mp hj)) ⟨0, Finset.mem_range.mpr hn⟩).ne'

theorem index3 (y : Arr3D K) (i t f : ℕ) : i * (y.sz * y.d) + (t * y.d + f) = (i * y.sz + t) * y.d + f := by ring

theorem perfFeatures_eq (err : K → K → K) (tsW timeW : Option (ℕ → K)) (y p : Arr3D K) (h : SameShape y p) (f : ℕ) :
    perfFeatures err tsW timeW y p f = ∑ i ∈ Finset.range y.n, ∑ t ∈ Finset.range y.sz, share tsW y.n i * share timeW y.sz t * err (y.at i t f) (p.at i t f) := by
  unfold perfFeatures perfTable
  rw [avgOf_share]
  simp only [avgOf_share, Finset.mul_sum]
  rw [Finset.sum_comm]
  refine Finset.sum_congr rfl fun i _ => Finset.sum_congr rfl fun t _ => ?_
  rw [index3]
  unfold Arr3D.at
  rw [h.sz, h.d]
  ring

/-- The metric is the weighted mean of the errors of single values, raw values being those of each feature. -/
theorem C47_value (err : K → K → K) (y p : Arr3D K) (tsW timeW : Option (ℕ → K)) (h : SameShape y p) (mo : MultiOut K) :
    ∃ r, perfMetric err y p tsW timeW mo = .ok r ∧ match mo, r with
      | .raw, .vector r => ∀ f < y.d, r f = ∑ i ∈ Finset.range y.n, ∑ t ∈ Finset.range y.sz, share tsW y.n i * share timeW y.sz t * err (y.at i t f) (p.at i t f)
      | .uniform, .scalar r => r = meanError err y p tsW timeW none
      | .weights w, .scalar r => r = meanError err y p tsW timeW (some w)
      | _, _ => False := by
  have hs : ¬p.n * p.sz * p.d ≠ y.n * y.sz * y.d := by rw [h.n, h.sz, h.d]; simp
  have key : ∀ w : Option (ℕ → K), avgOf w y.d (perfFeatures err tsW timeW y p) = meanError err y p tsW timeW w := by
    intro w
    rw [avgOf_share]
    unfold meanError
    simp only [perfFeatures_eq err tsW timeW y p h, Finset.mul_sum]
    rw [Finset.sum_comm]
    refine Finset.sum_congr rfl fun i _ => ?_
    rw [Finset.sum_comm]
    refine Finset.sum_congr rfl fun t _ => Finset.sum_congr rfl fun f _ => ?_
    ring
  unfold perfMetric
  rw [if_neg hs]
  cases mo with
  | raw => exact ⟨_, rfl, fun f _ => perfFeatures_eq err tsW timeW y p h f⟩
  | uniform => exact ⟨_, rfl, key none⟩
  | weights w => exact ⟨_, rfl, key (some w)⟩

/-- Every value of the result. -/
def PerfRes.All (r : PerfRes K) (d : ℕ) (P : K → Prop) : Prop :=
  match r with
  | .vector v => ∀ f < d, P (v f)
  | .scalar v => P v

theorem perf_nonneg_zero (err : K → K → K) (h0 : ∀ a b, 0 ≤ err a b) (h1 : ∀ a b, err a b = 0 ↔ a = b) (y p : Arr3D K) (tsW timeW : Option (ℕ → K))
    (mo : MultiOut K) (h : SameShape y p) (w1 : PosWeights tsW y.n) (w2 : PosWeights timeW y.sz) (w3 : PosWeights mo.featW y.d) (r : PerfRes K)
    (hr : perfMetric err y p tsW timeW mo = .ok r) :
    r.All y.d (0 ≤ ·) ∧ (r.All y.d (· = 0) ↔ SameEntries y p) := by
  obtain ⟨r', hr', hv⟩ := C47_value err y p tsW timeW h mo
  rw [hr] at hr'
  cases hr'
  have hF : ∀ w : Option (ℕ → K), PosWeights w y.d → 0 ≤ meanError err y p tsW timeW w ∧ (meanError err y p tsW timeW w = 0 ↔ SameEntries y p) := by
    intro w hw
    have hpos : ∀ i ∈ Finset.range y.n, ∀ t ∈ Finset.range y.sz, ∀ f ∈ Finset.range y.d, 0 < share tsW y.n i * share timeW y.sz t * share w y.d f := by
      intro i hi t ht f hf
      exact mul_pos (mul_pos (share_pos _ _ w1 i (Finset.mem_range.mp hi)) (share_pos _ _ w2 t (Finset.mem_range.mp ht))) (share_pos _ _ hw f (Finset.mem_range.mp hf))
    have n3 : ∀ i ∈ Finset.range y.n, ∀ t ∈ Finset.range y.sz, ∀ f ∈ Finset.range y.d,
        0 ≤ share tsW y.n i * share timeW y.sz t * share w y.d f * err (y.at i t f) (p.at i t f) :=
      fun i hi t ht f hf => mul_nonneg (hpos i hi t ht f hf).le (h0 _ _)
    have n2 := fun i hi t ht => Finset.sum_nonneg (n3 i hi t ht)
    have n1 := fun i hi => Finset.sum_nonneg (n2 i hi)
    refine ⟨Finset.sum_nonneg n1, ?_⟩
    unfold meanError
    rw [Finset.sum_eq_zero_iff_of_nonneg n1]
    constructor
    · intro hz i hi t ht f hf
      have z1 := hz i (Finset.mem_range.mpr hi)
      rw [Finset.sum_eq_zero_iff_of_nonneg (n2 i (Finset.mem_range.mpr hi))] at z1
      have z2 := z1 t (Finset.mem_range.mpr ht)
      rw [Finset.sum_eq_zero_iff_of_nonneg (n3 i (Finset.mem_range.mpr hi) t (Finset.mem_range.mpr ht))] at z2
      have z3 := z2 f (Finset.mem_range.mpr hf)
      rcases mul_eq_zero.mp z3 with z | z
      · exact absurd z (hpos i (Finset.mem_range.mpr hi) t (Finset.mem_range.mpr ht) f (Finset.mem_range.mpr hf)).ne'
      · exact (h1 _ _).mp z
    · intro he i hi
      refine Finset.sum_eq_zero fun t ht => Finset.sum_eq_zero fun f hf => ?_
      rw [(h1 _ _).mpr (he i (Finset.mem_range.mp hi) t (Finset.mem_range.mp ht) f (Finset.mem_range.mp hf)), mul_zero]
  cases mo with
  | uniform =>
    cases r with
    | vector v => exact hv.elim
    | scalar v =>
      simp only at hv
      have := hF none (fun v hv => by cases hv)
      rw [← hv] at this
      exact this
  | weights w =>
    cases r with
    | vector v => exact hv.elim
    | scalar v =>
      simp only at hv
      have := hF (some w) w3
      rw [← hv] at this
      exact this
  | raw =>
    cases r with
    | scalar v => exact hv.elim
    | vector v =>
      simp only at hv
      have hpos : ∀ i ∈ Finset.range y.n, ∀ t ∈ Finset.range y.sz, 0 < share tsW y.n i * share timeW y.sz t :=
        fun i hi t ht => mul_pos (share_pos _ _ w1 i (Finset.mem_range.mp hi)) (share_pos _ _ w2 t (Finset.mem_range.mp ht))
      have n2 : ∀ f, ∀ i ∈ Finset.range y.n, ∀ t ∈ Finset.range y.sz, 0 ≤ share tsW y.n i * share timeW y.sz t * err (y.at i t f) (p.at i t f) :=
        fun f i hi t ht => mul_nonneg (hpos i hi t ht).le (h0 _ _)
      have n1 := fun f i hi => Finset.sum_nonneg (n2 f i hi)
      refine ⟨fun f hf => by rw [hv f hf]; exact Finset.sum_nonneg (n1 f), ?_⟩
      constructor
      · intro hz i hi t ht f hf
        have z : v f = 0 := hz f hf
        rw [hv f hf, Finset.sum_eq_zero_iff_of_nonneg (n1 f)] at z
        have z1 := z i (Finset.mem_range.mpr hi)
        rw [Finset.sum_eq_zero_iff_of_nonneg (n2 f i (Finset.mem_range.mpr hi))] at z1
        have z2 := z1 t (Finset.mem_range.mpr ht)
        rcases mul_eq_zero.mp z2 with z | z
        · exact absurd z (hpos i (Finset.mem_range.mpr hi) t (Finset.mem_range.mpr ht)).ne'
        · exact (h1 _ _).mp z
      · intro he f hf
        show v f = 0
        rw [hv f hf]
        refine Finset.sum_eq_zero fun i hi => Finset.sum_eq_zero fun t ht => ?_
        rw [(h1 _ _).mpr (he i (Finset.mem_range.mp hi) t (Finset.mem_range.mp ht) f hf), mul_zero]

/-- Mean absolute and squared errors are non-negative, and zero exactly on equal arrays. -/
theorem C47_nonneg_zero (y p : Arr3D K) (tsW timeW : Option (ℕ → K)) (mo : MultiOut K) (h : SameShape y p) (w1 : PosWeights tsW y.n)
    (w2 : PosWeights timeW y.sz) (w3 : PosWeights mo.featW y.d) :
    (∃ r, maeOf y p tsW timeW mo = .ok r ∧ r.All y.d (0 ≤ ·) ∧ (r.All y.d (· = 0) ↔ SameEntries y p)) ∧
    (∃ r, mseOf y p tsW timeW mo = .ok r ∧ r.All y.d (0 ≤ ·) ∧ (r.All y.d (· = 0) ↔ SameEntries y p)) := by
  constructor
  · obtain ⟨r, hr, -⟩ := C47_value (fun a b : K => |a - b|) y p tsW timeW h mo
    exact ⟨r, hr, perf_nonneg_zero _ (fun a b => abs_nonneg _) (fun a b => by rw [abs_eq_zero, sub_eq_zero]) y p tsW timeW mo h w1 w2 w3 r hr⟩
  · obtain ⟨r, hr, -⟩ := C47_value (fun a b : K => (a - b) ^ 2) y p tsW timeW h mo
    exact ⟨r, hr, perf_nonneg_zero _ (fun a b => sq_nonneg _) (fun a b => by rw [sq_eq_zero_iff, sub_eq_zero]) y p tsW timeW mo h w1 w2 w3 r hr⟩

/-- They do not change when truth and prediction are exchanged. -/
theorem C47_symmetric (y p : Arr3D K) (tsW timeW : Option (ℕ → K)) (mo : MultiOut K) (h : SameShape y p) :
    maeOf y p tsW timeW mo = maeOf p y tsW timeW mo ∧ mseOf y p tsW timeW mo = mseOf p y tsW timeW mo := by
  have key : ∀ err : K → K → K, (∀ a b, err a b = err b a) → perfMetric err y p tsW timeW mo = perfMetric err p y tsW timeW mo := by
    intro err he
    have hs : ¬p.n * p.sz * p.d ≠ y.n * y.sz * y.d := by rw [h.n, h.sz, h.d]; simp
    have hs' : ¬y.n * y.sz * y.d ≠ p.n * p.sz * p.d := by rw [h.n, h.sz, h.d]; simp
    have hf : perfFeatures err tsW timeW y p = perfFeatures err tsW timeW p y := by
      funext f
      unfold perfFeatures perfTable
      simp only [h.n, h.sz, h.d, he _ (y.v _)]
    unfold perfMetric
    rw [if_neg hs, if_neg hs', hf, h.d]
  exact ⟨key _ fun a b => abs_sub_comm a b, key _ fun a b => by ring⟩

theorem sum_jensen {ι : Type} (s : Finset ι) (w a : ι → K) (hw : ∀ i ∈ s, 0 ≤ w i) (h1 : ∑ i ∈ s, w i = 1) :
    (∑ i ∈ s, w i * a i) ^ 2 ≤ ∑ i ∈ s, w i * a i ^ 2 := by
  have e : ∀ m, ∑ i ∈ s, w i * (a i - m) ^ 2 = ∑ i ∈ s, w i * a i ^ 2 - 2 * m * ∑ i ∈ s, w i * a i + m ^ 2 * ∑ i ∈ s, w i := by
    intro m
    rw [Finset.mul_sum, Finset.mul_sum, ← Finset.sum_sub_distrib, ← Finset.sum_add_distrib]
    exact Finset.sum_congr rfl fun i _ => by ring
  have h : 0 ≤ ∑ i ∈ s, w i * (a i - ∑ i ∈ s, w i * a i) ^ 2 := Finset.sum_nonneg fun i hi => mul_nonneg (hw i hi) (sq_nonneg _)
  rw [e, h1] at h
  linarith [sq (∑ i ∈ s, w i * a i)]

/-- The square of the mean absolute error is at most the mean squared error, for every choice of positive weights. -/
theorem C47_jensen (y p : Arr3D K) (tsW timeW : Option (ℕ → K)) (mo : MultiOut K) (h : SameShape y p) (w1 : PosWeights tsW y.n)
    (w2 : PosWeights timeW y.sz) (w3 : PosWeights mo.featW y.d) :
    ∃ a s, maeOf y p tsW timeW mo = .ok a ∧ mseOf y p tsW timeW mo = .ok s ∧ match a, s with
      | .vector a, .vector s => ∀ f < y.d, a f ^ 2 ≤ s f
      | .scalar a, .scalar s => a ^ 2 ≤ s
      | _, _ => False := by
  obtain ⟨a, ha, va⟩ := C47_value (fun a b : K => |a - b|) y p tsW timeW h mo
  obtain ⟨s, hs, vs⟩ := C47_value (fun a b : K => (a - b) ^ 2) y p tsW timeW h mo
  refine ⟨a, s, ha, hs, ?_⟩
  have hF : ∀ w : Option (ℕ → K), PosWeights w y.d →
      meanError (fun a b : K => |a - b|) y p tsW timeW w ^ 2 ≤ meanError (fun a b : K => (a - b) ^ 2) y p tsW timeW w := by
    intro w hw
    unfold meanError
    simp only [← Finset.sum_product']
    refine le_trans (sum_jensen _ (fun x : ℕ × ℕ × ℕ => share tsW y.n x.1 * share timeW y.sz x.2.1 * share w y.d x.2.2) _ ?_ ?_) ?_
    · rintro ⟨i, t, f⟩ hx
      simp only [Finset.mem_product, Finset.mem_range] at hx
      exact (mul_pos (mul_pos (share_pos _ _ w1 i hx.1) (share_pos _ _ w2 t hx.2.1)) (share_pos _ _ hw f hx.2.2)).le
    · rw [Finset.sum_product]
      simp only [Finset.sum_product]
      simp only [← Finset.mul_sum, share_sum w y.d h.dpos hw, share_sum timeW y.sz h.szpos w2, share_sum tsW y.n h.npos w1, mul_one]
    · exact Finset.sum_le_sum fun x _ => by rw [sq_abs]
  cases mo with
  | uniform =>
    cases a with
    | vector v => exact va.elim
    | scalar a =>
      cases s with
      | vector v => exact vs.elim
      | scalar s => simp only at va vs ⊢; rw [va, vs]; exact hF none fun v hv => by cases hv
  | weights w =>
    cases a with
    | vector v => exact va.elim
    | scalar a =>
      cases s with
      | vector v => exact vs.elim
      | scalar s => simp only at va vs ⊢; rw [va, vs]; exact hF (some w) w3
  | raw =>
    cases a with
    | scalar v => exact va.elim
    | vector a =>
      cases s with
      | scalar v => exact vs.elim
      | vector s =>
        simp only at va vs ⊢
        intro f hf
        rw [va f hf, vs f hf]
        simp only [← Finset.sum_product']
        refine le_trans (sum_jensen _ (fun x : ℕ × ℕ => share tsW y.n x.1 * share timeW y.sz x.2) _ ?_ ?_) ?_
        · rintro ⟨i, t⟩ hx
          simp only [Finset.mem_product, Finset.mem_range] at hx
          exact (mul_pos (share_pos _ _ w1 i hx.1) (share_pos _ _ w2 t hx.2)).le
        · rw [Finset.sum_product]
          simp only [← Finset.mul_sum, share_sum timeW y.sz h.szpos w2, share_sum tsW y.n h.npos w1, mul_one]
        · exact Finset.sum_le_sum fun x _ => by rw [sq_abs]

/-- Uniform averaging is the mean of the raw values. -/
theorem C47_uniform (err : K → K → K) (y p : Arr3D K) (tsW timeW : Option (ℕ → K)) (h : SameShape y p) :
    ∃ r v, perfMetric err y p tsW timeW .raw = .ok (.vector r) ∧ perfMetric err y p tsW timeW .uniform = .ok (.scalar v) ∧
      v = (∑ f ∈ Finset.range y.d, r f) / y.d := by
  have hs : ¬p.n * p.sz * p.d ≠ y.n * y.sz * y.d := by rw [h.n, h.sz, h.d]; simp
  unfold perfMetric
  rw [if_neg hs, if_neg hs]
  exact ⟨_, _, rfl, rfl, rfl⟩

/-- An array with feature `f` multiplied by `c f`. -/
def Spec.inUnits (c : ℕ → K) (y : Arr3D K) : Arr3D K := { y with v := fun j => c (j % y.d) * y.v j }

theorem inUnits_at (c : ℕ → K) (y : Arr3D K) (i t f : ℕ) (hf : f < y.d) : (inUnits c y).at i t f = c f * y.at i t f := by
  unfold inUnits Arr3D.at
  simp only
  rw [Nat.add_comm, Nat.add_mul_mod_self_right, Nat.mod_eq_of_lt hf]

theorem inUnits_shape (c : ℕ → K) (y p : Arr3D K) (h : SameShape y p) : SameShape (inUnits c y) (inUnits c p) := ⟨h.n, h.sz, h.d, h.npos, h.szpos, h.dpos⟩

/-- A perfect forecast has a mean absolute scaled error of 0. -/
theorem C47_mase_perfect (y p tr : Arr3D K) (m : ℕ) (tsW timeW : Option (ℕ → K)) (mo : MultiOut K) (h : SameShape y p) (he : SameEntries y p)
    (w1 : PosWeights tsW y.n) (w2 : PosWeights timeW y.sz) (w3 : PosWeights mo.featW y.d) :
    ∃ r, maseOf y p tr m tsW timeW mo = .ok r ∧ r.All y.d (· = 0) := by
  obtain ⟨⟨r, hr, -, hz⟩, -⟩ := C47_nonneg_zero y p tsW timeW mo h w1 w2 w3
  have := hz.mpr he
  unfold maseOf
  rw [hr]
  cases r with
  | vector v => exact ⟨_, rfl, fun f hf => by simp only; rw [this f hf, zero_div]⟩
  | scalar v => exact ⟨_, rfl, by show v / _ = 0; rw [show v = 0 from this, zero_div]⟩

theorem mae_units (c : ℕ → K) (y p : Arr3D K) (tsW timeW : Option (ℕ → K)) (h : SameShape y p) (f : ℕ) (hf : f < y.d) :
    perfFeatures (fun a b : K => |a - b|) tsW timeW (inUnits c y) (inUnits c p) f = |c f| * perfFeatures (fun a b : K => |a - b|) tsW timeW y p f := by
  rw [perfFeatures_eq _ _ _ _ _ (inUnits_shape c y p h), perfFeatures_eq _ _ _ _ _ h, Finset.mul_sum]
  refine Finset.sum_congr rfl fun i _ => ?_
  rw [Finset.mul_sum]
  refine Finset.sum_congr rfl fun t _ => ?_
  rw [inUnits_at c y i t f hf, inUnits_at c p i t f (by rw [h.d]; exact hf), ← mul_sub, abs_mul]
  show share tsW y.n i * share timeW y.sz t * (|c f| * _) = _
  ring

/-- Raw values of the mean absolute scaled error do not depend on the unit of each feature. -/
theorem C47_mase_units_raw (c : ℕ → K) (hc : ∀ f, c f ≠ 0) (y p tr : Arr3D K) (m : ℕ) (tsW timeW : Option (ℕ → K)) (h : SameShape y p)
    (hd : tr.d = y.d) : ∃ r r', maseOf y p tr m tsW timeW .raw = .ok (.vector r) ∧
      maseOf (inUnits c y) (inUnits c p) (inUnits c tr) m tsW timeW .raw = .ok (.vector r') ∧ ∀ f < y.d, r' f = r f := by
  have hs : ¬p.n * p.sz * p.d ≠ y.n * y.sz * y.d := by rw [h.n, h.sz, h.d]; simp
  have hs' : ¬(inUnits c p).n * (inUnits c p).sz * (inUnits c p).d ≠ (inUnits c y).n * (inUnits c y).sz * (inUnits c y).d := hs
  unfold maseOf maeOf perfMetric
  rw [if_neg hs, if_neg hs']
  refine ⟨_, _, rfl, rfl, fun f hf => ?_⟩
  have hsc : maseScaleFeature m (inUnits c tr) f = |c f| * maseScaleFeature m tr f := by
    unfold maseScaleFeature
    rw [mul_div_assoc', Finset.mul_sum]
    congr 1
    refine Finset.sum_congr rfl fun i _ => ?_
    rw [Finset.mul_sum]
    refine Finset.sum_congr rfl fun t _ => ?_
    rw [inUnits_at c tr _ _ f (by omega), inUnits_at c tr _ _ f (by omega), ← mul_sub, abs_mul]
  rw [hsc, mae_units c y p tsW timeW h f hf, mul_div_mul_left _ _ (abs_ne_zero.mpr (hc f))]

/-- Averaged, it does not depend on a unit common to all features. -/
theorem C47_mase_units (c : K) (hc : c ≠ 0) (y p tr : Arr3D K) (m : ℕ) (tsW timeW : Option (ℕ → K)) (mo : MultiOut K) (hmo : mo ≠ .raw) (h : SameShape y p) : maseOf (inUnits (fun _ => c) y) (inUnits (fun _ => c) p) (inUnits (fun _ => c) tr) m tsW timeW mo = maseOf y p tr m tsW timeW mo := by
  have hs : ¬p.n * p.sz * p.d ≠ y.n * y.sz * y.d := by rw [h.n, h.sz, h.d]; simp
  have hs' : ¬(inUnits (fun _ => c) p).n * (inUnits (fun _ => c) p).sz * (inUnits (fun _ => c) p).d ≠
    (inUnits (fun _ => c) y).n * (inUnits (fun _ => c) y).sz * (inUnits (fun _ => c) y).d := hs
  have hsc : maseScaleAll m (inUnits (fun _ => c) tr) = |c| * maseScaleAll m tr := by
    unfold maseScaleAll
    rw [mul_div_assoc']
    congr 1
    simp only [Finset.mul_sum]
    refine Finset.sum_congr rfl fun i _ => Finset.sum_congr rfl fun t _ => Finset.sum_congr rfl fun f hf => ?_
    have hf' : f < tr.d := Finset.mem_range.mp hf
    rw [inUnits_at _ tr _ _ f hf', inUnits_at _ tr _ _ f hf', ← mul_sub, abs_mul]
  have key : ∀ w : Option (ℕ → K), avgOf w y.d (perfFeatures (fun a b : K => |a - b|) tsW timeW (inUnits (fun _ => c) y) (inUnits (fun _ => c) p)) =
      |c| * avgOf w y.d (perfFeatures (fun a b : K => |a - b|) tsW timeW y p) := by
    intro w
    rw [avgOf_share, avgOf_share, Finset.mul_sum]
    refine Finset.sum_congr rfl fun f hf => ?_
    rw [mae_units (fun _ => c) y p tsW timeW h f (Finset.mem_range.mp hf)]
    ring
  unfold maseOf maeOf perfMetric
  rw [if_neg hs, if_neg hs']
  cases mo with
  | raw => exact absurd rfl hmo
  | uniform =>
    simp only
    rw [show (inUnits (fun _ => c) y).d = y.d from rfl, key none, hsc, mul_div_mul_left _ _ (abs_ne_zero.mpr hc)]
  | weights w =>
    simp only
    rw [show (inUnits (fun _ => c) y).d = y.d from rfl, key (some w), hsc, mul_div_mul_left _ _ (abs_ne_zero.mpr hc)]

/-- The mean error, on the training data, of forecasting a feature with its value one season before: a mean over series of means over time. -/
def Spec.naiveError (m : ℕ) (tr : Arr3D K) (f : ℕ) : K :=
  (∑ i ∈ Finset.range tr.n, (∑ t ∈ Finset.Ico m tr.sz, |tr.at i t f - tr.at i (t - m) f|) / ((tr.sz - m : ℕ) : K)) / (tr.n : K)

theorem maseScaleFeature_eq (m : ℕ) (tr : Arr3D K) (f : ℕ) : maseScaleFeature m tr f = Spec.naiveError m tr f := by
  unfold maseScaleFeature Spec.naiveError
  rw [← Finset.sum_div, div_div, Nat.cast_mul, mul_comm ((tr.sz - m : ℕ) : K)]
  congr 1
  refine Finset.sum_congr rfl fun i _ => ?_
  rw [Finset.sum_Ico_eq_sum_range]
  refine Finset.sum_congr rfl fun t _ => ?_
  rw [abs_sub_comm, add_comm m t, Nat.add_sub_cancel]

theorem maseScaleAll_eq (m : ℕ) (tr : Arr3D K) : maseScaleAll m tr = (∑ f ∈ Finset.range tr.d, Spec.naiveError m tr f) / (tr.d : K) := by
  simp only [← maseScaleFeature_eq]
  unfold maseScaleAll maseScaleFeature
  rw [← Finset.sum_div, div_div, Nat.cast_mul (tr.n * (tr.sz - m)) tr.d]
  congr 1
  rw [Finset.sum_comm (s := Finset.range tr.d)]
  exact Finset.sum_congr rfl fun i _ => Finset.sum_comm

/-- The scaled error is the mean absolute error over the error of the seasonal naive forecast: for raw values feature by feature, otherwise
with the plain mean of the naive errors of the features. -/
theorem C47_mase_value (y p tr : Arr3D K) (m : ℕ) (tsW timeW : Option (ℕ → K)) (mo : MultiOut K) (h : SameShape y p) :
    ∃ r, maseOf y p tr m tsW timeW mo = .ok r ∧ match mo, r with
      | .raw, .vector r => ∀ f < y.d, r f = (∑ i ∈ Finset.range y.n, ∑ t ∈ Finset.range y.sz,
          share tsW y.n i * share timeW y.sz t * |y.at i t f - p.at i t f|) / Spec.naiveError m tr f
      | .uniform, .scalar r => r = meanError (fun a b => |a - b|) y p tsW timeW none / ((∑ f ∈ Finset.range tr.d, Spec.naiveError m tr f) / (tr.d : K))
      | .weights w, .scalar r => r = meanError (fun a b => |a - b|) y p tsW timeW (some w) /
          ((∑ f ∈ Finset.range tr.d, Spec.naiveError m tr f) / (tr.d : K))
      | _, _ => False := by
  obtain ⟨r, hr, hv⟩ := C47_value (fun a b : K => |a - b|) y p tsW timeW h mo
  unfold maseOf
  rw [show maeOf y p tsW timeW mo = .ok r from hr]
  cases mo with
  | raw =>
    cases r with
    | scalar r => exact hv.elim
    | vector r => exact ⟨_, rfl, fun f hf => by rw [← maseScaleFeature_eq, ← hv f hf]⟩
  | uniform =>
    cases r with
    | scalar r => exact ⟨_, rfl, by simp only at hv ⊢; rw [← maseScaleAll_eq, ← hv]⟩
    | vector r => exact hv.elim
  | weights w =>
    cases r with
    | scalar r => exact ⟨_, rfl, by simp only at hv ⊢; rw [← maseScaleAll_eq, ← hv]⟩
    | vector r => exact hv.elim

/-- An array from a list. -/
def arrOf (n sz d : ℕ) (l : List ℚ) : Arr3D ℚ := ⟨n, sz, d, fun i => l.getD i 0⟩

/-- A scalar result. -/
def PerfRes.value : Except PyErr (PerfRes K) → Option K
  | .ok (.scalar v) => some v
  | _ => none

/-- False: the average does not depend on the units of the features. Ten times the second feature, everywhere, changes it. -/
theorem C47_false_units : ∃ (c : ℕ → ℚ) (y p tr : Arr3D ℚ), (∀ f, c f ≠ 0) ∧ SameShape y p ∧ tr.d = y.d ∧
    PerfRes.value (maseOf (inUnits c y) (inUnits c p) (inUnits c tr) 1 none none .uniform) ≠ PerfRes.value (maseOf y p tr 1 none none .uniform) :=
  ⟨fun f => if f = 1 then 10 else 1, arrOf 1 1 2 [0, 0], arrOf 1 1 2 [1, 0], arrOf 1 2 2 [0, 0, 1, 1], by intro f; simp only; split <;> decide,
    ⟨rfl, rfl, rfl, by decide, by decide, by decide⟩, rfl, by decide +kernel⟩

/-- False: arrays of other shapes are refused, or different from one another. Two series of one sample are at error 0 from one series of
two. -/
theorem C47_false_shape : ∃ y p : Arr3D ℚ, y.n ≠ p.n ∧ y.sz ≠ p.sz ∧ PerfRes.value (maeOf y p none none .uniform) = some 0 :=
  ⟨arrOf 1 2 1 [3, 4], arrOf 2 1 1 [3, 4], by decide, by decide, by decide +kernel⟩

example : PerfRes.value (maeOf (arrOf 2 2 1 [1, 2, 3, 4]) (arrOf 2 2 1 [1, 4, 3, 0]) (some fun i => if i = 0 then 1 else 3) none .uniform) = some (7 / 4) ∧
    PerfRes.value (mseOf (arrOf 2 2 1 [1, 2, 3, 4]) (arrOf 2 2 1 [1, 4, 3, 0]) none (some fun t => if t = 0 then 1 else 4) .uniform) = some 8 := by
  decide +kernel
example : SameShape (arrOf 2 2 1 [1, 2, 3, 4]) (arrOf 2 2 1 [1, 4, 3, 0]) ∧ PosWeights (some fun i : ℕ => if i = 0 then (1 : ℚ) else 3) 2 :=
  ⟨⟨rfl, rfl, rfl, by decide, by decide, by decide⟩, by rintro v ⟨⟩ i _; simp only; split <;> decide⟩
example : PerfRes.value (maseOf (arrOf 1 2 1 [1, 2]) (arrOf 1 2 1 [1, 4]) (arrOf 1 3 1 [0, 2, 6]) 2 none none .uniform) = some (1 / 6) := by
  decide +kernel
example : Spec.naiveError 2 (arrOf 1 3 2 [0, 0, 2, 1, 6, 4]) 0 = (6 : ℚ) ∧ PerfRes.value (maseOf (arrOf 1 1 2 [0, 0]) (arrOf 1 1 2 [1, 0]) (arrOf 1 3 2 [0, 0, 2, 1, 6, 4]) 2 none none
    .uniform) = some (1 / 10) := by decide +kernel

end Verif
