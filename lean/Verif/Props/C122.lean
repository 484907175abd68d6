import Verif.Model.FloatSoftNorm
import Verif.Props.C52
import Verif.Props.C108
import Mathlib.Analysis.Complex.ExponentialBounds
/-!
# C122 — Normalised soft-DTW in floating-point arithmetic

`A.softDtwNormalized` and `A.cdistSoftNormalized` are the NumPy code in the format `A`.
-/
set_option linter.unusedSectionVars false
namespace Verif
open Spec
noncomputable section
open Classical
variable {A : Arith} {u τ ε γ tiny : ℝ}

/-- Twice a double is a double (as if there were no largest one). -/
theorem C122_doubles (v : ℝ) (h : double v = v) : double (2 * v) = 2 * v := by
  have h2 : (2 : ℝ) ^ (-1074 : ℤ) ≠ 0 := (zpow_pos (by norm_num) _).ne'
  by_cases hs : |v| < 2 ^ (-1022 : ℤ)
  · have e : v = nearestInt (v / (2 : ℝ) ^ (-1074 : ℤ)) * 2 ^ (-1074 : ℤ) := by
      conv_lhs => rw [← h, double, if_pos hs]
    have hk := double_sub_range hs
    generalize nearestInt (v / (2 : ℝ) ^ (-1074 : ℤ)) = k at e hk
    subst e
    unfold double
    split_ifs
    · have : 2 * ((k : ℝ) * 2 ^ (-1074 : ℤ)) = ((2 * k : ℤ) : ℝ) * 2 ^ (-1074 : ℤ) := by push_cast; ring
      rw [this, mul_div_cancel_right₀ _ h2, nearestInt_int]
    · have : 2 * ((k : ℝ) * 2 ^ (-1074 : ℤ)) = (k : ℝ) * 2 ^ (-1073 : ℤ) := by
        rw [show (-1073 : ℤ) = 1 + -1074 by norm_num, zpow_add₀ (by norm_num)]; ring
      rw [this]
      exact nearBits_exact 52 _ k (lt_of_le_of_lt hk (by norm_num))
  · have h3 : ¬ |2 * v| < 2 ^ (-1022 : ℤ) := by
      rw [abs_mul, abs_two]
      have := abs_nonneg v
      push Not at hs ⊢
      linarith
    rw [double, if_neg hs] at h
    rw [double, if_neg h3]
    have := nearBits_scale 52 1 v
    rw [zpow_one, h] at this
    exact this

theorem fit_num_fix (hA : Rounding A.rnd u tiny) {x : Fl} {v : ℝ} (h : A.fit x = .num v) : A.rnd v = v ∧ |v| < A.big := by
  cases x with
  | num a =>
    simp only [Arith.fit] at h
    split_ifs at h with h1 h2
    cases h
    exact ⟨hA.idem a, abs_lt.2 ⟨by linarith, by linarith⟩⟩
  | inf => cases h
  | ninf => cases h
  | nan => cases h

/-- A finite result of the recurrence is a number of the format. -/
theorem softF_fix (hA : Rounding A.rnd u tiny) {x y : List (List ℝ)} (hx : x ≠ []) (hy : y ≠ []) {code : ℕ} {radius : Option ℕ}
    {slope : Option ℚ} {v : ℝ} (h : A.softGeneric x y γ code radius slope = .ok (.num v)) : A.rnd v = v ∧ |v| < A.big := by
  have hn := List.length_pos_iff.2 hx
  have hm := List.length_pos_iff.2 hy
  unfold Arith.softGeneric at h
  cases hmask : computeMask x.length y.length code radius slope with
  | error e => simp [hmask, bind, Except.bind] at h
  | ok mask =>
    simp only [hmask, bind, Except.bind, pure, Except.pure, Except.ok.injEq, lastEntry, Arith.softAcc, Mat.tail] at h
    have hD := dpLoop_isDP x.length y.length mask
      (fun i j up left diag => A.add (A.sqDist (x.getD i []) (y.getD j [])) (A.softmin3 up left diag γ))
      ((Mat.full Fl.inf).set 0 0 (Fl.num 0))
    rw [hD.body _ _ (by omega) (by omega)] at h
    split_ifs at h with hc
    · exact fit_num_fix hA h
    · rw [Mat.set_apply, if_neg (by omega)] at h
      cases h

theorem half_double (hA : Rounding A.rnd u tiny) (hdbl : ∀ v, A.rnd v = v → A.rnd (2 * v) = 2 * v) {v : ℝ} (hv : A.rnd v = v)
    (hlt : |2 * v| < A.big) : A.sub (.num v) (A.mul (.num (1 / 2)) (A.add (.num v) (.num v))) = .num 0 := by
  have hb : 0 < A.big := lt_of_le_of_lt (abs_nonneg _) hlt
  have e1 : A.add (.num v) (.num v) = .num (2 * v) := by
    simp only [Arith.add, Fl.add]
    rw [← two_mul]
    exact fit_fix hA (hdbl v hv) hlt
  have e2 : A.mul (.num (1 / 2)) (.num (2 * v)) = .num v := by
    simp only [Arith.mul, Fl.mul, Fl.scale]
    rw [show (1 / 2 : ℝ) * (2 * v) = v by ring]
    refine fit_fix hA hv ?_
    rw [abs_mul, abs_two] at hlt
    have := abs_nonneg v
    linarith
  rw [e1, e2]
  simp only [Arith.sub, Fl.sub, Fl.neg, Fl.add, add_neg_cancel]
  exact fit_fix hA (rnd_zero hA) (by rwa [abs_zero])

/-- `soft_dtw_normalized(s, s)` is zero, not only close to it, whatever the constraint, when `soft_dtw(s, s)` is finite and twice
its value does not overflow: halving and doubling are exact. -/
theorem C122_self (hA : Rounding A.rnd u tiny) (hdbl : ∀ v, A.rnd v = v → A.rnd (2 * v) = 2 * v) {s : TsInput (Option ℝ)} (γ : ℝ)
    {g : Option String} {radius : Option ℕ} {slope : Option ℚ} {v : ℝ} (h : A.softDtw s s γ g radius slope = .ok (.num v))
    (hlt : |2 * v| < A.big) : A.softDtwNormalized s s γ g radius slope = .ok (.num 0) := by
  unfold Arith.softDtw at h
  cases hv : validatePair s s g with
  | error e => simp [hv, bind, Except.bind] at h
  | ok t =>
    obtain ⟨x, y, code⟩ := t
    obtain ⟨d1, d2, -, hx, -⟩ := validatePair_ok hv
    obtain rfl : x = y := by rw [d1] at d2; exact Option.some.inj d2
    simp only [hv, bind, Except.bind, throw, throwThe, MonadExceptOf.throw] at h
    split_ifs at h with hγ
    simp only [Arith.softDtwNormalized, hv, bind, Except.bind, hγ, if_false, Arith.softNormalizedGeneric, h, pure, Except.pure]
    rw [half_double hA hdbl (softF_fix hA hx hx h).1 hlt]

/-- False when twice the value overflows: `soft_dtw_normalized(s, s)` is then plus or minus infinity. -/
theorem C122_false_overflow (hA : Rounding A.rnd u tiny) (hbig : 0 < A.big) {s : TsInput (Option ℝ)} (γ : ℝ) {g : Option String} {radius : Option ℕ}
    {slope : Option ℚ} {v : ℝ} (h : A.softDtw s s γ g radius slope = .ok (.num v)) (hov : A.big ≤ A.rnd |2 * v|) :
    A.softDtwNormalized s s γ g radius slope = .ok (if 0 ≤ v then .ninf else .inf) := by
  unfold Arith.softDtw at h
  cases hv : validatePair s s g with
  | error e => simp [hv, bind, Except.bind] at h
  | ok t =>
    obtain ⟨x, y, code⟩ := t
    obtain ⟨d1, d2, -, hx, -⟩ := validatePair_ok hv
    obtain rfl : x = y := by rw [d1] at d2; exact Option.some.inj d2
    simp only [hv, bind, Except.bind, throw, throwThe, MonadExceptOf.throw] at h
    split_ifs at h with hγ
    simp only [Arith.softDtwNormalized, hv, bind, Except.bind, hγ, if_false, Arith.softNormalizedGeneric, h, pure, Except.pure]
    have half : (0 : ℝ) < 1 / 2 := by norm_num
    split_ifs with hv0
    · have e1 : A.add (.num v) (.num v) = .inf := by
        simp only [Arith.add, Fl.add, Arith.fit]
        rw [abs_of_nonneg (by linarith), two_mul] at hov
        rw [if_pos hov]
      rw [e1]
      simp only [Arith.mul, Fl.mul, Fl.scale, half, if_true, Arith.fit, Arith.sub, Fl.sub, Fl.neg, Fl.add]
    · have e1 : A.add (.num v) (.num v) = .ninf := by
        simp only [Arith.add, Fl.add, Arith.fit]
        rw [abs_of_nonpos (by linarith), hA.odd, two_mul] at hov
        rw [if_neg (by linarith), if_pos (by linarith)]
      rw [e1]
      simp only [Arith.mul, Fl.mul, Fl.scale, half, if_true, Arith.fit, Arith.sub, Fl.sub, Fl.neg, Fl.add]

theorem softF_symm (hA : Rounding A.rnd u tiny) (hbig : 1 < A.big) (hexp : ∀ v, A.rnd (A.exp v) = A.exp v) (hnn : ∀ v, 0 ≤ A.exp v)
    {x y : List (List ℝ)} (hx : x ≠ []) (hy : y ≠ []) (γ : ℝ) {g : Option String} (hg : g = none ∨ g = some "sakoe_chiba") {code : ℕ}
    (hcode : gcCode g = .ok code) (radius : Option ℕ) : A.softGeneric x y γ code radius none = A.softGeneric y x γ code radius none := by
  have main : ∀ mask mask' : Mat Bool, computeMask x.length y.length code radius none = .ok mask →
      computeMask y.length x.length code radius none = .ok mask' → (∀ i < x.length, ∀ j < y.length, mask' j i = mask i j) →
      A.softGeneric x y γ code radius none = A.softGeneric y x γ code radius none := by
    intro mask mask' h1 h2 h3
    simp only [Arith.softGeneric, h1, h2, bind, Except.bind, pure, Except.pure]
    rw [softAccF_swap hA hbig hexp hnn h3 hx hy]
  have hband : ∀ r, ∀ i < x.length, ∀ j < y.length,
      sakoeChibaMask y.length x.length r j i = sakoeChibaMask x.length y.length r i j := by
    intro r i hi j hj
    rw [Bool.eq_iff_iff, sakoeChibaMask_iff _ _ _ _ _ hi hj, sakoeChibaMask_iff _ _ _ _ _ hj hi]
    unfold InBand
    omega
  rcases hg with rfl | rfl
  · obtain rfl : 0 = code := by simpa [gcCode] using hcode
    cases radius with
    | none => exact main (Mat.full true) (Mat.full true) rfl rfl fun _ _ _ _ => rfl
    | some r => exact main _ _ rfl rfl (hband r)
  · obtain rfl : 2 = code := by simpa [gcCode] using hcode
    exact main _ _ rfl rfl (hband _)

/-- `soft_dtw_normalized` is symmetric to the last bit, exceptions and not-a-number included, without constraint and with a
Sakoe-Chiba band. -/
theorem C122_symm (hA : Rounding A.rnd u tiny) (hbig : 1 < A.big) (hexp : ∀ v, A.rnd (A.exp v) = A.exp v) (hnn : ∀ v, 0 ≤ A.exp v)
    (s1 s2 : TsInput (Option ℝ)) (γ : ℝ) (g : Option String) (radius : Option ℕ) (hg : g = none ∨ g = some "sakoe_chiba") :
    A.softDtwNormalized s1 s2 γ g radius none = A.softDtwNormalized s2 s1 γ g radius none := by
  unfold Arith.softDtwNormalized
  rw [validatePair_swap s2 s1 g]
  cases h12 : validatePair s1 s2 g with
  | error e => rfl
  | ok t =>
    obtain ⟨x, y, code⟩ := t
    obtain ⟨-, -, hcode, hx, hy, -⟩ := validatePair_ok h12
    simp only [Except.map, bind, Except.bind]
    split
    · rfl
    · simp only [Arith.softNormalizedGeneric, bind, Except.bind, pure, Except.pure]
      rw [softF_symm hA hbig hexp hnn hx hy γ hg hcode radius]
      have noerr : ∀ n m, ∃ mask, computeMask n m code radius none = .ok mask := by
        intro n m
        rcases hg with rfl | rfl
        · obtain rfl : 0 = code := by simpa [gcCode] using hcode
          cases radius <;> exact ⟨_, rfl⟩
        · obtain rfl : 2 = code := by simpa [gcCode] using hcode
          exact ⟨_, rfl⟩
      have ok : ∀ p q : List (List ℝ), ∃ v, A.softGeneric p q γ code radius none = .ok v := by
        intro p q
        obtain ⟨mask, hm⟩ := noerr p.length q.length
        exact ⟨lastEntry (A.softAcc p q mask γ) p.length q.length, by simp only [Arith.softGeneric, hm, bind, Except.bind, pure, Except.pure]⟩
      obtain ⟨a, ha⟩ := ok y x
      obtain ⟨b, hb⟩ := ok x x
      obtain ⟨c, hc⟩ := ok y y
      simp only [ha, hb, hc]
      have : A.add b c = A.add c b := by simp only [Arith.add, Fl.add_comm b c]
      rw [this]

theorem fit_flneg (hA : Rounding A.rnd u tiny) (hbig : 1 < A.big) (x : Fl) : A.fit x.neg = (A.fit x).neg := by
  cases x with
  | num v => exact fit_neg hA hbig v
  | inf => rfl
  | ninf => rfl
  | nan => rfl

/-- Adding `-0.5 * s` is subtracting `0.5 * s`, to the last bit. -/
theorem normalizedF_entry (hA : Rounding A.rnd u tiny) (hbig : 1 < A.big) (a b c : Fl) :
    A.add a (A.normalizer b c) = A.sub a (A.mul (.num (1 / 2)) (A.add b c)) := by
  unfold Arith.normalizer
  generalize A.add b c = s
  have e : Fl.mul (.num (-(1 / 2))) s = (Fl.mul (.num (1 / 2)) s).neg := by
    have h1 : ¬ ((0 : ℝ) < -(1/2)) := by norm_num
    have h2 : (-(1/2) : ℝ) < 0 := by norm_num
    have h3 : (0 : ℝ) < 1/2 := by norm_num
    cases s with
    | num x => simp only [Fl.mul, Fl.scale, Fl.neg, neg_mul]
    | inf => simp only [Fl.mul, Fl.scale, h1, h2, h3, if_true, if_false, Fl.neg]
    | ninf => simp only [Fl.mul, Fl.scale, h1, h2, h3, if_true, if_false, Fl.neg]
    | nan => rfl
  simp only [Arith.add, Arith.sub, Arith.mul, e, fit_flneg hA hbig, Fl.sub]

/-- One dataset, without constraint or with a Sakoe-Chiba band: every entry is `soft_dtw_normalized` of the two series to the last
bit, although the matrix adds a normaliser computed from its own diagonal. -/
theorem C122_cdist_self (hA : Rounding A.rnd u tiny) (hbig : 1 < A.big) (hexp : ∀ v, A.rnd (A.exp v) = A.exp v) (hnn : ∀ v, 0 ≤ A.exp v)
    {l : List (Ts ℝ)} {d : ℕ} (hwf : ∀ t ∈ l, t.WF ∧ t.d = d) {γ : ℝ} {g : Option String} (hg : g = none ∨ g = some "sakoe_chiba")
    {radius : Option ℕ} {run} (hrun : Execution run) {M : Mat Fl}
    (h : A.cdistSoftNormalized (.series l) none γ g radius none run = .ok M) {i j : ℕ} {t t' : Ts ℝ} (hi : l[i]? = some t)
    (hj : l[j]? = some t') : A.softDtwNormalized (.twoD t.rows) (.twoD t'.rows) γ g radius none = .ok (M i j) := by
  obtain ⟨code, hcode⟩ : ∃ code, gcCode g = .ok code := by rcases hg with rfl | rfl <;> exact ⟨_, rfl⟩
  unfold Arith.cdistSoftNormalized at h
  cases hcd : A.cdistSoft (.series l) none γ g radius none run with
  | error e => simp [hcd, bind, Except.bind] at h
  | ok cd =>
  simp only [hcd, bind, Except.bind, pure, Except.pure, Except.ok.injEq] at h
  subst h
  unfold Arith.cdistSoft at hcd
  simp only [hcode, bind, Except.bind, throw, throwThe, MonadExceptOf.throw] at hcd
  split_ifs at hcd with hγ
  have entry : ∀ {i j : ℕ} {t t' : Ts ℝ}, l[i]? = some t → l[j]? = some t' →
      ∃ x y, denan t.trim.rows = some x ∧ denan t'.trim.rows = some y ∧
      validatePair (.twoD t.rows) (.twoD t'.rows) g = .ok (x, y, code) ∧
      A.softGeneric x y γ code radius none = .ok (cd i j) := by
    intro i j t t' hi hj
    obtain ⟨x, y, hv, hx, hy, hf⟩ := cdistOf_self_symm hwf hrun hcd
      (fun x y hx hy => softF_symm hA hbig hexp hnn hx hy γ hg hcode radius) hcode hi hj
    obtain ⟨d1, d2, -⟩ := validatePair_ok hv
    exact ⟨x, y, d1, d2, hv, hf⟩
  obtain ⟨x, y, dx, dy, hv, hf⟩ := entry hi hj
  obtain ⟨x1, x2, dx1, dx2, -, hfx⟩ := entry hi hi
  obtain ⟨y1, y2, dy1, dy2, -, hfy⟩ := entry hj hj
  obtain rfl : x = x1 := by rw [dx] at dx1; exact Option.some.inj dx1
  obtain rfl : x = x2 := by rw [dx] at dx2; exact Option.some.inj dx2
  obtain rfl : y = y1 := by rw [dy] at dy1; exact Option.some.inj dy1
  obtain rfl : y = y2 := by rw [dy] at dy2; exact Option.some.inj dy2
  simp only [Arith.softDtwNormalized, hv, bind, Except.bind, hγ, if_false, Arith.softNormalizedGeneric, hf, hfx, hfy, pure, Except.pure]
  rw [normalizedF_entry hA hbig]

/-- Two datasets, any constraint: every entry is `soft_dtw_normalized` of the two series to the last bit. -/
theorem C122_cdist_cross (hA : Rounding A.rnd u tiny) (hbig : 1 < A.big) {l l' : List (Ts ℝ)} {d : ℕ}
    (hwf : ∀ t ∈ l, t.WF ∧ t.d = d) (hwf' : ∀ t ∈ l', t.WF ∧ t.d = d) {γ : ℝ} {g : Option String} {radius : Option ℕ} {slope : Option ℚ}
    {run} (hrun : Execution run) {M : Mat Fl}
    (h : A.cdistSoftNormalized (.series l) (some (.series l')) γ g radius slope run = .ok M) {i j : ℕ} {t t' : Ts ℝ}
    (hi : l[i]? = some t) (hj : l'[j]? = some t') :
    A.softDtwNormalized (.twoD t.rows) (.twoD t'.rows) γ g radius slope = .ok (M i j) := by
  unfold Arith.cdistSoftNormalized at h
  cases hcd : A.cdistSoft (.series l) (some (.series l')) γ g radius slope run with
  | error e => simp [hcd, bind, Except.bind] at h
  | ok cd =>
  simp only [hcd, bind, Except.bind, pure, Except.pure] at h
  cases hX : toDataset (.series l) with
  | error e => simp [hX] at h
  | ok X =>
  cases hY : toDataset (.series l') with
  | error e => simp [hX, hY] at h
  | ok Y =>
  cases hg : gcCode g with
  | error e => simp [hX, hY, hg] at h
  | ok code =>
  cases h1 : seqRun (X.slots.map (A.softSelfF γ code radius slope)) with
  | error e => simp [hX, hY, hg, h1] at h
  | ok s1 =>
  cases h2 : seqRun (Y.slots.map (A.softSelfF γ code radius slope)) with
  | error e => simp [hX, hY, hg, h1, h2] at h
  | ok s2 =>
  simp only [hX, hY, hg, h1, h2, Except.ok.injEq] at h
  subst h
  unfold Arith.cdistSoft at hcd
  simp only [hg, bind, Except.bind, throw, throwThe, MonadExceptOf.throw] at hcd
  split_ifs at hcd with hγ
  obtain ⟨x, y, hv, hx, hy, hf⟩ := cdistOf_cross hwf hwf' hrun hcd hg hi hj
  obtain ⟨d1, d2, -⟩ := validatePair_ok hv
  have d1' : denan t.trim.rows = some x := d1
  have d2' : denan t'.trim.rows = some y := d2
  obtain ⟨s, hs, hst⟩ := slot_trim hwf hX hi
  obtain ⟨s', hs', hst'⟩ := slot_trim hwf' hY hj
  have k1 : A.softSelfF γ code radius slope s = .ok (s1.getD i (.num 0)) := by
    obtain ⟨v, hv, hr⟩ := run_get (.inl rfl) h1 (k := i) (by rw [List.getElem?_map, hs]; rfl)
    rw [hr, List.getD_eq_getElem?_getD, hv]; rfl
  have k2 : A.softSelfF γ code radius slope s' = .ok (s2.getD j (.num 0)) := by
    obtain ⟨v, hv, hr⟩ := run_get (.inl rfl) h2 (k := j) (by rw [List.getElem?_map, hs']; rfl)
    rw [hr, List.getD_eq_getElem?_getD, hv]; rfl
  rw [Arith.softSelfF, onSlots_congr _ hst hst] at k1
  rw [Arith.softSelfF, onSlots_congr _ hst' hst'] at k2
  simp only [onSlots, d1', hx, or_self, if_false] at k1
  simp only [onSlots, d2', hy, or_self, if_false] at k2
  simp only [Arith.softDtwNormalized, hv, bind, Except.bind, hγ, if_false, Arith.softNormalizedGeneric, hf, k1, k2, pure, Except.pure]
  rw [normalizedF_entry hA hbig]

/-- The diagonal of the matrix of one dataset is zero where `soft_dtw(s, s)` is finite and twice its value does not overflow. -/
theorem C122_cdist_diag (hA : Rounding A.rnd u tiny) (hdbl : ∀ v, A.rnd v = v → A.rnd (2 * v) = 2 * v) (hbig : 1 < A.big)
    (hexp : ∀ v, A.rnd (A.exp v) = A.exp v) (hnn : ∀ v, 0 ≤ A.exp v)
    {l : List (Ts ℝ)} {d : ℕ} (hwf : ∀ t ∈ l, t.WF ∧ t.d = d) {γ : ℝ} {g : Option String} (hg : g = none ∨ g = some "sakoe_chiba")
    {radius : Option ℕ} {run} (hrun : Execution run) {M : Mat Fl}
    (h : A.cdistSoftNormalized (.series l) none γ g radius none run = .ok M) {i : ℕ} {t : Ts ℝ} (hi : l[i]? = some t) {v : ℝ}
    (hv : A.softDtw (.twoD t.rows) (.twoD t.rows) γ g radius none = .ok (.num v)) (hlt : |2 * v| < A.big) : M i i = .num 0 := by
  have h1 := C122_cdist_self hA hbig hexp hnn hwf hg hrun h hi hi
  rw [C122_self hA hdbl γ hv hlt] at h1
  exact (Except.ok.inj h1).symm

/-- The soft minimum of the costs of some paths. -/
def pathSoftmin (γ : ℝ) (c : ℕ → ℕ → ℝ) (S : Finset (List (ℕ × ℕ))) : ℝ := -γ * Real.log (∑ p ∈ S, Real.exp (-sumCost c p / γ))

/-- The conditions of the error bounds on the arithmetic, `gamma` and the size of the data (at most `L` samples of `d` features which differ by at
most `R` in each): `W` bounds the values and `step` is the error of one cell, as in `C108_error`. -/
structure SoftRange (A : Arith) (u τ ε γ : ℝ) (L d : ℕ) (R W step : ℝ) : Prop where
  rnd : RndErr A.rnd u τ
  odd : OddMono A.rnd
  exp : ExpErr A.exp ε
  log : LogErr A.log ε
  u0 : 0 ≤ u
  u1 : u ≤ 1 / 100
  τ0 : 0 ≤ τ
  τ1 : τ ≤ 1 / 100
  ε1 : ε ≤ 1 / 100
  γ0 : 0 < γ
  R1 : 1 ≤ R
  feat : 8 * d * (u + τ) ≤ 1 / 2
  W_eq : W = (2 * L : ℕ) * (d * R ^ 2 + 2 * γ)
  step_eq : step = 8 * d ^ 2 * (u + τ) * R ^ 2 + 18 * u * W + 40 * u * γ + 7 * ε * γ + 10 * τ * γ + 3 * τ
  small : step ≤ d * R ^ 2 + 2 * γ
  big : 9 * (W / γ) + 16 * W + 8 * γ + 18 < A.big

theorem softF_err {L d : ℕ} {R W step : ℝ} (H : SoftRange A u τ ε γ L d R W step) {x y : List (List ℝ)} (hx0 : x ≠ []) (hy0 : y ≠ [])
    (hxL : x.length ≤ L) (hyL : y.length ≤ L) {code : ℕ} {radius : Option ℕ} {slope : Option ℚ} (hs : ∀ s, slope = some s → 1 ≤ s)
    {mask : Mat Bool} (hmask : computeMask x.length y.length code radius slope = .ok mask)
    {S : Finset (List (ℕ × ℕ))} (hS : ∀ p, p ∈ S ↔ Admissible x.length y.length mask p)
    (hx : ∀ r ∈ x, r.length = d) (hy : ∀ r ∈ y, r.length = d)
    (hxy : ∀ r ∈ x, ∀ s ∈ y, ∀ k, |r.getD k 0 - s.getD k 0| ≤ R) :
    ∃ v, A.softGeneric x y γ code radius slope = .ok (.num v) ∧
      |v - pathSoftmin γ (sampleCost x y) S| ≤ (2 * L : ℕ) * step ∧ |pathSoftmin γ (sampleCost x y) S| ≤ W := by
  obtain ⟨hR, hO, hE, hL, h0, hu, hτ0, hτ, hε, hγ, hR1, hd, hW, hstep, hsmall, hbig⟩ := H
  have hε0 : 0 ≤ ε := (abs_nonneg _).trans (hE.err 0 le_rfl)
  have hn := List.length_pos_iff.2 hx0
  have hm := List.length_pos_iff.2 hy0
  have hDm : 0 ≤ (d : ℝ) * R ^ 2 + 2 * γ := by positivity
  obtain ⟨V, hV⟩ : ∃ V : ℝ, V = (x.length + y.length : ℕ) * (d * R ^ 2 + 2 * γ) := ⟨_, rfl⟩
  have hlen : ((x.length + y.length : ℕ) : ℝ) ≤ (2 * L : ℕ) := by exact_mod_cast (show x.length + y.length ≤ 2 * L by omega)
  have hVW : V ≤ W := by rw [hV, hW]; exact mul_le_mul_of_nonneg_right hlen hDm
  have h2 : (2 : ℝ) ≤ (x.length + y.length : ℕ) := by exact_mod_cast (show 2 ≤ x.length + y.length by omega)
  have h3 : 2 * (d * R ^ 2 + 2 * γ) ≤ V := by rw [hV]; exact mul_le_mul_of_nonneg_right h2 hDm
  have hV0 : 0 ≤ V := by linarith
  have h4 : V / γ ≤ W / γ := div_le_div_of_nonneg_right hVW hγ.le
  have h5 : 0 ≤ V / γ := div_nonneg hV0 hγ.le
  have h6 : 0 ≤ (d : ℝ) * R ^ 2 := by positivity
  have hVbig : 8 * d * R ^ 2 < A.big := by linarith
  have hcost : ∀ i < x.length, ∀ j < y.length, ∃ v, A.sqDist (x.getD i []) (y.getD j []) = .num v ∧
      |v - localCost x y i j| ≤ 8 * d ^ 2 * (u + τ) * R ^ 2 ∧ 0 ≤ localCost x y i j ∧ localCost x y i j ≤ d * R ^ 2 := by
    intro i hi j hj
    have mi : x.getD i [] ∈ x := by rw [List.getD_eq_getElem _ _ hi]; exact List.getElem_mem hi
    have mj : y.getD j [] ∈ y := by rw [List.getD_eq_getElem _ _ hj]; exact List.getElem_mem hj
    exact sqDist_err hR h0 hτ0 hR1 hd hVbig _ _ (hx _ mi) (hy _ mj) (hxy _ mi _ mj)
  have hst : softStep u τ ε γ V (8 * d ^ 2 * (u + τ) * R ^ 2) ≤ step := by
    rw [hstep, softStep]
    have : 18 * u * V ≤ 18 * u * W := mul_le_mul_of_nonneg_left hVW (by positivity)
    linarith
  have hst0 : 0 ≤ softStep u τ ε γ V (8 * d ^ 2 * (u + τ) * R ^ 2) := by unfold softStep; positivity
  have key := acc_err (A := A) (γ := γ) (κ := 8 * d ^ 2 * (u + τ) * R ^ 2) (Dm := d * R ^ 2) hR hO hE hL h0 hu hτ0 hτ hε hγ (x := x) (y := y) mask hn hm hV
    (by positivity) (by linarith) (hst.trans hsmall) (by positivity)
    (fun i hi j hj => by obtain ⟨v, -, -, h1, h2⟩ := hcost i hi j hj; rw [abs_of_nonneg h1]; exact h2)
    (fun i hi j hj => by obtain ⟨v, h1, h2, -⟩ := hcost i hi j hj; exact ⟨v, h1, h2⟩)
  have ex := C17_softmin .numpy x y hx0 hy0 γ hγ code radius slope hs mask hmask S hS
  have ex' : lastEntry (softAcc x.length y.length mask (localCost x y) γ) x.length y.length = .num (pathSoftmin γ (sampleCost x y) S) := by
    unfold softDtwGeneric at ex
    rw [hmask] at ex
    unfold pathSoftmin
    simpa only [bind, Except.bind, pure, Except.pure, Except.ok.injEq] using ex
  rw [ex'] at key
  rcases key with ⟨h, -⟩ | ⟨h, -⟩ | ⟨e, r, h1, h2, h3, h4⟩
  · cases h
  · cases h
  · cases h1
    refine ⟨r, ?_, h3.trans ?_, h4.trans hVW⟩
    · simp only [Arith.softGeneric, hmask, bind, Except.bind, pure, Except.pure, h2]
    · exact mul_le_mul hlen hst hst0 (by positivity)

/-- `soft_dtw_normalized` with `gamma > 0` is within `(4 L + 1) * step` of the normalised soft minimum over all admissible warping
paths, `L` being the larger length: the errors of three soft-DTW values (the two self values count half) and of the three
operations that combine them. -/
theorem C122_error {L d : ℕ} {R W step : ℝ} (H : SoftRange A u τ ε γ L d R W step) {s1 s2 : TsInput (Option ℝ)} {g : Option String}
    {radius : Option ℕ} {slope : Option ℚ} (hs : ∀ s, slope = some s → 1 ≤ s) {x y : List (List ℝ)} {code : ℕ}
    (hv : validatePair s1 s2 g = .ok (x, y, code)) (hxL : x.length ≤ L) (hyL : y.length ≤ L) {mask mask1 mask2 : Mat Bool}
    (hmask : computeMask x.length y.length code radius slope = .ok mask)
    (hmask1 : computeMask x.length x.length code radius slope = .ok mask1)
    (hmask2 : computeMask y.length y.length code radius slope = .ok mask2) {S S1 S2 : Finset (List (ℕ × ℕ))}
    (hS : ∀ p, p ∈ S ↔ Admissible x.length y.length mask p) (hS1 : ∀ p, p ∈ S1 ↔ Admissible x.length x.length mask1 p)
    (hS2 : ∀ p, p ∈ S2 ↔ Admissible y.length y.length mask2 p)
    (hx : ∀ r ∈ x, r.length = d) (hy : ∀ r ∈ y, r.length = d)
    (hxy : ∀ r ∈ x ++ y, ∀ s ∈ x ++ y, ∀ k, |r.getD k 0 - s.getD k 0| ≤ R) :
    ∃ v, A.softDtwNormalized s1 s2 γ g radius slope = .ok (.num v) ∧
      |v - (pathSoftmin γ (sampleCost x y) S - (pathSoftmin γ (sampleCost x x) S1 + pathSoftmin γ (sampleCost y y) S2) / 2)| ≤
        (4 * L + 1) * step := by
  obtain ⟨-, -, -, hx0, hy0, -⟩ := validatePair_ok hv
  obtain ⟨a, ha, ea, ba⟩ := softF_err H hx0 hy0 hxL hyL hs hmask hS hx hy
    fun r hr s hs => hxy r (List.mem_append_left _ hr) s (List.mem_append_right _ hs)
  obtain ⟨b, hb, eb, bb⟩ := softF_err H hx0 hx0 hxL hxL hs hmask1 hS1 hx hx
    fun r hr s hs => hxy r (List.mem_append_left _ hr) s (List.mem_append_left _ hs)
  obtain ⟨c, hc, ec, bc⟩ := softF_err H hy0 hy0 hyL hyL hs hmask2 hS2 hy hy
    fun r hr s hs => hxy r (List.mem_append_right _ hr) s (List.mem_append_right _ hs)
  generalize pathSoftmin γ (sampleCost x y) S = Ea at *
  generalize pathSoftmin γ (sampleCost x x) S1 = Eb at *
  generalize pathSoftmin γ (sampleCost y y) S2 = Ec at *
  obtain ⟨hR, hO, hE, hLg, h0, hu, hτ0, hτ, hε, hγ, hR1, hd, hW, hstep, hsmall, hbig⟩ := H
  have hε0 : 0 ≤ ε := (abs_nonneg _).trans (hE.err 0 le_rfl)
  have hW0 : 0 ≤ W := by rw [hW]; positivity
  have hWγ : 0 ≤ W / γ := div_nonneg hW0 hγ.le
  have hη : ((2 * L : ℕ) : ℝ) * step ≤ W := by rw [hW]; exact mul_le_mul_of_nonneg_left hsmall (by positivity)
  have hst : 18 * u * W + 3 * τ ≤ step := by
    rw [hstep]
    have : 0 ≤ 8 * (d : ℝ) ^ 2 * (u + τ) * R ^ 2 + 40 * u * γ + 7 * ε * γ + 10 * τ * γ := by positivity
    linarith
  generalize hηd : ((2 * L : ℕ) : ℝ) * step = η at *
  have e4 : (4 * (L : ℝ) + 1) * step = 2 * η + step := by rw [← hηd]; push_cast; ring
  have huW : 0 ≤ u * W := by positivity
  have huW1 : u * W ≤ 1 / 100 * W := mul_le_mul_of_nonneg_right hu hW0
  have huτ : u * τ ≤ 1 / 100 * τ := mul_le_mul_of_nonneg_right hu hτ0
  have huuW : u * (u * W) ≤ 1 / 100 * (u * W) := mul_le_mul_of_nonneg_right hu huW
  have huuτ : u * (u * τ) ≤ 1 / 100 * (u * τ) := mul_le_mul_of_nonneg_right hu (by positivity)
  rw [abs_le] at ea eb ec ba bb bc
  -- the sum
  obtain ⟨s, hs1, -, hs2, hs3⟩ := fit_err (A := A) hR (x := b + c) (b := 4 * W) (abs_le.2 ⟨by linarith, by linarith⟩) (by linarith) h0 (by linarith)
  obtain ⟨h, hh1, -, hh2, hh3⟩ := fit_err (A := A) hR (x := 1 / 2 * s) (b := 2 * W + (2 * (u * W) + τ / 2))
    (by rw [abs_mul, abs_of_pos (by norm_num : (0 : ℝ) < 1 / 2)]; linarith) (by linarith) h0 (by linarith)
  have hh3' := abs_le.1 hh3
  obtain ⟨v, hv1, -, hv2, -⟩ := fit_err (A := A) hR (x := a + -h) (b := 5 * W + 2 * τ)
    (abs_le.2 ⟨by linarith, by linarith⟩) (by linarith) h0 (by linarith)
  refine ⟨v, ?_, ?_⟩
  · simp only [Arith.softDtwNormalized, hv, bind, Except.bind, hγ.ne', if_false, Arith.softNormalizedGeneric, ha, hb, hc, pure, Except.pure]
    simp only [Arith.add, Fl.add, hs1, Arith.mul, Fl.mul, Fl.scale, hh1, Arith.sub, Fl.sub, Fl.neg, hv1]
  · rw [e4]
    rw [abs_le] at hs2 hh2 hv2
    rw [abs_le]
    constructor <;> linarith

/-- On such data `soft_dtw_normalized(s, s)` is zero. -/
theorem C122_self_zero (hA : Rounding A.rnd u tiny) (hdbl : ∀ v, A.rnd v = v → A.rnd (2 * v) = 2 * v) {L d : ℕ} {R W step : ℝ}
    (H : SoftRange A u τ ε γ L d R W step) {s : TsInput (Option ℝ)} {g : Option String}
    {radius : Option ℕ} {slope : Option ℚ} (hs : ∀ s, slope = some s → 1 ≤ s) {x y : List (List ℝ)} {code : ℕ}
    (hv : validatePair s s g = .ok (x, y, code)) (hxL : x.length ≤ L) {mask : Mat Bool}
    (hmask : computeMask x.length x.length code radius slope = .ok mask) (hx : ∀ r ∈ x, r.length = d)
    (hxy : ∀ r ∈ x, ∀ s ∈ x, ∀ k, |r.getD k 0 - s.getD k 0| ≤ R) :
    A.softDtwNormalized s s γ g radius slope = .ok (.num 0) := by
  obtain ⟨d1, d2, -, hx0, -⟩ := validatePair_ok hv
  obtain rfl : x = y := by rw [d1] at d2; exact Option.some.inj d2
  have hn := List.length_pos_iff.2 hx0
  obtain ⟨S, hS⟩ := C17_paths_finite _ _ hn hn mask
  obtain ⟨v, h1, h2, h3⟩ := softF_err H hx0 hx0 hxL hxL hs hmask hS hx hx hxy
  obtain ⟨hR, hO, hE, hLg, h0, hu, hτ0, hτ, hε, hγ, hR1, hd, hW, hstep, hsmall, hbig⟩ := H
  have hW0 : 0 ≤ W := by rw [hW]; positivity
  have hWγ : 0 ≤ W / γ := div_nonneg hW0 hγ.le
  have hη : ((2 * L : ℕ) : ℝ) * step ≤ W := by rw [hW]; exact mul_le_mul_of_nonneg_left hsmall (by positivity)
  refine C122_self hA hdbl γ (v := v) ?_ ?_
  · simp only [Arith.softDtw, hv, bind, Except.bind, hγ.ne', if_false, h1]
  · rw [abs_le] at h2 h3
    exact abs_lt.2 ⟨by linarith, by linarith⟩

/-! ### Concrete cases -/

/-- Two series of two samples, in doubles. -/
theorem softRange_two : ∃ W step, SoftRange (doubles (fun v => double (Real.exp v)) Real.log) ((2 : ℝ) ^ 53)⁻¹ (2 ^ (-1075 : ℤ))
    ((2 : ℝ) ^ 52)⁻¹ 1 2 1 2 W step ∧ (4 * (2 : ℕ) + 1) * step ≤ 1 / 10 ^ 10 := by
  have hτ : (2 : ℝ) ^ (-1075 : ℤ) ≤ 2 ^ (-60 : ℤ) := zpow_le_zpow_right₀ (by norm_num) (by norm_num)
  have hτ0 : (0 : ℝ) ≤ (2 : ℝ) ^ (-1075 : ℤ) := (zpow_pos (by norm_num) _).le
  have hr := C108_doubles
  have h60 : (2 : ℝ) ^ (-60 : ℤ) = 1 / 2 ^ 60 := by norm_num
  rw [h60] at hτ
  generalize (2 : ℝ) ^ (-1075 : ℤ) = τ at hτ hτ0 hr
  refine ⟨_, _, ⟨hr, double_rounding.toOddMono, ⟨?_, ?_⟩, ?_, by positivity, by norm_num, hτ0, hτ.trans (by norm_num), by norm_num, one_pos,
    by norm_num, by norm_num at hτ ⊢; linarith, rfl, rfl, by norm_num at hτ ⊢; linarith, ?_⟩, by norm_num at hτ ⊢; linarith⟩
  · intro v _
    have := double_rounding.mono (Real.exp_pos v).le
    rwa [double_zero] at this
  · intro v hv
    have h1 := hr (Real.exp v)
    rw [abs_of_pos (Real.exp_pos v)] at h1
    have h2 : Real.exp v ≤ 1 := Real.exp_le_one_iff.2 hv
    refine h1.trans ?_
    norm_num at hτ ⊢
    linarith
  · intro v _ _
    simp only [doubles, sub_self, abs_zero]
    positivity
  · show _ < (2 : ℝ) ^ 1024
    refine lt_of_lt_of_le ?_ (pow_le_pow_right₀ (by norm_num) (show 10 ≤ 1024 by norm_num))
    norm_num

/-- `soft_dtw_normalized([0, 1], [1, 2])`: ten decimals are right. -/
example (S : Finset (List (ℕ × ℕ))) (hS : ∀ p, p ∈ S ↔ Admissible 2 2 (Mat.full true) p) :
    ∃ v, (doubles (fun v => double (Real.exp v)) Real.log).softDtwNormalized (.oneD [some 0, some 1]) (.oneD [some 1, some 2]) 1 none none none =
        .ok (.num v) ∧
      |v - (pathSoftmin 1 (sampleCost [[0], [1]] [[1], [2]]) S -
        (pathSoftmin 1 (sampleCost [[0], [1]] [[0], [1]]) S + pathSoftmin 1 (sampleCost [[1], [2]] [[1], [2]]) S) / 2)| ≤ 1 / 10 ^ 10 := by
  obtain ⟨W, step, H, hs⟩ := softRange_two
  obtain ⟨v, h1, h2⟩ := C122_error H (slope := none) (radius := none) (by simp) (valid_two 0 1 1 2) (by simp) (by simp) (mask := Mat.full true)
    (mask1 := Mat.full true) (mask2 := Mat.full true) rfl rfl rfl hS hS hS (by simp) (by simp)
    (by
      intro r hr s hs k
      simp only [List.cons_append, List.nil_append, List.mem_cons, List.not_mem_nil, or_false] at hr hs
      rcases hr with rfl | rfl | rfl | rfl <;> rcases hs with rfl | rfl | rfl | rfl <;> rcases k with _ | k <;> norm_num)
  exact ⟨v, h1, h2.trans hs⟩

/-- `soft_dtw_normalized([0, 1], [0, 1])` is zero. -/
example : (doubles (fun v => double (Real.exp v)) Real.log).softDtwNormalized (.oneD [some 0, some 1]) (.oneD [some 0, some 1]) 1 none none none =
    .ok (.num 0) := by
  obtain ⟨W, step, H, -⟩ := softRange_two
  exact C122_self_zero (A := doubles (fun v => double (Real.exp v)) Real.log) double_rounding C122_doubles H (slope := none) (radius := none)
    (by simp) (valid_two 0 1 0 1) (by simp) (mask := Mat.full true) rfl (by simp)
    (by
      intro r hr s hs k
      simp only [List.mem_cons, List.not_mem_nil, or_false] at hr hs
      rcases hr with rfl | rfl <;> rcases hs with rfl | rfl <;> rcases k with _ | k <;> norm_num)

theorem expD_nonneg (v : ℝ) : 0 ≤ double (Real.exp v) := by
  have := double_rounding.mono (Real.exp_pos v).le
  rwa [double_zero] at this

example (s1 s2 : TsInput (Option ℝ)) (γ : ℝ) : (doubles (fun v => double (Real.exp v)) Real.log).softDtwNormalized s1 s2 γ none none none =
    (doubles (fun v => double (Real.exp v)) Real.log).softDtwNormalized s2 s1 γ none none none :=
  C122_symm (A := doubles (fun v => double (Real.exp v)) Real.log) double_rounding
    (by have := doubles_big (fun v => double (Real.exp v)) Real.log; linarith) (fun v => double_rounding.idem _) expD_nonneg s1 s2 γ none none
    (.inl rfl)

theorem cdistSoftD_total : ∃ M, (doubles (fun v => double (Real.exp v)) Real.log).cdistSoftNormalized
    (.series [⟨1, [[some 0], [some 1]]⟩, oneSample 2]) none 1 (some "sakoe_chiba") (some 1) none seqRun = .ok M := by
  have hds : toDataset (.series [⟨1, [[some (0:ℝ)], [some 1]]⟩, oneSample 2]) =
      .ok ⟨2, 1, [[[some 0], [some 1]], [[some 2], [none]]]⟩ := rfl
  have hcd : ∃ cd, (doubles (fun v => double (Real.exp v)) Real.log).cdistSoft (.series [⟨1, [[some 0], [some 1]]⟩, oneSample 2]) none 1
    (some "sakoe_chiba") (some 1) none seqRun = .ok cd := by
    unfold Arith.cdistSoft cdistOf
    simp only [gcCode, bind, Except.bind, one_ne_zero, if_false, hds]
    apply C09_total _ _ _ _ _ _ (.inl rfl)
    intro x hx y hy
    simp only [Arr3.slots, List.map_cons, List.map_nil, List.mem_cons, List.not_mem_nil, or_false,
      Option.getD_none] at hx hy
    rcases hx with rfl | rfl <;> rcases hy with rfl | rfl <;> exact ⟨_, rfl⟩
  obtain ⟨cd, hcd⟩ := hcd
  unfold Arith.cdistSoftNormalized
  simp only [hcd, bind, Except.bind, pure, Except.pure]
  exact ⟨_, rfl⟩

/-- Entry (1, 0) of the matrix of `[0, 1]` and `[2]`, below the diagonal. -/
example : ∃ M, (doubles (fun v => double (Real.exp v)) Real.log).cdistSoftNormalized
      (.series [⟨1, [[some 0], [some 1]]⟩, oneSample 2]) none 1 (some "sakoe_chiba") (some 1) none seqRun = .ok M ∧
    (doubles (fun v => double (Real.exp v)) Real.log).softDtwNormalized (.twoD [[some 2]]) (.twoD [[some 0], [some 1]]) 1
      (some "sakoe_chiba") (some 1) none = .ok (M 1 0) := by
  obtain ⟨M, hM⟩ := cdistSoftD_total
  refine ⟨M, hM, ?_⟩
  exact C122_cdist_self (A := doubles (fun v => double (Real.exp v)) Real.log) double_rounding
    (by have := doubles_big (fun v => double (Real.exp v)) Real.log; linarith) (fun v => double_rounding.idem _) expD_nonneg (d := 1)
    (by
      intro t ht
      simp only [List.mem_cons, List.not_mem_nil, or_false] at ht
      rcases ht with rfl | rfl
      · refine ⟨fun r hr => ?_, rfl⟩
        simp only [List.mem_cons, List.not_mem_nil, or_false] at hr
        rcases hr with rfl | rfl <;> rfl
      · refine ⟨fun r hr => ?_, rfl⟩
        simp only [oneSample, List.mem_singleton] at hr
        subst hr; rfl)
    (.inr rfl) (.inl rfl) hM (i := 1) (j := 0) rfl rfl

/-- `[0, 1]` against `[2]`. -/
example : ∃ M, (doubles Real.exp Real.log).cdistSoftNormalized (.series [⟨1, [[some 0], [some 1]]⟩]) (some (.series [oneSample 2])) 1 none none none
      seqRun = .ok M ∧
    (doubles Real.exp Real.log).softDtwNormalized (.twoD [[some 0], [some 1]]) (.twoD [[some 2]]) 1 none none none = .ok (M 0 0) := by
  let a : Ts ℝ := ⟨1, [[some 0], [some 1]]⟩
  let b : Ts ℝ := oneSample 2
  have hds : toDataset (.series [b]) = .ok ⟨1, 1, [[[some 2]]]⟩ := rfl
  have hds' : toDataset (.series [a]) = .ok ⟨2, 1, [[[some 0], [some 1]]]⟩ := rfl
  have hcd : ∃ cd, (doubles Real.exp Real.log).cdistSoft (.series [a]) (some (.series [b])) 1 none none none seqRun = .ok cd := by
    unfold Arith.cdistSoft cdistOf
    simp only [gcCode, bind, Except.bind, one_ne_zero, if_false, hds, hds']
    apply C09_total _ _ _ _ _ _ (.inl rfl)
    intro x hx y hy
    simp only [Arr3.slots, List.map_cons, List.map_nil, List.mem_singleton, Option.getD_some] at hx hy
    subst hx hy
    exact ⟨_, rfl⟩
  obtain ⟨cd, hcd⟩ := hcd
  have hM : ∃ M, (doubles Real.exp Real.log).cdistSoftNormalized (.series [a]) (some (.series [b])) 1 none none none seqRun = .ok M := by
    unfold Arith.cdistSoftNormalized
    simp only [hcd, hds, hds', gcCode, bind, Except.bind, pure, Except.pure]
    exact ⟨_, rfl⟩
  obtain ⟨M, hM⟩ := hM
  refine ⟨M, hM, ?_⟩
  refine C122_cdist_cross (A := doubles Real.exp Real.log) double_rounding (by have := doubles_big Real.exp Real.log; linarith) (d := 1) ?_ ?_
    (.inl rfl) hM (i := 0) (j := 0) rfl rfl
  · intro t ht
    rw [List.mem_singleton] at ht
    subst ht
    refine ⟨fun r hr => ?_, rfl⟩
    simp only [a, List.mem_cons, List.not_mem_nil, or_false] at hr
    rcases hr with rfl | rfl <;> rfl
  · intro t ht
    rw [List.mem_singleton] at ht
    subst ht
    refine ⟨fun r hr => ?_, rfl⟩
    simp only [b, oneSample, List.mem_singleton] at hr
    subst hr; rfl

/-- The soft minimum of zeros and infinities, as it occurs when all local costs are zero. -/
theorem softminF_zeros (hA : Rounding A.rnd u tiny) (hE : ExpLike A.exp) (hL : LogLike A.log) (hbig : 4 < A.big) (hγ : 0 < γ) :
    A.softmin3 .inf (.num 0) .inf γ = .num 0 ∧ A.softmin3 (.num 0) .inf .inf γ = .num 0 ∧
      A.softmin3 (.num 0) (.num 0) (.num 0) γ = A.mul (.num (-γ)) (A.fit (.num (A.log 3))) := by
  have z : A.fit (.num 0) = .num 0 := fit_fix hA (rnd_zero hA) (by rw [abs_zero]; linarith)
  have o : A.fit (.num 1) = .num 1 := fit_fix hA (rnd_one hA) (by rw [abs_one]; linarith)
  have t : A.fit (.num 2) = .num 2 := fit_fix hA (rnd_two hA) (by rw [abs_two]; linarith)
  have th : A.fit (.num 3) = .num 3 := fit_fix hA (by have := hA.small 3 0 (by norm_num) (by norm_num); simpa using this)
    (by rw [abs_of_pos (by norm_num)]; linarith)
  have d0 : A.div (.num 0) (.num (-γ)) = .num 0 := by
    simp only [Arith.div, Arith.quot]
    rw [if_neg (by linarith), zero_div, z]
  have m2 : Fl.max .ninf (.num 0) = .num 0 := by simp [Fl.max, Fl.lt]
  have m3 : Fl.max (.num 0) .ninf = .num 0 := by simp [Fl.max, Fl.lt]
  have m4 : Fl.max (.num 0) (.num 0) = .num 0 := by simp [Fl.max, Fl.lt]
  have s1 : A.sub .ninf (.num 0) = .ninf := rfl
  have s2 : A.sub (.num 0) (.num 0) = .num 0 := by simp only [Arith.sub, Fl.sub, Fl.neg, Fl.add, neg_zero, add_zero, z]
  have e1 : A.expF .ninf = .num 0 := rfl
  have e2 : A.expF (.num 0) = .num 1 := by
    simp only [Arith.expF, hE.zero]
    rw [if_neg (by linarith)]
  have a1 : A.add (.num 0) (.num 0) = .num 0 := by simp only [Arith.add, Fl.add, add_zero, z]
  have a2 : A.add (.num 0) (.num 1) = .num 1 := by simp only [Arith.add, Fl.add, zero_add, o]
  have a3 : A.add (.num 1) (.num 0) = .num 1 := by simp only [Arith.add, Fl.add, add_zero, o]
  have a4 : A.add (.num 1) (.num 1) = .num 2 := by simp only [Arith.add, Fl.add, one_add_one_eq_two, t]
  have a5 : A.add (.num 2) (.num 1) = .num 3 := by simp only [Arith.add, Fl.add, two_add_one_eq_three, th]
  have l : A.logF (.num 1) = .num 0 := by
    simp only [Arith.logF, hL.one]
    norm_num
  have l3 : A.logF (.num 3) = .num (A.log 3) := by
    simp only [Arith.logF]
    rw [if_neg (by norm_num), if_neg (by norm_num)]
  have mm : A.mul (.num (-γ)) (.num 0) = .num 0 := by simp only [Arith.mul, Fl.mul, Fl.scale, mul_zero, z]
  have a6 : A.add (.num (A.log 3)) (.num 0) = A.fit (.num (A.log 3)) := by simp only [Arith.add, Fl.add, add_zero]
  unfold Arith.softmin3
  simp only [inf_div A hγ, d0, m2, m3, m4, s1, s2, e1, e2, a1, a2, a3, a4, a5, a6, l, l3, mm, and_self]

/-- `soft_dtw` of two zeros with itself is `-gamma * log(3)`, rounded. -/
theorem softF_twoZeros (hA : Rounding A.rnd u tiny) (hE : ExpLike A.exp) (hL : LogLike A.log) (hbig : 4 < A.big) (hγ : 0 < γ) :
    A.softDtw (.oneD [some 0, some 0]) (.oneD [some 0, some 0]) γ none none none = .ok (A.fit (A.mul (.num (-γ)) (A.fit (.num (A.log 3))))) := by
  obtain ⟨h1, h2, h3⟩ := softminF_zeros hA hE hL hbig hγ
  unfold Arith.softDtw
  rw [valid_two 0 0 0 0]
  simp only [bind, Except.bind, hγ.ne', if_false, Arith.softGeneric]
  show Except.ok _ = _
  congr 1
  simp only [lastEntry, Arith.softAcc, Mat.tail, List.length_cons, List.length_nil]
  have hD := dpLoop_isDP 2 2 (Mat.full true)
    (fun i j up left diag => A.add (A.sqDist (([[0], [0]] : List (List ℝ)).getD i []) (([[0], [0]] : List (List ℝ)).getD j [])) (A.softmin3 up left diag γ))
    ((Mat.full Fl.inf).set 0 0 (Fl.num 0))
  show dpLoop 2 2 (Mat.full true) _ _ 2 2 = _
  set M := dpLoop 2 2 (Mat.full true)
    (fun i j up left diag => A.add (A.sqDist (([[0], [0]] : List (List ℝ)).getD i []) (([[0], [0]] : List (List ℝ)).getD j [])) (A.softmin3 up left diag γ))
    ((Mat.full Fl.inf).set 0 0 (Fl.num 0))
  have row : ∀ j, M 0 (j + 1) = .inf := fun j => by rw [hD.row0, Mat.set_apply, if_neg (by omega)]; rfl
  have col : ∀ i, M (i + 1) 0 = .inf := fun i => by rw [hD.col0, Mat.set_apply, if_neg (by omega)]; rfl
  have corner : M 0 0 = .num 0 := by rw [hD.row0, Mat.set_apply, if_pos (by simp)]
  have sd : A.sqDist [0] [0] = .num 0 := sqDist_self hA (by linarith) [0]
  have z : A.fit (.num 0) = .num 0 := fit_fix hA (rnd_zero hA) (by rw [abs_zero]; linarith)
  have add0 : ∀ x : Fl, A.add (.num 0) x = A.fit x := by
    intro x
    cases x with
    | num a => simp only [Arith.add, Fl.add, zero_add]
    | inf => rfl
    | ninf => rfl
    | nan => rfl
  have tt : ∀ i j, (Mat.full true : Mat Bool) i j = true := fun _ _ => rfl
  have g0 : ([[0], [0]] : List (List ℝ)).getD 0 [] = [0] := rfl
  have g1 : ([[0], [0]] : List (List ℝ)).getD 1 [] = [0] := rfl
  have c11 : M 1 1 = .num 0 := by
    rw [hD.body 0 0 (by norm_num) (by norm_num), if_pos (tt _ _), row, col, corner, softminF_first hA hE hL (by linarith) hγ, g0, sd, add0, z]
  have c12 : M 1 2 = .num 0 := by
    rw [hD.body 0 1 (by norm_num) (by norm_num), if_pos (tt _ _), row, row, c11, h1, g0, g1, sd, add0, z]
  have c21 : M 2 1 = .num 0 := by
    rw [hD.body 1 0 (by norm_num) (by norm_num), if_pos (tt _ _), col, col, c11, h2, g0, g1, sd, add0, z]
  rw [hD.body 1 1 (by norm_num) (by norm_num), if_pos (tt _ _), c11, c12, c21, h3, g1, sd, add0]

/-- With a `gamma` of half the range, `soft_dtw_normalized([0, 0], [0, 0], gamma)` is infinite. -/
theorem C122_false_gamma (hA : Rounding A.rnd u tiny) (hE : ExpLike A.exp) (hL : LogLike A.log) {G : ℝ} (hG4 : 4 < G) (hb : A.big = 2 * G)
    (rg : A.rnd G = G) (rg3 : A.rnd (3 / 2 * G) = 3 / 2 * G) (rb : A.rnd (2 * G) = 2 * G) (l1 : 1 ≤ A.log 3) (l2 : A.log 3 ≤ 3 / 2) :
    A.softDtwNormalized (.oneD [some 0, some 0]) (.oneD [some 0, some 0]) G none none none = .ok .inf := by
  have r1 := rnd_one hA
  have r32 : A.rnd (3 / 2) = 3 / 2 := by
    have := hA.small 3 (-1) (by norm_num) (by norm_num)
    rw [show ((3 : ℤ) : ℝ) * 2 ^ (-1 : ℤ) = 3 / 2 by norm_num] at this
    exact this
  have key := softF_twoZeros hA hE hL (by linarith) (show 0 < G by linarith)
  have a1 := hA.mono l1
  have a2 := hA.mono l2
  rw [r1] at a1
  rw [r32] at a2
  have f1 : A.fit (.num (A.log 3)) = .num (A.rnd (A.log 3)) := fit_num hA (by rw [abs_of_nonneg (by linarith), hb]; linarith)
  generalize A.rnd (A.log 3) = r at *
  have b1 := hA.mono (show G ≤ G * r by nlinarith)
  have b2 := hA.mono (show G * r ≤ 3 / 2 * G by nlinarith)
  rw [rg] at b1
  rw [rg3] at b2
  have f2 : A.mul (.num (-G)) (.num r) = .num (-A.rnd (G * r)) := by
    simp only [Arith.mul, Fl.mul, Fl.scale]
    have e : A.rnd (-G * r) = -A.rnd (G * r) := by rw [neg_mul, hA.odd]
    rw [fit_num hA (by rw [e, abs_neg, abs_of_nonneg (by linarith), hb]; linarith), e]
  have f3 : A.fit (A.mul (.num (-G)) (.num r)) = .num (-A.rnd (G * r)) := by
    rw [← f2]
    exact fit_fit hA _
  rw [f1, f3] at key
  have := C122_false_overflow hA (by linarith) _ key (by
    rw [hb]
    have := hA.mono (show 2 * G ≤ |2 * -A.rnd (G * r)| by rw [abs_of_nonpos (by linarith)]; linarith)
    rwa [rb] at this)
  rw [this, if_neg (by linarith)]

/-- `soft_dtw_normalized([0, 0], [0, 0], gamma=2**1023)` is infinite in doubles. -/
theorem C122_false : (doubles Real.exp Real.log).softDtwNormalized (.oneD [some 0, some 0]) (.oneD [some 0, some 0]) (2 ^ 1023) none none none =
    .ok .inf := by
  have hA : Rounding (doubles Real.exp Real.log).rnd ((2 : ℝ) ^ 53)⁻¹ (2 ^ (-1022 : ℤ)) := double_rounding
  have sm := hA.small
  have e24 : (2 : ℝ) * 2 ^ 1023 = 2 ^ 1024 := by rw [pow_succ _ 1023, mul_comm]
  refine C122_false_gamma hA expLike_exp logLike_log ?_ e24.symm ?_ ?_ ?_ ?_ ?_
  · exact lt_of_lt_of_le (by norm_num : (4 : ℝ) < 2 ^ 3) (pow_le_pow_right₀ (by norm_num) (show 3 ≤ 1023 by norm_num))
  · have := sm 1 1023 (by norm_num) (by norm_num)
    rw [Int.cast_one, one_mul, show (1023 : ℤ) = ((1023 : ℕ) : ℤ) from rfl, zpow_natCast] at this
    exact this
  · have := sm 3 1022 (by norm_num) (by norm_num)
    rw [show (1022 : ℤ) = ((1022 : ℕ) : ℤ) from rfl, zpow_natCast] at this
    rw [show (3 / 2 : ℝ) * 2 ^ 1023 = ((3 : ℤ) : ℝ) * 2 ^ 1022 by rw [pow_succ _ 1022]; push_cast; ring]
    exact this
  · have := sm 1 1024 (by norm_num) (by norm_num)
    rw [Int.cast_one, one_mul, show (1024 : ℤ) = ((1024 : ℕ) : ℤ) from rfl, zpow_natCast] at this
    rw [e24]
    exact this
  · show (1 : ℝ) ≤ Real.log 3
    rw [Real.le_log_iff_exp_le (by norm_num)]
    have := Real.exp_one_lt_three
    linarith
  · show Real.log 3 ≤ 3 / 2
    rw [Real.log_le_iff_le_exp (by norm_num)]
    have h := Real.quadratic_le_exp_of_nonneg (show (0 : ℝ) ≤ 3 / 2 by norm_num)
    norm_num at h
    linarith

end
end Verif
