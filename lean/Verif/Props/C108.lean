import Verif.Proofs.FloatSoft
import Verif.Props.C18
import Verif.Props.C107
/-!
# C108 — Soft-DTW in floating-point arithmetic

`A.softDtw` is the NumPy code in a format with rounding `A.rnd`, computed exponential and logarithm `A.exp`, `A.log`, and numbers
below `A.big`. `RndErr A.rnd u τ` holds of doubles with `u = 2⁻⁵³` and `τ = 2⁻¹⁰⁷⁵` (`C108_doubles`); `ε` is the absolute error of
the exponential on negative arguments and of the logarithm between 1/2 and 4.
-/
set_option linter.unusedSectionVars false
namespace Verif
open Spec
noncomputable section
open Classical

/-- Doubles. -/
theorem C108_doubles : RndErr (double : ℝ → ℝ) ((2 : ℝ) ^ 53)⁻¹ (2 ^ (-1075 : ℤ)) := by
  intro a
  have hp : (0 : ℝ) < 2 ^ (-1075 : ℤ) := zpow_pos (by norm_num) _
  rcases lt_or_ge |a| (2 ^ (-1022 : ℤ)) with h | h
  · have h2 : (0 : ℝ) < (2 : ℝ) ^ (-1074 : ℤ) := zpow_pos (by norm_num) _
    have e := nearestInt_err (a / (2 : ℝ) ^ (-1074 : ℤ))
    have e2 : (2 : ℝ) ^ (-1075 : ℤ) = 1 / 2 * 2 ^ (-1074 : ℤ) := by
      rw [show (-1075 : ℤ) = -1 + -1074 by norm_num, zpow_add₀ (by norm_num)]; norm_num
    have e3 : double a - a = ((nearestInt (a / (2 : ℝ) ^ (-1074 : ℤ)) : ℝ) - a / 2 ^ (-1074 : ℤ)) * 2 ^ (-1074 : ℤ) := by
      unfold double
      rw [if_pos h, sub_mul, div_mul_cancel₀ _ h2.ne']
    rw [e3, abs_mul, abs_of_pos h2, e2]
    have := mul_le_mul_of_nonneg_right e h2.le
    have : 0 ≤ ((2 : ℝ) ^ 53)⁻¹ * |a| := by positivity
    linarith
  · have := double_rounding.rel a h
    linarith

variable {A : Arith} {u τ ε γ tiny : ℝ}

/-- `soft_dtw` with `gamma > 0` is within `(n + m) * step` of the soft minimum over all admissible warping paths, `n` and `m` being
the lengths, as long as samples differ by at most `R` in each of the `d` features. One `step` is the error of a local cost, plus
rounding errors relative to the largest possible value `V = (n + m) * (d * R ^ 2 + 2 * gamma)`, plus the errors of exponential and
logarithm times `gamma`. Nothing overflows and nothing is lost in the max-shift. -/
theorem C108_error (hR : RndErr A.rnd u τ) (hO : OddMono A.rnd) (hE : ExpErr A.exp ε) (hL : LogErr A.log ε) (h0 : 0 ≤ u) (hu : u ≤ 1 / 100)
    (hτ0 : 0 ≤ τ) (hτ : τ ≤ 1 / 100) (hε : ε ≤ 1 / 100) (hγ : 0 < γ) {s1 s2 : TsInput (Option ℝ)} {g : Option String}
    {radius : Option ℕ} {slope : Option ℚ} (hs : ∀ s, slope = some s → 1 ≤ s) {x y : List (List ℝ)} {code : ℕ}
    (hv : validatePair s1 s2 g = .ok (x, y, code)) {mask : Mat Bool}
    (hmask : computeMask x.length y.length code radius slope = .ok mask)
    {S : Finset (List (ℕ × ℕ))} (hS : ∀ p, p ∈ S ↔ Admissible x.length y.length mask p)
    {d : ℕ} (hx : ∀ r ∈ x, r.length = d) (hy : ∀ r ∈ y, r.length = d) {R : ℝ} (hR1 : 1 ≤ R)
    (hxy : ∀ r ∈ x, ∀ s ∈ y, ∀ k, |r.getD k 0 - s.getD k 0| ≤ R) (hd : 8 * d * (u + τ) ≤ 1 / 2)
    {V step : ℝ} (hV : V = (x.length + y.length : ℕ) * (d * R ^ 2 + 2 * γ))
    (hstep : step = 8 * d ^ 2 * (u + τ) * R ^ 2 + 18 * u * V + 40 * u * γ + 7 * ε * γ + 10 * τ * γ + 3 * τ)
    (hsmall : step ≤ d * R ^ 2 + 2 * γ) (hbig : 9 * (V / γ) + 8 * V + 8 * γ + 18 < A.big) :
    ∃ v, A.softDtw s1 s2 γ g radius slope = .ok (.num v) ∧
      |v - -γ * Real.log (∑ p ∈ S, Real.exp (-sumCost (sampleCost x y) p / γ))| ≤ (x.length + y.length : ℕ) * step := by
  obtain ⟨-, -, -, hx0, hy0, -⟩ := validatePair_ok hv
  have hn := List.length_pos_iff.2 hx0
  have hm := List.length_pos_iff.2 hy0
  have hVbig : 8 * d * R ^ 2 < A.big := by
    have hDm : 0 ≤ (d : ℝ) * R ^ 2 + 2 * γ := by positivity
    have h2 : (2 : ℝ) ≤ (x.length + y.length : ℕ) := by exact_mod_cast (show 2 ≤ x.length + y.length by omega)
    have h3 : 2 * (d * R ^ 2 + 2 * γ) ≤ V := by rw [hV]; exact mul_le_mul_of_nonneg_right h2 hDm
    have h4 : 0 ≤ V / γ := div_nonneg (by linarith) hγ.le
    have h6 : 0 ≤ (d : ℝ) * R ^ 2 := by positivity
    linarith
  have hcost : ∀ i < x.length, ∀ j < y.length, ∃ v, A.sqDist (x.getD i []) (y.getD j []) = .num v ∧
      |v - localCost x y i j| ≤ 8 * d ^ 2 * (u + τ) * R ^ 2 ∧ 0 ≤ localCost x y i j ∧ localCost x y i j ≤ d * R ^ 2 := by
    intro i hi j hj
    have mi : x.getD i [] ∈ x := by rw [List.getD_eq_getElem _ _ hi]; exact List.getElem_mem hi
    have mj : y.getD j [] ∈ y := by rw [List.getD_eq_getElem _ _ hj]; exact List.getElem_mem hj
    exact sqDist_err hR h0 hτ0 hR1 hd hVbig _ _ (hx _ mi) (hy _ mj) (hxy _ mi _ mj)
  have hst : softStep u τ ε γ V (8 * d ^ 2 * (u + τ) * R ^ 2) = step := hstep.symm
  have key := acc_err (A := A) (γ := γ) (κ := 8 * d ^ 2 * (u + τ) * R ^ 2) (Dm := d * R ^ 2) hR hO hE hL h0 hu hτ0 hτ hε hγ (x := x) (y := y) mask hn hm hV
    (by positivity) hbig (by rw [hst]; exact hsmall) (by positivity)
    (fun i hi j hj => by obtain ⟨v, -, -, h1, h2⟩ := hcost i hi j hj; rw [abs_of_nonneg h1]; exact h2)
    (fun i hi j hj => by obtain ⟨v, h1, h2, -⟩ := hcost i hi j hj; exact ⟨v, h1, h2⟩)
  rw [hst] at key
  have ex := C17_softmin .numpy x y hx0 hy0 γ hγ code radius slope hs mask hmask S hS
  have ex' : lastEntry (softAcc x.length y.length mask (localCost x y) γ) x.length y.length =
      .num (-γ * Real.log (∑ p ∈ S, Real.exp (-sumCost (sampleCost x y) p / γ))) := by
    unfold softDtwGeneric at ex
    rw [hmask] at ex
    simpa only [bind, Except.bind, pure, Except.pure, Except.ok.injEq] using ex
  rw [ex'] at key
  rcases key with ⟨h, -⟩ | ⟨h, -⟩ | ⟨e, r, h1, h2, h3, -⟩
  · cases h
  · cases h
  · cases h1
    refine ⟨r, ?_, h3⟩
    unfold Arith.softDtw
    simp only [hv, bind, Except.bind]
    rw [if_neg hγ.ne']
    simp only [Arith.softGeneric, hmask, bind, Except.bind, pure, Except.pure, h2]

theorem fit_expF (hA : Rounding A.rnd u tiny) (hbig : 1 < A.big) (hexp : ∀ v, A.rnd (A.exp v) = A.exp v) (hnn : ∀ v, 0 ≤ A.exp v) (z : Fl) :
    A.add (.num 0) (A.expF z) = A.expF z := by
  cases z with
  | num v =>
    simp only [Arith.expF]
    split_ifs with h
    · rfl
    · simp only [Arith.add, Fl.add, zero_add]
      exact fit_fix hA (hexp v) (by rw [abs_of_nonneg (hnn v)]; linarith)
  | inf => rfl
  | ninf =>
    simp only [Arith.expF, Arith.add, Fl.add, zero_add]
    exact fit_fix hA (rnd_zero hA) (by rw [abs_zero]; linarith)
  | nan => rfl

theorem softminF_swap (hA : Rounding A.rnd u tiny) (hbig : 1 < A.big) (hexp : ∀ v, A.rnd (A.exp v) = A.exp v) (hnn : ∀ v, 0 ≤ A.exp v)
    (a b c : Fl) (γ : ℝ) : A.softmin3 a b c γ = A.softmin3 b a c γ := by
  by_cases hn : A.div a (.num (-γ)) = .nan ∨ A.div b (.num (-γ)) = .nan
  · have addn : ∀ z : Fl, A.add z .nan = .nan := by intro z; cases z <;> rfl
    have nadd : ∀ z : Fl, A.add .nan z = .nan := by intro z; cases z <;> rfl
    have s : ∀ z : Fl, A.sub .nan z = .nan := by intro z; cases z <;> rfl
    have e : A.expF .nan = .nan := rfl
    have l : A.logF .nan = .nan := rfl
    have sc : A.mul (.num (-γ)) .nan = .nan := rfl
    unfold Arith.softmin3
    rcases hn with hn | hn <;> simp only [hn, s, e, addn, nadd, l, sc]
  · push Not at hn
    have hm : Fl.max (A.div a (.num (-γ))) (A.div b (.num (-γ))) = Fl.max (A.div b (.num (-γ))) (A.div a (.num (-γ))) := by
      obtain ⟨h1, h2⟩ := hn
      generalize A.div a (.num (-γ)) = p at h1 ⊢
      generalize A.div b (.num (-γ)) = q at h2 ⊢
      cases p <;> cases q <;> first
        | exact absurd rfl h1
        | exact absurd rfl h2
        | (rw [flmax_num, flmax_num, max_comm])
        | simp [Fl.max, Fl.lt]
    unfold Arith.softmin3
    simp only [hm, fit_expF hA hbig hexp hnn]
    have hc : ∀ p q : Fl, A.add p q = A.add q p := by intro p q; unfold Arith.add; rw [Fl.add_comm]
    rw [hc (A.expF (A.sub (A.div a (.num (-γ))) _))]

theorem softAccF_swap (hA : Rounding A.rnd u tiny) (hbig : 1 < A.big) (hexp : ∀ v, A.rnd (A.exp v) = A.exp v) (hnn : ∀ v, 0 ≤ A.exp v)
    {x y : List (List ℝ)} {mask mask' : Mat Bool} (hm : ∀ i < x.length, ∀ j < y.length, mask' j i = mask i j) (hx : x ≠ []) (hy : y ≠ []) (γ : ℝ) :
    lastEntry (A.softAcc x y mask γ) x.length y.length = lastEntry (A.softAcc y x mask' γ) y.length x.length := by
  have hn := List.length_pos_iff.2 hx
  have hm0 := List.length_pos_iff.2 hy
  have h1 := dpLoop_isDP x.length y.length mask
    (fun i j up left diag => A.add (A.sqDist (x.getD i []) (y.getD j [])) (A.softmin3 up left diag γ))
    ((Mat.full Fl.inf).set 0 0 (Fl.num 0))
  have h2 := dpLoop_isDP y.length x.length mask'
    (fun i j up left diag => A.add (A.sqDist (y.getD i []) (x.getD j [])) (A.softmin3 up left diag γ))
    ((Mat.full Fl.inf).set 0 0 (Fl.num 0))
  unfold lastEntry Arith.softAcc
  simp only [Mat.tail]
  rw [show x.length - 1 + 1 = x.length by omega, show y.length - 1 + 1 = y.length by omega]
  set M := dpLoop x.length y.length mask
    (fun i j up left diag => A.add (A.sqDist (x.getD i []) (y.getD j [])) (A.softmin3 up left diag γ))
    ((Mat.full Fl.inf).set 0 0 (Fl.num 0))
  set N := dpLoop y.length x.length mask'
    (fun i j up left diag => A.add (A.sqDist (y.getD i []) (x.getD j [])) (A.softmin3 up left diag γ))
    ((Mat.full Fl.inf).set 0 0 (Fl.num 0))
  have hinit : ∀ i j, ((Mat.full Fl.inf).set 0 0 (Fl.num 0)) i j = ((Mat.full Fl.inf).set 0 0 (Fl.num 0)) j i := by
    intro i j
    rw [Mat.set_apply, Mat.set_apply]
    simp only [and_comm]
    rfl
  have key : ∀ i j, i ≤ x.length → j ≤ y.length → M i j = N j i := by
    intro i j hi hj
    induction hs : i + j using Nat.strong_induction_on generalizing i j with
    | _ s ih =>
      rcases i with _ | i
      · rw [h1.row0, h2.col0, hinit]
      · rcases j with _ | j
        · rw [h1.col0, h2.row0, hinit]
        · rw [h1.body i j (by omega) (by omega), h2.body j i (by omega) (by omega), hm i (by omega) j (by omega), hinit,
            ih _ (by omega) i (j + 1) (by omega) hj rfl, ih _ (by omega) (i + 1) j hi (by omega) rfl,
            ih _ (by omega) i j (by omega) (by omega) rfl, sqDist_comm hA hbig, softminF_swap hA hbig hexp hnn]
  exact key _ _ le_rfl le_rfl

/-- `soft_dtw` is symmetric to the last bit, exceptions and not-a-number included, without constraint and with a Sakoe-Chiba band.
The results of the exponential are numbers of the format. -/
theorem C108_symm (hA : Rounding A.rnd u tiny) (hbig : 1 < A.big) (hexp : ∀ v, A.rnd (A.exp v) = A.exp v) (hnn : ∀ v, 0 ≤ A.exp v)
    (s1 s2 : TsInput (Option ℝ)) (γ : ℝ) (g : Option String) (radius : Option ℕ) (hg : g = none ∨ g = some "sakoe_chiba") :
    A.softDtw s1 s2 γ g radius none = A.softDtw s2 s1 γ g radius none := by
  unfold Arith.softDtw
  rw [validatePair_swap s2 s1 g]
  cases h12 : validatePair s1 s2 g with
  | error e => rfl
  | ok t =>
    obtain ⟨x, y, code⟩ := t
    obtain ⟨-, -, hcode, hx, hy, -⟩ := validatePair_ok h12
    simp only [Except.map, bind, Except.bind]
    split
    · rfl
    · have main : ∀ mask mask' : Mat Bool, computeMask x.length y.length code radius none = .ok mask →
          computeMask y.length x.length code radius none = .ok mask' → (∀ i < x.length, ∀ j < y.length, mask' j i = mask i j) →
          A.softGeneric x y γ code radius none = A.softGeneric y x γ code radius none := by
        intro mask mask' h1 h2 h3
        simp only [Arith.softGeneric, h1, h2, bind, Except.bind, pure, Except.pure]
        rw [softAccF_swap hA hbig hexp hnn h3 hx hy]
      have hband : ∀ r, ∀ i < x.length, ∀ j < y.length,
          sakoeChibaMask y.length x.length r j i = sakoeChibaMask x.length y.length r i j := by
        intro r i hi j hj
        rw [Bool.eq_iff_iff, sakoeChibaMask_iff _ _ _ _ _ hi hj, sakoeChibaMask_iff _ _ _ _ _ hj hi]
        unfold InBand
        omega
      rcases hg with rfl | rfl
      · obtain rfl : 0 = code := by simpa [gcCode] using hcode
        cases radius with
        | none => exact main (Mat.full true) (Mat.full true) rfl rfl fun _ _ _ _ => rfl
        | some r => exact main _ _ rfl rfl (hband r)
      · obtain rfl : 2 = code := by simpa [gcCode] using hcode
        exact main _ _ rfl rfl (hband _)

theorem softminF_first (hA : Rounding A.rnd u tiny) (hE : ExpLike A.exp) (hL : LogLike A.log) (hbig : 2 < A.big) (hγ : 0 < γ) :
    A.softmin3 .inf .inf (.num 0) γ = .num 0 := by
  have z : A.fit (.num 0) = .num 0 := fit_fix hA (rnd_zero hA) (by rw [abs_zero]; linarith)
  have o : A.fit (.num 1) = .num 1 := fit_fix hA (rnd_one hA) (by rw [abs_one]; linarith)
  have d0 : A.div (.num 0) (.num (-γ)) = .num 0 := by
    simp only [Arith.div, Arith.quot]
    rw [if_neg (by linarith), zero_div, z]
  have m1 : Fl.max .ninf .ninf = .ninf := by simp [Fl.max, Fl.lt]
  have m2 : Fl.max .ninf (.num 0) = .num 0 := by simp [Fl.max, Fl.lt]
  have s1 : A.sub .ninf (.num 0) = .ninf := rfl
  have s2 : A.sub (.num 0) (.num 0) = .num 0 := by simp only [Arith.sub, Fl.sub, Fl.neg, Fl.add, neg_zero, add_zero, z]
  have e1 : A.expF .ninf = .num 0 := rfl
  have e2 : A.expF (.num 0) = .num 1 := by
    simp only [Arith.expF, hE.zero]
    rw [if_neg (by linarith)]
  have a1 : A.add (.num 0) (.num 0) = .num 0 := by simp only [Arith.add, Fl.add, add_zero, z]
  have a2 : A.add (.num 0) (.num 1) = .num 1 := by simp only [Arith.add, Fl.add, zero_add, o]
  have l : A.logF (.num 1) = .num 0 := by
    simp only [Arith.logF, hL.one]
    norm_num
  have mm : A.mul (.num (-γ)) (.num 0) = .num 0 := by simp only [Arith.mul, Fl.mul, Fl.scale, mul_zero, z]
  unfold Arith.softmin3
  simp only [inf_div A hγ, d0, m1, m2, s1, s2, e1, e2, a1, a2, l, mm]

/-- False for a very small `gamma`: when the squared distance of the two first samples divided by `gamma` overflows, and one of the
series has two samples or more, `soft_dtw` without constraint is not-a-number, though the exact value is a number. -/
theorem C108_false_small_gamma (hA : Rounding A.rnd u tiny) (hE : ExpLike A.exp) (hL : LogLike A.log) (hbig : 2 < A.big) (hγ : 0 < γ)
    {s1 s2 : TsInput (Option ℝ)} {x y : List (List ℝ)} {code : ℕ} (hv : validatePair s1 s2 none = .ok (x, y, code))
    (hlen : 2 < x.length + y.length) {d : ℝ} (hd : A.sqDist (x.getD 0 []) (y.getD 0 []) = .num d) (hdr : A.rnd d = d) (hdb : d < A.big)
    (hd0 : 0 ≤ d) (hover : A.big ≤ A.rnd (d / γ)) :
    A.softDtw s1 s2 γ none none none = .ok .nan ∧ ∃ v, softDtw .numpy s1 s2 γ none none none = .ok (.num v) := by
  obtain ⟨-, -, hcode, hx, hy, -⟩ := validatePair_ok hv
  obtain rfl : 0 = code := by simpa [gcCode] using hcode
  have hn := List.length_pos_iff.2 hx
  have hm := List.length_pos_iff.2 hy
  refine ⟨?_, ?_⟩
  · unfold Arith.softDtw
    simp only [hv, bind, Except.bind]
    rw [if_neg hγ.ne']
    have hmask : computeMask x.length y.length 0 none none = .ok (Mat.full true) := rfl
    simp only [Arith.softGeneric, hmask, bind, Except.bind, pure, Except.pure, Except.ok.injEq]
    have h1 := dpLoop_isDP x.length y.length (Mat.full true)
      (fun i j up left diag => A.add (A.sqDist (x.getD i []) (y.getD j [])) (A.softmin3 up left diag γ))
      ((Mat.full Fl.inf).set 0 0 (Fl.num 0))
    unfold lastEntry Arith.softAcc
    simp only [Mat.tail]
    rw [show x.length - 1 + 1 = x.length by omega, show y.length - 1 + 1 = y.length by omega]
    set M := dpLoop x.length y.length (Mat.full true)
      (fun i j up left diag => A.add (A.sqDist (x.getD i []) (y.getD j [])) (A.softmin3 up left diag γ))
      ((Mat.full Fl.inf).set 0 0 (Fl.num 0))
    have row : ∀ j, M 0 (j + 1) = .inf := fun j => by rw [h1.row0, Mat.set_apply, if_neg (by omega)]; rfl
    have col : ∀ i, M (i + 1) 0 = .inf := fun i => by rw [h1.col0, Mat.set_apply, if_neg (by omega)]; rfl
    have corner : M 0 0 = .num 0 := by rw [h1.row0, Mat.set_apply, if_pos (by simp)]
    have addn : ∀ z : Fl, A.add z .nan = .nan := by intro z; cases z <;> rfl
    have first : M 1 1 = .num d := by
      rw [h1.body 0 0 hn hm, if_pos (show Mat.full true _ _ = true from rfl), row, col, corner, softminF_first hA hE hL hbig hγ, hd]
      simp only [Arith.add, Fl.add, add_zero]
      exact fit_fix hA hdr (by rw [abs_of_nonneg hd0]; exact hdb)
    have lost : A.div (.num d) (.num (-γ)) = .ninf := by
      simp only [Arith.div, Arith.quot]
      rw [if_neg (by linarith), div_neg]
      simp only [Arith.fit, hA.odd]
      rw [if_neg (by linarith), if_pos (by linarith)]
    have key : ∀ i j, i < x.length → j < y.length → 0 < i + j → M (i + 1) (j + 1) = .nan := by
      intro i j hi hj
      induction hs : i + j using Nat.strong_induction_on generalizing i j with
      | _ s ih =>
        intro hpos
        rw [h1.body i j hi hj, if_pos (show Mat.full true _ _ = true from rfl)]
        suffices A.softmin3 (M i (j + 1)) (M (i + 1) j) (M i j) γ = .nan by rw [this]; exact addn _
        rcases i with _ | i
        · rcases j with _ | j
          · omega
          · rcases j with _ | j
            · rw [row, row, first]
              exact softminF_ninf A (inf_div A hγ) lost (inf_div A hγ)
            · exact softminF_nan A γ (.inr (.inl (ih _ (by omega) 0 (j + 1) hi (by omega) rfl (by omega))))
        · rcases j with _ | j
          · rcases i with _ | i
            · rw [col, col, first]
              exact softminF_ninf A lost (inf_div A hγ) (inf_div A hγ)
            · exact softminF_nan A γ (.inl (ih _ (by omega) (i + 1) 0 (by omega) hj rfl (by omega)))
          · exact softminF_nan A γ (.inl (ih _ (by omega) i (j + 1) (by omega) hj rfl (by omega)))
    have := key (x.length - 1) (y.length - 1) (by omega) (by omega) (by omega)
    rwa [show x.length - 1 + 1 = x.length by omega, show y.length - 1 + 1 = y.length by omega] at this
  · obtain ⟨S, hS⟩ := C17_paths_finite _ _ hn hm (Mat.full true)
    exact ⟨_, C17_soft_dtw .numpy s1 s2 γ hγ none none none (by simp) x y 0 (Mat.full true) hv rfl S hS⟩

/-! ### Concrete cases -/

theorem valid_two (a b c e : ℝ) : validatePair (.oneD [some a, some b]) (.oneD [some c, some e]) none = .ok ([[a], [b]], [[c], [e]], 0) := by
  simp [validatePair, toTimeSeries, tsSize, tsSizeLoop, denan, gcCode, nFeatures, bind, Except.bind, pure, Except.pure]

/-- Two series of two samples, in doubles: twelve decimals are right. -/
example (S : Finset (List (ℕ × ℕ))) (hS : ∀ p, p ∈ S ↔ Admissible 2 2 (Mat.full true) p) :
    ∃ v, (doubles Real.exp Real.log).softDtw (.oneD [some 0, some 1]) (.oneD [some 1, some 2]) 1 none none none = .ok (.num v) ∧
      |v - -1 * Real.log (∑ p ∈ S, Real.exp (-sumCost (sampleCost [[0], [1]] [[1], [2]]) p / 1))| ≤ 1 / 10 ^ 12 := by
  have hτ : (2 : ℝ) ^ (-1075 : ℤ) ≤ 2 ^ (-60 : ℤ) := zpow_le_zpow_right₀ (by norm_num) (by norm_num)
  have hτ0 : (0 : ℝ) ≤ (2 : ℝ) ^ (-1075 : ℤ) := (zpow_pos (by norm_num) _).le
  generalize hτd : (2 : ℝ) ^ (-1075 : ℤ) = τ at hτ hτ0
  have h60 : (2 : ℝ) ^ (-60 : ℤ) = 1 / 2 ^ 60 := by norm_num
  rw [h60] at hτ
  obtain ⟨v, h1, h2⟩ := C108_error (A := doubles Real.exp Real.log) (u := ((2 : ℝ) ^ 53)⁻¹) (τ := τ) (ε := 0) (γ := 1)
    (by rw [← hτd]; exact C108_doubles) double_rounding.toOddMono ⟨fun _ _ => (Real.exp_pos _).le, fun _ _ => by simp [doubles]⟩
    (fun _ _ _ => by simp [doubles]) (by positivity) (by norm_num) hτ0 (hτ.trans (by norm_num)) (by norm_num) one_pos (slope := none)
    (radius := none) (by simp) (valid_two 0 1 1 2) (mask := Mat.full true) rfl hS (d := 1) (by simp) (by simp) (R := 2) (by norm_num)
    (by
      intro r hr s hs k
      simp only [List.mem_cons, List.not_mem_nil, or_false] at hr hs
      rcases hr with rfl | rfl <;> rcases hs with rfl | rfl <;> rcases k with _ | k <;> norm_num)
    (by norm_num at hτ ⊢; linarith) rfl rfl
    (by norm_num at hτ ⊢; linarith)
    (by
      show _ < (2 : ℝ) ^ 1024
      refine lt_of_lt_of_le ?_ (pow_le_pow_right₀ (by norm_num) (show 9 ≤ 1024 by norm_num))
      norm_num)
  refine ⟨v, h1, h2.trans ?_⟩
  norm_num at hτ ⊢
  linarith

/-- `soft_dtw([1, 1], [0, 0], gamma=2**-1024)`. -/
example : (doubles Real.exp Real.log).softDtw (.oneD [some 1, some 1]) (.oneD [some 0, some 0]) (2 ^ (-1024 : ℤ)) none none none = .ok .nan := by
  have hb := doubles_big Real.exp Real.log
  have o : (doubles Real.exp Real.log).fit (.num 1) = .num 1 :=
    fit_fix (A := doubles Real.exp Real.log) double_rounding (rnd_one (A := doubles Real.exp Real.log) double_rounding) (by rw [abs_one]; linarith)
  refine (C108_false_small_gamma (A := doubles Real.exp Real.log) double_rounding expLike_exp logLike_log hb (zpow_pos (by norm_num) _)
    (valid_two 1 1 0 0) (by simp) (d := 1) ?_ (rnd_one (A := doubles Real.exp Real.log) double_rounding) (by linarith) zero_le_one ?_).1
  · simp only [List.getD_cons_zero, Arith.sqDist, List.zipWith_cons_cons, List.zipWith_nil_right, List.foldl_cons, List.foldl_nil, Arith.sub,
      Fl.sub, Fl.neg, Fl.add, neg_zero, add_zero, o, Arith.mul, Fl.mul, Fl.scale, mul_one, Arith.add, zero_add]
  · show (2 : ℝ) ^ 1024 ≤ double (1 / 2 ^ (-1024 : ℤ))
    have e : (1 : ℝ) / 2 ^ (-1024 : ℤ) = ((1 : ℤ) : ℝ) * 2 ^ (1024 : ℤ) := by
      rw [zpow_neg, one_div, inv_inv, Int.cast_one, one_mul]
    rw [e, double_rounding.small 1 1024 (by norm_num) (by norm_num), Int.cast_one, one_mul]
    exact le_of_eq (zpow_natCast (2 : ℝ) 1024).symm

/-- The exponential rounded to doubles has results of the format. -/
example (s1 s2 : TsInput (Option ℝ)) (γ : ℝ) : (doubles (fun v => double (Real.exp v)) Real.log).softDtw s1 s2 γ none none none =
    (doubles (fun v => double (Real.exp v)) Real.log).softDtw s2 s1 γ none none none := by
  refine C108_symm (A := doubles (fun v => double (Real.exp v)) Real.log) double_rounding ?_ (fun v => double_rounding.idem _) ?_ s1 s2 γ none none
    (.inl rfl)
  · have := doubles_big (fun v => double (Real.exp v)) Real.log
    linarith
  · intro v
    have := double_rounding.mono (Real.exp_pos v).le
    rwa [double_zero] at this

end
end Verif
