import Verif.Model.FloatSoft
import Verif.Spec.FloatSoft
import Verif.Proofs.Softmin
import Verif.Proofs.FloatGak
/-!
Errors of soft-DTW in floating-point arithmetic.
-/
set_option linter.unusedSectionVars false
namespace Verif
open Spec
noncomputable section
open Classical

/-! ### Special values -/

theorem flmax_num (p q : ℝ) : Fl.max (.num p) (.num q) = .num (max p q) := by
  simp only [Fl.max, Fl.lt, decide_eq_true_eq]
  split_ifs with h
  · rw [max_eq_right h.le]
  · rw [max_eq_left (not_lt.1 h)]

theorem softmin3_nan {a b c : Fl} (γ : ℝ) (h : a = .nan ∨ b = .nan ∨ c = .nan) : softmin3 a b c γ = .nan := by
  have addn : ∀ x : Fl, x.add .nan = .nan := by intro x; cases x <;> rfl
  have nadd : ∀ x : Fl, Fl.nan.add x = .nan := by intro x; cases x <;> rfl
  have d : Fl.div .nan (-γ) = .nan := rfl
  have s : ∀ x : Fl, Fl.sub .nan x = .nan := by intro x; exact nadd _
  have e : Fl.exp .nan = .nan := rfl
  have l : Fl.log .nan = .nan := rfl
  have sc : Fl.scale (-γ) .nan = .nan := rfl
  unfold softmin3
  rcases h with rfl | rfl | rfl <;> simp only [d, s, e, addn, nadd, l, sc]

theorem softminF_nan (A : Arith) {a b c : Fl} (γ : ℝ) (h : a = .nan ∨ b = .nan ∨ c = .nan) : A.softmin3 a b c γ = .nan := by
  have addn : ∀ x : Fl, A.add x .nan = .nan := by intro x; cases x <;> rfl
  have nadd : ∀ x : Fl, A.add .nan x = .nan := by intro x; cases x <;> rfl
  have d : A.div .nan (.num (-γ)) = .nan := rfl
  have s : ∀ x : Fl, A.sub .nan x = .nan := by intro x; cases x <;> rfl
  have e : A.expF .nan = .nan := rfl
  have l : A.logF .nan = .nan := rfl
  have sc : A.mul (.num (-γ)) .nan = .nan := rfl
  unfold Arith.softmin3
  rcases h with rfl | rfl | rfl <;> simp only [d, s, e, addn, nadd, l, sc]

/-- Three predecessors that are lost after division by `-gamma`. -/
theorem softminF_ninf (A : Arith) {a b c : Fl} {γ : ℝ} (ha : A.div a (.num (-γ)) = .ninf) (hb : A.div b (.num (-γ)) = .ninf)
    (hc : A.div c (.num (-γ)) = .ninf) : A.softmin3 a b c γ = .nan := by
  unfold Arith.softmin3
  simp only [ha, hb, hc]
  have m : Fl.max (Fl.max .ninf .ninf) .ninf = .ninf := by simp [Fl.max, Fl.lt]
  have s : A.sub .ninf .ninf = .nan := rfl
  have e : A.expF .nan = .nan := rfl
  have addn : ∀ x : Fl, A.add x .nan = .nan := by intro x; cases x <;> rfl
  have nadd : ∀ x : Fl, A.add .nan x = .nan := by intro x; cases x <;> rfl
  have l : A.logF .nan = .nan := rfl
  have sc : A.mul (.num (-γ)) .nan = .nan := rfl
  simp only [m, s, e, addn, nadd, l, sc]

theorem inf_div (A : Arith) {γ : ℝ} (hγ : 0 < γ) : A.div .inf (.num (-γ)) = .ninf := by
  simp only [Arith.div, Arith.quot]
  rw [if_pos (by linarith)]
  rfl

/-! ### One cell -/

section
variable {A : Arith} {u τ ε γ : ℝ}

/-- A computed logarithm of a weight. -/
def LogOf (η W z : ℝ) (x : Fl) : Prop := (z = 0 ∧ x = .ninf) ∨ (0 < z ∧ ∃ p, x = .num p ∧ |p - Real.log z| ≤ η ∧ |p| ≤ W)

theorem LogOf.max {η W za zb zc : ℝ} {a b c : Fl} (ha : LogOf η W za a) (hb : LogOf η W zb b) (hc : LogOf η W zc c)
    (h : za + zb + zc ≠ 0) : ∃ M, Fl.max (Fl.max a b) c = .num M ∧ |M| ≤ W ∧ (∀ q, a = .num q → q ≤ M) ∧ (∀ q, b = .num q → q ≤ M) ∧
      (∀ q, c = .num q → q ≤ M) ∧ (a = .num M ∨ b = .num M ∨ c = .num M) := by
  have two : ∀ {x y : Fl} {p q : ℝ}, x = .num p → y = .num q → |p| ≤ W → |q| ≤ W → ∃ M, Fl.max x y = .num M ∧ |M| ≤ W ∧ p ≤ M ∧ q ≤ M ∧
      (M = p ∨ M = q) := by
    rintro x y p q rfl rfl hp hq
    refine ⟨_, flmax_num p q, ?_, le_max_left _ _, le_max_right _ _, ?_⟩
    · rcases max_choice p q with e | e <;> rw [e] <;> assumption
    · rcases max_choice p q with e | e <;> rw [e] <;> simp
  have nl : ∀ q : ℝ, Fl.max .ninf (.num q) = .num q := fun q => by simp [Fl.max, Fl.lt]
  have nr : ∀ q : ℝ, Fl.max (.num q) .ninf = .num q := fun q => by simp [Fl.max, Fl.lt]
  have nn : Fl.max .ninf .ninf = .ninf := by simp [Fl.max, Fl.lt]
  rcases ha with ⟨rfl, rfl⟩ | ⟨-, p, rfl, -, hp⟩ <;> rcases hb with ⟨rfl, rfl⟩ | ⟨-, q, rfl, -, hq⟩ <;>
    rcases hc with ⟨rfl, rfl⟩ | ⟨-, r, rfl, -, hr⟩
  · exact absurd (by norm_num) h
  · exact ⟨r, by rw [nn, nl], hr, by simp, by simp, by simp, by simp⟩
  · exact ⟨q, by rw [nl, nr], hq, by simp, by simp, by simp, by simp⟩
  · obtain ⟨M, e, hM, h1, h2, h3⟩ := two (x := .num q) (y := .num r) rfl rfl hq hr
    refine ⟨M, by rw [nl, e], hM, by simp, by simpa using h1, by simpa using h2, ?_⟩
    rcases h3 with rfl | rfl <;> simp
  · exact ⟨p, by rw [nr, nr], hp, by simp, by simp, by simp, by simp⟩
  · obtain ⟨M, e, hM, h1, h2, h3⟩ := two (x := .num p) (y := .num r) rfl rfl hp hr
    refine ⟨M, by rw [nr, e], hM, by simpa using h1, by simp, by simpa using h2, ?_⟩
    rcases h3 with rfl | rfl <;> simp
  · obtain ⟨M, e, hM, h1, h2, h3⟩ := two (x := .num p) (y := .num q) rfl rfl hp hq
    refine ⟨M, by rw [e, nr], hM, by simpa using h1, by simpa using h2, by simp, ?_⟩
    rcases h3 with rfl | rfl <;> simp
  · obtain ⟨M, e, hM, h1, h2, h3⟩ := two (x := .num p) (y := .num q) rfl rfl hp hq
    obtain ⟨M', e', hM', h1', h2', h3'⟩ := two (x := .num M) (y := .num r) rfl rfl hM hr
    refine ⟨M', by rw [e, e'], hM', by simpa using h1.trans h1', by simpa using h2.trans h1', by simpa using h2', ?_⟩
    rcases h3' with rfl | rfl
    · rcases h3 with rfl | rfl <;> simp
    · simp

theorem fit_err (hR : RndErr A.rnd u τ) {x b : ℝ} (hx : |x| ≤ b) (hu : u ≤ 1) (h0 : 0 ≤ u) (hb : 2 * b + τ < A.big) :
    ∃ r, A.fit (.num x) = .num r ∧ r = A.rnd x ∧ |r - x| ≤ u * b + τ ∧ |r| ≤ b + (u * b + τ) := by
  have h1 := hR x
  have h2 : u * |x| ≤ u * b := mul_le_mul_of_nonneg_left hx h0
  have h3 : u * b ≤ 1 * b := mul_le_mul_of_nonneg_right hu ((abs_nonneg x).trans hx)
  have h4 : |A.rnd x| ≤ b + (u * b + τ) := by
    have := abs_add_le (A.rnd x - x) x
    rw [sub_add_cancel] at this
    linarith
  refine ⟨_, ?_, rfl, by linarith, h4⟩
  have h5 := abs_lt.1 (show |A.rnd x| < A.big by linarith)
  unfold Arith.fit
  simp only
  rw [if_neg (by linarith [h5.2]), if_neg (by linarith [h5.1])]

theorem term_err (hR : RndErr A.rnd u τ) (hO : OddMono A.rnd) (hE : ExpErr A.exp ε) (h0 : 0 ≤ u) (hu : u ≤ 1) (hε : ε ≤ 1)
    {η W z M : ℝ} {x : Fl} (hx : LogOf η W z x) (hM : |M| ≤ W) (hle : ∀ q, x = .num q → q ≤ M) (hb : 4 * W + τ < A.big) (h2 : 2 < A.big) :
    ∃ t w, A.expF (A.sub x (.num M)) = .num t ∧ |t - w| ≤ ε ∧ 0 ≤ t ∧ 0 ≤ w ∧ w ≤ 1 ∧ (x = .num M → w = 1) ∧
      z * Real.exp (-M) * Real.exp (-(η + (u * (2 * W) + τ))) ≤ w ∧ w ≤ z * Real.exp (-M) * Real.exp (η + (u * (2 * W) + τ)) := by
  have hε0 : 0 ≤ ε := (abs_nonneg _).trans (hE.err 0 le_rfl)
  rcases hx with ⟨rfl, rfl⟩ | ⟨hz, p, rfl, hp, hpW⟩
  · exact ⟨0, 0, rfl, by simpa using hε0, le_rfl, le_rfl, zero_le_one, by simp, by simp, by simp⟩
  · have hpM := hle p rfl
    have hpm : |p + -M| ≤ 2 * W := by
      have := abs_add_le p (-M)
      rw [abs_neg] at this
      linarith
    obtain ⟨r, er, rr, r1, -⟩ := fit_err hR hpm hu h0 (by linarith)
    have r0 : r ≤ 0 := by
      rw [rr]
      have z0 : A.rnd 0 = 0 := by have := hO.odd 0; rw [neg_zero] at this; linarith
      have := hO.mono (show p + -M ≤ 0 by linarith)
      rwa [z0] at this
    have e1 := hE.err r r0
    have e2 : Real.exp r ≤ 1 := Real.exp_le_one_iff.2 r0
    have e3 : A.exp r ≤ 2 := by linarith [(abs_le.1 e1).2]
    refine ⟨A.exp r, Real.exp r, ?_, e1, hE.nonneg r r0, (Real.exp_pos r).le, e2, ?_, ?_, ?_⟩
    · have : A.sub (.num p) (.num M) = .num r := er
      rw [this]
      simp only [Arith.expF]
      rw [if_neg (by linarith)]
    · intro h
      cases h
      rw [rr]
      have z0 : A.rnd 0 = 0 := by have := hO.odd 0; rw [neg_zero] at this; linarith
      rw [add_neg_cancel, z0, Real.exp_zero]
    · rw [← Real.exp_log hz, ← Real.exp_add, ← Real.exp_add, Real.exp_le_exp]
      linarith [(abs_le.1 r1).1, (abs_le.1 hp).1]
    · rw [← Real.exp_log hz, ← Real.exp_add, ← Real.exp_add, Real.exp_le_exp]
      linarith [(abs_le.1 r1).2, (abs_le.1 hp).2]

theorem sum_err (hR : RndErr A.rnd u τ) (h0 : 0 ≤ u) (hu : u ≤ 1 / 100) (hτ : τ ≤ 1 / 100) {ta tb tc : ℝ} (ha : |ta| ≤ 2) (hb : |tb| ≤ 2)
    (hc : |tc| ≤ 2) (h16 : 16 < A.big) :
    ∃ t, A.add (A.add (A.add (.num 0) (.num ta)) (.num tb)) (.num tc) = .num t ∧ |t - (ta + tb + tc)| ≤ 15 * u + 3 * τ := by
  obtain ⟨r1, e1, -, d1, b1⟩ := fit_err (x := 0 + ta) (b := 2) hR (by simpa using ha) (by linarith) h0 (by linarith)
  have b1' : |r1 + tb| ≤ 5 := by have := abs_add_le r1 tb; linarith
  obtain ⟨r2, e2, -, d2, b2⟩ := fit_err (x := r1 + tb) (b := 5) hR b1' (by linarith) h0 (by linarith)
  have b2' : |r2 + tc| ≤ 8 := by have := abs_add_le r2 tc; linarith
  have b2'' : |r2 + tc| ≤ 15 / 2 := by have := abs_add_le r2 tc; linarith
  obtain ⟨r3, e3, -, d3, -⟩ := fit_err (x := r2 + tc) (b := 15 / 2) hR b2'' (by linarith) h0 (by linarith)
  refine ⟨r3, ?_, ?_⟩
  · simp only [Arith.add, Fl.add] at *
    rw [e1]
    simp only
    rw [e2]
    simp only
    rw [e3]
  · rw [abs_le] at *
    constructor <;> linarith [d1.1, d1.2, d2.1, d2.2, d3.1, d3.2]

theorem log_err {t Q κ : ℝ} (hQ : 1 ≤ Q) (hκ : κ ≤ 1 / 4) (h : |t - Q| ≤ κ) : |Real.log t - Real.log Q| ≤ 2 * κ := by
  rw [abs_le] at h
  have ht : 3 / 4 ≤ t := by linarith
  have hκ0 : 0 ≤ κ := by linarith
  have h1 : Real.log t - Real.log Q ≤ 2 * κ := by
    rw [← Real.log_div (by linarith) (by linarith)]
    refine (Real.log_le_sub_one_of_pos (by positivity)).trans ?_
    rw [div_sub_one (by linarith), div_le_iff₀ (by linarith)]
    nlinarith
  have h2 : Real.log Q - Real.log t ≤ 2 * κ := by
    rw [← Real.log_div (by linarith) (by linarith)]
    refine (Real.log_le_sub_one_of_pos (by positivity)).trans ?_
    rw [div_sub_one (by linarith), div_le_iff₀ (by linarith)]
    nlinarith
  rw [abs_le]
  constructor <;> linarith

/-- The computed logarithm of a sum of exponentials, before the last product. -/
theorem lse_err (hR : RndErr A.rnd u τ) (hO : OddMono A.rnd) (hE : ExpErr A.exp ε) (hL : LogErr A.log ε) (h0 : 0 ≤ u) (hu : u ≤ 1 / 100)
    (hτ : τ ≤ 1 / 100) (hε : ε ≤ 1 / 100) {η W za zb zc : ℝ} {a b c : Fl} (ha : LogOf η W za a) (hb : LogOf η W zb b)
    (hc : LogOf η W zc c) (ha0 : 0 ≤ za) (hb0 : 0 ≤ zb) (hc0 : 0 ≤ zc) (h : za + zb + zc ≠ 0) (hbig : 4 * W + 16 < A.big) :
    ∃ s, (let maxVal := Fl.max (Fl.max a b) c
          A.add (A.logF (A.add (A.add (A.add (.num 0) (A.expF (A.sub a maxVal))) (A.expF (A.sub b maxVal))) (A.expF (A.sub c maxVal))))
            maxVal) = .num s ∧ |s| ≤ W + 3 + u * W ∧
      |s - Real.log (za + zb + zc)| ≤ η + (u * (2 * W) + τ) + 2 * (3 * ε + (15 * u + 3 * τ)) + ε + (u * (W + 2) + τ) := by
  have hε0 : 0 ≤ ε := (abs_nonneg _).trans (hE.err 0 le_rfl)
  obtain ⟨M, eM, hM, la, lb, lc, hit⟩ := LogOf.max ha hb hc h
  have hW : 0 ≤ W := (abs_nonneg M).trans hM
  obtain ⟨ta, wa, ea, da, ta0, wa0, wa1, ma, pa, qa⟩ := term_err hR hO hE h0 (by linarith) (by linarith) ha hM la (by linarith) (by linarith)
  obtain ⟨tb, wb, eb, db, tb0, wb0, wb1, mb, pb, qb⟩ := term_err hR hO hE h0 (by linarith) (by linarith) hb hM lb (by linarith) (by linarith)
  obtain ⟨tc, wc, ec, dc, tc0, wc0, wc1, mc, pc, qc⟩ := term_err hR hO hE h0 (by linarith) (by linarith) hc hM lc (by linarith) (by linarith)
  have small : ∀ {t w : ℝ}, |t - w| ≤ ε → 0 ≤ t → w ≤ 1 → |t| ≤ 2 := by
    intro t w h h' h''
    rw [abs_of_nonneg h']
    linarith [(abs_le.1 h).2]
  obtain ⟨t, et, dt⟩ := sum_err hR h0 hu hτ (small da ta0 wa1) (small db tb0 wb1) (small dc tc0 wc1) (by linarith)
  set Q := wa + wb + wc with hQd
  have hQ : 1 ≤ Q := by
    rcases hit with h | h | h
    · rw [hQd, ma h]; linarith
    · rw [hQd, mb h]; linarith
    · rw [hQd, mc h]; linarith
  have hQ3 : Q ≤ 3 := by linarith
  have dQ : |t - Q| ≤ 3 * ε + (15 * u + 3 * τ) := by
    rw [abs_le] at *
    constructor <;> linarith [da.1, da.2, db.1, db.2, dc.1, dc.2, dt.1, dt.2]
  have hκ : 3 * ε + (15 * u + 3 * τ) ≤ 1 / 4 := by linarith
  have l1 := log_err hQ hκ dQ
  have t1 : 3 / 4 ≤ t := by linarith [(abs_le.1 dQ).1]
  have t2 : t ≤ 4 := by linarith [(abs_le.1 dQ).2]
  have l2 := hL t (by linarith) t2
  set S := za + zb + zc with hS
  have hS0 : 0 < S := lt_of_le_of_ne (by positivity) (Ne.symm h)
  set θ := η + (u * (2 * W) + τ) with hθ
  have l3 : |Real.log Q - (Real.log S - M)| ≤ θ := by
    have lo : S * Real.exp (-M) * Real.exp (-θ) ≤ Q := by
      rw [hS, hQd]
      linarith
    have hi : Q ≤ S * Real.exp (-M) * Real.exp θ := by
      rw [hS, hQd]
      linarith
    have e : ∀ v : ℝ, S * Real.exp (-M) * Real.exp v = Real.exp (Real.log S - M + v) := by
      intro v
      rw [Real.exp_add, Real.exp_sub, Real.exp_log hS0, Real.exp_neg]
      rfl
    rw [e] at lo hi
    have lo' := (Real.le_log_iff_exp_le (by linarith)).2 lo
    have hi' := (Real.log_le_iff_le_exp (by linarith)).2 hi
    rw [abs_le]
    constructor <;> linarith
  have logQ : |Real.log Q| ≤ 2 - 1 / 2 - 2 * (1/100) := by
    rw [abs_of_nonneg (Real.log_nonneg hQ)]
    have h3 : Real.log Q ≤ Real.log 3 := Real.log_le_log (by linarith) hQ3
    have h4 : Real.log 3 = Real.log (3 / 2) + Real.log 2 := by
      rw [← Real.log_mul (by norm_num) (by norm_num)]
      norm_num
    have h5 : Real.log 2 = Real.log (4 / 3) + Real.log (3 / 2) := by
      rw [← Real.log_mul (by norm_num) (by norm_num)]
      norm_num
    have h6 := Real.log_le_sub_one_of_pos (show (0 : ℝ) < 3 / 2 by norm_num)
    have h7 := Real.log_le_sub_one_of_pos (show (0 : ℝ) < 4 / 3 by norm_num)
    linarith
  have lt : |A.log t| ≤ 2 := by
    rw [abs_le] at *
    constructor <;> linarith [logQ.1, logQ.2, l1.1, l1.2, l2.1, l2.2]
  have hLM : |A.log t + M| ≤ W + 2 := by have := abs_add_le (A.log t) M; linarith
  obtain ⟨s, es, -, ds, bs⟩ := fit_err hR hLM (by linarith) h0 (by linarith)
  refine ⟨s, ?_, ?_, ?_⟩
  · simp only [eM, ea, eb, ec, et]
    have : A.logF (.num t) = .num (A.log t) := by
      simp only [Arith.logF]
      rw [if_neg (by linarith), if_neg (by linarith)]
    rw [this]
    exact es
  · linarith
  · rw [abs_le] at *
    constructor <;> linarith [ds.1, ds.2, l1.1, l1.2, l2.1, l2.2, l3.1, l3.2]


/-- A computed value beside the exact one: both NaN, both infinite, or numbers at most `η` apart. -/
def SoftNear (η V : ℝ) (e r : Fl) : Prop :=
  (e = .nan ∧ r = .nan) ∨ (e = .inf ∧ r = .inf) ∨ ∃ x y, e = .num x ∧ r = .num y ∧ |y - x| ≤ η ∧ |x| ≤ V

theorem SoftNear.mono {η η' V V' : ℝ} {e r : Fl} (h : SoftNear η V e r) (h1 : η ≤ η') (h2 : V ≤ V') : SoftNear η' V' e r := by
  rcases h with h | h | ⟨x, y, h3, h4, h5, h6⟩
  · exact .inl h
  · exact .inr (.inl h)
  · exact .inr (.inr ⟨x, y, h3, h4, h5.trans h1, h6.trans h2⟩)

/-- The weight of an exact value. -/
def wOf (γ : ℝ) : Fl → ℝ
  | .num x => Real.exp (-x / γ)
  | _ => 0

theorem wOf_nonneg (γ : ℝ) (e : Fl) : 0 ≤ wOf γ e := by
  cases e <;> simp [wOf, Real.exp_nonneg]

theorem ofW_wOf (hγ : 0 < γ) {η V : ℝ} {e r : Fl} (h : SoftNear η V e r) (hn : e ≠ .nan) : ofW γ (wOf γ e) = e := by
  rcases h with ⟨h, -⟩ | ⟨rfl, -⟩ | ⟨x, y, rfl, -, -⟩
  · exact absurd h hn
  · simp [wOf, ofW]
  · simp only [wOf, ofW, (Real.exp_pos _).ne', if_false, Real.log_exp, Fl.num.injEq]
    field_simp

theorem SoftNear.logOf (hR : RndErr A.rnd u τ) (h0 : 0 ≤ u) (hu : u ≤ 1) (hγ : 0 < γ) {η V : ℝ} {e r : Fl} (h : SoftNear η V e r) (hn : e ≠ .nan)
    (hη : η ≤ V) (hb : 4 * (V / γ) + τ < A.big) :
    LogOf (η / γ + (u * (2 * (V / γ)) + τ)) (2 * (V / γ) + (u * (2 * (V / γ)) + τ)) (wOf γ e) (A.div r (.num (-γ))) := by
  rcases h with ⟨h, -⟩ | ⟨rfl, rfl⟩ | ⟨x, y, rfl, rfl, h1, h2⟩
  · exact absurd h hn
  · exact .inl ⟨rfl, inf_div A hγ⟩
  · refine .inr ⟨Real.exp_pos _, ?_⟩
    have hy : |y| ≤ 2 * V := by
      have := abs_add_le (y - x) x
      rw [sub_add_cancel] at this
      linarith
    have hq : |y / -γ| ≤ 2 * (V / γ) := by
      rw [abs_div, abs_neg, abs_of_pos hγ, div_le_iff₀ hγ]
      have : V / γ * γ = V := div_mul_cancel₀ _ hγ.ne'
      linarith
    obtain ⟨p, ep, -, d1, b1⟩ := fit_err hR hq hu h0 (by linarith)
    refine ⟨p, ?_, ?_, b1⟩
    · simp only [Arith.div, Arith.quot]
      rw [if_neg (by linarith)]
      exact ep
    · show |p - Real.log (Real.exp _)| ≤ _
      rw [Real.log_exp]
      have h3 : |y / -γ - -x / γ| ≤ η / γ := by
        have : y / -γ - -x / γ = -((y - x) / γ) := by field_simp; ring
        rw [this, abs_neg, abs_div, abs_of_pos hγ]
        exact div_le_div_of_nonneg_right h1 hγ.le
      have := abs_add_le (p - y / -γ) (y / -γ - -x / γ)
      rw [sub_add_sub_cancel] at this
      linarith

theorem exact_bound (hγ : 0 < γ) {η B : ℝ} {a b c a' b' c' : Fl} (ha : SoftNear η B a a') (hb : SoftNear η B b b') (hc : SoftNear η B c c')
    (h : wOf γ a + wOf γ b + wOf γ c ≠ 0) : |-γ * Real.log (wOf γ a + wOf γ b + wOf γ c)| ≤ B + 2 * γ := by
  have up : ∀ {e r : Fl}, SoftNear η B e r → wOf γ e ≤ Real.exp (B / γ) := by
    rintro e r (⟨rfl, -⟩ | ⟨rfl, -⟩ | ⟨x, y, rfl, -, -, h⟩)
    · exact (Real.exp_pos _).le
    · exact (Real.exp_pos _).le
    · exact Real.exp_le_exp.2 (div_le_div_of_nonneg_right (by linarith [(abs_le.1 h).1]) hγ.le)
  have lo : ∀ {e r : Fl}, SoftNear η B e r → wOf γ e ≠ 0 → Real.exp (-B / γ) ≤ wOf γ e := by
    rintro e r (⟨rfl, -⟩ | ⟨rfl, -⟩ | ⟨x, y, rfl, -, -, h⟩) h'
    · exact absurd rfl h'
    · exact absurd rfl h'
    · exact Real.exp_le_exp.2 (div_le_div_of_nonneg_right (by linarith [(abs_le.1 h).2]) hγ.le)
  have na := wOf_nonneg γ a
  have nb := wOf_nonneg γ b
  have nc := wOf_nonneg γ c
  set S := wOf γ a + wOf γ b + wOf γ c
  have h1 : Real.exp (-B / γ) ≤ S := by
    by_cases ea : wOf γ a = 0
    · by_cases eb : wOf γ b = 0
      · by_cases ec : wOf γ c = 0
        · exact absurd (by simp only [S, ea, eb, ec]; norm_num) h
        · have := lo hc ec; simp only [S]; linarith
      · have := lo hb eb; simp only [S]; linarith
    · have := lo ha ea; simp only [S]; linarith
  have h2 : S ≤ 3 * Real.exp (B / γ) := by have := up ha; have := up hb; have := up hc; simp only [S]; linarith
  have hS : 0 < S := lt_of_lt_of_le (Real.exp_pos _) h1
  have l1 := (Real.le_log_iff_exp_le hS).2 h1
  have l2 := Real.log_le_log hS h2
  rw [Real.log_mul (by norm_num) (Real.exp_pos _).ne', Real.log_exp] at l2
  have l3 := Real.log_le_sub_one_of_pos (show (0 : ℝ) < 3 by norm_num)
  have l4 : -B / γ = -(B / γ) := by ring
  have l5 : γ * (B / γ) = B := mul_div_cancel₀ _ hγ.ne'
  rw [l4] at l1
  rw [abs_le]
  constructor <;> nlinarith

/-- How much one cell adds to the error. -/
def softStep (u τ ε γ V κ : ℝ) : ℝ := κ + 18 * u * V + 40 * u * γ + 7 * ε * γ + 10 * τ * γ + 3 * τ

theorem softmin_err (hR : RndErr A.rnd u τ) (hO : OddMono A.rnd) (hE : ExpErr A.exp ε) (hL : LogErr A.log ε) (h0 : 0 ≤ u) (hu : u ≤ 1 / 100)
    (hτ0 : 0 ≤ τ) (hτ : τ ≤ 1 / 100) (hε : ε ≤ 1 / 100) (hγ : 0 < γ) {η V : ℝ} {a b c a' b' c' : Fl} (ha : SoftNear η V a a')
    (hb : SoftNear η V b b') (hc : SoftNear η V c c') (hη : η ≤ V) (hV : 0 ≤ V) (hbig : 9 * (V / γ) + 8 * V + 8 * γ + 18 < A.big) :
    (softmin3 a b c γ = .nan ∧ A.softmin3 a' b' c' γ = .nan) ∨
    (∃ x y, softmin3 a b c γ = .num x ∧ A.softmin3 a' b' c' γ = .num y ∧ |y - x| ≤ η + 11 * u * V + 37 * u * γ + 7 * ε * γ + 10 * τ * γ + τ ∧
      x = -γ * Real.log (wOf γ a + wOf γ b + wOf γ c) ∧ wOf γ a + wOf γ b + wOf γ c ≠ 0 ∧ |y| ≤ 5 / 2 * V + 5 * γ + τ) := by
  have hU : 0 ≤ V / γ := by positivity
  have hγU : γ * (V / γ) = V := mul_div_cancel₀ _ hγ.ne'
  by_cases hnan : a = .nan ∨ b = .nan ∨ c = .nan
  · left
    refine ⟨softmin3_nan γ hnan, softminF_nan A γ ?_⟩
    have : ∀ {e r : Fl}, SoftNear η V e r → e = .nan → r = .nan := by
      rintro e r (⟨-, h⟩ | ⟨rfl, -⟩ | ⟨x, y, rfl, -, -⟩) h'
      · exact h
      · cases h'
      · cases h'
    exact hnan.imp (this ha) (Or.imp (this hb) (this hc))
  · push Not at hnan
    obtain ⟨na, nb, nc⟩ := hnan
    have la := ha.logOf hR h0 (by linarith) hγ na hη (by nlinarith)
    have lb := hb.logOf hR h0 (by linarith) hγ nb hη (by nlinarith)
    have lc := hc.logOf hR h0 (by linarith) hγ nc hη (by nlinarith)
    by_cases hS : wOf γ a + wOf γ b + wOf γ c = 0
    · left
      have wa := wOf_nonneg γ a
      have wb := wOf_nonneg γ b
      have wc := wOf_nonneg γ c
      have za : wOf γ a = 0 := by linarith
      have zb : wOf γ b = 0 := by linarith
      have zc : wOf γ c = 0 := by linarith
      constructor
      · rw [← ofW_wOf hγ ha na, ← ofW_wOf hγ hb nb, ← ofW_wOf hγ hc nc, za, zb, zc]
        exact softmin3_inf hγ
      · have : ∀ {η W z : ℝ} {x : Fl}, LogOf η W z x → z = 0 → x = .ninf := by
          rintro η W z x (⟨-, h⟩ | ⟨h, -⟩) h'
          · exact h
          · linarith
        exact softminF_ninf A (this la za) (this lb zb) (this lc zc)
    · right
      set U := V / γ with hUd
      have uU : u * (2 * U) ≤ 1 / 100 * (2 * U) := mul_le_mul_of_nonneg_right hu (by linarith)
      have uU0 : 0 ≤ u * (2 * U) := by positivity
      obtain ⟨s, es, bs, ds⟩ := lse_err hR hO hE hL h0 hu hτ hε la lb lc (wOf_nonneg γ a) (wOf_nonneg γ b) (wOf_nonneg γ c) hS
        (by nlinarith)
      set W := 2 * U + (u * (2 * U) + τ) with hW
      set S := wOf γ a + wOf γ b + wOf γ c with hSd
      have hW2 : W ≤ 101 / 100 * (2 * U) + τ := by linarith
      have hW0 : 0 ≤ W := by rw [hW]; positivity
      have uW : u * W ≤ u * (101 / 100 * (2 * U) + τ) := mul_le_mul_of_nonneg_left hW2 h0
      have uτ : u * τ ≤ 1 / 100 * τ := mul_le_mul_of_nonneg_right hu hτ0
      have uτ' : u * τ ≤ u * (1 / 100) := mul_le_mul_of_nonneg_left hτ h0
      have uW3 : u * W ≤ 1 / 100 * W := mul_le_mul_of_nonneg_right hu hW0
      have bs' : |s| ≤ 103 / 50 * U + 4 := by linarith
      have eq : γ * (103 / 50 * U + 4) = 103 / 50 * V + 4 * γ := by rw [mul_add, ← hγU]; ring
      have bγ : |-γ * s| ≤ 103 / 50 * V + 4 * γ := by
        rw [abs_mul, abs_neg, abs_of_pos hγ, ← eq]
        exact mul_le_mul_of_nonneg_left bs' hγ.le
      obtain ⟨y, ey, -, dy, by'⟩ := fit_err hR bγ (by linarith) h0 (by linarith)
      refine ⟨-γ * Real.log S, y, ?_, ?_, ?_, rfl, hS, ?_⟩
      · rw [← ofW_wOf hγ ha na, ← ofW_wOf hγ hb nb, ← ofW_wOf hγ hc nc,
          softmin3_ofW hγ (wOf_nonneg γ a) (wOf_nonneg γ b) (wOf_nonneg γ c) hS, ofW, if_neg hS]
      · unfold Arith.softmin3
        simp only at es ⊢
        rw [es]
        exact ey
      · have d1 : |-γ * s - -γ * Real.log S| ≤ γ * (η / γ + (u * (2 * U) + τ) + (u * (2 * W) + τ) + 2 * (3 * ε + (15 * u + 3 * τ)) + ε +
            (u * (W + 2) + τ)) := by
          rw [← mul_sub, abs_mul, abs_neg, abs_of_pos hγ]
          exact mul_le_mul_of_nonneg_left ds hγ.le
        have ee : γ * (η / γ) = η := mul_div_cancel₀ _ hγ.ne'
        have d2 : γ * (η / γ + (u * (2 * U) + τ) + (u * (2 * W) + τ) + 2 * (3 * ε + (15 * u + 3 * τ)) + ε + (u * (W + 2) + τ)) ≤
            η + 42 / 5 * u * V + 65 / 2 * u * γ + 7 * ε * γ + 10 * τ * γ := by
          have i1 : η / γ + (u * (2 * U) + τ) + (u * (2 * W) + τ) + 2 * (3 * ε + (15 * u + 3 * τ)) + ε + (u * (W + 2) + τ) ≤
              η / γ + 42 / 5 * u * U + 65 / 2 * u + 7 * ε + 10 * τ := by nlinarith
          have i2 := mul_le_mul_of_nonneg_left i1 hγ.le
          have i3 : γ * (η / γ + 42 / 5 * u * U + 65 / 2 * u + 7 * ε + 10 * τ) =
              γ * (η / γ) + 42 / 5 * u * (γ * U) + 65 / 2 * u * γ + 7 * ε * γ + 10 * τ * γ := by ring
          rw [i3, ee, hγU] at i2
          exact i2
        have d3 := abs_add_le (y - -γ * s) (-γ * s - -γ * Real.log S)
        rw [sub_add_sub_cancel] at d3
        have p1 : 0 ≤ u * V := by positivity
        have p2 : 0 ≤ u * γ := by positivity
        have p3 : u * (103 / 50 * V + 4 * γ) = 103 / 50 * (u * V) + 4 * (u * γ) := by ring
        linarith
      · have p1 : u * (103 / 50 * V + 4 * γ) ≤ 1 / 100 * (103 / 50 * V + 4 * γ) := mul_le_mul_of_nonneg_right hu (by positivity)
        linarith


theorem cell_err (hR : RndErr A.rnd u τ) (hO : OddMono A.rnd) (hE : ExpErr A.exp ε) (hL : LogErr A.log ε) (h0 : 0 ≤ u) (hu : u ≤ 1 / 100)
    (hτ0 : 0 ≤ τ) (hτ : τ ≤ 1 / 100) (hε : ε ≤ 1 / 100) (hγ : 0 < γ) {η B V κ D Dm : ℝ} {a b c a' b' c' d : Fl} (ha : SoftNear η B a a')
    (hb : SoftNear η B b b') (hc : SoftNear η B c c') (hη : η ≤ V) (hB : B ≤ V) (hV : Dm + κ + 2 * γ ≤ V)
    (hbig : 9 * (V / γ) + 8 * V + 8 * γ + 18 < A.big) (hD : |D| ≤ Dm) (hd : ∃ y, d = .num y ∧ |y - D| ≤ κ) :
    SoftNear (η + softStep u τ ε γ V κ) (B + (Dm + 2 * γ)) ((Fl.num D).add (softmin3 a b c γ)) (A.add d (A.softmin3 a' b' c' γ)) := by
  obtain ⟨d', rfl, hd'⟩ := hd
  have hDm : 0 ≤ Dm := (abs_nonneg D).trans hD
  have hκ : 0 ≤ κ := (abs_nonneg _).trans hd'
  have hV0 : 0 ≤ V := by linarith
  have hε0 : 0 ≤ ε := (abs_nonneg _).trans (hE.err 0 le_rfl)
  rcases softmin_err hR hO hE hL h0 hu hτ0 hτ hε hγ (ha.mono le_rfl hB) (hb.mono le_rfl hB) (hc.mono le_rfl hB) hη hV0 hbig with
    ⟨e1, e2⟩ | ⟨x, y, e1, e2, dxy, ex, hS, hy⟩
  · left
    rw [e1, e2]
    exact ⟨rfl, rfl⟩
  · right; right
    have bx := exact_bound hγ ha hb hc hS
    rw [← ex] at bx
    have bd : |d'| ≤ Dm + κ := by
      have := abs_add_le (d' - D) D
      rw [sub_add_cancel] at this
      linarith
    have b0 : |d' + y| ≤ 7 / 2 * V + 3 * γ + τ := by
      have := abs_add_le d' y
      linarith
    have hUd : 0 ≤ V / γ := by positivity
    obtain ⟨r, er, -, dr, -⟩ := fit_err hR b0 (by linarith) h0 (by linarith)
    refine ⟨D + x, r, by rw [e1]; rfl, by rw [e2]; exact er, ?_, ?_⟩
    · have t1 := abs_add_le (r - (d' + y)) ((d' - D) + (y - x))
      have t2 := abs_add_le (d' - D) (y - x)
      have t3 : r - (d' + y) + ((d' - D) + (y - x)) = r - (D + x) := by ring
      rw [t3] at t1
      have t4 : u * (7 / 2 * V + 3 * γ + τ) = 7 / 2 * (u * V) + 3 * (u * γ) + u * τ := by ring
      have t5 : u * τ ≤ 1 / 100 * τ := mul_le_mul_of_nonneg_right hu hτ0
      have t6 : 0 ≤ u * V := by positivity
      have t7 : 0 ≤ u * γ := by positivity
      unfold softStep
      linarith
    · have := abs_add_le D x
      linarith

/-- The whole table. -/
theorem acc_err (hR : RndErr A.rnd u τ) (hO : OddMono A.rnd) (hE : ExpErr A.exp ε) (hL : LogErr A.log ε) (h0 : 0 ≤ u) (hu : u ≤ 1 / 100)
    (hτ0 : 0 ≤ τ) (hτ : τ ≤ 1 / 100) (hε : ε ≤ 1 / 100) (hγ : 0 < γ) {κ Dm V : ℝ} {x y : List (List ℝ)} (mask : Mat Bool)
    (hn : 1 ≤ x.length) (hm : 1 ≤ y.length) (hV : V = (x.length + y.length : ℕ) * (Dm + 2 * γ)) (hDm : 0 ≤ Dm)
    (hbig : 9 * (V / γ) + 8 * V + 8 * γ + 18 < A.big) (hs : softStep u τ ε γ V κ ≤ Dm + 2 * γ) (hκ : 0 ≤ κ)
    (hD : ∀ i < x.length, ∀ j < y.length, |localCost x y i j| ≤ Dm)
    (hd : ∀ i < x.length, ∀ j < y.length, ∃ v, A.sqDist (x.getD i []) (y.getD j []) = .num v ∧ |v - localCost x y i j| ≤ κ) :
    SoftNear ((x.length + y.length : ℕ) * softStep u τ ε γ V κ) V
      (lastEntry (softAcc x.length y.length mask (localCost x y) γ) x.length y.length)
      (lastEntry (A.softAcc x y mask γ) x.length y.length) := by
  have hε0 : 0 ≤ ε := (abs_nonneg _).trans (hE.err 0 le_rfl)
  have hV2 : 2 * (Dm + 2 * γ) ≤ V := by
    rw [hV]
    refine mul_le_mul_of_nonneg_right ?_ (by positivity)
    exact_mod_cast (show 2 ≤ x.length + y.length by omega)
  have hV0 : 0 ≤ V := by nlinarith
  have hstep : 0 ≤ softStep u τ ε γ V κ := by unfold softStep; positivity
  have hκs : κ ≤ softStep u τ ε γ V κ := by
    unfold softStep
    have : 0 ≤ 18 * u * V + 40 * u * γ + 7 * ε * γ + 10 * τ * γ + 3 * τ := by positivity
    linarith
  unfold lastEntry softAcc Arith.softAcc
  simp only [Mat.tail]
  rw [show x.length - 1 + 1 = x.length by omega, show y.length - 1 + 1 = y.length by omega]
  have h1 := dpLoop_isDP x.length y.length mask (fun i j up left diag => (Fl.num (localCost x y i j)).add (softmin3 up left diag γ))
    ((Mat.full Fl.inf).set 0 0 (Fl.num 0))
  have h2 := dpLoop_isDP x.length y.length mask
    (fun i j up left diag => A.add (A.sqDist (x.getD i []) (y.getD j [])) (A.softmin3 up left diag γ))
    ((Mat.full Fl.inf).set 0 0 (Fl.num 0))
  set M := dpLoop x.length y.length mask (fun i j up left diag => (Fl.num (localCost x y i j)).add (softmin3 up left diag γ))
    ((Mat.full Fl.inf).set 0 0 (Fl.num 0))
  set N := dpLoop x.length y.length mask
    (fun i j up left diag => A.add (A.sqDist (x.getD i []) (y.getD j [])) (A.softmin3 up left diag γ))
    ((Mat.full Fl.inf).set 0 0 (Fl.num 0))
  set st := softStep u τ ε γ V κ
  set β := Dm + 2 * γ with hβ
  have hβ0 : 0 ≤ β := by positivity
  have init : ∀ i j k : ℕ, SoftNear (k * st) (k * β) (((Mat.full Fl.inf).set 0 0 (Fl.num 0)) i j) (((Mat.full Fl.inf).set 0 0 (Fl.num 0)) i j) := by
    intro i j k
    rw [Mat.set_apply]
    split_ifs
    · right; right
      exact ⟨0, 0, rfl, rfl, by simp; positivity, by simp; positivity⟩
    · right; left
      exact ⟨rfl, rfl⟩
  have key : ∀ i j, i ≤ x.length → j ≤ y.length → SoftNear ((i + j : ℕ) * st) ((i + j : ℕ) * β) (M i j) (N i j) := by
    intro i j hi hj
    induction hs' : i + j using Nat.strong_induction_on generalizing i j with
    | _ s ih =>
      rcases i with _ | i
      · rw [h1.row0, h2.row0]; exact init _ _ _
      · rcases j with _ | j
        · rw [h1.col0, h2.col0]; exact init _ _ _
        · rw [h1.body i j (by omega) (by omega), h2.body i j (by omega) (by omega)]
          by_cases hmask : mask i j = true
          · rw [if_pos hmask, if_pos hmask]
            have up : ∀ k ≤ i + j + 1, (k : ℝ) * st ≤ (i + j + 1 : ℕ) * st := fun k hk =>
              mul_le_mul_of_nonneg_right (by exact_mod_cast hk) hstep
            have up' : ∀ k ≤ i + j + 1, (k : ℝ) * β ≤ (i + j + 1 : ℕ) * β := fun k hk =>
              mul_le_mul_of_nonneg_right (by exact_mod_cast hk) hβ0
            have a1 := (ih _ (by omega) i (j + 1) (by omega) hj rfl).mono (up _ (by omega)) (up' _ (by omega))
            have a2 := (ih _ (by omega) (i + 1) j hi (by omega) rfl).mono (up _ (by omega)) (up' _ (by omega))
            have a3 := (ih _ (by omega) i j (by omega) (by omega) rfl).mono (up _ (by omega)) (up' _ (by omega))
            have kV : ((i + j + 1 : ℕ) : ℝ) * β ≤ V := by
              rw [hV]
              exact mul_le_mul_of_nonneg_right (by exact_mod_cast (by omega)) hβ0
            have kη : ((i + j + 1 : ℕ) : ℝ) * st ≤ V := (mul_le_mul_of_nonneg_left hs (Nat.cast_nonneg _)).trans kV
            refine (cell_err hR hO hE hL h0 hu hτ0 hτ hε hγ a1 a2 a3 kη kV (by linarith) hbig (hD i (by omega) j (by omega))
              (hd i (by omega) j (by omega))).mono ?_ ?_
            · rw [← hs']; push_cast; linarith
            · rw [← hs']; push_cast; linarith
          · rw [if_neg hmask, if_neg hmask]; exact init _ _ _
  have := key x.length y.length le_rfl le_rfl
  rwa [← hV] at this

theorem term_sq_err (hR : RndErr A.rnd u τ) (h0 : 0 ≤ u) (hτ0 : 0 ≤ τ) {R : ℝ} (hR1 : 1 ≤ R) (hw1 : u + τ ≤ 1 / 16) (hbig : 8 * R ^ 2 < A.big)
    (p q : ℝ) (hpq : |p - q| ≤ R) : ∃ t, A.mul (A.sub (.num p) (.num q)) (A.sub (.num p) (.num q)) = .num t ∧
      |t - (p - q) * (p - q)| ≤ 4 * (u + τ) * R ^ 2 := by
  set w := u + τ with hw
  have hw0 : 0 ≤ w := by positivity
  have hR2 : 1 ≤ R ^ 2 := by nlinarith
  have hpq' : |p + -q| ≤ R := hpq
  obtain ⟨r, er, -, dr, br⟩ := fit_err hR hpq' (by linarith) h0 (by nlinarith)
  have e1 : u * R + τ ≤ w * R := by nlinarith
  have dr' : |r - (p - q)| ≤ w * R := by rw [sub_eq_add_neg p q]; linarith
  have br' : |r| ≤ (1 + w) * R := by linarith
  have hb2 : |r * r| ≤ 17 / 15 * R ^ 2 := by
    rw [abs_mul]
    have : |r| ≤ 17 / 16 * R := by nlinarith
    nlinarith [abs_nonneg r]
  obtain ⟨t, et, -, dt, -⟩ := fit_err hR hb2 (by linarith) h0 (by nlinarith)
  refine ⟨t, ?_, ?_⟩
  · have : A.sub (.num p) (.num q) = .num r := er
    rw [this]
    exact et
  · have f1 : |r * r - (p - q) * (p - q)| ≤ w * R * ((2 + w) * R) := by
      have : r * r - (p - q) * (p - q) = (r - (p - q)) * (r + (p - q)) := by ring
      rw [this, abs_mul]
      refine mul_le_mul dr' ?_ (abs_nonneg _) (by positivity)
      have := abs_add_le r (p - q)
      linarith
    have f2 := abs_add_le (t - r * r) (r * r - (p - q) * (p - q))
    rw [sub_add_sub_cancel] at f2
    have f3 : u * (17 / 15 * R ^ 2) + τ ≤ 17 / 15 * w * R ^ 2 := by rw [hw]; nlinarith
    have f4 : w * R * ((2 + w) * R) ≤ 33 / 16 * w * R ^ 2 := by
      have : w * R * ((2 + w) * R) = (2 + w) * (w * R ^ 2) := by ring
      rw [this]
      have : 0 ≤ w * R ^ 2 := by positivity
      nlinarith
    have : 0 ≤ w * R ^ 2 := by positivity
    nlinarith

/-- Local costs. -/
theorem sqDist_err (hR : RndErr A.rnd u τ) (h0 : 0 ≤ u) (hτ0 : 0 ≤ τ) {R : ℝ} (hR1 : 1 ≤ R) {d : ℕ} (hv : 8 * d * (u + τ) ≤ 1 / 2) (hbig : 8 * d * R ^ 2 < A.big) :
    ∀ (a b : List ℝ), a.length = d → b.length = d → (∀ k, |a.getD k 0 - b.getD k 0| ≤ R) →
      ∃ v, A.sqDist a b = .num v ∧ |v - sqDist a b| ≤ 8 * d ^ 2 * (u + τ) * R ^ 2 ∧ 0 ≤ sqDist a b ∧ sqDist a b ≤ d * R ^ 2 := by
  intro a b ha hb hab
  rcases Nat.eq_zero_or_pos d with rfl | hd
  · rw [List.length_eq_zero_iff] at ha
    subst ha
    exact ⟨0, rfl, by simp [sqDist], by simp [sqDist], by simp [sqDist]⟩
  have hd1 : (1 : ℝ) ≤ d := by exact_mod_cast hd
  set w := u + τ with hw
  have hw0 : 0 ≤ w := by positivity
  have hw1 : w ≤ 1 / 16 := by nlinarith
  have hR2 : 1 ≤ R ^ 2 := by nlinarith
  have term := term_sq_err hR h0 hτ0 hR1 hw1 (by nlinarith)
  have key : ∀ (a b : List ℝ) (k : ℕ) (s s' : ℝ), a.length = b.length → k + a.length = d → (∀ i, |a.getD i 0 - b.getD i 0| ≤ R) →
      |s' - s| ≤ k * (8 * d * w * R ^ 2) → 0 ≤ s → s ≤ k * R ^ 2 →
      ∃ v, (List.zipWith (fun p q => A.mul (A.sub (.num p) (.num q)) (A.sub (.num p) (.num q))) a b).foldl A.add (.num s') = .num v ∧
        |v - (List.zipWith (fun u v => (u - v) * (u - v)) a b).foldl (· + ·) s| ≤ d * (8 * d * w * R ^ 2) ∧
        0 ≤ (List.zipWith (fun u v => (u - v) * (u - v)) a b).foldl (· + ·) s ∧
        (List.zipWith (fun u v => (u - v) * (u - v)) a b).foldl (· + ·) s ≤ d * R ^ 2 := by
    intro a
    induction a with
    | nil =>
      intro b k s s' hl hk _ h1 h2 h3
      have : k = d := by simpa using hk
      subst this
      exact ⟨s', by simp, by simpa using h1, by simpa using h2, by simpa using h3⟩
    | cons p a ih =>
      intro b k s s' hl hk hab h1 h2 h3
      cases b with
      | nil => cases hl
      | cons q b =>
        obtain ⟨t, et, dt⟩ := term p q (by simpa using hab 0)
        have hpq : |p - q| ≤ R := by simpa using hab 0
        have hsq : (p - q) * (p - q) ≤ R ^ 2 := by
          have := abs_le.1 hpq
          nlinarith
        have hsq0 : 0 ≤ (p - q) * (p - q) := mul_self_nonneg _
        have hkd : (k : ℝ) + 1 ≤ d := by
          have : k + 1 ≤ d := by simp only [List.length_cons] at hk; omega
          exact_mod_cast this
        have hk0 : (0 : ℝ) ≤ k := Nat.cast_nonneg k
        have g1 : 8 * d * w * R ^ 2 ≤ 1 / 2 * R ^ 2 := mul_le_mul_of_nonneg_right hv (by positivity)
        have g2 : (k : ℝ) * (8 * d * w * R ^ 2) ≤ k * (1 / 2 * R ^ 2) := mul_le_mul_of_nonneg_left g1 hk0
        have g3 : |s' + t| ≤ 2 * (d * R ^ 2) := by
          have l1 := abs_le.1 h1
          have l2 := abs_le.1 dt
          have l3 : 4 * w * R ^ 2 ≤ 1 / 4 * R ^ 2 := mul_le_mul_of_nonneg_right (by linarith) (by positivity)
          have l4 : (k + 1 : ℝ) * R ^ 2 ≤ d * R ^ 2 := mul_le_mul_of_nonneg_right hkd (by positivity)
          have l5 : (k + 1 : ℝ) * R ^ 2 = k * R ^ 2 + R ^ 2 := by ring
          have l6 : (k : ℝ) * (1 / 2 * R ^ 2) = 1 / 2 * (k * R ^ 2) := by ring
          have l7 : 0 ≤ (k : ℝ) * R ^ 2 := by positivity
          rw [abs_le]
          constructor <;> linarith
        obtain ⟨v, ev, -, dv, -⟩ := fit_err hR g3 (by linarith) h0 (by nlinarith)
        simp only [List.zipWith_cons_cons, List.foldl_cons]
        rw [et, show A.add (.num s') (.num t) = .num v from ev]
        refine ih b (k + 1) (s + (p - q) * (p - q)) v (by simpa using hl) (by simp only [List.length_cons] at hk; omega)
          (fun i => by simpa using hab (i + 1)) ?_ (by positivity) (by push_cast; rw [add_mul]; linarith)
        have e : v - (s + (p - q) * (p - q)) = (v - (s' + t)) + ((s' - s) + (t - (p - q) * (p - q))) := by ring
        rw [e]
        have t1 := abs_add_le (v - (s' + t)) ((s' - s) + (t - (p - q) * (p - q)))
        have t2 := abs_add_le (s' - s) (t - (p - q) * (p - q))
        have t3 : u * (2 * (d * R ^ 2)) + τ ≤ 2 * d * w * R ^ 2 := by
          have j1 : 1 ≤ 2 * d * R ^ 2 := by nlinarith
          have j2 : τ * 1 ≤ τ * (2 * d * R ^ 2) := mul_le_mul_of_nonneg_left j1 hτ0
          have j3 : 2 * d * w * R ^ 2 = u * (2 * (d * R ^ 2)) + τ * (2 * d * R ^ 2) := by rw [hw]; ring
          linarith
        have t4 : 4 * w * R ^ 2 ≤ 4 * d * w * R ^ 2 := by
          have j1 : 0 ≤ w * R ^ 2 := by positivity
          have j2 := mul_le_mul_of_nonneg_right hd1 j1
          linarith
        have t5 : 0 ≤ d * w * R ^ 2 := by positivity
        push_cast
        rw [add_mul]
        linarith
  obtain ⟨v, e, h1, h2, h3⟩ := key a b 0 0 0 (by omega) (by omega) hab (by simp) le_rfl (by simp)
  refine ⟨v, e, ?_, h2, h3⟩
  have : (8 : ℝ) * d ^ 2 * w * R ^ 2 = d * (8 * d * w * R ^ 2) := by ring
  rw [this]
  exact h1

end
end
end Verif
