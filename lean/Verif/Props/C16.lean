import Verif.Props.C15
import Mathlib.Tactic.IntervalCases
import Mathlib.Tactic.NormNum
/-!
# C16 — `lcss_path` terminates and returns a matching of the reported size

False under a constraint: when the traceback walks onto a forbidden cell the loop body does nothing
and the loop never ends (`C16_nontermination`). The NumPy variant of `lcss_path_from_metric` tests
`isfinite(mask)` instead, always terminates, but then reports forbidden pairs
(`C16_from_metric_false`).
-/
namespace Verif
open Spec

/-- Without constraint: both functions terminate within `len(s1) + len(s2) + 1` iterations, and the
path is a longest common subsequence whose size gives the reported score. -/
theorem C16_unconstrained_partial (s1 s2 : TsInput (Option ℝ)) (eps : ℝ) (x y : List (List ℝ))
    (mask : Mat Bool) (h : lcssArgs s1 s2 none none none = .ok (x, y, mask)) (fuel : ℕ)
    (hf : x.length + y.length < fuel) :
    ∃ p, lcssPath s1 s2 eps none none none fuel =
        .ok (some p, (p.length : ℝ) / ((min x.length y.length : ℕ) : ℝ)) ∧
      IsMatching x.length y.length (Close x y eps) p ∧
      (∀ q, IsMatching x.length y.length (Close x y eps) q → q.length ≤ p.length) ∧
      lcss s1 s2 eps none none none = .ok ((p.length : ℝ) / ((min x.length y.length : ℕ) : ℝ)) := by
  obtain ⟨-, -, hx, hy, -, code, hc, hm⟩ := lcssArgs_ok h
  cases hc
  obtain rfl : Mat.full true = mask := by simpa [computeMask] using hm
  obtain ⟨p, hp⟩ := lcssPathLoop_total (lcssHit x y eps)
    (lcssAcc x.length y.length (Mat.full true) (lcssHit x y eps)) (Mat.full true) x.length y.length fuel
    (by simp [Mat.full]) hf []
  have hcount := lcssPathLoop_count le_rfl le_rfl hp
  simp only [List.length_nil, add_zero] at hcount
  obtain ⟨q, hq, hmat⟩ := lcssPathLoop_sound hp
  rw [List.append_nil] at hq
  subst hq
  have hmat' : IsMatching x.length y.length (Close x y eps) p := by
    rw [okPair_close] at hmat
    exact ⟨hmat.incr, hmat.inside, fun c hc => (hmat.hits c hc).2⟩
  refine ⟨p, ?_, hmat', fun q hq => ?_, ?_⟩
  · simp [lcssPath, h, returnLcssPath, hp, lcssScore, hcount, bind, Except.bind, pure, Except.pure]
  · obtain ⟨k, hk, hv⟩ := C15_value s1 s2 eps x y _ h
    rw [lcss_value eps h] at hv
    have hg := lcssAcc_isGreatest (hit := lcssHit x y eps) (lcssMask_full x.length y.length)
      (List.length_pos_iff.2 hx) (List.length_pos_iff.2 hy) rfl
    rw [okPair_close] at hg
    rw [hcount]
    exact hg.2 ⟨q, ⟨hq.incr, hq.inside, fun c hc => ⟨rfl, hq.hits c hc⟩⟩, rfl⟩
  · rw [lcss_value eps h, hcount]

/-- Under any constraint: if the loop ends, the path is made of allowed matching pairs, as many as
the reported score says. -/
theorem C16_when_it_ends_partial (s1 s2 : TsInput (Option ℝ)) (eps : ℝ) (x y : List (List ℝ))
    (mask : Mat Bool) (g : Option String) (radius : Option ℕ) (slope : Option ℚ)
    (h : lcssArgs s1 s2 g radius slope = .ok (x, y, mask)) (fuel : ℕ) (p : List (ℕ × ℕ)) (v : ℝ)
    (hp : lcssPath s1 s2 eps g radius slope fuel = .ok (some p, v)) :
    IsMatching x.length y.length (fun i j => mask i j = true ∧ Close x y eps i j) p ∧
      v = (p.length : ℝ) / ((min x.length y.length : ℕ) : ℝ) ∧
      lcss s1 s2 eps g radius slope = .ok v := by
  simp only [lcssPath, h, bind, Except.bind, pure, Except.pure, Except.ok.injEq, Prod.mk.injEq] at hp
  obtain ⟨hp, rfl⟩ := hp
  have hcount := lcssPathLoop_count le_rfl le_rfl hp
  simp only [List.length_nil, add_zero] at hcount
  obtain ⟨q, hq, hmat⟩ := lcssPathLoop_sound hp
  rw [List.append_nil] at hq
  subst hq
  rw [okPair_close] at hmat
  refine ⟨hmat, by rw [lcssScore, hcount], ?_⟩
  rw [lcss_value eps h]
  rfl

/-- The loop ends whenever every cell it can visit is allowed; conversely it never ends once it
stands on a forbidden cell. -/
theorem C16_stuck (mask hit : ℕ → ℕ → Bool) (acc : Mat ℕ) (i j : ℕ) (hi : 0 < i) (hj : 0 < j)
    (hm : mask (i - 1) (j - 1) = false) (fuel : ℕ) : returnLcssPath mask hit acc i j fuel = none :=
  lcssPathLoop_stuck hi hj hm fuel []

/-- `lcss_path([0, 0, 0], [5, 5, 5], eps=1, sakoe_chiba_radius=1)` does not terminate: no number of
iterations of the traceback loop is enough. -/
theorem C16_nontermination : ∀ fuel,
    (lcssPathFromMetric 3 3 (fun _ _ => false) none (some 1) none false fuel).toOption.map Prod.fst =
      some none := by
  intro fuel
  have key : ∀ fuel, returnLcssPath (sakoeChibaMask 3 3 1) (fun _ _ => false)
      (lcssAcc 3 3 (sakoeChibaMask 3 3 1) fun _ _ => false) 3 3 fuel = none := by
    intro fuel
    rcases fuel with _ | _ | fuel
    · rfl
    · decide +kernel
    · have h1 : sakoeChibaMask 3 3 1 2 2 = true := by decide
      have h2 : sakoeChibaMask 3 3 1 2 1 = true := by decide
      have h3 : sakoeChibaMask 3 3 1 2 0 = false := by decide
      have a1 : ¬ (lcssAcc 3 3 (sakoeChibaMask 3 3 1) (fun _ _ => false) 3 2 <
        lcssAcc 3 3 (sakoeChibaMask 3 3 1) (fun _ _ => false) 2 3) := by decide +kernel
      have a2 : ¬ (lcssAcc 3 3 (sakoeChibaMask 3 3 1) (fun _ _ => false) 3 1 <
        lcssAcc 3 3 (sakoeChibaMask 3 3 1) (fun _ _ => false) 2 2) := by decide +kernel
      unfold returnLcssPath lcssPathLoop
      simp only [Nat.reduceLT, and_self, if_true, Nat.reduceSub, h1, Bool.false_eq_true, if_false, a1]
      unfold lcssPathLoop
      simp only [Nat.reduceLT, and_self, if_true, Nat.reduceSub, h2, Bool.false_eq_true, if_false, a2]
      exact lcssPathLoop_stuck (by omega) (by omega) h3 fuel []
  simp [lcssPathFromMetric, gcCode, computeMask, key, bind, Except.bind, pure, Except.pure,
    Except.toOption]

/-- The public function on the same data. -/
theorem C16_false : ¬ ∀ (s1 s2 : TsInput (Option ℝ)) (eps : ℝ) (radius : Option ℕ) (x y : List (List ℝ))
    (mask : Mat Bool), lcssArgs s1 s2 none radius none = .ok (x, y, mask) →
    ∃ fuel p v, lcssPath s1 s2 eps none radius none fuel = .ok (some p, v) := by
  intro h
  have ha : lcssArgs (.oneD [some (0:ℝ), some 0, some 0]) (.oneD [some 5, some 5, some 5]) none (some 1)
      none = .ok ([[0],[0],[0]], [[5],[5],[5]], sakoeChibaMask 3 3 1) := by
    simp [lcssArgs, toTimeSeries, tsSize, tsSizeLoop, denan, gcCode, computeMask, nFeatures, bind,
      Except.bind, pure, Except.pure]
  obtain ⟨fuel, p, v, hp⟩ := h _ _ 1 (some 1) _ _ _ ha
  simp only [lcssPath, ha, bind, Except.bind, pure, Except.pure, Except.ok.injEq, Prod.mk.injEq] at hp
  have hhit : ∀ i < 3, ∀ j < 3, lcssHit [[0],[0],[0]] [[5],[5],[5]] 1 i j = false := by
    intro i hi j hj
    have h5 : Real.sqrt 25 = 5 := by
      rw [show (25:ℝ) = 5 * 5 by norm_num]; exact Real.sqrt_mul_self (by norm_num)
    have hl : localCost ([[0],[0],[0]] : List (List ℝ)) [[5],[5],[5]] i j = 25 := by
      interval_cases i <;> interval_cases j <;> (simp [localCost, sqDist]; try norm_num)
    simp [lcssHit, hl, h5]
  -- the table and the loop only read these nine comparisons
  have hacc : ∀ i j, i ≤ 3 → j ≤ 3 → lcssAcc 3 3 (sakoeChibaMask 3 3 1)
      (lcssHit [[0],[0],[0]] [[5],[5],[5]] 1) i j = 0 := by
    intro i j hi hj
    have hD := lcssAcc_isDP 3 3 (sakoeChibaMask 3 3 1) (lcssHit [[0],[0],[0]] [[5],[5],[5]] 1)
    induction i generalizing j with
    | zero => rw [hD.row0]; rfl
    | succ i ih =>
      induction j with
      | zero => rw [hD.col0]; rfl
      | succ j ihj =>
        rw [hD.body i j (by omega) (by omega), hhit i (by omega) j (by omega)]
        simp [ih, ihj, show i ≤ 3 by omega, show j ≤ 3 by omega, hj, Mat.full]
  have hp1 := hp.1
  simp only [returnLcssPath, List.length_cons, List.length_nil, zero_add, Nat.reduceAdd] at hp1
  have h1 : sakoeChibaMask 3 3 1 2 2 = true := by decide
  have h2 : sakoeChibaMask 3 3 1 2 1 = true := by decide
  have h3 : sakoeChibaMask 3 3 1 2 0 = false := by decide
  rcases fuel with _ | _ | fuel
  · simp [lcssPathLoop] at hp1
  · simp [lcssPathLoop, h1, hhit] at hp1
  · unfold lcssPathLoop at hp1
    simp only [Nat.reduceLT, and_self, if_true, Nat.reduceSub, h1, hhit, Bool.false_eq_true, if_false,
      hacc, Nat.reduceLeDiff, le_refl] at hp1
    unfold lcssPathLoop at hp1
    simp only [Nat.reduceLT, and_self, if_true, Nat.reduceSub, h2, hhit, Bool.false_eq_true, if_false,
      hacc, Nat.reduceLeDiff, le_refl] at hp1
    rw [lcssPathLoop_stuck (by omega) (by omega) h3] at hp1
    cases hp1

/-- NumPy `lcss_path_from_metric`: always terminates and returns pairs within `eps`, increasing in
both series, for every constraint. -/
theorem C16_from_metric_terminates (l1 l2 : ℕ) (hit : ℕ → ℕ → Bool) (g : Option String)
    (radius : Option ℕ) (slope : Option ℚ) (fuel : ℕ) (hf : l1 + l2 < fuel) (r)
    (h : lcssPathFromMetric l1 l2 hit g radius slope true fuel = .ok r) :
    ∃ p, r.1 = some p ∧ IsMatching l1 l2 (fun i j => hit i j = true) p := by
  unfold lcssPathFromMetric at h
  cases hc : gcCode g with
  | error e => simp [hc, bind, Except.bind] at h
  | ok code =>
    cases hm : computeMask l1 l2 code radius slope with
    | error e => simp [hc, hm, bind, Except.bind] at h
    | ok mask =>
      simp only [hc, hm, bind, Except.bind, pure, Except.pure, if_true, Except.ok.injEq] at h
      subst h
      obtain ⟨p, hp⟩ := lcssPathLoop_total hit (lcssAcc l1 l2 mask hit) (fun _ _ => true) l1 l2 fuel
        (by simp) hf []
      obtain ⟨q, hq, hmat⟩ := lcssPathLoop_sound hp
      rw [List.append_nil] at hq
      subst hq
      exact ⟨p, hp, ⟨hmat.incr, hmat.inside, fun c hc => (hmat.hits c hc).2⟩⟩

/-- ... but with a constraint the path may consist of forbidden pairs and not have the reported
size: only `(2, 0)` matches, it is outside the band of radius 1, the score is 0 and the path is
`[(2, 0)]`. -/
theorem C16_from_metric_false : ∃ (hit : ℕ → ℕ → Bool) (p : List (ℕ × ℕ)),
    lcssPathFromMetric 3 3 hit none (some 1) none true 7 = .ok (some p, 0) ∧ p.length = 1 ∧
      ∃ c ∈ p, ¬ InBand 3 3 1 c.1 c.2 :=
  ⟨fun i j => i == 2 && j == 0, [(2, 0)], by decide +kernel, rfl, (2, 0), by simp, by
    unfold InBand; decide⟩

/-! Concrete instance: the documentation example, unconstrained. -/
example : lcssPathFromMetric 3 4
    (fun i j => decide (([1,2,3].getD i 0 : ℤ) - [1,2,2,3].getD j 0 ≤ 1 ∧
      ([1,2,2,3].getD j 0 : ℤ) - [1,2,3].getD i 0 ≤ 1)) none none none true 8 =
    .ok (some [(0, 1), (1, 2), (2, 3)], 3) := by decide +kernel

end Verif
