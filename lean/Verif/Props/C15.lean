import Verif.Proofs.Lcss
import Verif.Proofs.Dtw
import Verif.Proofs.Series
import Verif.Spec.Cost
/-!
# C15 — LCSS is the normalised longest epsilon-common subsequence
-/
namespace Verif
open Spec

/-- Samples `x[i]` and `y[j]` are within `eps`. -/
def Close (x y : List (List ℝ)) (eps : ℝ) (i j : ℕ) : Prop := Real.sqrt (sampleCost x y i j) ≤ eps

theorem lcssArgs_ok {K : Type} {s1 s2 : TsInput (Option K)} {g radius slope x y mask}
    (h : lcssArgs s1 s2 g radius slope = .ok (x, y, mask)) :
    denan (toTimeSeries s1 true) = some x ∧ denan (toTimeSeries s2 true) = some y ∧ x ≠ [] ∧ y ≠ [] ∧
      nFeatures x = nFeatures y ∧
      ∃ code, gcCode g = .ok code ∧ computeMask x.length y.length code radius slope = .ok mask := by
  unfold lcssArgs at h
  cases h1 : denan (toTimeSeries s1 true) with
  | none => simp [h1] at h
  | some x' =>
    cases h2 : denan (toTimeSeries s2 true) with
    | none => simp [h1, h2] at h
    | some y' =>
      simp only [h1, h2] at h
      split_ifs at h with h3
      · cases h
      · push Not at h3
        cases h4 : gcCode g with
        | error e => simp [h4, bind, Except.bind] at h
        | ok code =>
          cases h5 : computeMask x'.length y'.length code radius slope with
          | error e => simp [h4, h5, bind, Except.bind] at h
          | ok m =>
            simp only [h4, h5, bind, Except.bind, pure, Except.pure, Except.ok.injEq,
              Prod.mk.injEq] at h
            obtain ⟨rfl, rfl, rfl⟩ := h
            exact ⟨rfl, rfl, h3.1, h3.2.1, h3.2.2, code, rfl, h5⟩

theorem lcss_value {s1 s2 : TsInput (Option ℝ)} {g radius slope x y mask} (eps : ℝ)
    (h : lcssArgs s1 s2 g radius slope = .ok (x, y, mask)) :
    lcss s1 s2 eps g radius slope = .ok ((lcssAcc x.length y.length mask (lcssHit x y eps)
      x.length y.length : ℝ) / ((min x.length y.length : ℕ) : ℝ)) := by
  simp [lcss, h, lcssScore, bind, Except.bind, pure, Except.pure]

theorem okPair_close (x y : List (List ℝ)) (eps : ℝ) (mask : Mat Bool) :
    okPair mask (lcssHit x y eps) = fun i j => mask i j = true ∧ Close x y eps i j := by
  funext i j
  simp [okPair, lcssHit, Close, localCost_eq]

/-- Without constraint: the score is the size of a longest common subsequence over the shorter
length. -/
theorem C15_value (s1 s2 : TsInput (Option ℝ)) (eps : ℝ) (x y : List (List ℝ)) (mask : Mat Bool)
    (h : lcssArgs s1 s2 none none none = .ok (x, y, mask)) :
    ∃ k, IsGreatest (MatchingSizes x.length y.length (Close x y eps)) k ∧
      lcss s1 s2 eps none none none = .ok ((k : ℝ) / ((min x.length y.length : ℕ) : ℝ)) := by
  obtain ⟨-, -, hx, hy, -, code, hc, hm⟩ := lcssArgs_ok h
  cases hc
  obtain rfl : Mat.full true = mask := by simpa [computeMask] using hm
  refine ⟨_, ?_, lcss_value eps h⟩
  have := lcssAcc_isGreatest (hit := lcssHit x y eps) (lcssMask_full x.length y.length)
    (List.length_pos_iff.2 hx) (List.length_pos_iff.2 hy) rfl
  rw [okPair_close] at this
  simpa [Mat.full] using this

/-- With a Sakoe-Chiba band that is not a bare diagonal: the longest common subsequence among pairs
of the band. -/
theorem C15_band_value (s1 s2 : TsInput (Option ℝ)) (eps : ℝ) (x y : List (List ℝ)) (mask : Mat Bool)
    (g : Option String) (r : ℕ) (hg : g = none ∨ g = some "sakoe_chiba")
    (h : lcssArgs s1 s2 g (some r) none = .ok (x, y, mask)) (hr : 1 ≤ r ∨ x.length ≠ y.length) :
    ∃ k, IsGreatest (MatchingSizes x.length y.length
        fun i j => InBand x.length y.length r i j ∧ Close x y eps i j) k ∧
      lcss s1 s2 eps g (some r) none = .ok ((k : ℝ) / ((min x.length y.length : ℕ) : ℝ)) := by
  obtain ⟨-, -, hx, hy, -, code, hc, hm⟩ := lcssArgs_ok h
  obtain rfl : sakoeChibaMask x.length y.length r = mask := by
    rcases hg with rfl | rfl <;> (cases hc; simpa [computeMask] using hm)
  have hx' := List.length_pos_iff.2 hx
  have hy' := List.length_pos_iff.2 hy
  refine ⟨_, ?_, lcss_value eps h⟩
  have := lcssAcc_isGreatest (hit := lcssHit x y eps) (lcssMask_sakoe x.length y.length r hr)
    hx' hy' ((sakoeChibaMask_iff _ _ _ _ _ (by omega) (by omega)).2 (by unfold InBand; omega))
  rw [okPair_close] at this
  convert this using 1
  have key : ∀ p, IsMatching x.length y.length
      (fun i j => InBand x.length y.length r i j ∧ Close x y eps i j) p ↔
      IsMatching x.length y.length
        (fun i j => sakoeChibaMask x.length y.length r i j = true ∧ Close x y eps i j) p := by
    intro p
    constructor
    · intro hp
      refine ⟨hp.incr, hp.inside, fun c hc => ⟨?_, (hp.hits c hc).2⟩⟩
      have := hp.inside c hc
      exact (sakoeChibaMask_iff _ _ _ _ _ this.1 this.2).2 (hp.hits c hc).1
    · intro hp
      refine ⟨hp.incr, hp.inside, fun c hc => ⟨?_, (hp.hits c hc).2⟩⟩
      have := hp.inside c hc
      exact (sakoeChibaMask_iff _ _ _ _ _ this.1 this.2).1 (hp.hits c hc).1
  ext k
  simp only [MatchingSizes, Set.mem_ofPred_eq, key]

/-- Under any constraint the score lies in `[0, 1]`, and its numerator is at most the longest
allowed common subsequence (it is the size of one). -/
theorem C15_bounds (s1 s2 : TsInput (Option ℝ)) (eps : ℝ) (x y : List (List ℝ)) (mask : Mat Bool)
    (g : Option String) (radius : Option ℕ) (slope : Option ℚ)
    (h : lcssArgs s1 s2 g radius slope = .ok (x, y, mask)) :
    ∃ (v : ℝ) (p : List (ℕ × ℕ)), lcss s1 s2 eps g radius slope = .ok v ∧ 0 ≤ v ∧ v ≤ 1 ∧
      IsMatching x.length y.length (fun i j => mask i j = true ∧ Close x y eps i j) p ∧
      v = (p.length : ℝ) / ((min x.length y.length : ℕ) : ℝ) := by
  obtain ⟨-, -, hx, hy, -⟩ := lcssArgs_ok h
  obtain ⟨p, hp, hl⟩ := lcssAcc_le (mask := mask) (hit := lcssHit x y eps) (le_refl x.length)
    (le_refl y.length)
  rw [okPair_close] at hp
  refine ⟨_, p, lcss_value eps h, by positivity, ?_, hp, by rw [hl]⟩
  have hpos : (0 : ℝ) < ((min x.length y.length : ℕ) : ℝ) := by
    have := List.length_pos_iff.2 hx
    have := List.length_pos_iff.2 hy
    exact_mod_cast (by omega : 0 < min x.length y.length)
  rw [div_le_one hpos, ← hl]
  exact_mod_cast hp.length_le

/-- Identical series score 1. -/
theorem C15_self (s : TsInput (Option ℝ)) (eps : ℝ) (heps : 0 ≤ eps) (x y : List (List ℝ))
    (mask : Mat Bool) (h : lcssArgs s s none none none = .ok (x, y, mask)) :
    lcss s s eps none none none = .ok 1 := by
  obtain ⟨h1, h2, hx, -⟩ := lcssArgs_ok h
  rw [h1] at h2; cases h2
  obtain ⟨k, hk, hv⟩ := C15_value s s eps x x mask h
  have hk' : k = x.length := by
    apply le_antisymm
    · obtain ⟨p, hp, rfl⟩ := hk.1
      simpa using hp.length_le
    · refine hk.2 ⟨(List.range x.length).map fun i => (i, i), ⟨?_, ?_, ?_⟩, by simp⟩
      · rw [List.pairwise_map]
        exact List.pairwise_lt_range.imp fun h => ⟨h, h⟩
      · simp
      · simp only [List.mem_map, List.mem_range]
        rintro _ ⟨i, -, rfl⟩
        simp [Close, sampleCost, sqEuclid_self, heps]
  rw [hv, hk', min_self, div_self]
  exact_mod_cast (List.length_pos_iff.2 hx).ne'

/-- Swapping the series does not change the score. -/
theorem C15_symmetric (s1 s2 : TsInput (Option ℝ)) (eps : ℝ) (x y : List (List ℝ)) (mask : Mat Bool)
    (h : lcssArgs s1 s2 none none none = .ok (x, y, mask)) :
    lcss s1 s2 eps none none none = lcss s2 s1 eps none none none := by
  obtain ⟨h1, h2, hx, hy, hd, -⟩ := lcssArgs_ok h
  have h' : lcssArgs s2 s1 none none none = .ok (y, x, Mat.full true) := by
    simp [lcssArgs, h1, h2, hx, hy, hd, gcCode, computeMask, bind, Except.bind, pure, Except.pure]
  obtain ⟨k, hk, hv⟩ := C15_value s1 s2 eps x y mask h
  obtain ⟨k', hk', hv'⟩ := C15_value s2 s1 eps y x _ h'
  have sw : ∀ (u v : List (List ℝ)) (n : ℕ), n ∈ MatchingSizes u.length v.length (Close u v eps) →
      n ∈ MatchingSizes v.length u.length (Close v u eps) := by
    rintro u v n ⟨p, hp, rfl⟩
    refine ⟨p.map Prod.swap, ⟨?_, ?_, ?_⟩, by simp⟩
    · rw [List.pairwise_map]
      exact hp.incr.imp fun h => ⟨h.2, h.1⟩
    · simp only [List.mem_map]
      rintro _ ⟨c, hc, rfl⟩
      exact (hp.inside c hc).symm
    · simp only [List.mem_map]
      rintro _ ⟨c, hc, rfl⟩
      have := hp.hits c hc
      simpa [Close, sampleCost, sqEuclid_comm] using this
  have : k = k' := le_antisymm (hk'.2 (sw _ _ _ hk.1)) (hk.2 (sw _ _ _ hk'.1))
  rw [hv, hv', this, min_comm]

/-- A larger threshold never lowers the score, with or without a band. -/
theorem C15_eps_monotone (s1 s2 : TsInput (Option ℝ)) (eps eps' : ℝ) (he : eps ≤ eps')
    (x y : List (List ℝ)) (mask : Mat Bool) (radius : Option ℕ)
    (hr : ∀ r, radius = some r → 1 ≤ r ∨ x.length ≠ y.length)
    (h : lcssArgs s1 s2 none radius none = .ok (x, y, mask)) :
    ∃ v v', lcss s1 s2 eps none radius none = .ok v ∧ lcss s1 s2 eps' none radius none = .ok v' ∧
      v ≤ v' := by
  have mono : ∀ (P : ℕ → ℕ → Prop) k k',
      IsGreatest (MatchingSizes x.length y.length fun i j => P i j ∧ Close x y eps i j) k →
      IsGreatest (MatchingSizes x.length y.length fun i j => P i j ∧ Close x y eps' i j) k' →
      k ≤ k' := by
    intro P k k' hk hk'
    obtain ⟨p, hp, hl⟩ := hk.1
    exact hk'.2 ⟨p, ⟨hp.incr, hp.inside, fun c hc => ⟨(hp.hits c hc).1, (hp.hits c hc).2.trans he⟩⟩, hl⟩
  cases radius with
  | none =>
    obtain ⟨k, hk, hv⟩ := C15_value s1 s2 eps x y mask h
    obtain ⟨k', hk', hv'⟩ := C15_value s1 s2 eps' x y mask h
    refine ⟨_, _, hv, hv', ?_⟩
    have := mono (fun _ _ => True) k k' (by simpa using hk) (by simpa using hk')
    gcongr
  | some r =>
    obtain ⟨k, hk, hv⟩ := C15_band_value s1 s2 eps x y mask none r (.inl rfl) h (hr r rfl)
    obtain ⟨k', hk', hv'⟩ := C15_band_value s1 s2 eps' x y mask none r (.inl rfl) h (hr r rfl)
    refine ⟨_, _, hv, hv', ?_⟩
    have := mono _ k k' hk hk'
    gcongr

/-- A band of radius 0 breaks the claim: a single mismatch resets the count, so the table reports 1
although two allowed pairs match. -/
theorem C15_radius_zero_false : ∃ hit : ℕ → ℕ → Bool,
    ¬ IsGreatest (MatchingSizes 3 3 fun i j => InBand 3 3 0 i j ∧ hit i j = true)
      (lcssAcc 3 3 (sakoeChibaMask 3 3 0) hit 3 3) := by
  refine ⟨fun i j => decide (i = j ∧ i ≠ 1), fun h => ?_⟩
  have h1 : lcssAcc 3 3 (sakoeChibaMask 3 3 0) (fun i j => decide (i = j ∧ i ≠ 1)) 3 3 = 1 := by
    decide +kernel
  rw [h1] at h
  have : 2 ∈ MatchingSizes 3 3 fun i j => InBand 3 3 0 i j ∧ decide (i = j ∧ i ≠ 1) = true :=
    ⟨[(0, 0), (2, 2)], ⟨by decide, by decide, by unfold InBand; decide⟩, rfl⟩
  have := h.2 this
  omega

/-! Concrete instances. -/

/-- Hypotheses of the theorems above, on a padded univariate series against a longer one. -/
example : lcssArgs (.oneD [some (1:ℤ), some 2, none]) (.twoD [[some 1], [some 5], [some 2]]) none none none =
    .ok ([[1],[2]], [[1],[5],[2]], Mat.full true) := rfl

/-- A longest common subsequence of size 2 that skips a sample. -/
example : lcssAcc 2 3 (Mat.full true) (fun i j => decide (([1,2].getD i 0 : ℕ) = [1,5,2].getD j 0)) 2 3 = 2 := by
  decide +kernel

/-- The same in a band of radius 1. -/
example : lcssAcc 4 4 (sakoeChibaMask 4 4 1)
    (fun i j => decide (([1,2,3,4].getD i 0 : ℕ) = [0,1,2,3].getD j 0)) 4 4 = 3 := by
  decide +kernel

/-- The real-valued function on a concrete series. -/
example : lcss (.oneD [some (1:ℝ), some 2]) (.oneD [some (1:ℝ), some 2]) 0 none none none = .ok 1 :=
  C15_self _ 0 le_rfl [[1],[2]] [[1],[2]] (Mat.full true) (by
    simp [lcssArgs, toTimeSeries, tsSize, tsSizeLoop, denan, gcCode, computeMask, nFeatures, bind, Except.bind,
      pure, Except.pure])

end Verif
