import Verif.Proofs.Wiggle
import Verif.Props.C10
import Verif.Props.C12
import Verif.Props.C13
import Verif.Props.C14
import Verif.Props.C15
import Verif.Props.C17
import Verif.Props.C29
import Verif.Model.Piecewise
/-!
# C99 — Small changes of the samples change distances little

If every sample of one series moves by at most `ε` and every sample of the other by at most `δ`, the distances move by a known multiple
of `ε + δ`. A match threshold, a scaling by the deviation and a symbol have no such bound.
-/
set_option linter.unusedSectionVars false
namespace Verif
open Spec

theorem withinTop_of {b : ℝ} {v v' : WithTop ℝ} (h1 : v' = ⊤ ↔ v = ⊤)
    (h2 : ∀ w w' : ℝ, v = (w : WithTop ℝ) → v' = (w' : WithTop ℝ) → w' ≤ w + b)
    (h3 : ∀ w w' : ℝ, v = (w : WithTop ℝ) → v' = (w' : WithTop ℝ) → w ≤ w' + b) : WithinTop b v v' :=
  ⟨h1, fun w w' e e' => abs_le.2 ⟨by linarith [h3 w w' e e'], by linarith [h2 w w' e e']⟩⟩

/-- `dtw`, any constraint: `+inf` for both or for none, and `√(n + m - 1) (ε + δ)` apart at most. -/
theorem C99_dtw (s1 s2 s1' s2' : TsInput (Option ℝ)) (g : Option String) (radius : Option ℕ) (slope : Option ℚ)
    (x y x' y' : List (List ℝ)) (code : ℕ) (d : ℕ) (ε δ : ℝ)
    (hv : validatePair s1 s2 g = .ok (x, y, code)) (hv' : validatePair s1' s2' g = .ok (x', y', code))
    (hx : Wiggle d ε x x') (hy : Wiggle d δ y y') (v : WithTop ℝ) (h : dtw s1 s2 g radius slope = .ok v) :
    ∃ v', dtw s1' s2' g radius slope = .ok v' ∧
      WithinTop (Real.sqrt ((x.length + y.length - 1 : ℕ) : ℝ) * (ε + δ)) v v' := by
  obtain ⟨-, -, -, hxn, hyn, -⟩ := validatePair_ok hv
  have h0 : 0 ≤ ε + δ := add_nonneg (hx.nonneg hxn) (hy.nonneg hyn)
  cases hm : computeMask x.length y.length code radius slope with
  | error e => simp [dtw, dtwSq, hv, dtwSqGeneric, hm, bind, Except.bind] at h
  | ok mask =>
    obtain ⟨u, e, t, l⟩ := C01_dtw s1 s2 g radius slope x y code mask hv hm
    have hm' := hm
    rw [hx.1, hy.1] at hm'
    obtain ⟨u', e', t', l'⟩ := C01_dtw s1' s2' g radius slope x' y' code mask hv' hm'
    rw [h] at e
    cases e
    rw [← hx.1, ← hy.1] at t' l'
    refine ⟨u', e', withinTop_of (t'.trans t.symm) (fun w w' a a' => ?_) (fun w w' a a' => ?_)⟩
    all_goals
      obtain ⟨w0, ⟨p, hp, hc⟩, hl⟩ := (l w).1 a
      obtain ⟨w0', ⟨p', hp', hc'⟩, hl'⟩ := (l' w').1 a'
    · have k := sqrt_sumCost_wiggle hx hy h0 (p := p) (fun c hc => hp.1.mem_lt c hc) _ hp.1.length_le
      rw [← hc, Real.sqrt_sq w0] at k
      exact (Real.le_sqrt_of_sq_le (hl' ⟨p, hp, rfl⟩)).trans k
    · have k := sqrt_sumCost_wiggle hx.symm hy.symm h0 (p := p')
        (fun c hc => by rw [← hx.1, ← hy.1]; exact hp'.1.mem_lt c hc) _ hp'.1.length_le
      rw [← hc', Real.sqrt_sq w0'] at k
      exact (Real.le_sqrt_of_sq_le (hl ⟨p', hp', rfl⟩)).trans k

/-- `frechet`, any constraint: `+inf` for both or for none, and `ε + δ` apart at most. -/
theorem C99_frechet (s1 s2 s1' s2' : TsInput (Option ℝ)) (g : Option String) (radius : Option ℕ) (slope : Option ℚ)
    (x y x' y' : List (List ℝ)) (code : ℕ) (d : ℕ) (ε δ : ℝ)
    (hv : validatePair s1 s2 g = .ok (x, y, code)) (hv' : validatePair s1' s2' g = .ok (x', y', code))
    (hx : Wiggle d ε x x') (hy : Wiggle d δ y y') (v : WithTop ℝ) (h : frechet s1 s2 g radius slope = .ok v) :
    ∃ v', frechet s1' s2' g radius slope = .ok v' ∧ WithinTop (ε + δ) v v' := by
  obtain ⟨-, -, -, hxn, hyn, -⟩ := validatePair_ok hv
  cases hm : computeMask x.length y.length code radius slope with
  | error e => simp [frechet, frechetSq, hv, frechetSqGeneric, hm, bind, Except.bind] at h
  | ok mask =>
    obtain ⟨p, u, -, e, hp, t, l⟩ := C10_frechet_path s1 s2 g radius slope x y code mask hv hm _ argmin3_isArgmin
    have hm' := hm
    rw [hx.1, hy.1] at hm'
    obtain ⟨p', u', -, e', hp', t', l'⟩ := C10_frechet_path s1' s2' g radius slope x' y' code mask hv' hm' _ argmin3_isArgmin
    rw [h] at e
    cases e
    rw [← hx.1, ← hy.1] at t' l' hp'
    -- one direction, for any two pairs of series that differ little
    have key : ∀ {x x' y y' : List (List ℝ)}, Wiggle d ε x x' → Wiggle d δ y y' → ∀ p,
        IsWarpingPath x.length y.length p → ∀ a, IsMaxCost (sampleCost x y) p a →
        ∃ a', IsMaxCost (sampleCost x' y') p a' ∧ Real.sqrt a' ≤ Real.sqrt a + (ε + δ) := by
      intro x x' y y' hx hy p hp a ha
      obtain ⟨a', ha'⟩ := exists_isMaxCost (sampleCost x' y') (sampleCost_nonneg _ _) (mask := Mat.full true)
        ⟨hp, fun _ _ => rfl⟩
      refine ⟨a', ha', ?_⟩
      obtain ⟨c, hc, rfl⟩ := ha'.1
      have := hx.cost hy (hp.mem_lt c hc).1 (hp.mem_lt c hc).2
      have := Real.sqrt_le_sqrt (ha.2 c hc)
      linarith
    refine ⟨u', e', withinTop_of (t'.trans t.symm) (fun w w' a a' => ?_) (fun w w' a a' => ?_)⟩
    all_goals
      obtain ⟨hin, z, hz, hmz, hlz⟩ := l (by rw [a]; simp)
      obtain ⟨hin', z', hz', hmz', hlz'⟩ := l' (by rw [a']; simp)
      rw [a, WithTop.coe_inj] at hz
      rw [a', WithTop.coe_inj] at hz'
      subst hz hz'
    · obtain ⟨b, hb, hle⟩ := key hx hy p hp z hmz
      exact (Real.sqrt_le_sqrt (hlz' p b ⟨hp, hin⟩ hb)).trans hle
    · obtain ⟨b, hb, hle⟩ := key hx.symm hy.symm p' (by rw [← hx.1, ← hy.1]; exact hp') z' hmz'
      exact (Real.sqrt_le_sqrt (hlz p' b ⟨hp', hin'⟩ hb)).trans hle

/-- `dtw_limited_warping_length`: `√L (ε + δ)` apart at most, `L` the budget (values are the squares). -/
theorem C99_limited (x y x' y' : List (List ℝ)) (d L : ℕ) (ε δ : ℝ) (hx : Wiggle d ε x x') (hy : Wiggle d δ y y')
    (hxn : x ≠ []) (hyn : y ≠ []) (hL : max x.length y.length ≤ L) :
    ∃ w w' : ℝ, dtwLimitedSq x y L = .ok (w : WithTop ℝ) ∧ dtwLimitedSq x' y' L = .ok (w' : WithTop ℝ) ∧
      |Real.sqrt w' - Real.sqrt w| ≤ Real.sqrt L * (ε + δ) := by
  have h0 : 0 ≤ ε + δ := add_nonneg (hx.nonneg hxn) (hy.nonneg hyn)
  have hl := List.length_pos_iff.2 hxn
  have hl2 := List.length_pos_iff.2 hyn
  have hxn' : x' ≠ [] := List.length_pos_iff.1 (hx.1 ▸ hl)
  have hyn' : y' ≠ [] := List.length_pos_iff.1 (hy.1 ▸ hl2)
  have nf : ∀ {z : List (List ℝ)}, z ≠ [] → (z.getD 0 []).length = d → nFeatures z = d := by
    intro z hz h
    cases z with
    | nil => exact absurd rfl hz
    | cons r z => simpa [nFeatures] using h
  have f1 := nf hxn (hx.2 0 hl).1
  have f2 := nf hyn (hy.2 0 hl2).1
  have f3 := nf hxn' (hx.2 0 hl).2.1
  have f4 := nf hyn' (hy.2 0 hl2).2.1
  obtain ⟨w, p, a1, a2, -, a3, a4, a5⟩ := C12_optimal x y hxn hyn (f1.trans f2.symm) L hL _ argmin3_isArgmin
  obtain ⟨w', p', b1, b2, -, b3, b4, b5⟩ := C12_optimal x' y' hxn' hyn' (f3.trans f4.symm) L
    (by rwa [← hx.1, ← hy.1]) _ argmin3_isArgmin
  refine ⟨w, w', a2, b2, abs_le.2 ⟨?_, ?_⟩⟩
  · have k := sqrt_sumCost_wiggle hx.symm hy.symm h0 (p := p') (fun c hc => b3.mem_lt c hc) L b4
    rw [b5] at k
    have := a1.2 ⟨p', by rw [hx.1, hy.1]; exact b3, b4, rfl⟩
    have := Real.sqrt_le_sqrt this
    linarith
  · have k := sqrt_sumCost_wiggle hx hy h0 (p := p) (fun c hc => a3.mem_lt c hc) L a4
    rw [a5] at k
    have := b1.2 ⟨p, by rw [← hx.1, ← hy.1]; exact a3, a4, rfl⟩
    have := Real.sqrt_le_sqrt this
    linarith

/-- `dtw_subsequence_path`: the best cost moves by `√(n + m - 1) (ε + δ)` at most (values are the squares). -/
theorem C99_subsequence (q x q' x' : List (List ℝ)) (d : ℕ) (ε δ : ℝ) (hq : Wiggle d ε q q') (hx : Wiggle d δ x x')
    (hqn : q ≠ []) (hxn : x ≠ []) (am) (ham : IsArgmin3 am) (aml) (haml : IsArgminL aml) :
    ∃ (p p' : List (ℕ × ℕ)) (w w' : ℝ), dtwSubsequencePath q x am aml = .ok (some p, (w : WithTop ℝ)) ∧
      dtwSubsequencePath q' x' am aml = .ok (some p', (w' : WithTop ℝ)) ∧
      |Real.sqrt w' - Real.sqrt w| ≤ Real.sqrt ((q.length + x.length - 1 : ℕ) : ℝ) * (ε + δ) := by
  have h0 : 0 ≤ ε + δ := add_nonneg (hq.nonneg hqn) (hx.nonneg hxn)
  have hl := List.length_pos_iff.2 hqn
  have hl2 := List.length_pos_iff.2 hxn
  have hqn' : q' ≠ [] := List.length_pos_iff.1 (hq.1 ▸ hl)
  have hxn' : x' ≠ [] := List.length_pos_iff.1 (hx.1 ▸ hl2)
  have nf : ∀ {z : List (List ℝ)}, z ≠ [] → (z.getD 0 []).length = d → nFeatures z = d := by
    intro z hz h
    cases z with
    | nil => exact absurd rfl hz
    | cons r z => simpa [nFeatures] using h
  have f1 := nf hqn (hq.2 0 hl).1
  have f2 := nf hxn (hx.2 0 hl2).1
  have f3 := nf hqn' (hq.2 0 hl).2.1
  have f4 := nf hxn' (hx.2 0 hl2).2.1
  obtain ⟨v, p, a, b, hab, hb, e, hp, hv, -, hmin⟩ := C13_optimal q x hqn hxn (f1.trans f2.symm) am ham aml haml
  obtain ⟨v', p', a', b', hab', hb', e', hp', hv', -, hmin'⟩ := C13_optimal q' x' hqn' hxn' (f3.trans f4.symm) am ham aml haml
  -- the best value is at most the cost of any path into any window
  have le : ∀ {q x : List (List ℝ)} {v : WithTop ℝ}, q ≠ [] → ∀ {a b}, a ≤ b → b < x.length →
      (∀ a' b', a' ≤ b' → b' < x.length → ∀ v', dtwSqGeneric q (window x a' b') 0 none none = .ok v' → v ≤ v') →
      ∀ p, IsWarpingPath q.length (window x a b).length p →
        v ≤ ((sumCost (sampleCost q (window x a b)) p : ℝ) : WithTop ℝ) := by
    intro q x v hqn a b hab hb hmin p hp
    have hw : window x a b ≠ [] := List.length_pos_iff.1 (by rw [window_length x a b hab hb]; omega)
    obtain ⟨u, h1, h2, h3⟩ := C01_dtw_squared q (window x a b) hqn hw 0 none none (Mat.full true) (by simp [computeMask])
    refine (hmin a b hab hb u h1).trans ?_
    have hadm : Admissible q.length (window x a b).length (Mat.full true) p := ⟨hp, fun _ _ => rfl⟩
    cases hu : u with
    | top => exact absurd ⟨p, hadm⟩ (h2.1 hu)
    | coe z => exact WithTop.coe_le_coe.2 (((h3 z).1 hu).2 ⟨p, hadm, rfl⟩)
  subst hv hv'
  refine ⟨_, _, _, _, e, e', abs_le.2 ⟨?_, ?_⟩⟩
  · have hw' : Wiggle d δ (window x' a' b') (window x a' b') := hx.symm.drop_take a' (b' + 1 - a')
    have hlen := window_length x' a' b' hab' hb'
    have hlen2 := window_length x a' b' hab' (by rw [hx.1]; exact hb')
    have lp := hp'.length_le
    have k := sqrt_sumCost_wiggle hq.symm hw' h0 (p := p') (fun c hc => hp'.mem_lt c hc) (q.length + x.length - 1)
      (by rw [hq.1, hx.1]; omega)
    have := le hqn hab' (by rw [hx.1]; exact hb') hmin p' (by rw [hq.1, hlen2, ← hlen]; exact hp')
    have := Real.sqrt_le_sqrt (WithTop.coe_le_coe.1 this)
    linarith
  · have hw' : Wiggle d δ (window x a b) (window x' a b) := hx.drop_take a (b + 1 - a)
    have hlen := window_length x a b hab hb
    have hlen2 := window_length x' a b hab (by rw [← hx.1]; exact hb)
    have lp := hp.length_le
    have k := sqrt_sumCost_wiggle hq hw' h0 (p := p) (fun c hc => hp.mem_lt c hc) (q.length + x.length - 1) (by omega)
    have := le hqn' hab (by rw [← hx.1]; exact hb) hmin' p (by rw [← hq.1, hlen2, ← hlen]; exact hp)
    have := Real.sqrt_le_sqrt (WithTop.coe_le_coe.1 this)
    linarith

/-- `lcss` counts at least as many matches once the threshold grows by the change of the samples. -/
theorem C99_lcss (s1 s2 s1' s2' : TsInput (Option ℝ)) (eps : ℝ) (x y x' y' : List (List ℝ)) (mask mask' : Mat Bool) (d : ℕ)
    (ε δ : ℝ) (h : lcssArgs s1 s2 none none none = .ok (x, y, mask)) (h' : lcssArgs s1' s2' none none none = .ok (x', y', mask'))
    (hx : Wiggle d ε x x') (hy : Wiggle d δ y y') :
    ∃ a b : ℝ, lcss s1 s2 eps none none none = .ok a ∧ lcss s1' s2' (eps + (ε + δ)) none none none = .ok b ∧ a ≤ b := by
  obtain ⟨k, hk, e⟩ := C15_value s1 s2 eps x y mask h
  obtain ⟨k', hk', e'⟩ := C15_value s1' s2' (eps + (ε + δ)) x' y' mask' h'
  refine ⟨_, _, e, e', ?_⟩
  rw [← hx.1, ← hy.1] at *
  obtain ⟨p, hp, rfl⟩ := hk.1
  have : p.length ≤ k' := hk'.2 ⟨p, ⟨hp.incr, hp.inside, fun c hc => ?_⟩, rfl⟩
  · gcongr
  · obtain ⟨a, b⟩ := hp.inside c hc
    have c' := hp.hits c hc
    have := hx.cost hy a b
    unfold Close at c' ⊢
    linarith

/-- The same in a Sakoe-Chiba band that is not a bare diagonal. -/
theorem C99_lcss_band (s1 s2 s1' s2' : TsInput (Option ℝ)) (eps : ℝ) (x y x' y' : List (List ℝ)) (mask mask' : Mat Bool) (d : ℕ)
    (ε δ : ℝ) (g : Option String) (r : ℕ) (hg : g = none ∨ g = some "sakoe_chiba")
    (h : lcssArgs s1 s2 g (some r) none = .ok (x, y, mask)) (h' : lcssArgs s1' s2' g (some r) none = .ok (x', y', mask'))
    (hr : 1 ≤ r ∨ x.length ≠ y.length) (hx : Wiggle d ε x x') (hy : Wiggle d δ y y') :
    ∃ a b : ℝ, lcss s1 s2 eps g (some r) none = .ok a ∧ lcss s1' s2' (eps + (ε + δ)) g (some r) none = .ok b ∧ a ≤ b := by
  obtain ⟨k, hk, e⟩ := C15_band_value s1 s2 eps x y mask g r hg h hr
  obtain ⟨k', hk', e'⟩ := C15_band_value s1' s2' (eps + (ε + δ)) x' y' mask' g r hg h' (by rwa [← hx.1, ← hy.1])
  refine ⟨_, _, e, e', ?_⟩
  rw [← hx.1, ← hy.1] at *
  obtain ⟨p, hp, rfl⟩ := hk.1
  have : p.length ≤ k' := hk'.2 ⟨p, ⟨hp.incr, hp.inside, fun c hc => ?_⟩, rfl⟩
  · gcongr
  · obtain ⟨a, b⟩ := hp.inside c hc
    obtain ⟨c1, c'⟩ := hp.hits c hc
    refine ⟨c1, ?_⟩
    have := hx.cost hy a b
    unfold Close at c' ⊢
    linarith

/-- Distance to the interval `[l, u]`. -/
def offBy (q l u : ℝ) : ℝ := max (max (q - u) (l - q)) 0

theorem gap_eq_offBy {q l u : ℝ} (h : l ≤ u) : gap q l u = offBy q l u ^ 2 := by
  unfold gap offBy
  split_ifs with h1 h2 h2
  · linarith
  · rw [max_eq_left (a := q - u) (by linarith), max_eq_left (by linarith)]; ring
  · rw [max_eq_right (a := q - u) (by linarith), max_eq_left (by linarith)]; ring
  · rw [max_eq_right (max_le (by linarith) (by linarith))]; ring

/-- `lb_keogh`: `√n (ε + δ)` apart at most. -/
theorem C99_keogh (q c q' c' : List ℝ) (r : ℕ) (ε δ : ℝ) (hl : q.length = c.length) (hq : q.length = q'.length)
    (hc : c.length = c'.length) (hqc : ∀ i < q.length, |q'.getD i 0 - q.getD i 0| ≤ ε)
    (hcc : ∀ i < c.length, |c'.getD i 0 - c.getD i 0| ≤ δ) (hn : q ≠ []) :
    ∃ v v' : ℝ, lbKeogh q c r = .ok v ∧ lbKeogh q' c' r = .ok v' ∧
      |v' - v| ≤ Real.sqrt q.length * (ε + δ) := by
  have key : ∀ (q c q' c' : List ℝ), q.length = c.length → q.length = q'.length → c.length = c'.length →
      (∀ i < q.length, |q'.getD i 0 - q.getD i 0| ≤ ε) → (∀ i < c.length, |c'.getD i 0 - c.getD i 0| ≤ δ) → q ≠ [] →
      ∃ v v' : ℝ, lbKeogh q c r = .ok v ∧ lbKeogh q' c' r = .ok v' ∧ v' ≤ v + Real.sqrt q.length * (ε + δ) := by
    intro q c q' c' hl hq hc hqc hcc hn
    have hpos := List.length_pos_iff.2 hn
    have h0 : 0 ≤ ε + δ := add_nonneg ((abs_nonneg _).trans (hqc 0 hpos)) ((abs_nonneg _).trans (hcc 0 (hl ▸ hpos)))
    obtain ⟨lo, up, e, l1, l2, l3⟩ := lbEnvelope_spec c r
    obtain ⟨lo', up', e', l1', l2', l3'⟩ := lbEnvelope_spec c' r
    refine ⟨Real.sqrt (keoghSq q lo up), Real.sqrt (keoghSq q' lo' up'), ?_, ?_, ?_⟩
    · simp [lbKeogh, lbKeoghSq, e, l1, hl, bind, Except.bind, pure, Except.pure]
    · simp [lbKeogh, lbKeoghSq, e', l1', ← hc, ← hq, hl, bind, Except.bind, pure, Except.pure]
    · rw [keoghSq_eq q lo up q.length rfl (by omega) (by omega), keoghSq_eq q' lo' up' q.length (by omega) (by omega) (by omega)]
      have hs : ∀ (q lo up c : List ℝ) (n : ℕ), n = c.length → (∀ i < c.length, ∃ l u, lo[i]? = some l ∧ up[i]? = some u ∧
          IsLeast (Near c r i) l ∧ IsGreatest (Near c r i) u) →
          ((List.range n).map fun i => gap (q.getD i 0) (lo.getD i 0) (up.getD i 0)) =
            (List.range n).map fun i => offBy (q.getD i 0) (lo.getD i 0) (up.getD i 0) ^ 2 := by
        intro q lo up c n hn h
        apply List.map_congr_left
        intro i hi
        obtain ⟨l, u, h1, h2, h3, h4⟩ := h i (by rw [← hn]; simpa using hi)
        apply gap_eq_offBy
        rw [List.getD_eq_getElem?_getD, List.getD_eq_getElem?_getD, h1, h2]
        exact h4.2 h3.1
      rw [hs q lo up c _ hl l3, hs q' lo' up' c' _ (by omega) l3']
      have := sqrt_sum_sq_le (List.range q.length) (fun i => offBy (q.getD i 0) (lo.getD i 0) (up.getD i 0))
        (fun i => offBy (q'.getD i 0) (lo'.getD i 0) (up'.getD i 0)) (ε + δ) h0 (fun i hi => ⟨le_max_right _ _, ?_⟩)
      · simpa using this
      · have hi : i < q.length := by simpa using hi
        obtain ⟨l, u, h1, h2, h3, h4⟩ := l3 i (by omega)
        obtain ⟨l', u', h1', h2', h3', h4'⟩ := l3' i (by omega)
        -- every value near `i` in one candidate has one within `δ` in the other
        have near : ∀ z ∈ Near c r i, ∃ z' ∈ Near c' r i, |z' - z| ≤ δ := by
          rintro z ⟨j, hj, b1, b2⟩
          obtain ⟨hjl, hjz⟩ := List.getElem?_eq_some_iff.1 hj
          refine ⟨c'.getD j 0, ⟨j, ?_, b1, b2⟩, ?_⟩
          · rw [List.getD_eq_getElem _ _ (by omega), List.getElem?_eq_getElem]
          · have := hcc j hjl
            rwa [List.getD_eq_getElem _ _ hjl, hjz] at this
        obtain ⟨zl, hzl, dl⟩ := near l h3.1
        obtain ⟨zu, hzu, du⟩ := near u h4.1
        have k1 : l' ≤ l + δ := (h3'.2 hzl).trans (by have := (abs_le.1 dl).2; linarith)
        have k2 : u ≤ u' + δ := by have := h4'.2 hzu; have := (abs_le.1 du).1; linarith
        have kq := abs_le.1 (hqc i hi)
        simp only [List.getD_eq_getElem?_getD (l := lo), List.getD_eq_getElem?_getD (l := up),
          List.getD_eq_getElem?_getD (l := lo'), List.getD_eq_getElem?_getD (l := up'), h1, h2, h1', h2', Option.getD_some]
        unfold offBy
        refine max_le (max_le ?_ ?_) ?_
        · have := (le_max_left (q.getD i 0 - u) (l - q.getD i 0)).trans (le_max_left _ 0)
          linarith
        · have := (le_max_right (q.getD i 0 - u) (l - q.getD i 0)).trans (le_max_left _ 0)
          linarith
        · have := le_max_right (max (q.getD i 0 - u) (l - q.getD i 0)) 0
          linarith
  obtain ⟨v, v', e, e', h⟩ := key q c q' c' hl hq hc hqc hcc hn
  obtain ⟨w', w, f', f, h'⟩ := key q' c' q c (by omega) hq.symm hc.symm
    (fun i hi => by rw [abs_sub_comm]; exact hqc i (by omega)) (fun i hi => by rw [abs_sub_comm]; exact hcc i (by omega))
    (List.length_pos_iff.1 (hq ▸ List.length_pos_iff.2 hn))
  rw [e] at f; rw [e'] at f'
  cases f; cases f'
  rw [← hq] at h'
  exact ⟨v, v', e, e', abs_le.2 ⟨by linarith, by linarith⟩⟩

/-- `soft_dtw`: if no cost moves by more than `η`, the value moves by `(n + m - 1) η` at most, whatever `γ`. -/
theorem C99_softdtw (be : Backend) (s1 s2 s1' s2' : TsInput (Option ℝ)) (γ : ℝ) (hγ : 0 < γ) (g : Option String)
    (radius : Option ℕ) (slope : Option ℚ) (hs : ∀ s, slope = some s → 1 ≤ s) (x y x' y' : List (List ℝ)) (code : ℕ)
    (hv : validatePair s1 s2 g = .ok (x, y, code)) (hv' : validatePair s1' s2' g = .ok (x', y', code))
    (hx : x.length = x'.length) (hy : y.length = y'.length) (η : ℝ)
    (hη : ∀ i < x.length, ∀ j < y.length, |sampleCost x' y' i j - sampleCost x y i j| ≤ η) (v : Fl)
    (h : softDtw be s1 s2 γ g radius slope = .ok v) :
    ∃ w w' : ℝ, v = .num w ∧ softDtw be s1' s2' γ g radius slope = .ok (.num w') ∧
      |w' - w| ≤ ((x.length + y.length - 1 : ℕ) : ℝ) * η := by
  obtain ⟨-, -, -, hxn, hyn, -⟩ := validatePair_ok hv
  have hx0 := List.length_pos_iff.2 hxn
  have hy0 := List.length_pos_iff.2 hyn
  have hη0 : 0 ≤ η := (abs_nonneg _).trans (hη 0 hx0 0 hy0)
  cases hm : computeMask x.length y.length code radius slope with
  | error e => simp [softDtw, hv, softDtwGeneric, hm, bind, Except.bind, hγ.ne'] at h
  | ok mask =>
    obtain ⟨S, hS⟩ := C17_paths_finite x.length y.length hx0 hy0 mask
    have e := C17_soft_dtw be s1 s2 γ hγ g radius slope hs x y code mask hv hm S hS
    have hm' := hm
    have hS' := hS
    rw [hx, hy] at hm' hS'
    have e' := C17_soft_dtw be s1' s2' γ hγ g radius slope hs x' y' code mask hv' hm' S hS'
    rw [h] at e
    cases e
    refine ⟨_, _, rfl, e', ?_⟩
    obtain ⟨-, p0, hp0⟩ := computeMask_reachable hx0 hy0 hs hm
    have hp0 : p0 ∈ S := (hS p0).2 hp0
    set L : ℝ := ((x.length + y.length - 1 : ℕ) : ℝ) * η
    -- costs of paths
    have cost : ∀ p ∈ S, |sumCost (sampleCost x' y') p - sumCost (sampleCost x y) p| ≤ L := by
      intro p hp
      have hp := ((hS p).1 hp).1
      have gen : ∀ q : List (ℕ × ℕ), (∀ c ∈ q, c.1 < x.length ∧ c.2 < y.length) →
          |sumCost (sampleCost x' y') q - sumCost (sampleCost x y) q| ≤ q.length * η := by
        intro q
        induction q with
        | nil => intro _; simp [sumCost]
        | cons c q ih =>
          intro hq
          have i1 := ih fun c hc => hq c (List.mem_cons_of_mem _ hc)
          have i2 := hη c.1 (hq c List.mem_cons_self).1 c.2 (hq c List.mem_cons_self).2
          simp only [sumCost, List.map_cons, List.sum_cons, List.length_cons] at i1 ⊢
          have := abs_add_le (sampleCost x' y' c.1 c.2 - sampleCost x y c.1 c.2)
            ((q.map fun c => sampleCost x' y' c.1 c.2).sum - (q.map fun c => sampleCost x y c.1 c.2).sum)
          push_cast
          rw [add_sub_add_comm]
          linarith
      refine (gen p fun c hc => hp.mem_lt c hc).trans (mul_le_mul_of_nonneg_right ?_ hη0)
      exact_mod_cast hp.length_le
    -- one direction
    have dir : ∀ D D' : ℕ → ℕ → ℝ, (∀ p ∈ S, sumCost D' p ≤ sumCost D p + L) →
        -γ * Real.log (∑ p ∈ S, Real.exp (-sumCost D' p / γ)) ≤ -γ * Real.log (∑ p ∈ S, Real.exp (-sumCost D p / γ)) + L := by
      intro D D' hle
      have pos : ∀ D : ℕ → ℕ → ℝ, 0 < ∑ p ∈ S, Real.exp (-sumCost D p / γ) :=
        fun D => Finset.sum_pos (fun _ _ => Real.exp_pos _) ⟨p0, hp0⟩
      have : (∑ p ∈ S, Real.exp (-sumCost D p / γ)) * Real.exp (-L / γ) ≤ ∑ p ∈ S, Real.exp (-sumCost D' p / γ) := by
        rw [Finset.sum_mul]
        refine Finset.sum_le_sum fun p hp => ?_
        rw [← Real.exp_add, Real.exp_le_exp, ← add_div]
        exact (div_le_div_iff_of_pos_right hγ).2 (by linarith [hle p hp])
      have := Real.log_le_log (mul_pos (pos D) (Real.exp_pos _)) this
      rw [Real.log_mul (pos D).ne' (Real.exp_pos _).ne', Real.log_exp] at this
      have := mul_le_mul_of_nonneg_left this hγ.le
      rw [mul_add, mul_div_cancel₀ _ hγ.ne'] at this
      linarith
    have d1 := dir (sampleCost x y) (sampleCost x' y') fun p hp => by linarith [(abs_le.1 (cost p hp)).2]
    have d2 := dir (sampleCost x' y') (sampleCost x y) fun p hp => by linarith [(abs_le.1 (cost p hp)).1]
    exact abs_le.2 ⟨by linarith, by linarith⟩

theorem wiggle_single (a b ε : ℝ) (h : |b - a| ≤ ε) : Wiggle 1 ε [[a]] [[b]] := by
  refine ⟨rfl, fun i hi => ?_⟩
  obtain rfl : i = 0 := by simpa using hi
  refine ⟨rfl, rfl, ?_⟩
  simp only [sqEuclid, List.getD_cons_zero, List.zip_cons_cons, List.zip_nil_right, List.map_cons, List.map_nil, List.sum_cons,
    List.sum_nil, add_zero, Real.sqrt_sq_eq_abs]
  rwa [abs_sub_comm]

/-- At a fixed threshold `lcss` jumps from 1 to 0, however small the change. -/
theorem C99_false_lcss (δ : ℝ) (hδ : 0 < δ) :
    Wiggle 1 δ [[1]] [[1 + δ]] ∧
    lcss (.oneD [some 0]) (.oneD [some 1]) 1 none none none = .ok 1 ∧
    lcss (.oneD [some 0]) (.oneD [some (1 + δ)]) 1 none none none = .ok 0 := by
  have hargs : ∀ a : ℝ, lcssArgs (.oneD [some (0 : ℝ)]) (.oneD [some a]) none none none = .ok ([[0]], [[a]], Mat.full true) := by
    intro a
    simp [lcssArgs, toTimeSeries, tsSize, tsSizeLoop, denan, gcCode, computeMask, nFeatures, bind, Except.bind,
      pure, Except.pure]
  have hcost : ∀ a : ℝ, Close [[0]] [[a]] 1 0 0 ↔ |a| ≤ 1 := by
    intro a
    simp [Close, sampleCost, sqEuclid, Real.sqrt_sq_eq_abs]
  refine ⟨wiggle_single _ _ _ (by simp [abs_of_pos hδ]), ?_, ?_⟩
  · obtain ⟨k, hk, e⟩ := C15_value _ _ 1 _ _ _ (hargs 1)
    obtain ⟨p, hp, hpk⟩ := hk.1
    have h1 : 1 ≤ k := hk.2 ⟨[(0, 0)], ⟨by simp, by simp, by simpa using (hcost 1).2 (by simp)⟩, rfl⟩
    have h2 : k ≤ 1 := by
      rw [← hpk]
      rcases p with _ | ⟨c, _ | ⟨c', p⟩⟩
      · simp
      · simp
      · have := (List.pairwise_cons.1 hp.incr).1 c' (by simp)
        have := hp.inside c' (by simp)
        simp at this
        omega
    obtain rfl : k = 1 := le_antisymm h2 h1
    simpa using e
  · obtain ⟨k, hk, e⟩ := C15_value _ _ 1 _ _ _ (hargs (1 + δ))
    obtain ⟨p, hp, hpk⟩ := hk.1
    have h2 : p = [] := by
      rcases p with _ | ⟨c, p⟩
      · rfl
      · have h1 := hp.inside c (by simp)
        simp at h1
        have h3 := hp.hits c (by simp)
        rw [h1.1, h1.2, hcost, abs_of_pos (by linarith)] at h3
        linarith
    subst h2
    simp at hpk
    subst hpk
    simpa using e

theorem formatted_two (a b : ℝ) : Formatted (⟨2, 1, [[[some a], [some b]]]⟩ : Arr3 ℝ) := by
  refine ⟨?_, fun h => by simp at h, .inr ⟨_, List.mem_cons_self, .inr ⟨_, rfl, _, List.mem_cons_self, rfl⟩, ?_⟩⟩
  · intro s hs
    fin_cases hs
    exact ⟨rfl, by intro r hr; fin_cases hr <;> rfl⟩
  · rintro i hi ⟨r, hr, -⟩
    have := (List.getElem?_eq_some_iff.1 hr).1
    simp at this hi
    omega

/-- Scaling to mean 0 and deviation 1 sends a constant series to 0 and any other series of two samples to -1 and 1. -/
theorem C99_false_scaler (δ : ℝ) (hδ : 0 < δ) :
    Wiggle 1 δ [[0], [0]] [[0], [δ]] ∧
    ∃ Y Y', meanVarTransform ⟨0, 1, true, true⟩ ⟨2, 1, [[[some 0], [some 0]]]⟩ ⟨2, 1, [[[some 0], [some 0]]]⟩ = .ok Y ∧
      meanVarTransform ⟨0, 1, true, true⟩ ⟨2, 1, [[[some 0], [some δ]]]⟩ ⟨2, 1, [[[some 0], [some δ]]]⟩ = .ok Y' ∧
      Y.entry 0 0 0 = some 0 ∧ Y.entry 0 1 0 = some 0 ∧ Y'.entry 0 0 0 = some (-1) ∧ Y'.entry 0 1 0 = some 1 := by
  have sums : ∀ (a b : ℝ) (h : ℝ → ℝ), obsSum (⟨2, 1, [[[some a], [some b]]]⟩ : Arr3 ℝ) true true 0 0 h = h a + h b := by
    intro a b h; simp [obsSum, Finset.sum_range_succ, Arr3.entry]
  obtain ⟨Y, hY, -, -, -, -, ha⟩ := C29_affine ⟨0, 1, true, true⟩ _ _ (formatted_two 0 0) (formatted_two 0 0) (by simp) (by simp) rfl
  obtain ⟨Y', hY', -, -, -, -, ha'⟩ := C29_affine ⟨0, 1, true, true⟩ _ _ (formatted_two 0 δ) (formatted_two 0 δ) (by simp) (by simp) rfl
  have k := ha 0 (by simp) 0 (by simp) 0 0 (by simp only [if_true]; exact ⟨by rw [sums]; norm_num, by rw [sums, sums]; simp⟩)
    (by simp only [if_true]; exact ⟨le_rfl, by rw [sums, sums]; simp⟩)
  have k' := ha' 0 (by simp) 0 (by simp) (δ / 2) (δ / 2)
    (by simp only [if_true]; exact ⟨by rw [sums]; norm_num, by rw [sums, sums]; simp only [id]; ring⟩)
    (by simp only [if_true]; exact ⟨by linarith, by rw [sums, sums]; ring⟩)
  have e0 : (⟨2, 1, [[[some 0], [some δ]]]⟩ : Arr3 ℝ).entry 0 0 0 = some 0 := rfl
  have e1 : (⟨2, 1, [[[some 0], [some δ]]]⟩ : Arr3 ℝ).entry 0 1 0 = some δ := rfl
  have z0 : (⟨2, 1, [[[some 0], [some 0]]]⟩ : Arr3 ℝ).entry 0 0 0 = some 0 := rfl
  have z1 : (⟨2, 1, [[[some 0], [some 0]]]⟩ : Arr3 ℝ).entry 0 1 0 = some 0 := rfl
  have hne : δ / 2 ≠ 0 := by positivity
  refine ⟨⟨rfl, fun i hi => ?_⟩, Y, Y', hY, hY', ?_, ?_, ?_, ?_⟩
  · have : i = 0 ∨ i = 1 := by simp at hi; omega
    rcases this with rfl | rfl <;> simp [sqEuclid, hδ.le]
  · rw [k 0 (by simp), z0]; simp
  · rw [k 1 (by simp), z1]; simp
  · rw [k' 0 (by simp), e0, if_neg hne]
    simp only [Option.map_some, Option.some.injEq]
    field_simp
    ring
  · rw [k' 1 (by simp), e1, if_neg hne]
    simp only [Option.map_some, Option.some.injEq]
    field_simp
    ring

/-- Two means as close as one likes have different symbols. -/
theorem C99_false_symbol (δ : ℝ) (hδ : 0 < δ) :
    paaToSymbols [0] (⟨1, 1, [[[some (-δ)]]]⟩ : Arr3 ℝ) = [[[0]]] ∧ paaToSymbols [0] (⟨1, 1, [[[some δ]]]⟩ : Arr3 ℝ) = [[[1]]] := by
  constructor <;> simp [paaToSymbols, paaToSymbol, symStep, ltOpt, hδ, not_lt.2 hδ.le]

/-! Concrete cases of the hypotheses above. -/

/-- Two series of two features that are 5 apart at one time and equal at the other. -/
example : Wiggle 2 5 [[0, 0], [1, 1]] [[3, 4], [1, 1]] := by
  refine ⟨rfl, fun i hi => ?_⟩
  have : i = 0 ∨ i = 1 := by simp at hi; omega
  rcases this with rfl | rfl
  · refine ⟨rfl, rfl, ?_⟩
    simp only [sqEuclid, List.getD_cons_zero, List.zip_cons_cons, List.zip_nil_right, List.map_cons, List.map_nil, List.sum_cons,
      List.sum_nil]
    rw [Real.sqrt_le_left (by norm_num)]
    norm_num
  · refine ⟨rfl, rfl, ?_⟩
    simp [sqEuclid]

/-- The bound for DTW is met: series of one sample, moved apart. -/
example : ∃ v', dtw (.oneD [some 0]) (.oneD [some 3]) none none none = .ok v' ∧
    ∃ v : WithTop ℝ, dtw (.oneD [some 0]) (.oneD [some 1]) none none none = .ok v ∧
      WithinTop (Real.sqrt ((1 + 1 - 1 : ℕ) : ℝ) * (0 + 2)) v v' := by
  have hv : ∀ a : ℝ, validatePair (.oneD [some (0 : ℝ)]) (.oneD [some a]) none = .ok ([[0]], [[a]], 0) := by
    intro a
    simp [validatePair, toTimeSeries, tsSize, tsSizeLoop, denan, gcCode, nFeatures, bind, Except.bind, pure, Except.pure]
  obtain ⟨v, h, -⟩ := C01_dtw _ _ none none none _ _ 0 _ (hv 1) (by simp [computeMask]; rfl)
  obtain ⟨v', h', w⟩ := C99_dtw _ _ _ _ none none none _ _ _ _ 0 1 0 2 (hv 1) (hv 3)
    (wiggle_single 0 0 0 (by simp)) (wiggle_single 1 3 2 (by norm_num)) v h
  exact ⟨v', h', v, h, w⟩

/-- Queries and candidates of two samples for `lb_keogh`. -/
example : ∃ v v' : ℝ, lbKeogh [0, 5] [1, 2] 1 = .ok v ∧ lbKeogh [0, 6] [1, 2] 1 = .ok v' ∧
    |v' - v| ≤ Real.sqrt (([0, 5] : List ℝ).length : ℝ) * (1 + 0) :=
  C99_keogh [0, 5] [1, 2] [0, 6] [1, 2] 1 1 0 rfl rfl rfl (by
    intro i hi
    have : i = 0 ∨ i = 1 := by simp at hi; omega
    rcases this with rfl | rfl <;> norm_num) (by
    intro i hi
    have : i = 0 ∨ i = 1 := by simp at hi; omega
    rcases this with rfl | rfl <;> norm_num) (by simp)

end Verif
