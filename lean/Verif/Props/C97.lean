import Verif.Proofs.Weights
import Verif.Props.C36
import Verif.Props.C60
import Verif.Props.C61
import Verif.Props.C31
import Verif.Props.C26
import Mathlib.Tactic.NormNum
/-!
# C97 — weights of barycenters are multiplicities
-/
set_option linter.unusedSectionVars false
namespace Verif
open Spec
section field
variable {K : Type} [Field K] [LinearOrder K] [IsStrictOrderedRing K]

/-- What the barycenter functions need: series with samples of `d` features that have alignments with a barycenter of
`n` samples under the constraints. -/
structure WeightedOk (cfg : DbaCfg K) (n d : ℕ) (z : List (List (List K) × K)) : Prop where
  some_series : z ≠ []
  features : ∀ p ∈ z, ∀ r ∈ p.1, r.length = d
  samples : ∀ p ∈ z, p.1 ≠ []
  mask : ∀ p ∈ z, ∃ mask, computeMask n p.1.length cfg.gc.toCode cfg.radius cfg.slope = .ok mask

/-- DBA from a given initial barycenter sees only how much weight each series has in total, up to a common factor. -/
theorem C97_dba (cfg : DbaCfg K) (ham : IsArgmin3 cfg.am) (hsl : ∀ s, cfg.slope = some s → 1 ≤ s) (n d : ℕ) (hn : 0 < n)
    (hd : 0 < d) (z z' : List (List (List K) × K)) (hz : WeightedOk cfg n d z) (hz' : WeightedOk cfg n d z') (c : K) (hc : c ≠ 0)
    (h : ∀ x, totalWeight z' x = c * totalWeight z x) (b : List (List K)) (hb : Rect n d b) (size : Option ℕ) (maxIter nInit : ℕ) :
    dbaOneInit cfg (dsOf d (z'.map Prod.fst)) size (some b) maxIter (some (z'.map Prod.snd)) =
      dbaOneInit cfg (dsOf d (z.map Prod.fst)) size (some b) maxIter (some (z.map Prod.snd)) ∧
    dba cfg (dsOf d (z'.map Prod.fst)) size (some b) maxIter (some (z'.map Prod.snd)) nInit =
      dba cfg (dsOf d (z.map Prod.fst)) size (some b) maxIter (some (z.map Prod.snd)) nInit := by
  have key : ∀ y : List (List (List K) × K), WeightedOk cfg n d y →
      dbaOneInit cfg (dsOf d (y.map Prod.fst)) size (some b) maxIter (some (y.map Prod.snd)) = (do
        let (b', hist, _) ← dbaLoop cfg (y.map Prod.fst) (y.map Prod.snd) n d maxIter b
        return (b', hist.getLastD ⊤)) := by
    intro y hy
    have hx : ∀ x ∈ y.map Prod.fst, ∀ r ∈ x, r.length = d := by
      intro x hx
      obtain ⟨p, hp, rfl⟩ := List.mem_map.1 hx
      exact hy.features p hp
    have h1 := dsOf_dataset hd (by simpa using hy.some_series) hx
    have h4 := dsOf_series hd (maxLen (y.map Prod.fst)) (maxLen (y.map Prod.fst)) d hx
    have hany : (b.any fun r => decide (r.length ≠ d)) = false := by
      rw [List.any_eq_false]
      intro r hr
      simp [hb.2 r hr]
    unfold dbaOneInit
    simp only [h1, h4, dbaInit, bind, Except.bind, List.length_map, hb.1, hany]
    simp [setWeights]
  have hone : dbaOneInit cfg (dsOf d (z'.map Prod.fst)) size (some b) maxIter (some (z'.map Prod.snd)) =
      dbaOneInit cfg (dsOf d (z.map Prod.fst)) size (some b) maxIter (some (z.map Prod.snd)) := by
    rw [key z hz, key z' hz']
    have : dbaLoop cfg (z'.map Prod.fst) (z'.map Prod.snd) n d maxIter b = dbaLoop cfg (z.map Prod.fst) (z.map Prod.snd) n d maxIter b := by
      unfold dbaLoop
      refine dbaLoopWith_congr cfg.tol (size := n) (fun b hb => ?_) (fun b c b' h => mmRound_shape h) _ _ _ _ hb.1
      refine mmRound_weights cfg hc h n d b fun p hp => ?_
      have hb0 : b ≠ [] := List.length_pos_iff.1 (by omega)
      rcases List.mem_append.1 hp with hp | hp
      · obtain ⟨mask, hm⟩ := hz.mask p hp
        exact dbaPath_finite cfg ham hsl hb0 (hz.samples p hp) (by rw [hb]; exact hm)
      · obtain ⟨mask, hm⟩ := hz'.mask p hp
        exact dbaPath_finite cfg ham hsl hb0 (hz'.samples p hp) (by rw [hb]; exact hm)
    rw [this]
  refine ⟨hone, ?_⟩
  unfold dba
  rw [hone]

/-- A positive whole weight is a number of copies. -/
theorem totalWeight_copies (m : List (List (List K) × ℕ)) (x : List (List K)) :
    totalWeight (m.flatMap fun p => List.replicate p.2 (p.1, (1 : K))) x = totalWeight (m.map fun p => (p.1, (p.2 : K))) x := by
  induction m with
  | nil => rfl
  | cons p m ih =>
    rw [List.flatMap_cons, List.map_cons, totalWeight_cons, ← ih]
    unfold totalWeight
    rw [List.filter_append, List.map_append, List.sum_append]
    congr 1
    by_cases hx : p.1 = x <;> simp [hx, List.filter_replicate]

/-- Unweighted DBA over repeated series is weighted DBA over single ones. -/
theorem C97_dba_copies (cfg : DbaCfg K) (ham : IsArgmin3 cfg.am) (hsl : ∀ s, cfg.slope = some s → 1 ≤ s) (n d : ℕ) (hn : 0 < n)
    (hd : 0 < d) (m : List (List (List K) × ℕ)) (hm : ∃ p ∈ m, 0 < p.2)
    (hok : WeightedOk cfg n d (m.map fun p => (p.1, (p.2 : K)))) (b : List (List K)) (hb : Rect n d b) (size : Option ℕ) (maxIter nInit : ℕ) :
    dba cfg (dsOf d (m.flatMap fun p => List.replicate p.2 p.1)) size (some b) maxIter none nInit =
      dba cfg (dsOf d (m.map Prod.fst)) size (some b) maxIter (some (m.map fun p => (p.2 : K))) nInit := by
  have e1 : (m.flatMap fun p => List.replicate p.2 (p.1, (1 : K))).map Prod.fst = m.flatMap fun p => List.replicate p.2 p.1 := by
    simp [List.map_flatMap, Function.comp_def]
  have e2 : (m.flatMap fun p => List.replicate p.2 (p.1, (1 : K))).map Prod.snd =
      List.replicate (m.flatMap fun p => List.replicate p.2 p.1).length 1 := by
    rw [List.eq_replicate_iff]
    refine ⟨by rw [← e1]; simp, fun a ha => ?_⟩
    simp only [List.mem_map, List.mem_flatMap, List.mem_replicate] at ha
    obtain ⟨q, ⟨p, -, -, rfl⟩, rfl⟩ := ha
    rfl
  have hmem : ∀ q ∈ (m.flatMap fun p => List.replicate p.2 (p.1, (1 : K))), ∃ p ∈ m.map (fun p => (p.1, (p.2 : K))), p.1 = q.1 := by
    intro q hq
    simp only [List.mem_flatMap, List.mem_replicate] at hq
    obtain ⟨p, hp, -, rfl⟩ := hq
    exact ⟨_, List.mem_map_of_mem hp, rfl⟩
  have hok' : WeightedOk cfg n d (m.flatMap fun p => List.replicate p.2 (p.1, (1 : K))) := by
    refine ⟨?_, ?_, ?_, ?_⟩
    · obtain ⟨p, hp, h0⟩ := hm
      refine List.ne_nil_of_mem (a := (p.1, (1 : K))) ?_
      exact List.mem_flatMap.2 ⟨p, hp, List.mem_replicate.2 ⟨by omega, rfl⟩⟩
    · intro q hq
      obtain ⟨p, hp, e⟩ := hmem q hq
      rw [← e]; exact hok.features p hp
    · intro q hq
      obtain ⟨p, hp, e⟩ := hmem q hq
      rw [← e]; exact hok.samples p hp
    · intro q hq
      obtain ⟨p, hp, e⟩ := hmem q hq
      rw [← e]; exact hok.mask p hp
  have := (C97_dba cfg ham hsl n d hn hd _ _ hok hok' 1 one_ne_zero (fun x => by rw [one_mul]; exact totalWeight_copies m x) b hb size
    maxIter nInit).2
  rw [e1, e2] at this
  have e3 : (m.map fun p => (p.1, (p.2 : K))).map Prod.fst = m.map Prod.fst := by simp [Function.comp_def]
  have e4 : (m.map fun p => (p.1, (p.2 : K))).map Prod.snd = m.map fun p => (p.2 : K) := by simp [Function.comp_def]
  rw [e3, e4] at this
  rw [← this]
  unfold dba
  congr 1
  unfold dbaOneInit
  have hx : ∀ x ∈ m.flatMap (fun p => List.replicate p.2 p.1), ∀ r ∈ x, r.length = d := by
    intro x hx
    rw [← e1] at hx
    obtain ⟨p, hp, rfl⟩ := List.mem_map.1 hx
    exact hok'.features p hp
  have h1 := dsOf_dataset hd (xs := m.flatMap fun p => List.replicate p.2 p.1) (by
    rw [← e1]; simpa using hok'.some_series) hx
  simp only [h1, bind, Except.bind, List.length_map, setWeights, List.length_replicate, ne_eq, not_true_eq_false, if_false]

/-- Petitjean's version of the algorithm. -/
theorem C97_petitjean (cfg : DbaCfg K) (ham : IsArgmin3 cfg.am) (hsl : ∀ s, cfg.slope = some s → 1 ≤ s) (n d : ℕ) (hn : 0 < n)
    (z z' : List (List (List K) × K))
    (hok : ∀ p ∈ z ++ z', p.1 ≠ [] ∧ ∃ mask, computeMask p.1.length n cfg.gc.toCode cfg.radius cfg.slope = .ok mask)
    (c : K) (hc : c ≠ 0) (h : ∀ x, totalWeight z' x = c * totalWeight z x) (b : List (List K)) (hb : b.length = n) (maxIter : ℕ) :
    petitjeanLoop cfg (z'.map Prod.fst) (z'.map Prod.snd) n d maxIter b =
      petitjeanLoop cfg (z.map Prod.fst) (z.map Prod.snd) n d maxIter b := by
  unfold petitjeanLoop
  refine dbaLoopWith_congr cfg.tol (size := n) (fun b hb => ?_) (fun b c b' h => petitjeanRound_shape h) _ _ _ _ hb
  refine petitjeanRound_weights cfg hc h n d b fun p hp => ?_
  obtain ⟨h1, mask, hm⟩ := hok p hp
  exact dbaPath_finite cfg ham hsl h1 (List.length_pos_iff.1 (by omega)) (by rw [hb]; exact hm)

theorem maxLen_const {xs : List (List (List K))} (hne : xs ≠ []) {n : ℕ} (h : ∀ x ∈ xs, x.length = n) : maxLen xs = n := by
  unfold maxLen
  induction xs with
  | nil => exact absurd rfl hne
  | cons x l ih =>
    rcases eq_or_ne l [] with rfl | hl
    · simp [h x (by simp)]
    · rw [List.map_cons, List.foldr_cons, ih hl fun y hy => h y (by simp [hy]), h x (by simp), max_self]

/-- A weighted mean of numbers read off the series. -/
theorem zipWith_pairs (z : List (List (List K) × K)) (φ : List (List K) → K) :
    (List.zipWith (· * ·) ((z.map Prod.fst).map φ) (z.map Prod.snd)).sum = (z.map fun p => p.2 * φ p.1).sum := by
  induction z with
  | nil => rfl
  | cons p z ih => simp [ih, mul_comm]

theorem mapM_some {β : Type} (l : List β) : (l.map some).mapM id = some l := by
  induction l with
  | nil => rfl
  | cons a l ih => simp [ih]

/-- Euclidean barycenters of series of one length. -/
theorem C97_euclidean (n d : ℕ) (hd : 0 < d) (z z' : List (List (List K) × K)) (hne : z ≠ []) (hne' : z' ≠ [])
    (hr : ∀ p ∈ z ++ z', Rect n d p.1) (c : K) (hc : c ≠ 0) (h : ∀ x, totalWeight z' x = c * totalWeight z x) :
    euclideanBarycenter (dsOf d (z'.map Prod.fst)) (some (z'.map Prod.snd)) =
      euclideanBarycenter (dsOf d (z.map Prod.fst)) (some (z.map Prod.snd)) := by
  have key : ∀ y : List (List (List K) × K), y ≠ [] → (∀ p ∈ y, Rect n d p.1) →
      euclideanBarycenter (dsOf d (y.map Prod.fst)) (some (y.map Prod.snd)) =
        if (y.map Prod.snd).sum = 0 then .error .zeroDivision else
          .ok ((List.range n).map fun t => (List.range d).map fun f =>
            some ((y.map fun p => p.2 * (p.1.getD t []).getD f 0).sum / (y.map Prod.snd).sum)) := by
    intro y hy hr
    have hx : ∀ x ∈ y.map Prod.fst, Rect n d x := by
      intro x hx
      obtain ⟨p, hp, rfl⟩ := List.mem_map.1 hx
      exact hr p hp
    have hyf : y.map Prod.fst ≠ [] := by simpa using hy
    have hset : setWeights (some (y.map Prod.snd)) (y.map Prod.fst).length = y.map Prod.snd := by simp [setWeights]
    split_ifs with hs
    · unfold euclideanBarycenter
      rw [dsOf_dataset hd hyf fun x hm => (hx x hm).2]
      simp only [bind, Except.bind, List.length_map] at hset ⊢
      rw [hset, if_pos hs]
      rfl
    · rw [euclidean_eq hd hyf (fun x hm => (hx x hm).2) _ (by rw [hset]; exact hs), hset]
      have hmax : maxLen (y.map Prod.fst) = n := by
        exact maxLen_const hyf fun x hm => (hx x hm).1
      rw [hmax]
      refine congrArg Except.ok (List.map_congr_left fun t ht => List.map_congr_left fun f _ => ?_)
      have : ((y.map Prod.fst).map fun x => x[t]?.map fun r => r.getD f 0) =
          ((y.map Prod.fst).map fun x => (x.getD t []).getD f 0).map some := by
        simp only [List.map_map]
        refine List.map_congr_left fun p hm => ?_
        have : t < p.1.length := by rw [(hr p hm).1]; exact List.mem_range.1 ht
        simp [this]
      rw [this, mapM_some]
      simp only [zipWith_pairs]
  rw [key z hne fun p hp => hr p (List.mem_append_left _ hp), key z' hne' fun p hp => hr p (List.mem_append_right _ hp),
    wsum_congr_weights h]
  simp only [mul_eq_zero, hc, false_or]
  split_ifs
  · rfl
  · refine congrArg Except.ok (List.map_congr_left fun t _ => List.map_congr_left fun f _ => ?_)
    rw [wsum_congr h fun x => (x.getD t []).getD f 0, mul_div_mul_left _ _ hc]

end field

/-- Sample `k` of `T` equally spaced positions of a series, linear between its samples. -/
noncomputable def stretchAt (T : ℕ) (x : List (List ℝ)) (k f : ℕ) : ℝ :=
  let p := k * (x.length - 1) / (T - 1)
  let r := k * (x.length - 1) % (T - 1)
  let v := fun t => (x.getD t []).getD f 0
  if r = 0 then v p else v p + (v (p + 1) - v p) * ((r : ℝ) / ((T - 1 : ℕ) : ℝ))

theorem averageArr_full (y : List (List (List ℝ) × ℝ)) (R : Arr3 ℝ) (hl : R.data.length = y.length)
    (φ : List (List ℝ) → ℕ → ℕ → ℝ)
    (he : ∀ i (hi : i < y.length), ∀ t < R.sz, ∀ f < R.d, R.entry i t f = some (φ y[i].1 t f)) :
    averageArr R (y.map Prod.snd) = if (y.map Prod.snd).sum = 0 then .error .zeroDivision else
      .ok ((((List.range R.sz).map fun t => (List.range R.d).map fun f =>
        (y.map fun p => p.2 * φ p.1 t f).sum / (y.map Prod.snd).sum)).map (·.map some)) := by
  unfold averageArr
  split_ifs with hs
  · rfl
  · simp only [pure, Except.pure, List.map_map]
    refine congrArg Except.ok (List.map_congr_left fun t ht => ?_)
    simp only [Function.comp, List.map_map]
    refine List.map_congr_left fun f hf => ?_
    have : ((List.range R.data.length).map fun i => R.entry i t f) = ((y.map Prod.fst).map fun x => φ x t f).map some := by
      refine List.ext_getElem (by simp [hl]) fun i h1 h2 => ?_
      have hi : i < y.length := by simpa using h2
      simp [he i hi t (List.mem_range.1 ht) f (List.mem_range.1 hf)]
    rw [this, mapM_some]
    simp only [zipWith_pairs, Function.comp]

theorem le_maxLen {x : List (List ℝ)} : ∀ {xs : List (List (List ℝ))}, x ∈ xs → x.length ≤ maxLen xs
  | [], h => by simp at h
  | y :: l, h => by
    unfold maxLen
    rw [List.map_cons, List.foldr_cons]
    rcases List.mem_cons.1 h with rfl | h
    · exact le_max_left _ _
    · exact (le_maxLen h).trans (le_max_right _ _)

/-- The default initial barycenter: the weighted mean of the series stretched to the longest one. -/
theorem softBaryInit_eq (d : ℕ) (hd : 0 < d) (y : List (List (List ℝ) × ℝ)) (hy : y ≠ [])
    (hx : ∀ p ∈ y, p.1 ≠ [] ∧ ∀ r ∈ p.1, r.length = d) :
    softBaryInit (dsOf d (y.map Prod.fst)) (y.map Prod.snd) = if (y.map Prod.snd).sum = 0 then .error .zeroDivision else
      .ok ((List.range (maxLen (y.map Prod.fst))).map fun t => (List.range d).map fun f =>
        (y.map fun p => p.2 * stretchAt (maxLen (y.map Prod.fst)) p.1 t f).sum / (y.map Prod.snd).sum) := by
  set xs := y.map Prod.fst with hxs
  have hxr : ∀ x ∈ xs, ∀ r ∈ x, r.length = d := by
    intro x hm
    obtain ⟨p, hp, rfl⟩ := List.mem_map.1 hm
    exact (hx p hp).2
  have hxe : ∀ x ∈ xs, x ≠ [] := by
    intro x hm
    obtain ⟨p, hp, rfl⟩ := List.mem_map.1 hm
    exact (hx p hp).1
  have hne : xs ≠ [] := by simpa [hxs] using hy
  have hds := dsOf_dataset hd hne hxr
  set X : Arr3 ℝ := ⟨maxLen xs, d, xs.map fun x =>
      x.map (·.map some) ++ List.replicate (maxLen xs - x.length) (List.replicate d none)⟩ with hXdef
  have hlenX : X.data.length = y.length := by simp [hXdef, hxs]
  have hent : ∀ i (hi : i < y.length), ∀ t f, f < d → X.entry i t f = (y[i].1)[t]?.map fun r => r.getD f 0 := by
    intro i hi t f hf
    have := congrArg (fun l => l[i]?) (dsOf_entry (maxLen xs) (maxLen xs) hxr t f hf)
    have hi' : i < xs.length := by simpa [hxs] using hi
    simp only [List.getElem?_map, List.getElem?_range hi', Option.map_some, List.getElem?_eq_getElem hi', Option.some.injEq] at this
    rw [hXdef, this]
    simp [hxs]
  have hsize : ∀ i (hi : i < y.length), tsSize (X.data[i]'(by omega)) = (y[i].1).length := by
    intro i hi
    have hi' : i < xs.length := by simpa [hxs] using hi
    have : X.data[i]'(by omega) = (xs[i]).map (·.map some) ++ List.replicate (maxLen xs - (xs[i]).length) (List.replicate d none) := by
      simp [hXdef]
    rw [this, tsSize_full hd (hxr _ (List.getElem_mem _))]
    simp [hxs]
  have hform : Formatted X := by
    refine C26_domain _ d (fun t ht => ?_) X hds
    obtain ⟨x, hm, rfl⟩ := List.mem_map.1 ht
    refine ⟨fun r hr => ?_, rfl⟩
    obtain ⟨r', hr', rfl⟩ := List.mem_map.1 hr
    simpa using hxr x hm r' hr'
  have goal : ∀ R : Arr3 ℝ, R.data.length = y.length → R.sz = maxLen xs → R.d = d →
      (∀ i (hi : i < y.length), ∀ t < R.sz, ∀ f < R.d, R.entry i t f = some (stretchAt (maxLen xs) y[i].1 t f)) →
      (checkEqualSizeArr X = true ∧ R = X ∨ ¬ checkEqualSizeArr X = true ∧ resample (-1) (dsOf d xs) (dsOf d xs) = .ok R) →
      softBaryInit (dsOf d xs) (y.map Prod.snd) = if (y.map Prod.snd).sum = 0 then .error .zeroDivision else
      .ok ((List.range (maxLen xs)).map fun t => (List.range d).map fun f =>
        (y.map fun p => p.2 * stretchAt (maxLen xs) p.1 t f).sum / (y.map Prod.snd).sum) := by
    intro R h1 h2 h3 h4 h5
    unfold softBaryInit
    simp only [hds, bind, Except.bind]
    have havg := averageArr_full y R h1 _ h4
    rcases h5 with ⟨h5, h6⟩ | ⟨h5, h6⟩
    · rw [if_pos h5, ← h6]
      simp only [pure, Except.pure, havg]
      split_ifs
      · rfl
      · simp only [denan_full, h2, h3]
    · rw [if_neg h5, h6]
      simp only [havg]
      split_ifs
      · rfl
      · simp only [denan_full, h2, h3]
        rfl
  by_cases heq : checkEqualSizeArr X = true
  · refine goal X hlenX rfl rfl ?_ (.inl ⟨heq, rfl⟩)
    intro i hi t ht f hf
    have hl : (y[i].1).length = maxLen xs := by
      rw [← hsize i hi]
      exact hform.equal_size heq _ (List.getElem_mem _)
    have ht' : t < (y[i].1).length := by rw [hl]; exact ht
    rw [hent i hi t f hf]
    have h1 : t * (maxLen xs - 1) % (maxLen xs - 1) = 0 := Nat.mul_mod_left _ _
    have h2 : t * (maxLen xs - 1) / (maxLen xs - 1) = t := by
      rcases Nat.eq_zero_or_pos (maxLen xs - 1) with h0 | h0
      · have : t < maxLen xs := ht
        rw [h0]; simp; omega
      · exact Nat.mul_div_cancel _ h0
    simp only [stretchAt, hl, h1, h2, if_true]
    rw [List.getElem?_eq_getElem ht', Option.map_some, List.getD_eq_getElem _ _ ht']
  · have hT2 : 2 ≤ maxLen xs := by
      by_contra hc
      refine heq ?_
      have hall : ∀ s ∈ X.data, tsSize s = 1 := by
        intro s hs
        obtain ⟨i, hi, rfl⟩ := List.getElem_of_mem hs
        have hi' : i < y.length := by omega
        rw [hsize i hi']
        have h1 := List.length_pos_iff.2 (hx _ (List.getElem_mem hi')).1
        have h2 : (y[i].1).length ≤ maxLen xs := le_maxLen (List.mem_map_of_mem (List.getElem_mem hi'))
        omega
      unfold checkEqualSizeArr
      generalize X.data = l at hall
      cases l with
      | nil => rfl
      | cons a l =>
        simp only [List.all_eq_true, beq_iff_eq]
        exact fun s hs => by rw [hall s (by simp [hs]), hall a (by simp)]
    obtain ⟨Y, h1, h2, h3, h4, h5, h6⟩ := C31_exact (-1) (dsOf d xs) (dsOf d xs) X X hds hds hform rfl (maxLen xs) (by simp [hXdef]) hT2 (by
      intro s hs h0
      obtain ⟨i, hi, rfl⟩ := List.getElem_of_mem hs
      have hi' : i < y.length := by omega
      have := hsize i hi'
      rw [IsSize.unique (tsSize_isSize _) h0] at this
      exact (hx _ (List.getElem_mem hi')).1 (List.length_eq_zero_iff.1 this.symm))
    refine goal Y (h3.trans hlenX) h4 h5 ?_ (.inr ⟨heq, h1⟩)
    intro i hi t ht f hf
    have hi' : i < X.data.length := by omega
    rw [h4] at ht
    rw [h5] at hf
    have hr : t * ((y[i].1).length - 1) % (maxLen xs - 1) < maxLen xs - 1 := Nat.mod_lt _ (by omega)
    have hpr := Nat.div_add_mod' (t * ((y[i].1).length - 1)) (maxLen xs - 1)
    rw [h6 i _ ((y[i].1).length) (List.getElem?_eq_getElem hi') (hsize i hi ▸ tsSize_isSize _) f hf t ht _ _ hr hpr.symm]
    have hl0 : 0 < (y[i].1).length := List.length_pos_iff.2 (hx _ (List.getElem_mem hi)).1
    have hle : t * ((y[i].1).length - 1) ≤ (maxLen xs - 1) * ((y[i].1).length - 1) := Nat.mul_le_mul_right _ (by omega)
    have hp : t * ((y[i].1).length - 1) / (maxLen xs - 1) ≤ (y[i].1).length - 1 := by
      exact Nat.div_le_of_le_mul hle
    rw [hent i hi _ f hf, hent i hi _ f hf]
    unfold stretchAt
    have hp' : t * ((y[i].1).length - 1) / (maxLen xs - 1) < (y[i].1).length := by omega
    by_cases hr0 : t * ((y[i].1).length - 1) % (maxLen xs - 1) = 0
    · simp [hr0, hp']
    · have hp2 : t * ((y[i].1).length - 1) / (maxLen xs - 1) + 1 < (y[i].1).length := by
        by_contra hc
        have e : t * ((y[i].1).length - 1) / (maxLen xs - 1) = (y[i].1).length - 1 := by omega
        rw [e, Nat.mul_comm ((y[i].1).length - 1)] at hpr
        omega
      simp [hr0, hp', hp2]

theorem zip_pairs {α β : Type} (z : List (α × β)) : (z.map Prod.fst).zip (z.map Prod.snd) = z := by
  induction z with
  | nil => rfl
  | cons p z ih => simp [ih]

/-- The soft-DTW objective and its gradient: scaled like the total weights. -/
theorem C97_soft_objective (γ : ℝ) (hγ : 0 < γ) (g : Option String) (gc : ℕ) (hg : gcCode g = .ok gc) (radius : Option ℕ)
    (slope : Option ℚ) (hs : ∀ s, slope = some s → 1 ≤ s) (junk : Mat Fl) (n d : ℕ) (hn : 0 < n)
    (z z' : List (List (List ℝ) × ℝ)) (hok : ∀ p ∈ z ++ z', p.1 ≠ [] ∧ Rect p.1.length d p.1 ∧
      ∃ mask, computeMask n p.1.length gc radius slope = .ok mask)
    (c : ℝ) (h : ∀ x, totalWeight z' x = c * totalWeight z x) (b : List (List ℝ)) (hb : Rect n d b) :
    ∃ (v : ℝ) (G : ℕ → ℕ → ℝ), softBaryObjective γ g radius slope junk z d b =
        .ok (.num v, (List.range n).map fun i => (List.range d).map fun f => .num (G i f)) ∧
      softBaryObjective γ g radius slope junk z' d b =
        .ok (.num (c * v), (List.range n).map fun i => (List.range d).map fun f => .num (c * G i f)) := by
  let T : List (List ℝ) → Finset (List (ℕ × ℕ)) := fun x =>
    match computeMask n x.length gc radius slope with
    | .ok mask => pathsB mask n x.length
    | .error _ => ∅
  have hok' : ∀ p ∈ z ++ z', SoftBaryOk n d gc radius slope p.1 (T p.1) := by
    intro p hp
    obtain ⟨h1, h2, mask, h3⟩ := hok p hp
    exact ⟨h1, h2, mask, h3, fun q => by
      simp only [T, h3]; exact mem_pathsB_admissible hn (List.length_pos_iff.2 h1)⟩
  refine ⟨(z.map fun p => p.2 * softMin (T p.1) (sumCost (sampleCost b p.1)) γ).sum,
    fun i f => (z.map fun p => p.2 * softBaryGrad γ (T p.1) b p.1 i f).sum, ?_, ?_⟩
  · unfold softBaryObjective
    rw [hg]
    simp only [bind, Except.bind]
    rw [accSoftdtwFunc_ok hs hγ hb.1 hn junk T _ (fun p hp => hok' p (List.mem_append_left _ hp)) 0 (Mat.full (Fl.num 0)) (fun _ _ => 0)
      (fun _ _ _ => rfl)]
    simp only [zero_add]
  · unfold softBaryObjective
    rw [hg]
    simp only [bind, Except.bind]
    rw [accSoftdtwFunc_ok hs hγ hb.1 hn junk T _ (fun p hp => hok' p (List.mem_append_right _ hp)) 0 (Mat.full (Fl.num 0)) (fun _ _ => 0)
      (fun _ _ _ => rfl), wsum_congr h fun x => softMin (T x) (sumCost (sampleCost b x)) γ]
    simp only [zero_add]
    refine congrArg Except.ok (congrArg _ (List.map_congr_left fun i _ => List.map_congr_left fun f _ => ?_))
    rw [wsum_congr h fun x => softBaryGrad γ (T x) b x i f]

theorem reshapeRows_rect (n d : ℕ) (v : List ℝ) : Rect n d (reshapeRows n d v) := by
  refine ⟨by simp [reshapeRows], fun r hr => ?_⟩
  obtain ⟨i, -, rfl⟩ := List.mem_map.1 hr
  simp

theorem flatten_getD_rect {d : ℕ} (b : List (List ℝ)) (hb : ∀ r ∈ b, r.length = d) :
    ∀ i k, k < d → b.flatten.getD (i * d + k) 0 = (b.getD i []).getD k 0 := by
  induction b with
  | nil => simp
  | cons r b ih =>
    intro i k hk
    have hr : r.length = d := hb r (by simp)
    rcases i with _ | i
    · rw [List.flatten_cons, Nat.zero_mul, Nat.zero_add, List.getD_append _ _ _ _ (by omega)]
      rfl
    · rw [List.flatten_cons, List.getD_append_right _ _ _ _ (by rw [hr, Nat.succ_mul]; omega), hr,
        show (i + 1) * d + k - d = i * d + k by rw [Nat.succ_mul]; omega, ih (fun r hr => hb r (by simp [hr])) i k hk]
      rfl

theorem reshapeRows_flatten {d : ℕ} (b : List (List ℝ)) (hb : ∀ r ∈ b, r.length = d) : reshapeRows b.length d b.flatten = b := by
  unfold reshapeRows
  apply List.ext_getElem (by simp)
  intro i h1 h2
  have hr : b[i].length = d := hb _ (List.getElem_mem h2)
  rw [List.getElem_map, List.getElem_range]
  apply List.ext_getElem (by simp [hr])
  intro k h3 h4
  rw [List.getElem_map, List.getElem_range, flatten_getD_rect b hb i k (by omega), List.getD_eq_getElem _ _ h2,
    List.getD_eq_getElem _ _ h4]

/-- No iteration, or an optimiser that stays where it starts: the initial barycenter is returned, rows and columns in place. -/
theorem C97_softdtw_start (opt : ℕ → (List ℝ → Except PyErr (Fl × List Fl)) → List ℝ → Except PyErr (List ℝ)) (γ : ℝ)
    (g : Option String) (gc : ℕ) (hg : gcCode g = .ok gc) (radius : Option ℕ) (slope : Option ℚ) (junk : Mat Fl) (d : ℕ) (hd : 0 < d)
    (xs : List (List (List ℝ))) (hxs : xs ≠ []) (hrows : ∀ x ∈ xs, ∀ r ∈ x, r.length = d) (weights : Option (List ℝ))
    (b : List (List ℝ)) (hb : ∀ r ∈ b, r.length = d) (maxIter : ℕ) (hopt : maxIter = 0 ∨ ∀ f v, opt maxIter f v = .ok v) :
    softdtwBarycenter opt γ (dsOf d xs) weights maxIter (some b) g radius slope junk = .ok b := by
  have e1 := dsOf_dataset hd hxs hrows
  have e4 := dsOf_series hd (maxLen xs) (maxLen xs) d hrows
  unfold softdtwBarycenter
  simp only [e1, e4, bind, Except.bind, softBaryStart, hg]
  by_cases h0 : maxIter = 0
  · simp only [h0, if_true]; rfl
  · have ho := hopt.resolve_left h0
    have hany : (b.any fun r => decide (r.length ≠ d)) = false := by
      rw [List.any_eq_false]
      intro r hr
      simp [hb r hr]
    simp only [h0, if_false, hany, ho, Bool.false_eq_true]
    exact congrArg Except.ok (reshapeRows_flatten b hb)

/-- Soft-DTW barycenters, whatever the optimiser makes of the objective: the same when each series has the same total weight,
from a given start or from the default one when the longest series have the same length. -/
theorem C97_softdtw (opt : ℕ → (List ℝ → Except PyErr (Fl × List Fl)) → List ℝ → Except PyErr (List ℝ)) (γ : ℝ) (hγ : 0 < γ)
    (g : Option String) (gc : ℕ) (hg : gcCode g = .ok gc) (radius : Option ℕ) (slope : Option ℚ) (hs : ∀ s, slope = some s → 1 ≤ s)
    (junk : Mat Fl) (n d : ℕ) (hn : 0 < n) (hd : 0 < d) (z z' : List (List (List ℝ) × ℝ)) (hz : z ≠ []) (hz' : z' ≠ [])
    (hok : ∀ p ∈ z ++ z', p.1 ≠ [] ∧ (∀ r ∈ p.1, r.length = d) ∧ ∃ mask, computeMask n p.1.length gc radius slope = .ok mask)
    (h : ∀ x, totalWeight z' x = totalWeight z x) (init : Option (List (List ℝ)))
    (hinit : (∃ b, init = some b ∧ Rect n d b) ∨ init = none ∧ maxLen (z.map Prod.fst) = n ∧ maxLen (z'.map Prod.fst) = n)
    (maxIter : ℕ) :
    softdtwBarycenter opt γ (dsOf d (z'.map Prod.fst)) (some (z'.map Prod.snd)) maxIter init g radius slope junk =
      softdtwBarycenter opt γ (dsOf d (z.map Prod.fst)) (some (z.map Prod.snd)) maxIter init g radius slope junk := by
  have h1 : ∀ x, totalWeight z' x = 1 * totalWeight z x := fun x => by rw [one_mul]; exact h x
  have key : ∀ y : List (List (List ℝ) × ℝ), y ≠ [] → (∀ p ∈ y, p.1 ≠ [] ∧ ∀ r ∈ p.1, r.length = d) →
      softdtwBarycenter opt γ (dsOf d (y.map Prod.fst)) (some (y.map Prod.snd)) maxIter init g radius slope junk = (do
        let b ← softBaryStart (dsOf d (y.map Prod.fst)) (y.map Prod.snd) init
        if maxIter = 0 then return b
        if b.any fun r => r.length ≠ d then throw .notModelled
        let v ← opt maxIter (fun v => do
          let (o, G) ← softBaryObjective γ g radius slope junk y d (reshapeRows b.length d v)
          return (o, G.flatten)) b.flatten
        return reshapeRows b.length d v) := by
    intro y hy hx
    have hx' : ∀ x ∈ y.map Prod.fst, ∀ r ∈ x, r.length = d := by
      intro x hx'
      obtain ⟨p, hp, rfl⟩ := List.mem_map.1 hx'
      exact (hx p hp).2
    have e1 := dsOf_dataset hd (by simpa using hy) hx'
    have e4 := dsOf_series hd (maxLen (y.map Prod.fst)) (maxLen (y.map Prod.fst)) d hx'
    have e5 : setWeights (some (y.map Prod.snd)) y.length = y.map Prod.snd := by simp [setWeights]
    unfold softdtwBarycenter
    simp only [e1, e4, bind, Except.bind, List.length_map, e5, hg, zip_pairs]
  have hb : ∃ b', softBaryStart (dsOf d (z.map Prod.fst)) (z.map Prod.snd) init = b' ∧
      softBaryStart (dsOf d (z'.map Prod.fst)) (z'.map Prod.snd) init = b' ∧ ∀ b, b' = .ok b → Rect n d b := by
    rcases hinit with ⟨b, rfl, hb⟩ | ⟨rfl, hm, hm'⟩
    · exact ⟨.ok b, rfl, rfl, fun b' e => by cases e; exact hb⟩
    · refine ⟨_, rfl, ?_, ?_⟩
      · simp only [softBaryStart]
        rw [softBaryInit_eq d hd z hz fun p hp => ⟨(hok p (List.mem_append_left _ hp)).1, (hok p (List.mem_append_left _ hp)).2.1⟩,
          softBaryInit_eq d hd z' hz' fun p hp => ⟨(hok p (List.mem_append_right _ hp)).1, (hok p (List.mem_append_right _ hp)).2.1⟩,
          hm, hm', wsum_congr_weights h1]
        simp only [one_mul]
        split_ifs
        · rfl
        · refine congrArg Except.ok (List.map_congr_left fun t _ => List.map_congr_left fun f _ => ?_)
          rw [wsum_congr h1 fun x => stretchAt n x t f, one_mul]
      · intro b hb
        simp only [softBaryStart] at hb
        rw [softBaryInit_eq d hd z hz fun p hp => ⟨(hok p (List.mem_append_left _ hp)).1, (hok p (List.mem_append_left _ hp)).2.1⟩, hm] at hb
        split_ifs at hb
        cases hb
        refine ⟨by simp, fun r hr => ?_⟩
        obtain ⟨t, -, rfl⟩ := List.mem_map.1 hr
        simp
  obtain ⟨b', hb1, hb2, hb3⟩ := hb
  rw [key z hz fun p hp => ⟨(hok p (List.mem_append_left _ hp)).1, (hok p (List.mem_append_left _ hp)).2.1⟩,
    key z' hz' fun p hp => ⟨(hok p (List.mem_append_right _ hp)).1, (hok p (List.mem_append_right _ hp)).2.1⟩, hb1, hb2]
  cases b' with
  | error e => rfl
  | ok b =>
    have hbr := hb3 b rfl
    have hobj : ∀ v, softBaryObjective γ g radius slope junk z' d (reshapeRows b.length d v) =
        softBaryObjective γ g radius slope junk z d (reshapeRows b.length d v) := by
      intro v
      rw [hbr.1]
      obtain ⟨w, G, e1, e2⟩ := C97_soft_objective γ hγ g gc hg radius slope hs junk n d hn z z' (fun p hp =>
        ⟨(hok p hp).1, ⟨rfl, (hok p hp).2.1⟩, (hok p hp).2.2⟩) 1 h1 _ (reshapeRows_rect n d v)
      rw [e1, e2]
      simp only [one_mul]
    simp only [bind, Except.bind, hobj]

/-- Without a given start DBA begins at a mean that ignores the weights: weight 2 and two copies differ. -/
theorem C97_false_dba_default :
    dba exCfg (dsOf 1 [[[0], [0], [1]], [[0], [2], [1]]]) none none 1 (some [2, 1]) 1 = .ok (some [[0], [4 / 3], [1]]) ∧
    dba exCfg (dsOf 1 [[[0], [0], [1]], [[0], [0], [1]], [[0], [2], [1]]]) none none 1 none 1 = .ok (some [[0], [2 / 3], [5 / 4]]) :=
  ⟨by decide +kernel, by decide +kernel⟩

/-- A series of weight 0 counts: it sets the length of a DBA barycenter and makes Euclidean barycenters NaN. -/
theorem C97_false_zero :
    dba exCfg (dsOf 1 [[[1]]]) none none 1 (some [1]) 1 = .ok (some [[1]]) ∧
    dba exCfg (dsOf 1 [[[1]], [[5], [5]]]) none none 1 (some [1, 0]) 1 = .ok (some [[1], [1]]) ∧
    euclideanBarycenter (dsOf 1 [[[1], [2]]] : DsInput ℚ) (some [1]) = .ok [[some 1], [some 2]] ∧
    euclideanBarycenter (dsOf 1 [[[1], [2]], [[5]]] : DsInput ℚ) (some [1, 0]) = .ok [[some 1], [none]] :=
  ⟨by decide +kernel, by decide +kernel, by decide +kernel, by decide +kernel⟩

section examples

def exW : List (List (List ℚ) × ℚ) := [([[0], [2]], 1), ([[4]], 3)]

/-- The second series split in two, all weights halved, a third series of weight 0, another order. -/
def exW' : List (List (List ℚ) × ℚ) := [([[4]], 1), ([[0], [2]], 1 / 2), ([[7], [7], [7]], 0), ([[4]], 1 / 2)]

theorem exW_total : ∀ x, totalWeight exW' x = 1 / 2 * totalWeight exW x := by
  intro x
  simp only [exW, exW', totalWeight_cons]
  by_cases h1 : [[(4 : ℚ)]] = x
  · subst h1; simp [totalWeight]; norm_num
  · by_cases h2 : [[(0 : ℚ)], [2]] = x
    · subst h2; simp [totalWeight]
    · simp [h1, h2, totalWeight]

theorem exW_ok (z : List (List (List ℚ) × ℚ)) (hz : z = exW ∨ z = exW') : WeightedOk exCfg 2 1 z := by
  have hm : ∀ k, 0 < k → ∃ mask, computeMask 2 k exCfg.gc.toCode exCfg.radius exCfg.slope = .ok mask := fun k _ => ⟨_, rfl⟩
  rcases hz with rfl | rfl
  · exact ⟨by simp [exW], by simp [exW], by simp [exW], fun p hp => hm _ (by simp [exW] at hp; rcases hp with rfl | rfl <;> simp)⟩
  · exact ⟨by simp [exW'], by simp [exW'], by simp [exW'], fun p hp => hm _ (by
      simp [exW'] at hp; rcases hp with rfl | rfl | rfl | rfl <;> simp)⟩

example (maxIter : ℕ) : dba exCfg (dsOf 1 (exW'.map Prod.fst)) none (some [[0], [2]]) maxIter (some (exW'.map Prod.snd)) 1 =
    dba exCfg (dsOf 1 (exW.map Prod.fst)) none (some [[0], [2]]) maxIter (some (exW.map Prod.snd)) 1 :=
  (C97_dba exCfg argmin3_isArgmin (by simp [exCfg]) 2 1 two_pos one_pos exW exW' (exW_ok _ (.inl rfl)) (exW_ok _ (.inr rfl)) (1 / 2)
    (by norm_num) exW_total [[0], [2]] ⟨rfl, by simp⟩ none maxIter 1).2

/-- Not a round that does nothing. -/
example : dba exCfg (dsOf 1 (exW.map Prod.fst)) none (some [[0], [2]]) 1 (some (exW.map Prod.snd)) 1 = .ok (some [[3], [7 / 2]]) := by
  decide +kernel

/-- Three copies of the second series. -/
example (maxIter : ℕ) : dba exCfg (dsOf 1 [[[0], [2]], [[4]], [[4]], [[4]]]) none (some [[0], [2]]) maxIter none 1 =
    dba exCfg (dsOf 1 [[[0], [2]], [[4]]]) none (some [[0], [2]]) maxIter (some [1, 3]) 1 := by
  have := C97_dba_copies exCfg argmin3_isArgmin (by simp [exCfg]) 2 1 two_pos one_pos [([[0], [2]], 1), ([[4]], 3)] (by simp)
    (by simpa [exW] using exW_ok exW (.inl rfl)) [[0], [2]] ⟨rfl, by simp⟩ none maxIter 1
  simpa using this

example (maxIter : ℕ) : petitjeanLoop exCfg (exW'.map Prod.fst) (exW'.map Prod.snd) 2 1 maxIter [[0], [2]] =
    petitjeanLoop exCfg (exW.map Prod.fst) (exW.map Prod.snd) 2 1 maxIter [[0], [2]] :=
  C97_petitjean exCfg argmin3_isArgmin (by simp [exCfg]) 2 1 two_pos exW exW'
    (fun p hp => ⟨by
      rcases List.mem_append.1 hp with hp | hp
      · exact (exW_ok _ (.inl rfl)).samples p hp
      · exact (exW_ok _ (.inr rfl)).samples p hp, _, rfl⟩) (1 / 2) (by norm_num) exW_total [[0], [2]] rfl maxIter

/-- Euclidean barycenter: one copy less, weight 2 instead. -/
example : euclideanBarycenter (dsOf 1 [[[0], [2]], [[4], [1]], [[0], [2]]] : DsInput ℚ) (some [1, 1, 1]) =
    euclideanBarycenter (dsOf 1 [[[0], [2]], [[4], [1]]]) (some [2, 1]) := by
  refine C97_euclidean 2 1 one_pos [([[0], [2]], 2), ([[4], [1]], 1)] [([[0], [2]], 1), ([[4], [1]], 1), ([[0], [2]], 1)] (by simp) (by simp)
    (by simp [Rect]) 1 one_ne_zero fun x => ?_
  simp only [totalWeight_cons]
  by_cases h1 : [[(0 : ℚ)], [2]] = x
  · subst h1; simp [totalWeight]; norm_num
  · simp [h1, totalWeight]

/-- Soft-DTW, series of different lengths, default start. -/
example (opt : ℕ → (List ℝ → Except PyErr (Fl × List Fl)) → List ℝ → Except PyErr (List ℝ)) (maxIter : ℕ) :
    softdtwBarycenter opt 1 (dsOf 1 [[[4]], [[0], [2]], [[4]]]) (some [1, 1, 2]) maxIter none none none none (Mat.full .nan) =
      softdtwBarycenter opt 1 (dsOf 1 [[[0], [2]], [[4]]]) (some [1, 3]) maxIter none none none none (Mat.full .nan) := by
  refine C97_softdtw opt 1 one_pos none 0 rfl none none (by simp) (Mat.full .nan) 2 1 two_pos one_pos [([[0], [2]], 1), ([[4]], 3)]
    [([[4]], 1), ([[0], [2]], 1), ([[4]], 2)] (by simp) (by simp) ?_ ?_ none (.inr ⟨rfl, by simp [maxLen], by simp [maxLen]⟩) maxIter
  · intro p hp
    refine ⟨?_, ?_, _, rfl⟩
    · simp at hp; rcases hp with rfl | rfl | rfl | rfl | rfl <;> simp
    · simp at hp; rcases hp with rfl | rfl | rfl | rfl | rfl <;> simp
  · intro x
    simp only [totalWeight_cons]
    by_cases h1 : [[(4 : ℝ)]] = x
    · subst h1; simp [totalWeight]; norm_num
    · simp [h1, totalWeight]

end examples
/-- Two series, a start of another length and two columns, an optimiser that stays at its start. -/
example (junk : Mat Fl) : softdtwBarycenter (fun _ _ v => .ok v) 1 (dsOf 2 [[[0, 1], [2, 3]], [[4, 5]]]) none 50
    (some [[1, 2], [3, 4], [5, 6]]) none none none junk = .ok [[1, 2], [3, 4], [5, 6]] :=
  C97_softdtw_start _ 1 none 0 rfl none none junk 2 (by norm_num) _ (by simp) (by decide +kernel) none _ (by simp) 50
    (Or.inr fun _ _ => rfl)

end Verif
