import Verif.Proofs.UnitsKm
import Verif.Model.KInit
import Verif.Model.Dbscan
import Verif.Model.Silhouette
import Verif.Model.KMeansMetric
/-!
Metrics, seeds, neighbourhoods and silhouettes under a change of unit.
-/
set_option linter.unusedSectionVars false
namespace Verif
open Spec

section
variable {S K : Type} [Field K] [LinearOrder K] [IsStrictOrderedRing K]

theorem cumSum_mul (s : K) : ∀ (acc : K) (l : List K), cumSum (s * acc) (l.map (s * ·)) = (cumSum acc l).map (s * ·)
  | _, [] => rfl
  | acc, x :: l => by
    simp only [List.map_cons, cumSum, ← mul_add, cumSum_mul s (acc + x) l]

theorem searchLeft_mul {s : K} (hs : 0 < s) (cs : List K) (v : K) : searchLeft (cs.map (s * ·)) (s * v) = searchLeft cs v := by
  unfold searchLeft
  induction cs with
  | nil => rfl
  | cons c cs ih =>
    have : (s * c < s * v) ↔ c < v := mul_lt_mul_iff_right₀ hs
    simp only [List.map_cons, List.takeWhile_cons, this]
    split
    · simp only [List.length_cons, ih]
    · rfl

theorem zipWith_min_mul {s : K} (hs : 0 < s) : ∀ l l' : List K,
    List.zipWith min (l.map (s * ·)) (l'.map (s * ·)) = (List.zipWith min l l').map (s * ·)
  | [], _ => rfl
  | _ :: _, [] => rfl
  | x :: l, y :: l' => by
    simp only [List.map_cons, List.zipWith_cons_cons, zipWith_min_mul hs l l', mul_min_of_nonneg _ _ hs.le]

theorem kppRun_mul {n : ℕ} {X : ℕ → S} {dist dist' : S → S → K} {s : K} (hs : 0 < s) (h : ∀ x y, dist' x y = s * dist x y) (first : ℕ)
    (draws : ℕ → List K) : ∀ k, kppRun n X dist' first draws k =
      ⟨(kppRun n X dist first draws k).ids, (kppRun n X dist first draws k).closest.map (s ^ 2 * ·), s ^ 2 * (kppRun n X dist first draws k).pot⟩
  | 0 => by
    simp only [kppRun, kppInit, h, mul_pow, List.map_map, Function.comp_def, List.sum_map_mul_left]
  | k + 1 => by
    have hp : 0 < s ^ 2 := by positivity
    rw [kppRun, kppRun, kppRun_mul hs h first draws k]
    generalize kppRun n X dist first draws k = st
    unfold kppStep
    have hcands : ∀ us : List K, (us.map fun u => min (searchLeft (cumSum 0 (st.closest.map (s ^ 2 * ·))) (u * (s ^ 2 * st.pot)))
        ((st.closest.map (s ^ 2 * ·)).length - 1)) = us.map fun u => min (searchLeft (cumSum 0 st.closest) (u * st.pot)) (st.closest.length - 1) := by
      intro us
      refine List.map_congr_left fun u _ => ?_
      have h0 : cumSum 0 (st.closest.map (s ^ 2 * ·)) = (cumSum 0 st.closest).map (s ^ 2 * ·) := by
        have := cumSum_mul (s ^ 2) 0 st.closest
        rwa [mul_zero] at this
      rw [h0, mul_left_comm, searchLeft_mul hp, List.length_map]
    simp only [hcands]
    generalize (draws (k + 1)).map (fun u => min (searchLeft (cumSum 0 st.closest) (u * st.pot)) (st.closest.length - 1)) = cands
    have hrow : ∀ c, List.zipWith min (st.closest.map (s ^ 2 * ·)) ((List.range n).map fun j => dist' (X c) (X j) ^ 2) =
        (List.zipWith min st.closest ((List.range n).map fun j => dist (X c) (X j) ^ 2)).map (s ^ 2 * ·) := by
      intro c
      rw [← zipWith_min_mul hp, List.map_map]
      simp only [h, mul_pow, Function.comp_def]
    simp only [hrow]
    have hrows : (cands.map fun c => (List.zipWith min st.closest ((List.range n).map fun j => dist (X c) (X j) ^ 2)).map (s ^ 2 * ·)) =
        (cands.map fun c => List.zipWith min st.closest ((List.range n).map fun j => dist (X c) (X j) ^ 2)).map (List.map (s ^ 2 * ·)) := by
      rw [List.map_map]; rfl
    rw [hrows]
    generalize (cands.map fun c => List.zipWith min st.closest ((List.range n).map fun j => dist (X c) (X j) ^ 2)) = rows
    have hpots : (rows.map (List.map (s ^ 2 * ·))).map List.sum = (rows.map List.sum).map (s ^ 2 * ·) := by
      rw [List.map_map, List.map_map]
      refine List.map_congr_left fun r _ => ?_
      have := List.sum_map_mul_left r (fun x => x) (s ^ 2)
      rw [List.map_id'] at this
      exact this
    rw [hpots, argminL_mono (s ^ 2 * ·) (fun x y => mul_lt_mul_iff_right₀ hp)]
    simp only [KppState.mk.injEq, true_and]
    constructor
    · simp only [List.getD_eq_getElem?_getD, List.getElem?_map]
      cases rows[argminL (rows.map List.sum)]? <;> rfl
    · simp only [List.getD_eq_getElem?_getD, List.getElem?_map]
      cases rows[argminL (rows.map List.sum)]? <;> simp

theorem dbFit_mul {D : ℕ → ℕ → K} {s : K} (hs : 0 < s) (eps : K) (minTs n sz d : ℕ) :
    dbFit (fun i j => s * D i j) (s * eps) minTs n sz d = dbFit D eps minTs n sz d := by
  have : dbNeighbours (fun i j => s * D i j) (s * eps) n = dbNeighbours D eps n := by
    funext i
    unfold dbNeighbours
    refine List.filter_congr fun j _ => ?_
    rw [decide_eq_decide]
    exact mul_le_mul_iff_right₀ hs
  unfold dbFit
  rw [this]

end

section
variable {L : Type} [LinearOrder L]

theorem foldl_min_mul {s : ℝ} (hs : 0 < s) : ∀ (l : List ℝ) (x : ℝ), (l.map (s * ·)).foldl min (s * x) = s * l.foldl min x
  | [], _ => rfl
  | y :: l, x => by
    rw [List.map_cons, List.foldl_cons, List.foldl_cons, ← mul_min_of_nonneg _ _ hs.le, foldl_min_mul hs l]

theorem silBin_mul (n : ℕ) (lab : ℕ → L) (D : ℕ → ℕ → ℝ) (s : ℝ) (i : ℕ) (c : L) : silBin n lab (fun i j => s * D i j) i c = s * silBin n lab D i c := by
  unfold silBin
  rw [← List.sum_map_mul_left]
  congr 1
  refine List.map_congr_left fun j _ => ?_
  split <;> simp

theorem silSample_mul (n : ℕ) (lab : ℕ → L) (D : ℕ → ℕ → ℝ) {s : ℝ} (hs : 0 < s) (i : ℕ) :
    silSample n lab (fun i j => s * D i j) i = silSample n lab D i := by
  have h1 : silIntra n lab (fun i j => s * D i j) i = s * silIntra n lab D i := by
    unfold silIntra
    rw [silBin_mul, mul_div_assoc]
  have h2 : silInter n lab (fun i j => s * D i j) i = s * silInter n lab D i := by
    unfold silInter
    simp only [silBin_mul, mul_div_assoc]
    have : ((silClasses n lab).filter fun c => c ≠ lab i).map (fun c => s * (silBin n lab D i c / (silFreq n lab c : ℝ))) =
        (((silClasses n lab).filter fun c => c ≠ lab i).map fun c => silBin n lab D i c / (silFreq n lab c : ℝ)).map (s * ·) := by
      rw [List.map_map]; rfl
    rw [this]
    cases ((silClasses n lab).filter fun c => c ≠ lab i).map fun c => silBin n lab D i c / (silFreq n lab c : ℝ) with
    | nil => simp
    | cons x xs => exact foldl_min_mul hs xs x
  unfold silSample
  rw [h1, h2, ← mul_sub, ← mul_max_of_nonneg _ _ hs.le, mul_div_mul_left _ _ hs.ne']

end

section
open Real

theorem kmEucDist_rescale {a : ℝ} {t : List ℝ} {d : ℕ} (ht : t.length = d) {x c : List (List ℝ)} (hx : ∀ r ∈ x, r.length = d)
    (hc : ∀ r ∈ c, r.length = d) : kmEucDist (rescaleSeries a t x) (rescaleSeries a t c) = |a| * kmEucDist x c := by
  have key : ∀ x c : List (List ℝ), (∀ r ∈ x, r.length = d) → (∀ r ∈ c, r.length = d) →
      (List.zipWith (fun r s => (List.zipWith (fun u v => (u - v) * (u - v)) r s).sum) (rescaleSeries a t x) (rescaleSeries a t c)).sum =
        a ^ 2 * (List.zipWith (fun r s => (List.zipWith (fun u v => (u - v) * (u - v)) r s).sum) x c).sum := by
    intro x
    induction x with
    | nil => intro c _ _; simp [rescaleSeries]
    | cons r x ih =>
      intro c hx hc
      cases c with
      | nil => simp [rescaleSeries]
      | cons s c =>
        have h1 := ih c (fun r hr => hx r (by simp [hr])) fun r hr => hc r (by simp [hr])
        have h2 : (List.zipWith (fun u v => (u - v) * (u - v)) (rescale a t r) (rescale a t s)).sum =
            a ^ 2 * (List.zipWith (fun u v => (u - v) * (u - v)) r s).sum := by
          have hr := hx r (by simp)
          have hs := hc s (by simp)
          rw [← ht] at hr hs
          clear h1 ih hx hc ht
          induction t generalizing r s with
          | nil => rw [List.length_eq_zero_iff.1 hr]; simp [rescale]
          | cons t0 t ih =>
            match r, s, hr, hs with
            | u :: r, v :: s, hr, hs =>
              have := ih r s (by simpa using hr) (by simpa using hs)
              simp only [rescale, List.zipWith_cons_cons, List.sum_cons] at this ⊢
              rw [this]
              ring
        simp only [rescaleSeries, List.map_cons, List.zipWith_cons_cons, List.sum_cons] at h1 ⊢
        rw [h1, h2]
        ring
  unfold kmEucDist
  rw [key x c hx hc, Real.sqrt_mul (sq_nonneg a), Real.sqrt_sq_eq_abs]

theorem kmMean_rescale (a : ℝ) {t : List ℝ} {n d : ℕ} (ht : t.length = d) {M : List (List (List ℝ))} (hM : M ≠ []) (h : ∀ x ∈ M, Rect n d x)
    (c c' : List (List ℝ)) : kmMean n d (M.map (rescaleSeries a t)) c' = rescaleSeries a t (kmMean n d M c) := by
  unfold kmMean
  rw [rescaleSeries, List.map_map]
  refine List.map_congr_left fun i hi => ?_
  have hi' := List.mem_range.1 hi
  have hl : (M.length : ℝ) ≠ 0 := by
    have := List.length_pos_iff.2 hM
    positivity
  refine List.ext_getElem ?_ fun f h1 h2 => ?_
  · rw [Function.comp, rescale_length ht (by simp)]; simp
  · have hf : f < d := by simpa using h1
    have key : ((M.map (rescaleSeries a t)).map fun x => (x.getD i []).getD f 0).sum =
        a * (M.map fun x => (x.getD i []).getD f 0).sum + t.getD f 0 * (M.length : ℝ) := by
      rw [List.map_map]
      have : ∀ x ∈ M, ((fun x : List (List ℝ) => (x.getD i []).getD f 0) ∘ rescaleSeries a t) x = a * (x.getD i []).getD f 0 + t.getD f 0 := by
        intro x hx
        have hx' := h x hx
        have hin : i < x.length := hx'.1 ▸ hi'
        simp only [Function.comp]
        rw [rescaleSeries_getD a t x hin, rescale_getD ht (hx'.get hi') hf]
      rw [List.map_congr_left this, List.sum_map_add, List.sum_map_mul_left]
      simp [mul_comm]
    have hr := rescale_getD (a := a) ht (u := (List.range d).map fun f => (M.map fun x => (x.getD i []).getD f 0).sum / (M.length : ℝ)) (by simp) hf
    rw [List.getD_eq_getElem _ _ (by rw [rescale_length ht (by simp)]; exact hf)] at hr
    simp only [List.getElem_map, List.getElem_range, Function.comp]
    rw [hr, key, List.length_map]
    simp only [List.getD_eq_getElem?_getD, List.getElem?_map, List.getElem?_range hf, Option.map_some, Option.getD_some]
    field_simp

theorem kmDtwDist_rescale {a : ℝ} (ha : a ≠ 0) {t : List ℝ} {d : ℕ} (ht : t.length = d) {x c : List (List ℝ)} (hx : ∀ r ∈ x, r.length = d)
    (hc : ∀ r ∈ c, r.length = d) (gc : ℕ) (radius : Option ℕ) (slope : Option ℚ) :
    kmDtwDist gc radius slope (rescaleSeries a t x) (rescaleSeries a t c) = |a| * kmDtwDist gc radius slope x c := by
  unfold kmDtwDist dtwSqGeneric
  simp only [rescaleSeries_length]
  cases computeMask x.length c.length gc radius slope with
  | error e => simp [bind, Except.bind]
  | ok mask =>
    simp only [bind, Except.bind, pure, Except.pure, accumulatedMatrix_rescale ha ht hx hc, lastEntry]
    generalize accumulatedMatrix x c mask (x.length - 1) (c.length - 1) = v
    induction v using WithTop.recTopCoe with
    | top => simp [rescaleCost_top]
    | coe v =>
      rw [rescaleCost_coe, WithTop.untopD_coe, WithTop.untopD_coe, Real.sqrt_mul (sq_nonneg a), Real.sqrt_sq_eq_abs]

theorem kmDtwBary_rescale {a : ℝ} (ha : a ≠ 0) {t : List ℝ} {size d : ℕ} (ht : t.length = d) {M : List (List (List ℝ))}
    (hM : ∀ x ∈ M, ∀ r ∈ x, r.length = d) (cfg : DbaCfg ℝ) (ham : UnitFree a cfg.am) {c : List (List ℝ)} (hc : Rect size d c) :
    kmDtwBary { cfg with tol := a ^ 2 * cfg.tol } size d (M.map (rescaleSeries a t)) (rescaleSeries a t c) =
      rescaleSeries a t (kmDtwBary cfg size d M c) ∧ Rect size d (kmDtwBary cfg size d M c) := by
  unfold kmDtwBary
  rw [List.length_map, petitjeanLoop_rescale ha ht hM _ cfg ham hc 30]
  constructor
  · cases petitjeanLoop cfg M (setWeights none M.length) size d 30 c with
    | error e => rfl
    | ok r => rfl
  · cases h : petitjeanLoop cfg M (setWeights none M.length) size d 30 c with
    | error e => exact hc
    | ok r =>
      refine dbaLoopWith_rect (round := petitjeanRound cfg M (setWeights none M.length) size d) ?_ 30 c ⊤ [] r hc h
      intro b c' b' _ hb'
      unfold petitjeanRound at hb'
      cases hA : petitjeanAssignment cfg M (setWeights none M.length) b with
      | error e => rw [hA] at hb'; simp [bind, Except.bind] at hb'
      | ok r =>
        rw [hA] at hb'
        cases hu : petitjeanUpdate M (setWeights none M.length) size d r.1 with
        | error e => simp [bind, Except.bind, hu] at hb'
        | ok b'' =>
          simp only [bind, Except.bind, hu, pure, Except.pure, Except.ok.injEq, Prod.mk.injEq] at hb'
          exact hb'.2 ▸ petitjeanUpdate_rect hu

end
end Verif
