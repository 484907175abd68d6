import Verif.Spec.Units
import Verif.Proofs.Dba
import Verif.Model.Dba
import Verif.Proofs.Reverse
import Verif.Proofs.Dataset
/-!
The dynamic programmes, the traceback and the updates of DBA in another unit and from another origin.
-/
set_option linter.unusedSectionVars false
namespace Verif
open Spec

theorem forRange_map {σ τ : Type*} (h : σ → τ) (f : ℕ → σ → σ) (g : ℕ → τ → τ) :
    ∀ (n : ℕ) (s : σ), (∀ i < n, ∀ s, g i (h s) = h (f i s)) → forRange n (h s) g = h (forRange n s f)
  | 0, _, _ => rfl
  | n + 1, s, hg => by
    simp only [forRange]
    rw [forRange_map h f g n s fun i hi => hg i (by omega), hg n (by omega)]

/-- A map of cells that the recurrence commutes with goes through the whole table. -/
theorem dpLoop_map {C D : Type*} (h : C → D) (l1 l2 : ℕ) (mask : ℕ → ℕ → Bool) (cell : ℕ → ℕ → C → C → C → C)
    (cell' : ℕ → ℕ → D → D → D → D) (init : Mat C)
    (hc : ∀ i < l1, ∀ j < l2, ∀ a b c, cell' i j (h a) (h b) (h c) = h (cell i j a b c)) :
    dpLoop l1 l2 mask cell' (fun i j => h (init i j)) = fun i j => h (dpLoop l1 l2 mask cell init i j) := by
  unfold dpLoop
  refine forRange_map (fun M : Mat C => (fun i j => h (M i j) : Mat D)) _ _ l1 init fun i hi M => ?_
  refine forRange_map (fun M : Mat C => (fun i j => h (M i j) : Mat D)) _ _ l2 M fun j hj M => ?_
  split_ifs with hm
  · funext p q
    simp only [Mat.set]
    split_ifs
    · exact hc i hi j hj _ _ _
    · rfl
  · rfl

variable {K : Type} [Field K] [LinearOrder K] [IsStrictOrderedRing K]

theorem rescaleCost_top (a : K) : rescaleCost a ⊤ = ⊤ := rfl
theorem rescaleCost_zero (a : K) : rescaleCost a 0 = 0 := by
  change ((a ^ 2 * 0 : K) : WithTop K) = 0
  simp
theorem rescaleCost_coe (a c : K) : rescaleCost a (c : WithTop K) = ((a ^ 2 * c : K) : WithTop K) := rfl

theorem rescaleCost_add (a d : K) (c : WithTop K) : rescaleCost a ((d : WithTop K) + c) = ((a ^ 2 * d : K) : WithTop K) + rescaleCost a c := by
  induction c using WithTop.recTopCoe with
  | top => simp [rescaleCost_top]
  | coe c => rw [rescaleCost_coe, ← WithTop.coe_add, rescaleCost_coe, ← WithTop.coe_add]; congr 1; ring

theorem rescaleCost_le {a : K} (ha : a ≠ 0) {c c' : WithTop K} : rescaleCost a c ≤ rescaleCost a c' ↔ c ≤ c' := by
  have hp : 0 < a ^ 2 := by positivity
  induction c using WithTop.recTopCoe with
  | top =>
    induction c' using WithTop.recTopCoe with
    | top => simp
    | coe c' => rw [rescaleCost_top, rescaleCost_coe, top_le_iff, top_le_iff]; exact iff_of_false WithTop.coe_ne_top WithTop.coe_ne_top
  | coe c =>
    induction c' using WithTop.recTopCoe with
    | top => simp [rescaleCost_top]
    | coe c' => rw [rescaleCost_coe, rescaleCost_coe, WithTop.coe_le_coe, WithTop.coe_le_coe, mul_le_mul_iff_right₀ hp]

theorem rescaleCost_lt {a : K} (ha : a ≠ 0) {c c' : WithTop K} : rescaleCost a c < rescaleCost a c' ↔ c < c' := by
  rw [← not_le, rescaleCost_le ha, not_le]

theorem rescaleCost_min {a : K} (ha : a ≠ 0) (c c' : WithTop K) : rescaleCost a (min c c') = min (rescaleCost a c) (rescaleCost a c') := by
  rcases le_total c c' with h | h
  · rw [min_eq_left h, min_eq_left ((rescaleCost_le ha).2 h)]
  · rw [min_eq_right h, min_eq_right ((rescaleCost_le ha).2 h)]

theorem rescaleCost_eq_top {a : K} {c : WithTop K} : rescaleCost a c = ⊤ ↔ c = ⊤ := by
  induction c using WithTop.recTopCoe with
  | top => simp [rescaleCost_top]
  | coe c => rw [rescaleCost_coe]; exact iff_of_false WithTop.coe_ne_top WithTop.coe_ne_top

theorem rescale_length {a : K} {t u : List K} {d : ℕ} (ht : t.length = d) (hu : u.length = d) : (rescale a t u).length = d := by
  simp [rescale, ht, hu]

theorem rescale_getD {a : K} {t u : List K} {d : ℕ} (ht : t.length = d) (hu : u.length = d) {f : ℕ} (hf : f < d) :
    (rescale a t u).getD f 0 = a * u.getD f 0 + t.getD f 0 := by
  have h1 : f < (rescale a t u).length := by rw [rescale_length ht hu]; exact hf
  rw [List.getD_eq_getElem _ _ h1, List.getD_eq_getElem _ _ (by omega : f < u.length), List.getD_eq_getElem _ _ (by omega : f < t.length)]
  simp [rescale]

theorem sqEuclid_rescale {a : K} {t u v : List K} {d : ℕ} (ht : t.length = d) (hu : u.length = d) (hv : v.length = d) :
    sqEuclid (rescale a t u) (rescale a t v) = a ^ 2 * sqEuclid u v := by
  rw [sqEuclid_sum (rescale_length ht hu) (rescale_length ht hv), sqEuclid_sum hu hv, Finset.mul_sum]
  refine Finset.sum_congr rfl fun f hf => ?_
  rw [rescale_getD ht hu (Finset.mem_range.1 hf), rescale_getD ht hv (Finset.mem_range.1 hf)]
  ring

theorem rescaleSeries_length (a : K) (t : List K) (x : List (List K)) : (rescaleSeries a t x).length = x.length := by simp [rescaleSeries]

theorem rescaleSeries_getD (a : K) (t : List K) (x : List (List K)) {i : ℕ} (hi : i < x.length) :
    (rescaleSeries a t x).getD i [] = rescale a t (x.getD i []) := by
  simp [rescaleSeries, List.getD_eq_getElem?_getD, hi]

theorem rescaleSeries_rect {a : K} {t : List K} {n d : ℕ} (ht : t.length = d) {x : List (List K)} (hx : Rect n d x) :
    Rect n d (rescaleSeries a t x) := by
  refine ⟨by rw [rescaleSeries_length]; exact hx.1, ?_⟩
  intro r hr
  obtain ⟨u, hu, rfl⟩ := List.mem_map.1 hr
  exact rescale_length ht (hx.2 u hu)

/-- The accumulated matrix in another unit. -/
theorem accumulatedMatrix_rescale {a : K} (ha : a ≠ 0) {t : List K} {d : ℕ} (ht : t.length = d) {x y : List (List K)}
    (hx : ∀ r ∈ x, r.length = d) (hy : ∀ r ∈ y, r.length = d) (mask : Mat Bool) :
    accumulatedMatrix (rescaleSeries a t x) (rescaleSeries a t y) mask = fun i j => rescaleCost a (accumulatedMatrix x y mask i j) := by
  have hc : ∀ i < x.length, ∀ j < y.length, localCost (rescaleSeries a t x) (rescaleSeries a t y) i j = a ^ 2 * localCost x y i j := by
    intro i hi j hj
    rw [localCost_eq, localCost_eq]
    unfold sampleCost
    rw [rescaleSeries_getD a t x hi, rescaleSeries_getD a t y hj, List.getD_eq_getElem _ _ hi, List.getD_eq_getElem _ _ hj]
    exact sqEuclid_rescale ht (hx _ (List.getElem_mem _)) (hy _ (List.getElem_mem _))
  unfold accumulatedMatrix accFromDist accTableWith Mat.tail
  rw [rescaleSeries_length, rescaleSeries_length]
  have hinit : ((Mat.full ⊤).set 0 0 0 : Mat (WithTop K)) = fun i j => rescaleCost a (((Mat.full ⊤).set 0 0 0 : Mat (WithTop K)) i j) := by
    funext i j
    simp only [Mat.set, Mat.full]
    split_ifs
    · exact (rescaleCost_zero a).symm
    · rfl
  rw [hinit, dpLoop_map (rescaleCost a) x.length y.length mask
    (fun i j up left diag => ((localCost x y i j : K) : WithTop K) + min (min up left) diag)]
  · rw [← hinit]
  · intro i hi j hj p q r
    rw [hc i hi j hj, ← rescaleCost_min ha, ← rescaleCost_min ha, rescaleCost_add]

/-- Choices of the traceback do not change in another unit. -/
def UnitFree (a : K) (am : WithTop K → WithTop K → WithTop K → ℕ) : Prop :=
  ∀ u v w, am (rescaleCost a u) (rescaleCost a v) (rescaleCost a w) = am u v w

theorem argmin3_unitFree {a : K} (ha : a ≠ 0) : UnitFree a (argmin3 (C := WithTop K)) := by
  intro u v w
  simp only [argmin3, rescaleCost_le ha]

theorem computePathLoop_rescale {a : K} {am : WithTop K → WithTop K → WithTop K → ℕ} (ham : UnitFree a am) (acc : Mat (WithTop K)) :
    ∀ (fuel : ℕ) (c : ℕ × ℕ) (rest : List (ℕ × ℕ)),
      computePathLoop am (fun i j => rescaleCost a (acc i j)) fuel c rest = computePathLoop am acc fuel c rest
  | 0, _, _ => rfl
  | fuel + 1, c, rest => by
    have hn : ∀ i j, pathNext am (fun i j => rescaleCost a (acc i j)) i j = pathNext am acc i j := by
      intro i j
      unfold pathNext
      simp only [ham (acc (i - 1) (j - 1)) (acc (i - 1) j) (acc i (j - 1))]
    simp only [computePathLoop, hn, computePathLoop_rescale ham acc fuel]

/-- The same path, at the cost in the other unit. -/
theorem dtwPathGeneric_rescale {a : K} (ha : a ≠ 0) {t : List K} {d : ℕ} (ht : t.length = d) {x y : List (List K)}
    (hx : ∀ r ∈ x, r.length = d) (hy : ∀ r ∈ y, r.length = d) (gc : ℕ) (radius : Option ℕ) (slope : Option ℚ)
    {am : WithTop K → WithTop K → WithTop K → ℕ} (ham : UnitFree a am) :
    dtwPathGeneric (rescaleSeries a t x) (rescaleSeries a t y) gc radius slope am =
      (dtwPathGeneric x y gc radius slope am).map fun r => (rescaleCost a r.1, r.2) := by
  unfold dtwPathGeneric
  rw [rescaleSeries_length, rescaleSeries_length]
  cases computeMask x.length y.length gc radius slope with
  | error e => rfl
  | ok mask =>
    simp only [bind, Except.bind, pure, Except.pure, Except.map, accumulatedMatrix_rescale ha ht hx hy]
    simp only [lastEntry, computePath, computePathLoop_rescale ham]

theorem dbaPath_rescale {a : K} (ha : a ≠ 0) {t : List K} {d : ℕ} (ht : t.length = d) {x y : List (List K)}
    (hx : ∀ r ∈ x, r.length = d) (hy : ∀ r ∈ y, r.length = d) (cfg : DbaCfg K) (ham : UnitFree a cfg.am) (tol : K) :
    dbaPath { cfg with tol := tol } (rescaleSeries a t x) (rescaleSeries a t y) = (dbaPath cfg x y).map fun r => (rescaleCost a r.1, r.2) := by
  unfold dbaPath
  have hnil : ∀ z : List (List K), rescaleSeries a t z = [] ↔ z = [] := fun z => by simp [rescaleSeries]
  by_cases h : x = [] ∨ y = []
  · have h' : rescaleSeries a t x = [] ∨ rescaleSeries a t y = [] := by rwa [hnil, hnil]
    simp [h, h', throw, throwThe, MonadExceptOf.throw, bind, Except.bind, Except.map]
  · have h' : ¬(rescaleSeries a t x = [] ∨ rescaleSeries a t y = []) := by rwa [hnil, hnil]
    simp only [h, h', if_false, dtwPathGeneric_rescale ha ht hx hy cfg.gc.toCode cfg.radius cfg.slope ham, bind, Except.bind, pure, Except.pure]
    cases dtwPathGeneric x y cfg.gc.toCode cfg.radius cfg.slope cfg.am with
    | error e => rfl
    | ok r =>
      obtain ⟨v, _ | p⟩ := r <;> rfl

theorem rescaleCost_add' (a : K) (c c' : WithTop K) : rescaleCost a (c + c') = rescaleCost a c + rescaleCost a c' := by
  induction c using WithTop.recTopCoe with
  | top => simp [rescaleCost_top]
  | coe c => rw [rescaleCost_add, rescaleCost_coe]

theorem rescaleCost_sum (a : K) (l : List (WithTop K)) : rescaleCost a l.sum = (l.map (rescaleCost a)).sum := by
  induction l with
  | nil => simp [rescaleCost_zero]
  | cons c l ih => simp only [List.map_cons, List.sum_cons, rescaleCost_add', ih]

theorem rescaleCost_mul (a w : K) (c : WithTop K) : (rescaleCost a c).map (· * w) = rescaleCost a (c.map (· * w)) := by
  induction c using WithTop.recTopCoe with
  | top => rfl
  | coe c => change ((a ^ 2 * c * w : K) : WithTop K) = ((a ^ 2 * (c * w) : K) : WithTop K); rw [mul_assoc]

theorem rescaleCost_div (a w : K) (c : WithTop K) : (rescaleCost a c).map (· / w) = rescaleCost a (c.map (· / w)) := by
  simp only [div_eq_mul_inv]
  exact rescaleCost_mul a w⁻¹ c

theorem mapM_rescale {β γ δ : Type} (T : β → β) (g : γ → δ) (f : β → Except PyErr γ) (f' : β → Except PyErr δ) :
    ∀ l : List β, (∀ b ∈ l, f' (T b) = (f b).map g) → (l.map T).mapM f' = (l.mapM f).map (List.map g)
  | [], _ => rfl
  | b :: l, h => by
    rw [List.map_cons, List.mapM_cons, List.mapM_cons, h b (by simp), mapM_rescale T g f f' l fun c hc => h c (by simp [hc])]
    cases f b with
    | error e => rfl
    | ok v =>
      cases l.mapM f with
      | error e => rfl
      | ok r => rfl

theorem assignWith_rescale (a : K) (T : List (List K) → List (List K))
    (path path' : List (List K) → Except PyErr (WithTop K × List (ℕ × ℕ))) (xs : List (List (List K))) (ws : List K)
    (h : ∀ x ∈ xs, path' (T x) = (path x).map fun r => (rescaleCost a r.1, r.2)) :
    assignWith path' (xs.map T) ws = (assignWith path xs ws).map fun r => (r.1, rescaleCost a r.2) := by
  unfold assignWith
  rw [mapM_rescale T _ path path' xs h]
  cases hm : xs.mapM path with
  | error e => rfl
  | ok rs =>
    have hlen : rs.length = xs.length := by
      have := mapM_except_inv path xs rs hm
      exact this.length_eq.symm
    simp only [bind, Except.bind, Except.map, List.length_map]
    have hget : ∀ k, ((rs.map fun r => (rescaleCost a r.1, r.2)).getD k (0, [])).1 = rescaleCost a (rs.getD k (0, [])).1 := by
      intro k
      simp only [List.getD_eq_getElem?_getD, List.getElem?_map]
      cases rs[k]? with
      | none => exact (rescaleCost_zero a).symm
      | some r => rfl
    by_cases h0 : ws.sum = 0
    · simp [h0, throw, throwThe, MonadExceptOf.throw]
    · simp only [h0, if_false, hget, rescaleCost_eq_top]
      split_ifs with h1
      · rfl
      · simp only [pure, Except.pure, rescaleCost_mul]
        congr 2
        · simp
        · rw [← rescaleCost_div, rescaleCost_sum, List.map_map]
          rfl

/-- What a path computation returns is a warping path, whatever the choices of the traceback. -/
theorem dbaPath_wp {cfg : DbaCfg K} {b x : List (List K)} {v : WithTop K} {p : List (ℕ × ℕ)} (h : dbaPath cfg b x = .ok (v, p)) :
    IsWarpingPath b.length x.length p := by
  unfold dbaPath at h
  by_cases h0 : b = [] ∨ x = []
  · simp [h0, throw, throwThe, MonadExceptOf.throw, bind, Except.bind] at h
  · simp only [h0, if_false] at h
    rw [not_or] at h0
    unfold dtwPathGeneric at h
    cases hm : computeMask b.length x.length cfg.gc.toCode cfg.radius cfg.slope with
    | error e => rw [hm] at h; simp [bind, Except.bind] at h
    | ok mask =>
      obtain ⟨q, hq, hw⟩ := C02_path_terminates cfg.am (accumulatedMatrix b x mask) b.length x.length (List.length_pos_iff.2 h0.1)
        (List.length_pos_iff.2 h0.2)
      rw [hm] at h
      simp only [bind, Except.bind, pure, Except.pure, hq, Except.ok.injEq, Prod.mk.injEq] at h
      rw [← h.2]
      exact hw

theorem map_getD {α β : Type} (f : α → β) (l : List α) {k : ℕ} (hk : k < l.length) (x : α) (y : β) : (l.map f).getD k y = f (l.getD k x) := by
  simp [List.getD_eq_getElem?_getD, hk]

/-- The update of the MM algorithm, and of Petitjean's, from the same alignments. -/
theorem mmUpdate_rescale {a : K} {t : List K} {d : ℕ} (ht : t.length = d) {xs : List (List (List K))} (ws : List K) {size : ℕ}
    {ps : List (List (ℕ × ℕ))} (h : PathsOk xs size d ps) :
    mmUpdate (xs.map (rescaleSeries a t)) ws size d ps = (mmUpdate xs ws size d ps).map (rescaleSeries a t) := by
  have h' : PathsOk (xs.map (rescaleSeries a t)) size d ps := by
    refine ⟨by rw [List.length_map]; exact h.len, ?_, ?_⟩ <;> intro k hk <;> rw [List.length_map] at hk <;>
      rw [map_getD _ _ hk [] [], rescaleSeries_length]
    · exact h.wp k hk
    · exact rescaleSeries_rect ht (h.rect k hk)
  unfold mmUpdate
  by_cases h0 : ∃ i < size, diagSumV ps ws i = 0
  · simp [h0, throw, throwThe, MonadExceptOf.throw, bind, Except.bind, Except.map]
  · simp only [h0, if_false, bind, Except.bind, pure, Except.pure, Except.map, rescaleSeries, List.map_map]
    congr 1
    refine List.map_congr_left fun i hi => ?_
    have hi' : diagSumV ps ws i ≠ 0 := fun he => h0 ⟨i, List.mem_range.1 hi, he⟩
    refine List.ext_getElem ?_ fun f h1 h2 => ?_
    · rw [Function.comp, rescale_length ht (by simp)]; simp
    · have hf : f < d := by simpa using h1
      have key : sumWX (xs.map (rescaleSeries a t)) ps ws i f = a * sumWX xs ps ws i f + t.getD f 0 * diagSumV ps ws i := by
        rw [sumWX_eq h', sumWX_eq h, diagSumV_eq h, List.length_map, Finset.mul_sum, Finset.mul_sum, ← Finset.sum_add_distrib]
        refine Finset.sum_congr rfl fun k hk => ?_
        have hk' := Finset.mem_range.1 hk
        rw [map_getD _ _ hk' [] [], rescaleSeries_length]
        rw [mul_left_comm a, mul_left_comm (t.getD f 0), ← mul_add]
        congr 1
        rw [Finset.mul_sum, Finset.mul_sum, ← Finset.sum_add_distrib]
        refine Finset.sum_congr rfl fun j hj => ?_
        have hj' := Finset.mem_range.1 hj
        rw [rescaleSeries_getD a t _ hj', rescale_getD ht ((h.rect k hk').get hj') hf]
        ring
      have hr : (rescale a t ((List.range d).map fun f => 1 / diagSumV ps ws i * sumWX xs ps ws i f)).getD f 0 =
          a * (1 / diagSumV ps ws i * sumWX xs ps ws i f) + t.getD f 0 := by
        rw [rescale_getD ht (by simp) hf]
        simp [List.getD_eq_getElem?_getD, hf]
      rw [List.getD_eq_getElem _ _ (by rw [rescale_length ht (by simp)]; exact hf)] at hr
      simp only [List.getElem_map, List.getElem_range, Function.comp]
      rw [hr]
      rw [key]
      field_simp

theorem petitjeanUpdate_rescale {a : K} {t : List K} {d : ℕ} (ht : t.length = d) {xs : List (List (List K))} (ws : List K) {size : ℕ}
    {qs : List (List (ℕ × ℕ))} (hl : qs.length = xs.length)
    (hq : ∀ k < xs.length, ∀ c ∈ qs.getD k [], c.1 < (xs.getD k []).length)
    (hrect : ∀ x ∈ xs, ∀ r ∈ x, r.length = d) :
    petitjeanUpdate (xs.map (rescaleSeries a t)) ws size d qs = (petitjeanUpdate xs ws size d qs).map (rescaleSeries a t) := by
  unfold petitjeanUpdate
  by_cases h0 : ∃ i < size, ((petitjeanAssign qs i).map fun a => ws.getD a.1 0).sum = 0
  · simp only [h0, if_true, throw, throwThe, MonadExceptOf.throw, bind, Except.bind, Except.map]
  · simp only [h0, if_false, bind, Except.bind, pure, Except.pure, Except.map]
    congr 1
    rw [rescaleSeries, List.map_map]
    refine List.map_congr_left fun i hi => ?_
    have hi' : ((petitjeanAssign qs i).map fun a => ws.getD a.1 0).sum ≠ 0 := fun he => h0 ⟨i, List.mem_range.1 hi, he⟩
    refine List.ext_getElem ?_ fun f h1 h2 => ?_
    · rw [Function.comp, rescale_length ht (by simp)]; simp
    · have hf : f < d := by simpa using h1
      have hin : ∀ c ∈ petitjeanAssign qs i, (((xs.map (rescaleSeries a t)).getD c.1 []).getD c.2 []).getD f 0 * ws.getD c.1 0 =
          a * (((xs.getD c.1 []).getD c.2 []).getD f 0 * ws.getD c.1 0) + t.getD f 0 * ws.getD c.1 0 := by
        intro c hc
        simp only [petitjeanAssign, List.mem_flatMap, List.mem_range, List.mem_map, List.mem_filter] at hc
        obtain ⟨k, hk, e, ⟨he, -⟩, rfl⟩ := hc
        rw [hl] at hk
        have hj := hq k hk e he
        simp only
        rw [map_getD _ _ hk [] [], rescaleSeries_getD a t _ hj, rescale_getD ht ?_ hf]
        · ring
        · rw [List.getD_eq_getElem _ _ hj]
          refine hrect (xs.getD k []) ?_ _ (List.getElem_mem hj)
          rw [List.getD_eq_getElem _ _ hk]
          exact List.getElem_mem hk
      have key : ((petitjeanAssign qs i).map fun c => (((xs.map (rescaleSeries a t)).getD c.1 []).getD c.2 []).getD f 0 * ws.getD c.1 0).sum =
          a * ((petitjeanAssign qs i).map fun c => ((xs.getD c.1 []).getD c.2 []).getD f 0 * ws.getD c.1 0).sum +
            t.getD f 0 * ((petitjeanAssign qs i).map fun c => ws.getD c.1 0).sum := by
        rw [List.map_congr_left hin, List.sum_map_add, List.sum_map_mul_left, List.sum_map_mul_left]
      have hr := rescale_getD (a := a) ht (u := (List.range d).map fun f =>
        ((petitjeanAssign qs i).map fun c => ((xs.getD c.1 []).getD c.2 []).getD f 0 * ws.getD c.1 0).sum /
          ((petitjeanAssign qs i).map fun c => ws.getD c.1 0).sum) (by simp) hf
      rw [List.getD_eq_getElem _ _ (by rw [rescale_length ht (by simp)]; exact hf)] at hr
      simp only [List.getElem_map, List.getElem_range, Function.comp]
      rw [hr, key]
      simp only [List.getD_eq_getElem?_getD, List.getElem?_map, List.getElem?_range hf, Option.map_some, Option.getD_some] at hi' ⊢
      field_simp

/-- What an assignment returns comes from the path computations, one per series. -/
theorem assignWith_paths {path : List (List K) → Except PyErr (WithTop K × List (ℕ × ℕ))} {xs : List (List (List K))} {ws : List K}
    {ps : List (List (ℕ × ℕ))} {c : WithTop K} (h : assignWith path xs ws = .ok (ps, c)) :
    List.Forall₂ (fun x p => ∃ v, path x = .ok (v, p)) xs ps := by
  unfold assignWith at h
  cases hm : xs.mapM path with
  | error e => rw [hm] at h; simp [bind, Except.bind] at h
  | ok rs =>
    rw [hm] at h
    have hps : ps = rs.map Prod.snd := by
      simp only [bind, Except.bind, pure, Except.pure, throw, throwThe, MonadExceptOf.throw] at h
      split_ifs at h
      simp only [Except.ok.injEq, Prod.mk.injEq] at h
      exact h.1.symm
    rw [hps, List.forall₂_map_right_iff]
    exact (mapM_except_inv path xs rs hm).imp fun x r hr => ⟨r.1, hr⟩

theorem closeTo_rescale {a : K} (ha : a ≠ 0) (tol : K) (c c' : WithTop K) :
    closeTo (a ^ 2 * tol) (rescaleCost a c) (rescaleCost a c') = closeTo tol c c' := by
  induction c using WithTop.recTopCoe with
  | top => rfl
  | coe c =>
    induction c' using WithTop.recTopCoe with
    | top => rfl
    | coe c' =>
      change decide (|a ^ 2 * c - a ^ 2 * c'| < a ^ 2 * tol) = decide (|c - c'| < tol)
      have hp : 0 < a ^ 2 := by positivity
      rw [← mul_sub, abs_mul, abs_of_pos hp, decide_eq_decide]
      exact mul_lt_mul_iff_right₀ hp

theorem dbaLoopWith_rescale {a : K} (ha : a ≠ 0) (tol : K) (T : List (List K) → List (List K)) (Inv : List (List K) → Prop)
    (round round' : List (List K) → Except PyErr (WithTop K × List (List K)))
    (h : ∀ b, Inv b → round' (T b) = (round b).map fun r => (rescaleCost a r.1, T r.2))
    (hi : ∀ b c b', Inv b → round b = .ok (c, b') → Inv b') :
    ∀ n b prev hist, Inv b → dbaLoopWith (a ^ 2 * tol) round' n (T b) (rescaleCost a prev) (hist.map (rescaleCost a)) =
      (dbaLoopWith tol round n b prev hist).map fun r => (T r.1, r.2.1.map (rescaleCost a), r.2.2)
  | 0, b, prev, hist, _ => rfl
  | n + 1, b, prev, hist, hb => by
    rw [dbaLoopWith, dbaLoopWith, h b hb]
    cases hr : round b with
    | error e => rfl
    | ok r =>
      obtain ⟨c, b'⟩ := r
      have ih := dbaLoopWith_rescale ha tol T Inv round round' h hi n b' c (hist ++ [c]) (hi b c b' hb hr)
      simp only [Except.map, bind, Except.bind, pure, Except.pure, closeTo_rescale ha, rescaleCost_lt ha]
      have hh : hist.map (rescaleCost a) ++ [rescaleCost a c] = (hist ++ [c]).map (rescaleCost a) := by simp
      rw [hh]
      split_ifs
      · rfl
      · rfl
      · exact ih

theorem mmUpdate_rect {xs : List (List (List K))} {ws : List K} {size d : ℕ} {ps : List (List (ℕ × ℕ))} {b : List (List K)}
    (h : mmUpdate xs ws size d ps = .ok b) : Rect size d b := by
  unfold mmUpdate at h
  simp only [bind, Except.bind, pure, Except.pure, throw, throwThe, MonadExceptOf.throw] at h
  split_ifs at h
  simp only [Except.ok.injEq] at h
  subst h
  exact ⟨by simp, by simp⟩

theorem petitjeanUpdate_rect {xs : List (List (List K))} {ws : List K} {size d : ℕ} {ps : List (List (ℕ × ℕ))} {b : List (List K)}
    (h : petitjeanUpdate xs ws size d ps = .ok b) : Rect size d b := by
  unfold petitjeanUpdate at h
  simp only [bind, Except.bind, pure, Except.pure, throw, throwThe, MonadExceptOf.throw] at h
  split_ifs at h
  simp only [Except.ok.injEq] at h
  subst h
  exact ⟨by simp, by simp⟩

theorem forall₂_getD {α β : Type} {R : α → β → Prop} {l : List α} {l' : List β} (h : List.Forall₂ R l l') {k : ℕ} (hk : k < l.length) (x : α) (y : β) :
    R (l.getD k x) (l'.getD k y) := by
  have hk' : k < l'.length := h.length_eq ▸ hk
  rw [List.getD_eq_getElem _ _ hk, List.getD_eq_getElem _ _ hk']
  exact List.Forall₂.get h hk hk'

theorem mmRound_rescale {a : K} (ha : a ≠ 0) {t : List K} {d : ℕ} (ht : t.length = d) {xs : List (List (List K))}
    (hxs : ∀ x ∈ xs, ∀ r ∈ x, r.length = d) (ws : List K) (cfg : DbaCfg K) (ham : UnitFree a cfg.am) (tol : K) {size : ℕ} {b : List (List K)}
    (hb : Rect size d b) : mmRound { cfg with tol := tol } (xs.map (rescaleSeries a t)) ws size d (rescaleSeries a t b) =
      (mmRound cfg xs ws size d b).map fun r => (rescaleCost a r.1, rescaleSeries a t r.2) := by
  unfold mmRound mmAssignment
  rw [assignWith_rescale a (rescaleSeries a t) (dbaPath cfg b) _ xs ws fun x hx => dbaPath_rescale ha ht hb.2 (hxs x hx) cfg ham tol]
  cases hA : assignWith (dbaPath cfg b) xs ws with
  | error e => rfl
  | ok r =>
    obtain ⟨ps, c⟩ := r
    have hp := assignWith_paths hA
    have hok : PathsOk xs size d ps := by
      refine ⟨hp.length_eq.symm, fun k hk => ?_, fun k hk => ⟨rfl, ?_⟩⟩
      · obtain ⟨v, hv⟩ := forall₂_getD hp hk [] []
        have := dbaPath_wp hv
        rwa [hb.1] at this
      · rw [List.getD_eq_getElem _ _ hk]
        exact hxs _ (List.getElem_mem hk)
    simp only [Except.map, bind, Except.bind, mmUpdate_rescale ht ws hok]
    cases mmUpdate xs ws size d ps with
    | error e => rfl
    | ok b' => rfl

theorem petitjeanRound_rescale {a : K} (ha : a ≠ 0) {t : List K} {d : ℕ} (ht : t.length = d) {xs : List (List (List K))}
    (hxs : ∀ x ∈ xs, ∀ r ∈ x, r.length = d) (ws : List K) (cfg : DbaCfg K) (ham : UnitFree a cfg.am) (tol : K) {size : ℕ} {b : List (List K)}
    (hb : Rect size d b) : petitjeanRound { cfg with tol := tol } (xs.map (rescaleSeries a t)) ws size d (rescaleSeries a t b) =
      (petitjeanRound cfg xs ws size d b).map fun r => (rescaleCost a r.1, rescaleSeries a t r.2) := by
  unfold petitjeanRound petitjeanAssignment
  rw [assignWith_rescale a (rescaleSeries a t) (fun x => dbaPath cfg x b) _ xs ws fun x hx => dbaPath_rescale ha ht (hxs x hx) hb.2 cfg ham tol]
  cases hA : assignWith (fun x => dbaPath cfg x b) xs ws with
  | error e => rfl
  | ok r =>
    obtain ⟨ps, c⟩ := r
    have hp := assignWith_paths hA
    have hq : ∀ k < xs.length, ∀ c ∈ ps.getD k [], c.1 < (xs.getD k []).length := by
      intro k hk c hc
      obtain ⟨v, hv⟩ := forall₂_getD hp hk [] []
      exact ((dbaPath_wp hv).lt c hc).1
    simp only [Except.map, bind, Except.bind, petitjeanUpdate_rescale ht ws hp.length_eq.symm hq hxs]
    cases petitjeanUpdate xs ws size d ps with
    | error e => rfl
    | ok b' => rfl

theorem dbaLoop_rescale {a : K} (ha : a ≠ 0) {t : List K} {d : ℕ} (ht : t.length = d) {xs : List (List (List K))}
    (hxs : ∀ x ∈ xs, ∀ r ∈ x, r.length = d) (ws : List K) (cfg : DbaCfg K) (ham : UnitFree a cfg.am) {size : ℕ} {b : List (List K)}
    (hb : Rect size d b) (n : ℕ) :
    dbaLoop { cfg with tol := a ^ 2 * cfg.tol } (xs.map (rescaleSeries a t)) ws size d n (rescaleSeries a t b) =
      (dbaLoop cfg xs ws size d n b).map fun r => (rescaleSeries a t r.1, r.2.1.map (rescaleCost a), r.2.2) := by
  refine dbaLoopWith_rescale ha cfg.tol (rescaleSeries a t) (Rect size d) _ _
    (fun b hb => mmRound_rescale ha ht hxs ws cfg ham _ hb) ?_ n b ⊤ [] hb
  intro b c b' _ h
  unfold mmRound at h
  cases hA : mmAssignment cfg xs ws b with
  | error e => rw [hA] at h; simp [bind, Except.bind] at h
  | ok r =>
    rw [hA] at h
    cases hu : mmUpdate xs ws size d r.1 with
    | error e => simp [bind, Except.bind, hu] at h
    | ok b'' =>
      simp only [bind, Except.bind, hu, pure, Except.pure, Except.ok.injEq, Prod.mk.injEq] at h
      exact h.2 ▸ mmUpdate_rect hu

theorem petitjeanLoop_rescale {a : K} (ha : a ≠ 0) {t : List K} {d : ℕ} (ht : t.length = d) {xs : List (List (List K))}
    (hxs : ∀ x ∈ xs, ∀ r ∈ x, r.length = d) (ws : List K) (cfg : DbaCfg K) (ham : UnitFree a cfg.am) {size : ℕ} {b : List (List K)}
    (hb : Rect size d b) (n : ℕ) :
    petitjeanLoop { cfg with tol := a ^ 2 * cfg.tol } (xs.map (rescaleSeries a t)) ws size d n (rescaleSeries a t b) =
      (petitjeanLoop cfg xs ws size d n b).map fun r => (rescaleSeries a t r.1, r.2.1.map (rescaleCost a), r.2.2) := by
  refine dbaLoopWith_rescale ha cfg.tol (rescaleSeries a t) (Rect size d) _ _
    (fun b hb => petitjeanRound_rescale ha ht hxs ws cfg ham _ hb) ?_ n b ⊤ [] hb
  intro b c b' _ h
  unfold petitjeanRound at h
  cases hA : petitjeanAssignment cfg xs ws b with
  | error e => rw [hA] at h; simp [bind, Except.bind] at h
  | ok r =>
    rw [hA] at h
    cases hu : petitjeanUpdate xs ws size d r.1 with
    | error e => simp [bind, Except.bind, hu] at h
    | ok b'' =>
      simp only [bind, Except.bind, hu, pure, Except.pure, Except.ok.injEq, Prod.mk.injEq] at h
      exact h.2 ▸ petitjeanUpdate_rect hu

theorem dbaLoopWith_rect {tol : K} {Inv : List (List K) → Prop} {round : List (List K) → Except PyErr (WithTop K × List (List K))}
    (hi : ∀ b c b', Inv b → round b = .ok (c, b') → Inv b') :
    ∀ n b prev hist r, Inv b → dbaLoopWith tol round n b prev hist = .ok r → Inv r.1
  | 0, b, prev, hist, r, hb, h => by
    simp only [dbaLoopWith, Except.ok.injEq] at h
    exact h ▸ hb
  | n + 1, b, prev, hist, r, hb, h => by
    rw [dbaLoopWith] at h
    cases hr : round b with
    | error e => rw [hr] at h; simp [bind, Except.bind] at h
    | ok q =>
      obtain ⟨c, b'⟩ := q
      have hb' := hi b c b' hb hr
      rw [hr] at h
      simp only [bind, Except.bind, pure, Except.pure] at h
      split_ifs at h
      · simp only [Except.ok.injEq] at h
        exact h ▸ hb'
      · simp only [Except.ok.injEq] at h
        exact h ▸ hb'
      · exact dbaLoopWith_rect hi n b' c _ r hb' h

end Verif
