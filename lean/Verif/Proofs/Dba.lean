import Verif.Model.Dba
import Verif.Spec.Barycenter
import Verif.Props.C01
import Verif.Proofs.SoftDtw
import Verif.Props.C02
import Verif.Proofs.Piecewise
import Mathlib.Tactic.FieldSimp
import Mathlib.Algebra.BigOperators.WithTop
import Mathlib.Algebra.Order.BigOperators.Ring.Finset
/-!
Lemmas on DBA.
-/
set_option linter.unusedSectionVars false
namespace Verif
open Spec

theorem Spec.IsWarpingPath.nodup {n m p} (h : IsWarpingPath n m p) : p.Nodup := by
  obtain ⟨i, j, -, -, hw⟩ := isWarpingPath_iff.1 h
  exact hw.nodup

theorem Spec.IsWarpingPath.row {n m p} (h : IsWarpingPath n m p) : ∀ r < n, ∃ c, (r, c) ∈ p := by
  obtain ⟨i, j, h1, h2, hw⟩ := isWarpingPath_iff.1 h
  exact fun r hr => hw.visits.1 r (by omega)

theorem pathSz_eq {n m p} (h : IsWarpingPath n m p) : pathSz p = m := by
  obtain ⟨i, j, h2, hi, hj⟩ := h.ends
  have : p.getLastD (0, 0) = (i, j) := by
    rw [List.getLastD_eq_getLast?, h2]; rfl
  unfold pathSz
  rw [this]; exact hj

theorem getD_table {α : Type*} {n t f : ℕ} (d : ℕ → ℕ) (g : ℕ → ℕ → α) (z : α) (ht : t < n) (hf : f < d t) :
    (((List.range n).map fun t => (List.range (d t)).map fun f => g t f).getD t []).getD f z = g t f := by
  have : ((List.range n).map fun t => (List.range (d t)).map fun f => g t f).getD t [] = (List.range (d t)).map fun f => g t f := by
    rw [List.getD_eq_getElem _ _ (by simpa using ht), List.getElem_map, List.getElem_range]
  rw [this, List.getD_eq_getElem _ _ (by simpa using hf), List.getElem_map, List.getElem_range]

section
variable {K : Type} [Field K] [LinearOrder K] [IsStrictOrderedRing K]

theorem warpFold (p : List (ℕ × ℕ)) (W : Mat K) (i j : ℕ) :
    (p.foldl (fun W c => W.set c.1 c.2 1) W) i j = if (i, j) ∈ p then 1 else W i j := by
  induction p generalizing W with
  | nil => simp
  | cons c p ih =>
    rw [List.foldl_cons, ih]
    by_cases h : (i, j) ∈ p
    · simp [h]
    · by_cases h2 : (i, j) = c
      · subst h2; simp [h, Mat.set]
      · have : ¬ (i = c.1 ∧ j = c.2) := fun h3 => h2 (Prod.ext h3.1 h3.2)
        simp [h, h2, Mat.set, this]

theorem warpMat_apply (p : List (ℕ × ℕ)) (i j : ℕ) : (warpMat p : Mat K) i j = if (i, j) ∈ p then 1 else 0 := by
  unfold warpMat; rw [warpFold]; rfl

/-- Summing along a path is summing over its cells. -/
theorem path_sum {n m p} (h : IsWarpingPath n m p) (g : ℕ → ℕ → K) :
    (p.map fun c => g c.1 c.2).sum = ∑ i ∈ Finset.range n, ∑ j ∈ Finset.range m, (warpMat p : Mat K) i j * g i j := by
  rw [← List.sum_toFinset (fun c : ℕ × ℕ => g c.1 c.2) h.nodup, ← Finset.sum_product']
  symm
  have : ∀ c ∈ Finset.range n ×ˢ Finset.range m, (warpMat p : Mat K) c.1 c.2 * g c.1 c.2 =
      if c ∈ p then g c.1 c.2 else 0 := by
    intro c _
    rw [warpMat_apply]
    by_cases hc : c ∈ p <;> simp [hc]
  rw [Finset.sum_congr rfl this, ← Finset.sum_filter]
  refine Finset.sum_congr ?_ fun _ _ => rfl
  ext c
  simp only [Finset.mem_filter, Finset.mem_product, Finset.mem_range, List.mem_toFinset]
  exact ⟨fun h => h.2, fun hc => ⟨h.mem_lt c hc, hc⟩⟩

theorem Spec.Rect.get {n d : ℕ} {b : List (List K)} (h : Rect n d b) {i : ℕ} (hi : i < n) : (b.getD i []).length = d := by
  have hi' : i < b.length := by rw [h.1]; exact hi
  rw [List.getD_eq_getElem _ _ hi']
  exact h.2 _ (List.getElem_mem _)

theorem sqEuclid_sum {d : ℕ} : ∀ {u v : List K}, u.length = d → v.length = d →
    sqEuclid u v = ∑ f ∈ Finset.range d, (u.getD f 0 - v.getD f 0) ^ 2 := by
  induction d with
  | zero =>
    intro u v hu hv
    rw [List.length_eq_zero_iff] at hu hv
    subst hu; subst hv
    simp [sqEuclid]
  | succ d ih =>
    intro u v hu hv
    match u, v with
    | a :: u, b :: v =>
      rw [Finset.sum_range_succ']
      have := ih (u := u) (v := v) (by simpa using hu) (by simpa using hv)
      unfold sqEuclid at this ⊢
      simp only [List.zip_cons_cons, List.map_cons, List.sum_cons, this, List.getD_cons_succ, List.getD_cons_zero]
      ring

variable {xs : List (List (List K))} {size d : ℕ} {ps : List (List (ℕ × ℕ))}

theorem diagSumV_eq (h : PathsOk xs size d ps) (ws : List K) (i : ℕ) :
    diagSumV ps ws i = ∑ k ∈ Finset.range xs.length, ws.getD k 0 *
      ∑ j ∈ Finset.range (xs.getD k []).length, (warpMat (ps.getD k []) : Mat K) i j := by
  unfold diagSumV valence
  rw [listsum_range, h.len]
  refine Finset.sum_congr rfl fun k hk => ?_
  rw [pathSz_eq (h.wp k (Finset.mem_range.1 hk)), listsum_range, mul_comm]

theorem sumWX_eq (h : PathsOk xs size d ps) (ws : List K) (i f : ℕ) :
    sumWX xs ps ws i f = ∑ k ∈ Finset.range xs.length, ws.getD k 0 *
      ∑ j ∈ Finset.range (xs.getD k []).length, (warpMat (ps.getD k []) : Mat K) i j * ((xs.getD k []).getD j []).getD f 0 := by
  unfold sumWX
  rw [listsum_range, h.len]
  refine Finset.sum_congr rfl fun k hk => ?_
  rw [pathSz_eq (h.wp k (Finset.mem_range.1 hk)), listsum_range, Finset.mul_sum]
  exact Finset.sum_congr rfl fun j _ => by ring

/-- The cost as a quadratic function of the barycenter. -/
theorem alignCost_quadratic (h : PathsOk xs size d ps) (ws : List K) : ∃ C : K, ∀ b, Rect size d b →
    alignCost xs ws ps b = (∑ i ∈ Finset.range size, ∑ f ∈ Finset.range d,
      (diagSumV ps ws i * ((b.getD i []).getD f 0) ^ 2 - 2 * ((b.getD i []).getD f 0) * sumWX xs ps ws i f)) + C := by
  refine ⟨∑ k ∈ Finset.range xs.length, ws.getD k 0 * ∑ i ∈ Finset.range size,
    ∑ j ∈ Finset.range (xs.getD k []).length, (warpMat (ps.getD k []) : Mat K) i j *
      ∑ f ∈ Finset.range d, (((xs.getD k []).getD j []).getD f 0) ^ 2, fun b hb => ?_⟩
  have h1 : (∑ i ∈ Finset.range size, ∑ f ∈ Finset.range d,
      (diagSumV ps ws i * ((b.getD i []).getD f 0) ^ 2 - 2 * ((b.getD i []).getD f 0) * sumWX xs ps ws i f)) =
      ∑ k ∈ Finset.range xs.length, ws.getD k 0 * ∑ i ∈ Finset.range size,
        ∑ j ∈ Finset.range (xs.getD k []).length, (warpMat (ps.getD k []) : Mat K) i j * ∑ f ∈ Finset.range d,
          (((b.getD i []).getD f 0) ^ 2 - 2 * ((b.getD i []).getD f 0) * ((xs.getD k []).getD j []).getD f 0) := by
    simp only [diagSumV_eq h, sumWX_eq h, Finset.mul_sum, Finset.sum_mul, ← Finset.sum_sub_distrib]
    rw [Finset.sum_congr rfl fun i _ => Finset.sum_comm, Finset.sum_comm]
    refine Finset.sum_congr rfl fun k _ => Finset.sum_congr rfl fun i _ => ?_
    rw [Finset.sum_comm]
    refine Finset.sum_congr rfl fun j _ => Finset.sum_congr rfl fun f _ => ?_
    ring
  rw [h1, ← Finset.sum_add_distrib]
  unfold alignCost
  rw [listsum_range]
  refine Finset.sum_congr rfl fun k hk => ?_
  have hk := Finset.mem_range.1 hk
  rw [← mul_add, ← Finset.sum_add_distrib]
  unfold sumCost
  rw [path_sum (h.wp k hk)]
  refine congrArg _ (Finset.sum_congr rfl fun i hi => ?_)
  rw [← Finset.sum_add_distrib]
  refine Finset.sum_congr rfl fun j hj => ?_
  rw [← mul_add, ← Finset.sum_add_distrib]
  unfold sampleCost
  rw [sqEuclid_sum (hb.get (Finset.mem_range.1 hi)) ((h.rect k hk).get (Finset.mem_range.1 hj))]
  exact congrArg _ (Finset.sum_congr rfl fun f _ => by ring)

theorem Spec.WeightsOk.getD {ws : List K} (h : WeightsOk xs ws) (k : ℕ) : 0 ≤ ws.getD k 0 := by
  by_cases hk : k < ws.length
  · rw [List.getD_eq_getElem _ _ hk]; exact h.nonneg _ (List.getElem_mem _)
  · rw [List.getD_eq_default _ _ (by omega)]

theorem Spec.WeightsOk.sum {ws : List K} (h : WeightsOk xs ws) : 0 < ws.sum := by
  obtain ⟨w, hw, hp⟩ := h.pos
  exact lt_of_lt_of_le hp (List.single_le_sum h.nonneg w hw)

theorem diagSumV_pos {ws : List K} (h : PathsOk xs size d ps) (hw : WeightsOk xs ws) {i : ℕ} (hi : i < size) :
    0 < diagSumV ps ws i := by
  rw [diagSumV_eq h]
  have h0 : ∀ k j, 0 ≤ (warpMat (ps.getD k []) : Mat K) i j := by
    intro k j; rw [warpMat_apply]; split <;> simp
  obtain ⟨w, hm, hp⟩ := hw.pos
  obtain ⟨k, hk, rfl⟩ := List.getElem_of_mem hm
  have hk' : k < xs.length := by rw [← hw.len]; exact hk
  refine Finset.sum_pos' (fun k _ => mul_nonneg (hw.getD k) (Finset.sum_nonneg fun j _ => h0 k j))
    ⟨k, Finset.mem_range.2 hk', mul_pos (by rw [List.getD_eq_getElem _ _ hk]; exact hp) ?_⟩
  obtain ⟨j, hj⟩ := (h.wp k hk').row i hi
  refine Finset.sum_pos' (fun j _ => h0 k j) ⟨j, Finset.mem_range.2 ((h.wp k hk').mem_lt _ hj).2, ?_⟩
  rw [warpMat_apply, if_pos hj]; exact one_pos

theorem mmUpdate_ok {ws : List K} (h : PathsOk xs size d ps) (hw : WeightsOk xs ws) :
    ∃ b', mmUpdate xs ws size d ps = .ok b' ∧ Rect size d b' ∧ ∀ b, Rect size d b →
      alignCost xs ws ps b = alignCost xs ws ps b' + ∑ i ∈ Finset.range size, ∑ f ∈ Finset.range d,
        diagSumV ps ws i * ((b.getD i []).getD f 0 - (b'.getD i []).getD f 0) ^ 2 := by
  have hpos : ∀ i < size, 0 < diagSumV ps ws i := fun i hi => diagSumV_pos h hw hi
  refine ⟨(List.range size).map fun i => (List.range d).map fun f => 1 / diagSumV ps ws i * sumWX xs ps ws i f,
    ?_, ?_, ?_⟩
  · unfold mmUpdate
    rw [if_neg]
    · rfl
    · rintro ⟨i, hi, h0⟩; exact (hpos i hi).ne' h0
  · refine ⟨by simp, fun r hr => ?_⟩
    obtain ⟨i, -, rfl⟩ := List.mem_map.1 hr
    simp
  · intro b hb
    set b' := (List.range size).map fun i => (List.range d).map fun f => 1 / diagSumV ps ws i * sumWX xs ps ws i f with hb'
    have hr' : Rect size d b' := by
      refine ⟨by simp [hb'], fun r hr => ?_⟩
      obtain ⟨i, -, rfl⟩ := List.mem_map.1 hr
      simp
    obtain ⟨C, hC⟩ := alignCost_quadratic h ws
    rw [hC b hb, hC b' hr', add_right_comm, ← Finset.sum_add_distrib]
    refine congrArg (· + C) (Finset.sum_congr rfl fun i hi => ?_)
    rw [← Finset.sum_add_distrib]
    refine Finset.sum_congr rfl fun f hf => ?_
    have hi := Finset.mem_range.1 hi
    have hf := Finset.mem_range.1 hf
    have e : (b'.getD i []).getD f 0 = sumWX xs ps ws i f / diagSumV ps ws i := by
      rw [hb']
      simp [List.getD_eq_getElem?_getD, hi, hf]
      ring
    rw [e]
    have := (hpos i hi).ne'
    field_simp
    ring

theorem rect_ext {n d : ℕ} {a b : List (List K)} (ha : Rect n d a) (hb : Rect n d b)
    (h : ∀ i < n, ∀ f < d, (a.getD i []).getD f 0 = (b.getD i []).getD f 0) : a = b := by
  refine List.ext_getElem (by rw [ha.1, hb.1]) fun i h1 h2 => ?_
  have hi : i < n := by rw [← ha.1]; exact h1
  have la := ha.get hi
  have lb := hb.get hi
  have h := h i hi
  rw [List.getD_eq_getElem _ _ h1] at la h
  rw [List.getD_eq_getElem _ _ h2] at lb h
  refine List.ext_getElem (by rw [la, lb]) fun f h3 h4 => ?_
  have := h f (by omega)
  rwa [List.getD_eq_getElem _ _ h3, List.getD_eq_getElem _ _ h4] at this

/-- The update is the only minimiser. -/
theorem mmUpdate_min {ws : List K} (h : PathsOk xs size d ps) (hw : WeightsOk xs ws) :
    ∃ b', mmUpdate xs ws size d ps = .ok b' ∧ Rect size d b' ∧ ∀ a, Rect size d a → a ≠ b' →
      alignCost xs ws ps b' < alignCost xs ws ps a := by
  obtain ⟨b', h1, h2, h3⟩ := mmUpdate_ok h hw
  refine ⟨b', h1, h2, fun a ha hne => ?_⟩
  rw [h3 a ha]
  refine lt_add_of_pos_right _ ?_
  have hpos : ∀ i ∈ Finset.range size, 0 < diagSumV ps ws i := fun i hi => diagSumV_pos h hw (Finset.mem_range.1 hi)
  by_contra hcon
  apply hne
  refine rect_ext ha h2 fun i hi f hf => ?_
  by_contra hd
  apply hcon
  refine Finset.sum_pos' (fun i hi => Finset.sum_nonneg fun f _ => mul_nonneg (hpos i hi).le (sq_nonneg _))
    ⟨i, Finset.mem_range.2 hi, Finset.sum_pos' (fun f _ => mul_nonneg (hpos i (Finset.mem_range.2 hi)).le (sq_nonneg _))
      ⟨f, Finset.mem_range.2 hf, mul_pos (hpos i (Finset.mem_range.2 hi)) ?_⟩⟩
  exact lt_of_le_of_ne (sq_nonneg _) (Ne.symm (pow_ne_zero 2 (sub_ne_zero.2 hd)))

theorem dbaPath_spec (cfg : DbaCfg K) (ham : IsArgmin3 cfg.am) (b x : List (List K)) (hb : b ≠ []) (hx : x ≠ []) (mask : Mat Bool)
    (hm : computeMask b.length x.length cfg.gc.toCode cfg.radius cfg.slope = .ok mask) :
    ∃ v p, dbaPath cfg b x = .ok (v, p) ∧ IsWarpingPath b.length x.length p ∧
      (v = ⊤ ↔ ¬ ∃ q, Admissible b.length x.length mask q) ∧
      (v ≠ ⊤ → Admissible b.length x.length mask p ∧ v = ((sumCost (sampleCost b x) p : K) : WithTop K) ∧
        ∀ q, Admissible b.length x.length mask q → sumCost (sampleCost b x) p ≤ sumCost (sampleCost b x) q) := by
  have h1 := List.length_pos_iff.2 hb
  have h2 := List.length_pos_iff.2 hx
  let add := fun (d : K) (c : WithTop K) => (d : WithTop K) + c
  obtain ⟨p, hp, hw⟩ := C02_path_terminates cfg.am (accumulatedMatrix b x mask) b.length x.length h1 h2
  obtain ⟨v, hv, ht, hl⟩ := C01_dtw_squared b x hb hx _ _ _ mask hm
  have hv' : v = lastEntry (accumulatedMatrix b x mask) b.length x.length := by
    simp [dtwSqGeneric, hm, bind, Except.bind, pure, Except.pure] at hv
    exact hv.symm
  refine ⟨v, p, ?_, hw, ht, fun hf => ?_⟩
  · simp [dbaPath, hb, hx, dtwPathGeneric, hm, bind, Except.bind, pure, Except.pure, hp, hv']
  · obtain ⟨q, hq, ha, hc⟩ := C02_path_optimal add 0 (fun d => add_top' d) cfg.am ham b.length x.length
      h1 h2 mask (localCost b x) (by rw [hv'] at hf; exact hf)
    have : some p = some q := by rw [← hp, ← hq]; rfl
    obtain rfl := Option.some.inj this
    have hc' : v = ((sumCost (sampleCost b x) p : K) : WithTop K) := by
      rw [hv', ← localCost_eq, ← pathCost_add_eq]
      exact hc.symm
    exact ⟨ha, hc', fun q hq => ((hl _).1 hc').2 ⟨q, hq, rfl⟩⟩

/-- What a run of DBA needs: a non-empty barycenter, non-empty series with `d` features, no error from the masks,
an Itakura slope of at least 1. -/
structure DbaOk (cfg : DbaCfg K) (xs : List (List (List K))) (size d : ℕ) (masks : ℕ → Mat Bool) : Prop where
  pos : 0 < size
  ne : ∀ k < xs.length, xs.getD k [] ≠ []
  rect : ∀ k < xs.length, Rect (xs.getD k []).length d (xs.getD k [])
  mask : ∀ k < xs.length, computeMask size (xs.getD k []).length cfg.gc.toCode cfg.radius cfg.slope = .ok (masks k)
  slope : ∀ s, cfg.slope = some s → 1 ≤ s
  am : IsArgmin3 cfg.am

theorem DbaOk.feasible {cfg : DbaCfg K} {masks : ℕ → Mat Bool} (h : DbaOk cfg xs size d masks) : Feasible xs size masks :=
  fun k hk => (computeMask_reachable h.pos (List.length_pos_iff.2 (h.ne k hk)) h.slope (h.mask k hk)).2

/-- A path computation whose result, read through `sw`, is a cheapest alignment with `b`. -/
def PathSpec (sw : List (ℕ × ℕ) → List (ℕ × ℕ)) (b x : List (List K)) (mask : Mat Bool) (v : WithTop K) (p : List (ℕ × ℕ)) : Prop :=
  Admissible b.length x.length mask (sw p) ∧ v = ((sumCost (sampleCost b x) (sw p) : K) : WithTop K) ∧
    ∀ q, Admissible b.length x.length mask q → sumCost (sampleCost b x) (sw p) ≤ sumCost (sampleCost b x) q

theorem assignWith_ok {masks : ℕ → Mat Bool} {ws : List K} (hw : WeightsOk xs ws)
    (hrect : ∀ k < xs.length, Rect (xs.getD k []).length d (xs.getD k [])) {b : List (List K)} (hb : Rect size d b)
    (path : List (List K) → Except PyErr (WithTop K × List (ℕ × ℕ))) (sw : List (ℕ × ℕ) → List (ℕ × ℕ))
    (key : ∀ k < xs.length, ∃ v p, path (xs.getD k []) = .ok (v, p) ∧ PathSpec sw b (xs.getD k []) (masks k) v p) :
    ∃ ps, ∃ c : K, assignWith path xs ws = .ok (ps, (c : WithTop K)) ∧ PathsOk xs size d (ps.map sw) ∧
      Aligns masks xs b (ps.map sw) ∧ IsInertia masks xs ws b c ∧ c = alignCost xs ws (ps.map sw) b / ws.sum := by
  have hex : ∀ x, ∃ r, x ∈ xs → path x = .ok r := by
    intro x
    by_cases hx : x ∈ xs
    · obtain ⟨k, hk, rfl⟩ := List.getElem_of_mem hx
      obtain ⟨v, p, h1, -⟩ := key k hk
      rw [List.getD_eq_getElem _ _ hk] at h1
      exact ⟨_, fun _ => h1⟩
    · exact ⟨(0, []), fun h => absurd h hx⟩
  choose g hg using hex
  have hspec : ∀ k < xs.length, PathSpec sw b (xs.getD k []) (masks k) (g (xs.getD k [])).1 (g (xs.getD k [])).2 := by
    intro k hk
    obtain ⟨v, p, h1, h2⟩ := key k hk
    have : path (xs.getD k []) = .ok (g (xs.getD k [])) := by
      rw [List.getD_eq_getElem _ _ hk]
      exact hg _ (List.getElem_mem _)
    rw [this] at h1
    rw [Except.ok.inj h1]
    exact h2
  have h1 := mapM_except_ok path g xs hg
  have e1 : ∀ k < xs.length, (xs.map g).getD k (0, []) = g (xs.getD k []) := by
    intro k hk; simp [List.getD_eq_getElem?_getD, hk]
  have e2 : ∀ k < xs.length, (((xs.map g).map Prod.snd).map sw).getD k [] = sw (g (xs.getD k [])).2 := by
    intro k hk; simp [List.getD_eq_getElem?_getD, hk]
  have hal : ∀ k < xs.length, Admissible b.length (xs.getD k []).length (masks k) ((((xs.map g).map Prod.snd).map sw).getD k []) ∧
      ∀ q, Admissible b.length (xs.getD k []).length (masks k) q →
        sumCost (sampleCost b (xs.getD k [])) ((((xs.map g).map Prod.snd).map sw).getD k []) ≤
          sumCost (sampleCost b (xs.getD k [])) q := by
    intro k hk
    rw [e2 k hk]
    exact ⟨(hspec k hk).1, (hspec k hk).2.2⟩
  refine ⟨(xs.map g).map Prod.snd, alignCost xs ws (((xs.map g).map Prod.snd).map sw) b / ws.sum, ?_,
    ⟨by simp, fun k hk => ?_, hrect⟩, ⟨by simp, hal⟩,
    ⟨fun k => sumCost (sampleCost b (xs.getD k [])) ((((xs.map g).map Prod.snd).map sw).getD k []), fun k hk => ?_, rfl⟩, rfl⟩
  · have hcost : ((List.range xs.length).map fun k => ((xs.map g).getD k (0, [])).1.map fun v => v * ws.getD k 0).sum =
        ((alignCost xs ws (((xs.map g).map Prod.snd).map sw) b : K) : WithTop K) := by
      unfold alignCost
      rw [listsum_range, listsum_range, WithTop.coe_sum]
      refine Finset.sum_congr rfl fun k hk => ?_
      have hk := Finset.mem_range.1 hk
      rw [e1 k hk, e2 k hk, (hspec k hk).2.1, WithTop.map_coe, mul_comm]
    have hne : ¬ ((∃ k < xs.length, ((xs.map g).getD k (0, [])).1 = ⊤) ∧ ∃ k < xs.length, ws.getD k 0 ≤ 0) := by
      rintro ⟨⟨k, hk, ht⟩, -⟩
      rw [e1 k hk, (hspec k hk).2.1] at ht
      exact WithTop.coe_ne_top ht
    unfold assignWith
    simp only [h1, bind, Except.bind, hw.sum.ne', hne, if_false, hcost]
    rfl
  · rw [← hb.1]; exact (hal k hk).1.1
  · refine ⟨⟨_, (hal k hk).1, rfl⟩, ?_⟩
    rintro e ⟨q, hq, rfl⟩
    exact (hal k hk).2 q hq

theorem mmAssignment_ok {cfg : DbaCfg K} {masks : ℕ → Mat Bool} (h : DbaOk cfg xs size d masks) {ws : List K}
    (hw : WeightsOk xs ws) {b : List (List K)} (hb : Rect size d b) :
    ∃ ps, ∃ c : K, mmAssignment cfg xs ws b = .ok (ps, (c : WithTop K)) ∧ PathsOk xs size d ps ∧ Aligns masks xs b ps ∧
      IsInertia masks xs ws b c ∧ c = alignCost xs ws ps b / ws.sum := by
  have hbne : b ≠ [] := List.length_pos_iff.1 (by rw [hb.1]; exact h.pos)
  have := assignWith_ok (masks := masks) hw h.rect hb (dbaPath cfg b) id (fun k hk => by
    obtain ⟨v, p, h1, -, h3, h4⟩ := dbaPath_spec cfg h.am b (xs.getD k []) hbne (h.ne k hk) (masks k)
      (by rw [hb.1]; exact h.mask k hk)
    refine ⟨v, p, h1, h4 fun hv => h3.1 hv ?_⟩
    rw [hb.1]
    exact h.feasible k hk)
  simpa only [List.map_id, mmAssignment] using this

theorem Spec.IsInertia.unique {masks : ℕ → Mat Bool} {ws : List K} {b : List (List K)} {c c' : K}
    (h : IsInertia masks xs ws b c) (h' : IsInertia masks xs ws b c') : c = c' := by
  obtain ⟨v, h1, rfl⟩ := h
  obtain ⟨v', h1', rfl⟩ := h'
  rw [listsum_range, listsum_range]
  refine congrArg (· / ws.sum) (Finset.sum_congr rfl fun k hk => ?_)
  rw [(h1 k (Finset.mem_range.1 hk)).unique (h1' k (Finset.mem_range.1 hk))]

/-- One round does not increase the inertia. -/
theorem inertia_descent {masks : ℕ → Mat Bool} {ws : List K} (hw : WeightsOk xs ws) {b b' : List (List K)} {c c' : K}
    (hb : Rect size d b) (h : IsInertia masks xs ws b c) (hu : IsUpdate masks xs ws size d b b')
    (h' : IsInertia masks xs ws b' c') : c' ≤ c := by
  obtain ⟨v, h1, rfl⟩ := h
  obtain ⟨v', h1', rfl⟩ := h'
  obtain ⟨hr, ps, ⟨-, ha⟩, hmin⟩ := hu
  refine div_le_div_of_nonneg_right ?_ hw.sum.le
  have e1 : ((List.range xs.length).map fun k => ws.getD k 0 * v k).sum = alignCost xs ws ps b := by
    unfold alignCost
    rw [listsum_range, listsum_range]
    refine Finset.sum_congr rfl fun k hk => ?_
    have hk := Finset.mem_range.1 hk
    have : IsLeast {e | ∃ p, Admissible b.length (xs.getD k []).length (masks k) p ∧
      e = sumCost (sampleCost b (xs.getD k [])) p} (sumCost (sampleCost b (xs.getD k [])) (ps.getD k [])) := by
      refine ⟨⟨_, (ha k hk).1, rfl⟩, ?_⟩
      rintro e ⟨q, hq, rfl⟩
      exact (ha k hk).2 q hq
    rw [(h1 k hk).unique this]
  have e2 : ((List.range xs.length).map fun k => ws.getD k 0 * v' k).sum ≤ alignCost xs ws ps b' := by
    unfold alignCost
    rw [listsum_range, listsum_range]
    refine Finset.sum_le_sum fun k hk => mul_le_mul_of_nonneg_left ?_ (hw.getD k)
    have hk := Finset.mem_range.1 hk
    refine (h1' k hk).2 ⟨_, ?_, rfl⟩
    rw [hr.1, ← hb.1]
    exact (ha k hk).1
  rw [e1]
  refine e2.trans ?_
  by_cases hbb : b = b'
  · rw [hbb]
  · exact (hmin b hb hbb).le

/-- A round that computes the inertia and the update. -/
def RoundOk (masks : ℕ → Mat Bool) (xs : List (List (List K))) (ws : List K) (size d : ℕ)
    (round : List (List K) → Except PyErr (WithTop K × List (List K))) : Prop :=
  ∀ b, Rect size d b → ∃ (c : K) (b' : List (List K)), round b = .ok ((c : WithTop K), b') ∧ Rect size d b' ∧
    IsInertia masks xs ws b c ∧ IsUpdate masks xs ws size d b b'

theorem mmRound_ok {cfg : DbaCfg K} {masks : ℕ → Mat Bool} (h : DbaOk cfg xs size d masks) {ws : List K}
    (hw : WeightsOk xs ws) : RoundOk masks xs ws size d (mmRound cfg xs ws size d) := by
  intro b hb
  obtain ⟨ps, c, h1, h2, h3, h4, -⟩ := mmAssignment_ok h hw hb
  obtain ⟨b', u1, u2, u3⟩ := mmUpdate_min h2 hw
  refine ⟨c, b', ?_, u2, h4, u2, ps, h3, u3⟩
  simp [mmRound, h1, u1, bind, Except.bind, pure, Except.pure]

/-- The loop: `e 0` is the previous cost, `e (t + 1)` the cost of round `t`. -/
theorem dbaLoopWith_ok {masks : ℕ → Mat Bool} {ws : List K} (hw : WeightsOk xs ws) (tol : K)
    {round : List (List K) → Except PyErr (WithTop K × List (List K))} (hround : RoundOk masks xs ws size d round) :
    ∀ (n : ℕ) (b : List (List K)) (prev : WithTop K) (hist : List (WithTop K)),
    Rect size d b → (∀ c : K, IsInertia masks xs ws b c → (c : WithTop K) ≤ prev) →
    ∃ (T : ℕ) (bs : ℕ → List (List K)) (e : ℕ → WithTop K), T ≤ n ∧
      dbaLoopWith tol round n b prev hist = .ok (bs T, hist ++ (List.range T).map (fun t => e (t + 1)), false) ∧
      bs 0 = b ∧ e 0 = prev ∧ (∀ t ≤ T, Rect size d (bs t)) ∧
      (∀ t < T, (∃ c : K, e (t + 1) = (c : WithTop K) ∧ IsInertia masks xs ws (bs t) c) ∧
        IsUpdate masks xs ws size d (bs t) (bs (t + 1)) ∧ e (t + 1) ≤ e t) ∧
      (∀ t, t + 1 < T → closeTo tol (e t) (e (t + 1)) = false) ∧
      (T < n → 0 < T ∧ closeTo tol (e (T - 1)) (e T) = true) := by
  intro n
  induction n with
  | zero =>
    intro b prev hist hb hp
    exact ⟨0, fun _ => b, fun _ => prev, le_rfl, by simp [dbaLoopWith], rfl, rfl, fun _ _ => hb, by simp, by simp, by simp⟩
  | succ n ih =>
    intro b prev hist hb hp
    obtain ⟨c, b', h1, u2, h4, hu⟩ := hround b hb
    have hle := hp c h4
    by_cases hc : closeTo tol prev (c : WithTop K) = true
    · refine ⟨1, fun t => if t = 0 then b else b', fun t => if t = 0 then prev else (c : WithTop K), by omega, ?_, rfl, rfl,
        fun t _ => ?_, fun t ht => ?_, by omega, fun _ => ⟨one_pos, by simpa using hc⟩⟩
      · simp [dbaLoopWith, h1, bind, Except.bind, hc, pure, Except.pure]
      · show Rect size d (if t = 0 then b else b')
        split <;> assumption
      · obtain rfl : t = 0 := by omega
        exact ⟨⟨c, by simp, by simpa using h4⟩, by simpa using hu, by simpa using hle⟩
    · have hc' : closeTo tol prev (c : WithTop K) = false := by simpa using hc
      obtain ⟨T, bs, e, a1, a2, a3, a4, a5, a6, a7, a8⟩ := ih b' (c : WithTop K) (hist ++ [(c : WithTop K)]) u2
        (fun c' hc' => WithTop.coe_le_coe.2 (inertia_descent hw hb h4 hu hc'))
      refine ⟨T + 1, fun t => if t = 0 then b else bs (t - 1), fun t => if t = 0 then prev else e (t - 1), by omega, ?_, rfl, rfl,
        fun t ht => ?_, fun t ht => ?_, fun t ht => ?_, fun ht => ?_⟩
      · have : dbaLoopWith tol round (n + 1) b prev hist = dbaLoopWith tol round n b' (c : WithTop K) (hist ++ [(c : WithTop K)]) := by
          simp [dbaLoopWith, h1, bind, Except.bind, hc', not_lt.2 hle]
        rw [this, a2]
        simp [List.range_succ_eq_map, a4, Function.comp_def]
      · show Rect size d (if t = 0 then b else bs (t - 1))
        split
        · exact hb
        · exact a5 _ (by omega)
      · cases t with
        | zero => exact ⟨⟨c, by simp [a4], by simpa using h4⟩, by simpa [a3] using hu, by simpa [a4] using hle⟩
        | succ t => simpa using a6 t (by omega)
      · cases t with
        | zero => simpa [a4] using hc'
        | succ t => simpa using a7 t (by omega)
      · obtain ⟨b1, b2⟩ := a8 (by omega)
        refine ⟨by omega, ?_⟩
        have : T ≠ 0 := by omega
        simpa [this] using b2

theorem closeTo_iff (tol a b : K) : closeTo tol (a : WithTop K) (b : WithTop K) = true ↔ |a - b| < tol := by
  show decide (|a - b| < tol) = true ↔ _
  simp

/-- The loop is a descent and never warns. -/
theorem dbaLoopWith_descent {masks : ℕ → Mat Bool} {ws : List K} (hw : WeightsOk xs ws) (tol : K)
    {round : List (List K) → Except PyErr (WithTop K × List (List K))} (hround : RoundOk masks xs ws size d round)
    (b : List (List K)) (hb : Rect size d b) (maxIter : ℕ) :
    ∃ T bs c, IsDescent masks xs ws size d tol maxIter T bs c ∧ bs 0 = b ∧ (0 < maxIter → 0 < T) ∧
      dbaLoopWith tol round maxIter b ⊤ [] = .ok (bs T, (List.range T).map (fun t => ((c t : K) : WithTop K)), false) := by
  obtain ⟨T, bs, e, a1, a2, a3, a4, a5, a6, a7, a8⟩ := dbaLoopWith_ok hw tol hround maxIter b ⊤ [] hb (fun c _ => le_top)
  have hc : ∀ t < T, e (t + 1) = (((e (t + 1)).untopD 0 : K) : WithTop K) ∧
      IsInertia masks xs ws (bs t) ((e (t + 1)).untopD 0) := by
    intro t ht
    obtain ⟨⟨c, h1, h2⟩, -⟩ := a6 t ht
    rw [h1]
    exact ⟨rfl, h2⟩
  refine ⟨T, bs, fun t => (e (t + 1)).untopD 0, ⟨a1, a5, fun t ht => (hc t ht).2, fun t ht => (a6 t ht).2.1, ?_, ?_, ?_, ?_⟩,
    a3, ?_, ?_⟩
  · intro t ht
    have := (a6 (t + 1) ht).2.2
    rw [(hc (t + 1) ht).1, (hc t (by omega)).1] at this
    exact WithTop.coe_le_coe.1 this
  · intro c' hT hc'
    have h1 := a6 (T - 1) (by omega)
    have e1 : T - 1 + 1 = T := by omega
    refine inertia_descent hw (a5 (T - 1) (by omega)) (hc (T - 1) (by omega)).2 h1.2.1 ?_
    rw [e1]; exact hc'
  · intro t ht
    have := a7 (t + 1) (by omega)
    rw [(hc t (by omega)).1, (hc (t + 1) (by omega)).1] at this
    by_contra hlt
    rw [(closeTo_iff _ _ _).2 (not_le.1 hlt)] at this
    exact absurd this (by simp)
  · intro ht
    obtain ⟨b1, b2⟩ := a8 ht
    have hT : 2 ≤ T := by
      by_contra hlt
      obtain rfl : T = 1 := by omega
      rw [show (1 : ℕ) - 1 = 0 from rfl, a4] at b2
      exact absurd b2 (by simp [closeTo])
    refine ⟨hT, ?_⟩
    have e1 : T - 1 = (T - 2) + 1 := by omega
    have e2 : T = (T - 1) + 1 := by omega
    rw [e1] at b2
    conv at b2 => enter [1, 3]; rw [e2]
    rw [(hc (T - 2) (by omega)).1, (hc (T - 1) (by omega)).1, closeTo_iff] at b2
    exact b2
  · intro hm
    by_contra h0
    exact h0 (a8 (by omega)).1
  · rw [a2, List.nil_append]
    refine congrArg Except.ok ?_
    rw [List.map_congr_left fun t ht => (hc t (List.mem_range.1 ht)).1]
end
end Verif
