import Verif.Spec.Weighted
import Verif.Proofs.OrderDba
import Verif.Proofs.Dba
import Mathlib.Algebra.BigOperators.Ring.Finset
import Mathlib.Tactic.Ring
import Mathlib.Tactic.FieldSimp
/-!
Barycenters see series and weights only through the total weight of each series.
-/
set_option linter.unusedSectionVars false
namespace Verif
open Spec

section sums
variable {α K : Type} [DecidableEq α] [Field K]

theorem totalWeight_cons (p : α × K) (z : List (α × K)) (x : α) :
    totalWeight (p :: z) x = (if p.1 = x then p.2 else 0) + totalWeight z x := by
  unfold totalWeight
  by_cases h : p.1 = x <;> simp [h]

theorem wsum_total (f : α → K) (s : Finset α) : ∀ z : List (α × K), (∀ p ∈ z, p.1 ∈ s) →
    (z.map fun p => p.2 * f p.1).sum = ∑ x ∈ s, totalWeight z x * f x
  | [], _ => by simp [totalWeight]
  | p :: z, h => by
    rw [List.map_cons, List.sum_cons, wsum_total f s z fun q hq => h q (by simp [hq])]
    simp only [totalWeight_cons, add_mul, Finset.sum_add_distrib, ite_mul, zero_mul]
    rw [Finset.sum_ite_eq, if_pos (h p (by simp))]

/-- Weighted sums depend on the total weights only. -/
theorem wsum_congr {z z' : List (α × K)} {c : K} (h : ∀ x, totalWeight z' x = c * totalWeight z x) (f : α → K) :
    (z'.map fun p => p.2 * f p.1).sum = c * (z.map fun p => p.2 * f p.1).sum := by
  let s : Finset α := (z.map Prod.fst ++ z'.map Prod.fst).toFinset
  have h1 : ∀ p ∈ z, p.1 ∈ s := fun p hp => by
    simp only [s, List.mem_toFinset, List.mem_append]
    exact .inl (List.mem_map_of_mem hp)
  have h2 : ∀ p ∈ z', p.1 ∈ s := fun p hp => by
    simp only [s, List.mem_toFinset, List.mem_append]
    exact .inr (List.mem_map_of_mem hp)
  rw [wsum_total f s z h1, wsum_total f s z' h2, Finset.mul_sum]
  exact Finset.sum_congr rfl fun x _ => by rw [h x]; ring

theorem wsum_congr_weights {z z' : List (α × K)} {c : K} (h : ∀ x, totalWeight z' x = c * totalWeight z x) :
    (z'.map Prod.snd).sum = c * (z.map Prod.snd).sum := by
  simpa using wsum_congr h fun _ => (1 : K)

end sums

section dba
variable {K : Type} [Field K] [LinearOrder K]

theorem sum_coe_top (l : List K) : (l.map (WithTop.some : K → WithTop K)).sum = ((l.sum : K) : WithTop K) := by
  induction l with
  | nil => rfl
  | cons a l ih => rw [List.map_cons, List.sum_cons, ih, List.sum_cons, WithTop.coe_add]

/-- The assignment when every path computation succeeds with a finite value. -/
theorem assignWith_finite {path : List (List K) → Except PyErr (WithTop K × List (ℕ × ℕ))}
    (v : List (List K) → K) (g : List (List K) → List (ℕ × ℕ)) (y : List (List (List K) × K))
    (hy : ∀ p ∈ y, path p.1 = .ok ((v p.1 : WithTop K), g p.1)) :
    assignWith path (y.map Prod.fst) (y.map Prod.snd) =
      if (y.map Prod.snd).sum = 0 then .error .notModelled
      else .ok ((y.map Prod.fst).map g,
        (((y.map fun p => p.2 * v p.1).sum / (y.map Prod.snd).sum : K) : WithTop K)) := by
  have hm := mapM_ok_map path (fun x => ((v x : WithTop K), g x)) (y.map Prod.fst) (by
    intro x hx
    obtain ⟨p, hp, rfl⟩ := List.mem_map.1 hx
    exact hy p hp)
  unfold assignWith
  rw [hm]
  simp only [bind, Except.bind, pure, Except.pure, throw, throwThe, MonadExceptOf.throw]
  by_cases hs : (y.map Prod.snd).sum = 0
  · simp only [if_pos hs]
  · simp only [if_neg hs]
    rw [if_neg]
    · have h5 : ((List.range (y.map Prod.fst).length).map fun k =>
          (((y.map Prod.fst).map fun x => ((v x : WithTop K), g x)).getD k (0, [])).1.map fun a => a * (y.map Prod.snd).getD k 0) =
          (y.map fun p => p.2 * v p.1).map (WithTop.some : K → WithTop K) := by
        refine List.ext_getElem (by simp) fun k h1 h2 => ?_
        have hk : k < y.length := by simpa using h2
        simp [hk, mul_comm]
      rw [h5, sum_coe_top, WithTop.map_coe]
      simp [List.map_map, Function.comp_def]
    · rintro ⟨⟨k, hk, h⟩, -⟩
      have hk : k < y.length := by simpa using hk
      simp [hk] at h

theorem mmUpdate_weights {z z' : List (List (List K) × K)} {c : K} (hc : c ≠ 0)
    (h : ∀ x, totalWeight z' x = c * totalWeight z x) (g : List (List K) → List (ℕ × ℕ)) (size d : ℕ) :
    mmUpdate (z'.map Prod.fst) (z'.map Prod.snd) size d ((z'.map Prod.fst).map g) =
      mmUpdate (z.map Prod.fst) (z.map Prod.snd) size d ((z.map Prod.fst).map g) := by
  have h1 : ∀ i, diagSumV ((z'.map Prod.fst).map g) (z'.map Prod.snd) i =
      c * diagSumV ((z.map Prod.fst).map g) (z.map Prod.snd) i := by
    intro i
    rw [diagSumV_pairs, diagSumV_pairs]
    have := wsum_congr h fun x => ((List.range (pathSz (g x))).map fun j => (warpMat (g x) i j : K)).sum
    simpa only [valence, mul_comm] using this
  have h2 : ∀ i f, sumWX (z'.map Prod.fst) ((z'.map Prod.fst).map g) (z'.map Prod.snd) i f =
      c * sumWX (z.map Prod.fst) ((z.map Prod.fst).map g) (z.map Prod.snd) i f := by
    intro i f
    rw [sumWX_pairs, sumWX_pairs]
    have := wsum_congr h fun x => ((List.range (pathSz (g x))).map fun j => warpMat (g x) i j * (x.getD j []).getD f 0).sum
    have e : ∀ p : List (List K) × K, ((List.range (pathSz (g p.1))).map fun j =>
        warpMat (g p.1) i j * p.2 * (p.1.getD j []).getD f 0).sum =
        p.2 * ((List.range (pathSz (g p.1))).map fun j => warpMat (g p.1) i j * (p.1.getD j []).getD f 0).sum := by
      intro p
      rw [← List.sum_map_mul_left]
      exact congrArg _ (List.map_congr_left fun j _ => by ring)
    simpa only [e] using this
  unfold mmUpdate
  simp only [h1, h2, mul_eq_zero, hc, false_or]
  congr 1
  congr 1
  refine List.map_congr_left fun i _ => List.map_congr_left fun f _ => ?_
  field_simp

theorem petitjeanUpdate_weights {z z' : List (List (List K) × K)} {c : K} (hc : c ≠ 0)
    (h : ∀ x, totalWeight z' x = c * totalWeight z x) (g : List (List K) → List (ℕ × ℕ)) (size d : ℕ) :
    petitjeanUpdate (z'.map Prod.fst) (z'.map Prod.snd) size d ((z'.map Prod.fst).map g) =
      petitjeanUpdate (z.map Prod.fst) (z.map Prod.snd) size d ((z.map Prod.fst).map g) := by
  have hF : ∀ (F : List (List K) → ℕ → K) (t : ℕ),
      ((petitjeanAssign ((z'.map Prod.fst).map g) t).map fun a => F ((z'.map Prod.fst).getD a.1 []) a.2 * (z'.map Prod.snd).getD a.1 0).sum =
      c * ((petitjeanAssign ((z.map Prod.fst).map g) t).map fun a => F ((z.map Prod.fst).getD a.1 []) a.2 * (z.map Prod.snd).getD a.1 0).sum := by
    intro F t
    rw [petitjeanAssign_pairs g z' (fun x w j => F x j * w), petitjeanAssign_pairs g z (fun x w j => F x j * w)]
    have := wsum_congr h fun x => (((g x).filter fun c => c.2 = t).map fun c => F x c.1).sum
    have e : ∀ p : List (List K) × K, (((g p.1).filter fun c => c.2 = t).map fun c => F p.1 c.1 * p.2).sum =
        p.2 * (((g p.1).filter fun c => c.2 = t).map fun c => F p.1 c.1).sum := by
      intro p
      rw [← List.sum_map_mul_left]
      exact congrArg _ (List.map_congr_left fun j _ => by ring)
    simpa only [e] using this
  have h1 : ∀ t, ((petitjeanAssign ((z'.map Prod.fst).map g) t).map fun a => (z'.map Prod.snd).getD a.1 0).sum =
      c * ((petitjeanAssign ((z.map Prod.fst).map g) t).map fun a => (z.map Prod.snd).getD a.1 0).sum := by
    intro t
    simpa only [one_mul] using hF (fun _ _ => 1) t
  have h2 : ∀ f t, _ := fun f t => hF (fun x j => (x.getD j []).getD f 0) t
  unfold petitjeanUpdate
  simp only [h1, h2, mul_eq_zero, hc, false_or, mul_div_mul_left _ _ hc]

/-- Both updates return arrays of the requested shape. -/
theorem mmUpdate_shape {xs : List (List (List K))} {ws : List K} {size d : ℕ} {ps : List (List (ℕ × ℕ))} {b : List (List K)}
    (h : mmUpdate xs ws size d ps = .ok b) : b.length = size := by
  unfold mmUpdate at h
  simp only [bind, Except.bind, throw, throwThe, MonadExceptOf.throw, pure, Except.pure] at h
  split_ifs at h
  cases h
  simp

theorem petitjeanUpdate_shape {xs : List (List (List K))} {ws : List K} {size d : ℕ} {ps : List (List (ℕ × ℕ))} {b : List (List K)}
    (h : petitjeanUpdate xs ws size d ps = .ok b) : b.length = size := by
  unfold petitjeanUpdate at h
  simp only [bind, Except.bind, throw, throwThe, MonadExceptOf.throw, pure, Except.pure] at h
  split_ifs at h
  cases h
  simp

/-- Loops with equal rounds on barycenters of one length. -/
theorem dbaLoopWith_congr (tol : K) {round round' : List (List K) → Except PyErr (WithTop K × List (List K))} {size : ℕ}
    (h : ∀ b, b.length = size → round' b = round b)
    (hs : ∀ b c b', round b = .ok (c, b') → b'.length = size) :
    ∀ (n : ℕ) (b : List (List K)) (prev : WithTop K) (hist : List (WithTop K)), b.length = size →
      dbaLoopWith tol round' n b prev hist = dbaLoopWith tol round n b prev hist
  | 0, _, _, _, _ => rfl
  | n + 1, b, prev, hist, hb => by
    unfold dbaLoopWith
    rw [h b hb]
    cases h1 : round b with
    | error e => rfl
    | ok r =>
      obtain ⟨c, b'⟩ := r
      simp only [bind, Except.bind]
      split_ifs
      · rfl
      · rfl
      · exact dbaLoopWith_congr tol h hs n _ _ _ (hs b c b' h1)

section rounds
variable [IsStrictOrderedRing K]

/-- A path computation that succeeds with a finite value. -/
theorem dbaPath_finite (cfg : DbaCfg K) (ham : IsArgmin3 cfg.am) (hsl : ∀ s, cfg.slope = some s → 1 ≤ s)
    {b x : List (List K)} (hb : b ≠ []) (hx : x ≠ []) {mask : Mat Bool}
    (hm : computeMask b.length x.length cfg.gc.toCode cfg.radius cfg.slope = .ok mask) :
    ∃ (v : K) (p : List (ℕ × ℕ)), dbaPath cfg b x = .ok ((v : WithTop K), p) := by
  obtain ⟨v, p, h1, -, h3, h4⟩ := dbaPath_spec cfg ham b x hb hx mask hm
  have := h4 fun hv => h3.1 hv (computeMask_reachable (List.length_pos_iff.2 hb) (List.length_pos_iff.2 hx) hsl hm).2
  exact ⟨_, p, by rw [h1, this.2.1]⟩

theorem assign_choose {path : List (List K) → Except PyErr (WithTop K × List (ℕ × ℕ))} {l : List (List (List K))}
    (h : ∀ x ∈ l, ∃ (v : K) (p : List (ℕ × ℕ)), path x = .ok ((v : WithTop K), p)) :
    ∃ (v : List (List K) → K) (g : List (List K) → List (ℕ × ℕ)), ∀ x ∈ l, path x = .ok ((v x : WithTop K), g x) := by
  have : ∀ x, ∃ r : K × List (ℕ × ℕ), x ∈ l → path x = .ok ((r.1 : WithTop K), r.2) := by
    intro x
    by_cases hx : x ∈ l
    · obtain ⟨v, p, hp⟩ := h x hx
      exact ⟨(v, p), fun _ => hp⟩
    · exact ⟨(0, []), fun h => absurd h hx⟩
  choose r hr using this
  exact ⟨fun x => (r x).1, fun x => (r x).2, hr⟩

/-- Rounds of both algorithms depend on the total weights only. -/
theorem mmRound_weights (cfg : DbaCfg K) {z z' : List (List (List K) × K)} {c : K} (hc : c ≠ 0)
    (h : ∀ x, totalWeight z' x = c * totalWeight z x) (size d : ℕ) (b : List (List K))
    (hp : ∀ p ∈ z ++ z', ∃ (v : K) (q : List (ℕ × ℕ)), dbaPath cfg b p.1 = .ok ((v : WithTop K), q)) :
    mmRound cfg (z'.map Prod.fst) (z'.map Prod.snd) size d b = mmRound cfg (z.map Prod.fst) (z.map Prod.snd) size d b := by
  obtain ⟨v, g, hg⟩ := assign_choose (l := (z ++ z').map Prod.fst) (path := dbaPath cfg b) (by
    intro x hx
    obtain ⟨p, hp', rfl⟩ := List.mem_map.1 hx
    exact hp p hp')
  unfold mmRound mmAssignment
  rw [assignWith_finite v g z fun p hp => hg _ (List.mem_map_of_mem (List.mem_append_left _ hp)),
    assignWith_finite v g z' fun p hp => hg _ (List.mem_map_of_mem (List.mem_append_right _ hp)),
    wsum_congr h v, wsum_congr_weights h, mul_div_mul_left _ _ hc]
  simp only [mul_eq_zero, hc, false_or]
  split_ifs
  · rfl
  · simp only [bind, Except.bind, mmUpdate_weights hc h g]

theorem petitjeanRound_weights (cfg : DbaCfg K) {z z' : List (List (List K) × K)} {c : K} (hc : c ≠ 0)
    (h : ∀ x, totalWeight z' x = c * totalWeight z x) (size d : ℕ) (b : List (List K))
    (hp : ∀ p ∈ z ++ z', ∃ (v : K) (q : List (ℕ × ℕ)), dbaPath cfg p.1 b = .ok ((v : WithTop K), q)) :
    petitjeanRound cfg (z'.map Prod.fst) (z'.map Prod.snd) size d b = petitjeanRound cfg (z.map Prod.fst) (z.map Prod.snd) size d b := by
  obtain ⟨v, g, hg⟩ := assign_choose (l := (z ++ z').map Prod.fst) (path := fun x => dbaPath cfg x b) (by
    intro x hx
    obtain ⟨p, hp', rfl⟩ := List.mem_map.1 hx
    exact hp p hp')
  unfold petitjeanRound petitjeanAssignment
  rw [assignWith_finite v g z fun p hp => hg _ (List.mem_map_of_mem (List.mem_append_left _ hp)),
    assignWith_finite v g z' fun p hp => hg _ (List.mem_map_of_mem (List.mem_append_right _ hp)),
    wsum_congr h v, wsum_congr_weights h, mul_div_mul_left _ _ hc]
  simp only [mul_eq_zero, hc, false_or]
  split_ifs
  · rfl
  · simp only [bind, Except.bind, petitjeanUpdate_weights hc h g]

theorem mmRound_shape {cfg : DbaCfg K} {xs : List (List (List K))} {ws : List K} {size d : ℕ} {b b' : List (List K)} {c : WithTop K}
    (h : mmRound cfg xs ws size d b = .ok (c, b')) : b'.length = size := by
  unfold mmRound at h
  cases h1 : mmAssignment cfg xs ws b with
  | error e => simp [h1, bind, Except.bind] at h
  | ok r =>
    cases h2 : mmUpdate xs ws size d r.1 with
    | error e => simp [h1, h2, bind, Except.bind] at h
    | ok u =>
      simp only [h1, h2, bind, Except.bind, pure, Except.pure, Except.ok.injEq, Prod.mk.injEq] at h
      rw [← h.2]
      exact mmUpdate_shape h2

theorem petitjeanRound_shape {cfg : DbaCfg K} {xs : List (List (List K))} {ws : List K} {size d : ℕ} {b b' : List (List K)} {c : WithTop K}
    (h : petitjeanRound cfg xs ws size d b = .ok (c, b')) : b'.length = size := by
  unfold petitjeanRound at h
  cases h1 : petitjeanAssignment cfg xs ws b with
  | error e => simp [h1, bind, Except.bind] at h
  | ok r =>
    cases h2 : petitjeanUpdate xs ws size d r.1 with
    | error e => simp [h1, h2, bind, Except.bind] at h
    | ok u =>
      simp only [h1, h2, bind, Except.bind, pure, Except.pure, Except.ok.injEq, Prod.mk.injEq] at h
      rw [← h.2]
      exact petitjeanUpdate_shape h2

end rounds
end dba
end Verif
