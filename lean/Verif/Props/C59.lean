import Verif.Props.C58
/-!
C59: `dtw_barycenter_averaging_subgradient`. Its steps are subgradient steps with the announced step sizes; the weights that it
accepts have no influence on them.
-/
set_option linter.unusedSectionVars false
namespace Verif
open Spec
variable {K : Type} [Field K] [LinearOrder K] [IsStrictOrderedRing K]

/-- The assignment of a single series with positive weights. -/
theorem mmAssignment_single (cfg : DbaCfg K) (x b : List (List K)) {ws : List K} (hne : ws ≠ []) (hw : ∀ w ∈ ws, 0 < w) :
    mmAssignment cfg [x] ws b = (dbaPath cfg b x).map fun r => ([r.2], r.1.map fun v => v * (ws.getD 0 0 / ws.sum)) := by
  have hs : 0 < ws.sum := by
    obtain ⟨w, ws, rfl⟩ := List.exists_cons_of_ne_nil hne
    rw [List.sum_cons]
    exact add_pos_of_pos_of_nonneg (hw w (by simp)) (List.sum_nonneg fun a ha => (hw a (by simp [ha])).le)
  have h0 : ¬ ws.getD 0 0 ≤ 0 := by
    obtain ⟨w, ws, rfl⟩ := List.exists_cons_of_ne_nil hne
    exact not_le.2 (hw w (by simp))
  unfold mmAssignment assignWith
  cases hp : dbaPath cfg b x with
  | error e => simp [hp, bind, Except.bind, Except.map]
  | ok r =>
    obtain ⟨v, p⟩ := r
    have : ([x].mapM (dbaPath cfg b)) = .ok [(v, p)] := by simp [hp, bind, Except.bind, pure, Except.pure]
    rw [this]
    simp only [bind, Except.bind, hs.ne', if_false, Except.map]
    rw [if_neg (by rintro ⟨-, k, hk, hk2⟩; exact h0 (by simpa [show k = 0 by simpa using hk] using hk2))]
    cases v with
    | top => simp [pure, Except.pure]
    | coe v =>
      simp only [pure, Except.pure, List.length_singleton, List.range_one, List.map_cons, List.map_nil, List.sum_cons,
        List.sum_nil, add_zero, List.getD_cons_zero, WithTop.map_coe, mul_div_assoc]

theorem subgradUpdate_weight (x : List (List K)) {w : K} (hw : w ≠ 0) (eta : K) (p : List (ℕ × ℕ)) (b : List (List K)) :
    subgradUpdate x w eta p b = subgradUpdate x 1 eta p b := by
  unfold subgradUpdate
  rw [if_neg hw, if_neg one_ne_zero]
  refine congrArg Except.ok (List.map_congr_left fun i _ => List.map_congr_left fun f _ => ?_)
  have h1 : ((List.range (pathSz p)).map fun j => warpMat p i j * w * (x.getD j []).getD f 0).sum =
      w * ((List.range (pathSz p)).map fun j => warpMat p i j * 1 * (x.getD j []).getD f 0).sum := by
    rw [← List.sum_map_mul_left]
    exact congrArg _ (List.map_congr_left fun j _ => by ring)
  have h2 : valence p w i = w * valence p 1 i := by unfold valence; ring
  rw [h1, h2]
  field_simp

theorem subgradUpdate_spec {x b : List (List K)} {n d : ℕ} (hb : Rect n d b) {p : List (ℕ × ℕ)}
    (hp : IsWarpingPath n x.length p) (eta : K) {w : K} (hw : w ≠ 0) :
    ∃ b', subgradUpdate x w eta p b = .ok b' ∧ Rect n d b' ∧ ∀ i < n, ∀ f < d, (b'.getD i []).getD f 0 =
      (b.getD i []).getD f 0 -
        eta * ((p.filter fun c => c.1 = i).map fun c => 2 * ((b.getD i []).getD f 0 - (x.getD c.2 []).getD f 0)).sum := by
  rw [subgradUpdate_weight x hw]
  unfold subgradUpdate
  rw [if_neg one_ne_zero]
  refine ⟨_, rfl, ⟨by simp [hb.1], fun r hr => ?_⟩, fun i hi f hf => ?_⟩
  · obtain ⟨i, hi, rfl⟩ := List.mem_map.1 hr
    have := hb.get (hb.1 ▸ List.mem_range.1 hi)
    simpa using this
  · have hl := hb.get hi
    rw [row_sum hp hi fun j => 2 * ((b.getD i []).getD f 0 - (x.getD j []).getD f 0)]
    have e : ∀ g : ℕ → ℕ → K, (((List.range b.length).map fun i => (List.range (b.getD i []).length).map fun f =>
        g i f).getD i []).getD f 0 = g i f := by
      intro g
      have h1 : i < b.length := by rw [hb.1]; exact hi
      exact getD_table (fun i => (b.getD i []).length) g _ h1 (by rw [hl]; exact hf)
    rw [e fun i f => (b.getD i []).getD f 0 - 2 * eta / 1 * (valence p 1 i * (b.getD i []).getD f 0 -
      ((List.range (pathSz p)).map fun j => warpMat p i j * 1 * (x.getD j []).getD f 0).sum)]
    unfold valence
    rw [pathSz_eq hp, listsum_range, listsum_range]
    simp only [mul_sub, mul_one, Finset.sum_sub_distrib, Finset.mul_sum, Finset.sum_mul]
    refine congrArg _ ?_
    refine congrArg₂ _ (Finset.sum_congr rfl fun j _ => by ring) (Finset.sum_congr rfl fun j _ => by ring)

/-- One step moves the barycenter against the gradient of the squared DTW distance to the current series. The cost that is
monitored is this squared distance times a factor made of the first weight. -/
theorem C59_step (cfg : DbaCfg K) (xs : List (List (List K))) (size d : ℕ) (masks : ℕ → Mat Bool) (h : DbaOk cfg xs size d masks)
    (ws : List K) (hl : ws.length = xs.length) (hw : ∀ w ∈ ws, 0 < w) (eta : K) (idx : ℕ) (hi : idx < xs.length)
    (b : List (List K)) (hb : Rect size d b) :
    ∃ (v : K) (b' : List (List K)),
      subgradStep cfg xs ws eta idx b = .ok (((v * (ws.getD 0 0 / ws.sum) : K) : WithTop K), b') ∧
      IsLeast {e | ∃ p, Admissible size (xs.getD idx []).length (masks idx) p ∧
        e = sumCost (sampleCost b (xs.getD idx [])) p} v ∧
      IsSubgradStep (masks idx) (xs.getD idx []) size d eta b b' := by
  have hbne : b ≠ [] := List.length_pos_iff.1 (by rw [hb.1]; exact h.pos)
  have hm := h.mask idx hi
  rw [← hb.1] at hm
  obtain ⟨v, p, h1, h2, h3, h4⟩ := dbaPath_spec cfg h.am b (xs.getD idx []) hbne (h.ne idx hi) _ hm
  have hv : v ≠ ⊤ := fun hv => h3.1 hv
    (computeMask_reachable (List.length_pos_iff.2 hbne) (List.length_pos_iff.2 (h.ne idx hi)) h.slope hm).2
  obtain ⟨a1, rfl, a3⟩ := h4 hv
  rw [hb.1] at a1 a3 h2
  have hwi : ws.getD idx 0 ≠ 0 := by
    rw [List.getD_eq_getElem _ _ (by omega)]; exact (hw _ (List.getElem_mem _)).ne'
  obtain ⟨b', u1, u2, u3⟩ := subgradUpdate_spec hb h2 eta hwi
  refine ⟨_, b', ?_, ⟨⟨p, a1, rfl⟩, ?_⟩, u2, p, a1, a3, u3⟩
  · unfold subgradStep
    rw [mmAssignment_single cfg _ b (List.length_pos_iff.1 (by omega)) hw, h1]
    simp only [Except.map, bind, Except.bind, List.getD_cons_zero, u1]
    rfl
  · rintro e ⟨q, hq, rfl⟩; exact a3 q hq

/-- A step that is not too long never increases the squared DTW distance to the current series: it is enough that `eta` times
the number of samples aligned with a sample of the barycenter is at most 1 (hence `eta * length ≤ 1`). -/
theorem C59_descent (mask : Mat Bool) (x : List (List K)) (n d : ℕ) (hx : Rect x.length d x) (eta : K) (h0 : 0 ≤ eta)
    (h1 : eta * (x.length : K) ≤ 1) (b b' : List (List K)) (hb : Rect n d b) (h : IsSubgradStep mask x n d eta b b') (v v' : K)
    (hv : IsLeast {e | ∃ p, Admissible n x.length mask p ∧ e = sumCost (sampleCost b x) p} v)
    (hv' : IsLeast {e | ∃ p, Admissible n x.length mask p ∧ e = sumCost (sampleCost b' x) p} v') : v' ≤ v := by
  obtain ⟨hb', p, hp, hopt, hstep⟩ := h
  obtain ⟨⟨q, hq, rfl⟩, -⟩ := hv
  refine le_trans (hv'.2 ⟨p, hp, rfl⟩) (le_trans ?_ (hopt q hq))
  have hP : PathsOk [x] n d [p] := ⟨rfl, fun k hk => by
    obtain rfl : k = 0 := by simpa using hk
    exact hp.1, fun k hk => by
    obtain rfl : k = 0 := by simpa using hk
    exact hx⟩
  obtain ⟨C, hC⟩ := alignCost_quadratic hP [(1 : K)]
  have e : ∀ a, alignCost [x] [(1 : K)] [p] a = sumCost (sampleCost a x) p := fun a => by simp [alignCost]
  rw [← e, ← e, hC b hb, hC b' hb']
  refine add_le_add (Finset.sum_le_sum fun i hi => Finset.sum_le_sum fun f hf => ?_) le_rfl
  have hi := Finset.mem_range.1 hi
  rw [hstep i hi f (Finset.mem_range.1 hf), row_sum hp.1 hi fun j => 2 * ((b.getD i []).getD f 0 - (x.getD j []).getD f 0)]
  have eV : diagSumV [p] [(1 : K)] i = ∑ j ∈ Finset.range x.length, (warpMat p : Mat K) i j := by
    rw [diagSumV_eq hP]; simp
  have eS : sumWX [x] [p] [(1 : K)] i f = ∑ j ∈ Finset.range x.length, (warpMat p : Mat K) i j * (x.getD j []).getD f 0 := by
    rw [sumWX_eq hP]; simp
  have eG : (∑ j ∈ Finset.range x.length, (warpMat p : Mat K) i j * (2 * ((b.getD i []).getD f 0 - (x.getD j []).getD f 0))) =
      2 * (diagSumV [p] [(1 : K)] i * (b.getD i []).getD f 0 - sumWX [x] [p] [(1 : K)] i f) := by
    rw [eV, eS, Finset.sum_mul, ← Finset.sum_sub_distrib, Finset.mul_sum]
    exact Finset.sum_congr rfl fun j _ => by ring
  have hV : eta * diagSumV [p] [(1 : K)] i ≤ 1 := by
    refine le_trans (mul_le_mul_of_nonneg_left ?_ h0) h1
    rw [eV]
    refine le_trans (Finset.sum_le_sum (g := fun _ => (1 : K)) fun j _ => ?_) (by simp)
    rw [warpMat_apply]; split <;> simp
  rw [eG]
  generalize diagSumV [p] [(1 : K)] i = V at *
  generalize sumWX [x] [p] [(1 : K)] i f = S at *
  generalize (b.getD i []).getD f 0 = y at *
  have : 0 ≤ 4 * eta * (1 - eta * V) * (V * y - S) ^ 2 :=
    mul_nonneg (mul_nonneg (by linarith) (by linarith)) (sq_nonneg _)
  nlinarith [this]

theorem subgradEpoch_eta (cfg : DbaCfg K) (xs : List (List (List K))) (ws : List K) (delta : K) :
    ∀ (idxs : List ℕ) (s s' : K × List (List K) × WithTop K), subgradEpoch cfg xs ws delta idxs s = .ok s' →
      s'.1 = s.1 - (idxs.length : K) * delta := by
  intro idxs
  induction idxs with
  | nil => intro s s' h; simp only [subgradEpoch, Except.ok.injEq] at h; simp [← h]
  | cons i idxs ih =>
    rintro ⟨eta, b, c⟩ s' h
    simp only [subgradEpoch, bind, Except.bind] at h
    cases hs : subgradStep cfg xs ws eta i b with
    | error e => rw [hs] at h; simp at h
    | ok r =>
      rw [hs] at h
      rw [ih _ _ h]
      simp only [List.length_cons, Nat.cast_add, Nat.cast_one]
      ring

/-- The step size decreases linearly from the initial to the final one during the first epoch over all series and stays there. -/
theorem C59_schedule (cfg : DbaCfg K) (xs : List (List (List K))) (hne : xs ≠ []) (ws : List K) (step final : K) (idxs : List ℕ)
    (hp : idxs.Perm (List.range xs.length)) (b b' : List (List K)) (c c' : WithTop K) (eta : K) :
    (subgradEpoch cfg xs ws ((step - final) / (xs.length : K)) idxs (step, b, c) = .ok (eta, b', c') → eta = final) ∧
    (subgradEpoch cfg xs ws 0 idxs (final, b, c) = .ok (eta, b', c') → eta = final) := by
  have hn : (xs.length : K) ≠ 0 := Nat.cast_ne_zero.2 (by simpa using hne)
  constructor
  · intro h
    have := subgradEpoch_eta _ _ _ _ _ _ _ h
    simp only [hp.length_eq, List.length_range] at this
    rw [this, mul_div_cancel₀ _ hn]; ring
  · intro h
    have := subgradEpoch_eta _ _ _ _ _ _ _ h
    simpa using this

/-! ### Weights -/

/-- Costs of two runs differ by a positive factor. -/
def scaleW (r : K) (c : WithTop K) : WithTop K := c.map fun v => v * r

theorem scaleW_lt {r : K} (hr : 0 < r) (a b : WithTop K) : scaleW r a < scaleW r b ↔ a < b := by
  cases a <;> cases b <;>
    simp only [scaleW, WithTop.map_top, WithTop.map_coe, lt_irrefl, not_top_lt, WithTop.coe_lt_top, WithTop.coe_lt_coe,
      mul_lt_mul_iff_left₀ hr]

variable {ws ws' : List K}

theorem weights_ratio (hl : ws'.length = ws.length) (hne : ws ≠ []) (hw : ∀ w ∈ ws, 0 < w) (hw' : ∀ w ∈ ws', 0 < w) :
    ∃ r : K, 0 < r ∧ ws'.getD 0 0 / ws'.sum = ws.getD 0 0 / ws.sum * r := by
  have key : ∀ l : List K, l ≠ [] → (∀ w ∈ l, 0 < w) → 0 < l.getD 0 0 / l.sum := by
    intro l hl h
    obtain ⟨w, l, rfl⟩ := List.exists_cons_of_ne_nil hl
    refine div_pos (h w (by simp)) ?_
    rw [List.sum_cons]
    exact add_pos_of_pos_of_nonneg (h w (by simp)) (List.sum_nonneg fun a ha => (h a (by simp [ha])).le)
  have hne' : ws' ≠ [] := List.length_pos_iff.1 (by rw [hl]; exact List.length_pos_iff.2 hne)
  exact ⟨_, div_pos (key ws' hne' hw') (key ws hne hw), (mul_div_cancel₀ _ (key ws hne hw).ne').symm⟩

theorem subgradStep_weights (cfg : DbaCfg K) (xs : List (List (List K))) (hl : ws'.length = ws.length) (hne : ws ≠ [])
    (hw : ∀ w ∈ ws, 0 < w) (hw' : ∀ w ∈ ws', 0 < w) {r : K} (hr : ws'.getD 0 0 / ws'.sum = ws.getD 0 0 / ws.sum * r)
    (eta : K) (idx : ℕ) (b : List (List K)) :
    subgradStep cfg xs ws' eta idx b = (subgradStep cfg xs ws eta idx b).map fun s => (scaleW r s.1, s.2) := by
  have hne' : ws' ≠ [] := List.length_pos_iff.1 (by rw [hl]; exact List.length_pos_iff.2 hne)
  unfold subgradStep
  rw [mmAssignment_single cfg _ b hne hw, mmAssignment_single cfg _ b hne' hw']
  cases hp : dbaPath cfg b (xs.getD idx []) with
  | error e => simp [Except.map, bind, Except.bind]
  | ok q =>
    obtain ⟨v, p⟩ := q
    have hu : subgradUpdate (xs.getD idx []) (ws'.getD idx 0) eta p b =
        subgradUpdate (xs.getD idx []) (ws.getD idx 0) eta p b := by
      by_cases hi : idx < ws.length
      · have hi' : idx < ws'.length := by omega
        rw [subgradUpdate_weight _ (w := ws'.getD idx 0), subgradUpdate_weight _ (w := ws.getD idx 0)]
        · rw [List.getD_eq_getElem _ _ hi]; exact (hw _ (List.getElem_mem _)).ne'
        · rw [List.getD_eq_getElem _ _ hi']; exact (hw' _ (List.getElem_mem _)).ne'
      · rw [List.getD_eq_default ws' _ (by omega), List.getD_eq_default ws _ (by omega)]
    simp only [Except.map, bind, Except.bind, List.getD_cons_zero, hu]
    cases subgradUpdate (xs.getD idx []) (ws.getD idx 0) eta p b with
    | error e => rfl
    | ok b' =>
      simp only [pure, Except.pure, scaleW, hr]
      cases v with
      | top => rfl
      | coe v => simp only [WithTop.map_coe, mul_assoc]

theorem subgradEpoch_weights (cfg : DbaCfg K) (xs : List (List (List K))) (hl : ws'.length = ws.length) (hne : ws ≠ [])
    (hw : ∀ w ∈ ws, 0 < w) (hw' : ∀ w ∈ ws', 0 < w) {r : K} (hr : ws'.getD 0 0 / ws'.sum = ws.getD 0 0 / ws.sum * r)
    (delta : K) : ∀ (idxs : List ℕ) (eta : K) (b : List (List K)) (c : WithTop K),
    subgradEpoch cfg xs ws' delta idxs (eta, b, scaleW r c) =
      (subgradEpoch cfg xs ws delta idxs (eta, b, c)).map fun s => (s.1, s.2.1, scaleW r s.2.2) := by
  intro idxs
  induction idxs with
  | nil => intro eta b c; rfl
  | cons i idxs ih =>
    intro eta b c
    simp only [subgradEpoch, subgradStep_weights cfg xs hl hne hw hw' hr]
    cases subgradStep cfg xs ws eta i b with
    | error e => rfl
    | ok s => simp only [Except.map, bind, Except.bind, ih]

theorem closeTo_nonpos {tol : K} (ht : tol ≤ 0) (a b : WithTop K) : closeTo tol a b = false := by
  cases a with
  | top => rfl
  | coe a =>
    cases b with
    | top => rfl
    | coe b =>
      show decide (|a - b| < tol) = false
      simpa using le_trans ht (abs_nonneg _)

theorem subgradLoop_weights (cfg : DbaCfg K) (ht : cfg.tol ≤ 0) (xs : List (List (List K))) (hl : ws'.length = ws.length)
    (hne : ws ≠ []) (hw : ∀ w ∈ ws, 0 < w) (hw' : ∀ w ∈ ws', 0 < w) {r : K} (hr0 : 0 < r)
    (hr : ws'.getD 0 0 / ws'.sum = ws.getD 0 0 / ws.sum * r) (delta : K) (perms : ℕ → List ℕ) :
    ∀ (n it : ℕ) (eta : K) (b : List (List K)) (c prev : WithTop K),
      subgradLoop cfg xs ws' delta perms n it (eta, b, scaleW r c) (scaleW r prev) =
        subgradLoop cfg xs ws delta perms n it (eta, b, c) prev := by
  intro n
  induction n with
  | zero => intro it eta b c prev; rfl
  | succ n ih =>
    intro it eta b c prev
    simp only [subgradLoop, subgradEpoch_weights cfg xs hl hne hw hw' hr]
    cases subgradEpoch cfg xs ws (if it = 0 then delta else 0) (perms it) (eta, b, c) with
    | error e => rfl
    | ok s =>
      obtain ⟨eta', b', c'⟩ := s
      simp only [Except.map, bind, Except.bind, closeTo_nonpos ht, Bool.false_eq_true, if_false, scaleW_lt hr0, ih]

/-- Positive weights have no influence on the result, up to the stopping rule on small changes (`tol`). -/
theorem C59_weights_ignored (cfg : DbaCfg K) (ht : cfg.tol ≤ 0) (xs : List (List (List K))) (ws ws' : List K)
    (hl : ws'.length = ws.length) (hw : ∀ w ∈ ws, 0 < w) (hw' : ∀ w ∈ ws', 0 < w) (step final : K) (perms : ℕ → List ℕ)
    (maxIter : ℕ) (b : List (List K)) :
    subgradDba cfg xs ws' step final perms maxIter b = subgradDba cfg xs ws step final perms maxIter b := by
  by_cases hne : ws = []
  · subst hne
    obtain rfl : ws' = [] := List.length_eq_zero_iff.1 (by simpa using hl)
    rfl
  · obtain ⟨r, hr0, hr⟩ := weights_ratio hl hne hw hw'
    exact subgradLoop_weights cfg ht xs hl hne hw hw' hr0 hr _ perms maxIter 0 step b ⊤ ⊤

/-- So the documented weighting is not performed: the weighted cost has different minimisers for the two lists of weights, the
results are the same for every number of iterations and every order of the series. -/
theorem C59_false : ∃ (xs : List (List (List ℚ))) (ws ws' : List ℚ), (∀ w ∈ ws, 0 < w) ∧ (∀ w ∈ ws', 0 < w) ∧
    mmUpdate xs ws 1 1 [[(0, 0)], [(0, 0)]] = .ok [[1 / 10]] ∧ mmUpdate xs ws' 1 1 [[(0, 0)], [(0, 0)]] = .ok [[9 / 10]] ∧
    ∀ step final perms maxIter b, subgradDba ⟨.code 0, none, none, 0, argmin3⟩ xs ws' step final perms maxIter b =
      subgradDba ⟨.code 0, none, none, 0, argmin3⟩ xs ws step final perms maxIter b := by
  have h1 : ∀ w ∈ [(9 : ℚ), 1], 0 < w := by simp
  have h2 : ∀ w ∈ [(1 : ℚ), 9], 0 < w := by simp
  exact ⟨[[[0]], [[1]]], [9, 1], [1, 9], h1, h2, by decide +kernel, by decide +kernel, fun step final perms maxIter b =>
    C59_weights_ignored _ le_rfl _ [9, 1] [1, 9] rfl h1 h2 step final perms maxIter b⟩

section Loop
variable {cfg : DbaCfg K} {xs : List (List (List K))} {size d : ℕ} {masks : ℕ → Mat Bool} {ws : List K}

theorem subgradEpoch_run (h : DbaOk cfg xs size d masks) (hl : ws.length = xs.length) (hw : ∀ w ∈ ws, 0 < w) (delta : K) :
    ∀ (idxs : List ℕ) (_ : ∀ i ∈ idxs, i < xs.length) (eta : K) (k : ℕ) (b : List (List K)) (_ : Rect size d b) (v : K),
    ∃ (b' : List (List K)) (v' : K),
      subgradEpoch cfg xs ws delta idxs (eta - (k : K) * delta, b, ((v * (ws.getD 0 0 / ws.sum) : K) : WithTop K)) =
        .ok (eta - ((k + idxs.length : ℕ) : K) * delta, b', ((v' * (ws.getD 0 0 / ws.sum) : K) : WithTop K)) ∧
      Rect size d b' ∧
      SgRun masks xs size d ((idxs.zipIdx k).map fun ij => (ij.1, eta - (ij.2 : K) * delta)) b v b' v' := by
  intro idxs
  induction idxs with
  | nil => intro _ eta k b hb v; exact ⟨b, v, by simp [subgradEpoch], hb, rfl, rfl⟩
  | cons i idxs ih =>
    intro hi eta k b hb v
    obtain ⟨w, b1, h1, h2, h3⟩ := C59_step cfg xs size d masks h ws hl hw (eta - (k : K) * delta) i (hi i (by simp)) b hb
    obtain ⟨b', v', g1, g2, g3⟩ := ih (fun j hj => hi j (by simp [hj])) eta (k + 1) b1 h3.1 w
    refine ⟨b', v', ?_, g2, b1, w, h2, h3, g3⟩
    have e1 : eta - (k : K) * delta - delta = eta - ((k + 1 : ℕ) : K) * delta := by push_cast; ring
    have e2 : k + (i :: idxs).length = k + 1 + idxs.length := by simp; omega
    rw [e2, ← g1]
    simp only [subgradEpoch, h1, bind, Except.bind, e1]

theorem SgRun_start (masks : ℕ → Mat Bool) (xs : List (List (List K))) {l : List (ℕ × K)} (hl : l ≠ []) {b b' : List (List K)} {v v' : K}
    (h : SgRun masks xs size d l b v b' v') (u : K) : SgRun masks xs size d l b u b' v' := by
  obtain ⟨a, l, rfl⟩ := List.exists_cons_of_ne_nil hl
  exact h

theorem subgradEpoch_schedule (h : DbaOk cfg xs size d masks) (hne : xs ≠ []) (hl : ws.length = xs.length) (hw : ∀ w ∈ ws, 0 < w)
    (step final : K) (it : ℕ) (idxs : List ℕ) (hp : idxs.Perm (List.range xs.length)) (b : List (List K)) (hb : Rect size d b)
    (c : WithTop K) :
    ∃ (b' : List (List K)) (v' : K),
      subgradEpoch cfg xs ws (if it = 0 then (step - final) / (xs.length : K) else 0) idxs (if it = 0 then step else final, b, c) =
        .ok (final, b', ((v' * (ws.getD 0 0 / ws.sum) : K) : WithTop K)) ∧ Rect size d b' ∧
      SgRun masks xs size d (sgSchedule xs.length step final it idxs) b 0 b' v' := by
  have hn : (xs.length : K) ≠ 0 := Nat.cast_ne_zero.2 (by simpa using hne)
  have hidx : ∀ i ∈ idxs, i < xs.length := fun i hi => List.mem_range.1 (hp.mem_iff.1 hi)
  have hlen : idxs.length = xs.length := by simpa using hp.length_eq
  have hine : idxs ≠ [] := List.length_pos_iff.1 (by rw [hlen]; exact List.length_pos_iff.2 hne)
  obtain ⟨b', v', h1, h2, h3⟩ := subgradEpoch_run h hl hw (if it = 0 then (step - final) / (xs.length : K) else 0) idxs hidx
    (if it = 0 then step else final) 0 b hb 0
  refine ⟨b', v', ?_, h2, ?_⟩
  · have hc : ∀ c', subgradEpoch cfg xs ws (if it = 0 then (step - final) / (xs.length : K) else 0) idxs
        (if it = 0 then step else final, b, c) = subgradEpoch cfg xs ws (if it = 0 then (step - final) / (xs.length : K) else 0) idxs
        (if it = 0 then step else final, b, c') := fun c' => by
      obtain ⟨a, l, rfl⟩ := List.exists_cons_of_ne_nil hine
      rfl
    rw [hc ((((0 : K) * (ws.getD 0 0 / ws.sum) : K)) : WithTop K)]
    simp only [Nat.cast_zero, zero_mul, sub_zero, Nat.zero_add, hlen] at h1 ⊢
    rw [h1]
    by_cases hit : it = 0
    · simp only [hit, if_true, mul_div_cancel₀ _ hn, sub_sub_cancel]
    · simp only [hit, if_false, mul_zero, sub_zero]
  · have : sgSchedule xs.length step final it idxs = (idxs.zipIdx 0).map fun ij =>
        (ij.1, (if it = 0 then step else final) - (ij.2 : K) * (if it = 0 then (step - final) / (xs.length : K) else 0)) := by
      unfold sgSchedule
      refine List.map_congr_left fun ij _ => ?_
      by_cases hit : it = 0 <;> simp [hit]
    rw [this]
    exact h3

end Loop

theorem subgradLoop_run (cfg : DbaCfg K) (xs : List (List (List K))) (hne : xs ≠ []) (size d : ℕ) (masks : ℕ → Mat Bool)
    (h : DbaOk cfg xs size d masks) (ws : List K) (hl : ws.length = xs.length) (hw : ∀ w ∈ ws, 0 < w) (step final : K)
    (perms : ℕ → List ℕ) (hp : ∀ it, (perms it).Perm (List.range xs.length)) :
    ∀ (n it : ℕ) (b : List (List K)) (_ : Rect size d b) (c prev : WithTop K),
    ∃ (T : ℕ) (bs : ℕ → List (List K)) (v : ℕ → K) (cst : ℕ → WithTop K), T ≤ n ∧ bs 0 = b ∧ (0 < n → 0 < T) ∧ cst 0 = prev ∧
      (∀ t < T, cst (t + 1) = ((v t * (ws.getD 0 0 / ws.sum) : K) : WithTop K)) ∧
      (∀ t < T, SgRun masks xs size d (sgSchedule xs.length step final (it + t) (perms (it + t))) (bs t) 0 (bs (t + 1)) (v t)) ∧
      (∀ t, t + 1 < T → closeTo cfg.tol (cst t) (cst (t + 1)) = false ∧ ¬ cst t < cst (t + 1)) ∧
      (T < n → closeTo cfg.tol (cst (T - 1)) (cst T) = true ∨ cst (T - 1) < cst T) ∧
      subgradLoop cfg xs ws ((step - final) / (xs.length : K)) perms n it (if it = 0 then step else final, b, c) prev = .ok (bs T) := by
  intro n
  induction n with
  | zero =>
    intro it b hb c prev
    exact ⟨0, fun _ => b, fun _ => 0, fun _ => prev, le_rfl, rfl, id, rfl, by simp, by simp, by simp, by simp, rfl⟩
  | succ n ih =>
    intro it b hb c prev
    obtain ⟨b', v', h1, h2, h3⟩ := subgradEpoch_schedule h hne hl hw step final it (perms it) (hp it) b hb c
    by_cases hstop : closeTo cfg.tol prev ((v' * (ws.getD 0 0 / ws.sum) : K) : WithTop K) = true ∨
        prev < ((v' * (ws.getD 0 0 / ws.sum) : K) : WithTop K)
    · refine ⟨1, fun t => if t = 0 then b else b', fun _ => v', fun t => if t = 0 then prev else
        ((v' * (ws.getD 0 0 / ws.sum) : K) : WithTop K), by omega, rfl, by simp, rfl, fun t _ => by simp, fun t ht => ?_,
        fun t ht => by omega, fun _ => by simpa using hstop, ?_⟩
      · obtain rfl : t = 0 := by omega
        simpa using h3
      · simp only [subgradLoop, h1, bind, Except.bind]
        by_cases hcl : closeTo cfg.tol prev ((v' * (ws.getD 0 0 / ws.sum) : K) : WithTop K) = true
        · rw [if_pos hcl]; rfl
        · rw [if_neg hcl, if_pos (hstop.resolve_left hcl)]; rfl
    · push Not at hstop
      obtain ⟨hcl, hlt⟩ := hstop
      obtain ⟨T, bs, v, cst, g1, g2, g3, g4, g5, g6, g7, g8, g9⟩ := ih (it + 1) b' h2 ((v' * (ws.getD 0 0 / ws.sum) : K) : WithTop K)
        ((v' * (ws.getD 0 0 / ws.sum) : K) : WithTop K)
      refine ⟨T + 1, fun t => if t = 0 then b else bs (t - 1), fun t => if t = 0 then v' else v (t - 1),
        fun t => if t = 0 then prev else cst (t - 1), by omega, rfl, by simp, rfl, fun t ht => ?_, fun t ht => ?_, fun t ht => ?_,
        fun ht => ?_, ?_⟩
      · cases t with
        | zero => simpa using g4
        | succ t => simpa using g5 t (by omega)
      · cases t with
        | zero => simpa [g2] using h3
        | succ t =>
          have := g6 t (by omega)
          rw [show it + 1 + t = it + (t + 1) by omega] at this
          simpa using this
      · cases t with
        | zero =>
          change closeTo cfg.tol prev (cst 0) = false ∧ ¬ prev < cst 0
          rw [g4]
          exact ⟨Bool.eq_false_iff.2 hcl, not_lt.2 hlt⟩
        | succ t => simpa using g7 t (by omega)
      · have hT : 0 < T := g3 (by omega)
        have := g8 (by omega)
        simpa [hT.ne'] using this
      · rw [if_neg (by omega)] at g9
        simp only [subgradLoop, h1, bind, Except.bind]
        rw [if_neg hcl, if_neg (not_lt.2 hlt)]
        simpa using g9

/-- The whole function: `T` epochs of subgradient steps with the documented step sizes; it stops at the first change of the
reported cost below `tol`, or at its first increase, and returns the last barycenter. -/
theorem C59_loop (cfg : DbaCfg K) (xs : List (List (List K))) (hne : xs ≠ []) (size d : ℕ) (masks : ℕ → Mat Bool)
    (h : DbaOk cfg xs size d masks) (ws : List K) (hl : ws.length = xs.length) (hw : ∀ w ∈ ws, 0 < w) (step final : K)
    (perms : ℕ → List ℕ) (hp : ∀ it, (perms it).Perm (List.range xs.length)) (maxIter : ℕ) (b : List (List K)) (hb : Rect size d b) :
    ∃ (T : ℕ) (bs : ℕ → List (List K)) (v : ℕ → K), T ≤ maxIter ∧ bs 0 = b ∧ (0 < maxIter → 0 < T) ∧
      (∀ t < T, SgRun masks xs size d (sgSchedule xs.length step final t (perms t)) (bs t) 0 (bs (t + 1)) (v t)) ∧
      (∀ t, t + 2 < T → cfg.tol ≤ |v t * (ws.getD 0 0 / ws.sum) - v (t + 1) * (ws.getD 0 0 / ws.sum)| ∧
        v (t + 1) * (ws.getD 0 0 / ws.sum) ≤ v t * (ws.getD 0 0 / ws.sum)) ∧
      (T < maxIter → 2 ≤ T ∧ (|v (T - 2) * (ws.getD 0 0 / ws.sum) - v (T - 1) * (ws.getD 0 0 / ws.sum)| < cfg.tol ∨
        v (T - 2) * (ws.getD 0 0 / ws.sum) < v (T - 1) * (ws.getD 0 0 / ws.sum))) ∧
      subgradDba cfg xs ws step final perms maxIter b = .ok (bs T) := by
  obtain ⟨T, bs, v, cst, g1, g2, g3, g4, g5, g6, g7, g8, g9⟩ :=
    subgradLoop_run cfg xs hne size d masks h ws hl hw step final perms hp maxIter 0 b hb ⊤ ⊤
  have hcl : ∀ x y : K, closeTo cfg.tol (x : WithTop K) (y : WithTop K) = decide (|x - y| < cfg.tol) := fun _ _ => rfl
  refine ⟨T, bs, v, g1, g2, g3, fun t ht => by simpa using g6 t ht, fun t ht => ?_, fun ht => ?_, by simpa [subgradDba] using g9⟩
  · have := g7 (t + 1) (by omega)
    rw [g5 t (by omega), g5 (t + 1) (by omega), hcl, WithTop.coe_lt_coe] at this
    simpa using this
  · have hT : 0 < T := g3 (by omega)
    have h8 := g8 ht
    rcases Nat.lt_or_ge T 2 with h2 | h2
    · obtain rfl : T = 1 := by omega
      rw [show 1 - 1 = 0 by rfl, g4, g5 0 (by omega)] at h8
      rcases h8 with h8 | h8
      · simp [closeTo] at h8
      · exact absurd h8 not_top_lt
    · refine ⟨h2, ?_⟩
      obtain ⟨t, rfl⟩ : ∃ t, T = t + 2 := ⟨T - 2, by omega⟩
      rw [show t + 2 - 1 = t + 1 by omega, g5 t (by omega), g5 (t + 1) (by omega), hcl, WithTop.coe_lt_coe] at h8
      simpa using h8

/-- A run of two epochs on the data of C36. -/
example : subgradDba ⟨.code 0, none, none, 0, argmin3⟩ exDba [1, 3] (1 / 2) (1 / 4) (fun _ => [0, 1]) 2 [[1], [2]] =
    .ok [[11 / 4], [27 / 8]] := by
  decide +kernel

example : subgradStep exCfg exDba [1, 3] (1 / 4) 1 [[0], [2]] = .ok (((5 : ℚ) : WithTop ℚ), [[2], [3]]) := by decide +kernel

example : IsSubgradStep (Mat.full true) [[(4 : ℚ)]] 2 1 (1 / 4) [[0], [2]] [[2], [3]] := by
  obtain ⟨v, b', h1, -, h3⟩ := C59_step exCfg exDba 2 1 _ exDba_ok [1, 3] rfl (by simp) (1 / 4) 1 (by decide) [[0], [2]]
    ⟨rfl, by simp⟩
  have : subgradStep exCfg exDba [1, 3] (1 / 4) 1 [[0], [2]] = .ok (((5 : ℚ) : WithTop ℚ), [[2], [3]]) := by decide +kernel
  rw [this] at h1
  simp only [Except.ok.injEq, Prod.mk.injEq] at h1
  rw [← h1.2] at h3
  exact h3

end Verif
