import Verif.Props.C63
/-!
C64: shape extraction of `KShape`, given what `numpy.linalg.eigh` promises.
-/
set_option linter.unusedSectionVars false
namespace Verif
open Spec Finset

theorem ksDot_eq (sz : ℕ) (A B : ℕ → ℕ → ℝ) (a b : ℕ) : ksDot sz A B a b = ∑ c ∈ range sz, A a c * B c b :=
  list_range_sum _ _

theorem ent_val (x : KsSer) (t i : ℕ) : ent x t i = val x t i := by
  simp [ent, Spec.val]

/-- `Σ_t x_t (Q v)_t` is the projection of the centred series. -/
theorem centre_proj {sz : ℕ} (x : KsSer) (i : ℕ) (v : ℕ → ℝ) :
    ∑ c ∈ range sz, ent x c i * ∑ a ∈ range sz, ksCenter sz c a * v a = centredProj sz x i v := by
  have h1 : ∀ c ∈ range sz, ∑ a ∈ range sz, ksCenter sz c a * v a = v c - (∑ a ∈ range sz, v a) / sz := by
    intro c hc
    simp only [ksCenter, sub_mul, sum_sub_distrib, ite_mul, one_mul, zero_mul]
    rw [sum_ite_eq, if_pos hc, ← mul_sum]
    ring
  rw [sum_congr rfl fun c hc => by rw [h1 c hc, mul_sub], sum_sub_distrib, ← sum_mul]
  unfold centredProj
  simp only [mul_sub, sum_sub_distrib, ← sum_mul, ent_val]
  congr 1
  · exact sum_congr rfl fun c _ => mul_comm _ _
  · ring


theorem ksM_eq (sz : ℕ) (Xp : List KsSer) (i a b : ℕ) :
    ksM sz Xp i a b = ∑ c ∈ range sz, ksCenter sz c a * ∑ e ∈ range sz, ksGram Xp i c e * ksCenter sz e b := by
  unfold ksM
  rw [ksDot_eq]
  exact sum_congr rfl fun c _ => by rw [ksDot_eq]

/-- The quadratic form of `M` sums the squared projections of the centred series. -/
theorem quad_ksM (sz : ℕ) (Xp : List KsSer) (i : ℕ) (v : ℕ → ℝ) :
    quadForm sz (ksM sz Xp i) v = (Xp.map fun x => centredProj sz x i v ^ 2).sum := by
  have h2 : ∀ Xp, quadForm sz (ksM sz Xp i) v = ∑ c ∈ range sz, ∑ e ∈ range sz, (∑ a ∈ range sz, ksCenter sz c a * v a) *
      ksGram Xp i c e * ∑ b ∈ range sz, ksCenter sz e b * v b := by
    intro Xp
    unfold quadForm
    simp only [ksM_eq, mul_sum, sum_mul]
    rw [sum_congr rfl fun a _ => sum_comm]
    rw [sum_comm]
    refine sum_congr rfl fun c _ => ?_
    rw [sum_congr rfl fun a _ => sum_comm]
    rw [sum_comm]
    refine sum_congr rfl fun e _ => ?_
    rw [sum_comm]
    exact sum_congr rfl fun b _ => sum_congr rfl fun a _ => by ring
  induction Xp with
  | nil => rw [h2]; simp [ksGram]
  | cons x Xp ih =>
    have hg : ∀ c e, ksGram (x :: Xp) i c e = ent x c i * ent x e i + ksGram Xp i c e := fun c e => by simp [ksGram]
    rw [List.map_cons, List.sum_cons, ← ih, h2, h2, ← centre_proj]
    simp only [hg, mul_add, add_mul, sum_add_distrib]
    congr 1
    rw [pow_two, sum_mul_sum]
    exact sum_congr rfl fun c _ => sum_congr rfl fun e _ => by ring

theorem extract_val {e : KsEnv} {center : KsSer} {members : List (KsSer × ℝ)} {t i : ℕ} (ht : t < e.sz) (hi : i < e.d) :
    val (ksExtract e center members) t i =
      (ksColumn e (yShifted e.d center (members.map Prod.fst) (-1) (members.map Prod.snd)) i).getD t 0 := by
  simp [ksExtract, Spec.val, List.getD_eq_getElem?_getD, ht, hi]

/-- The extracted centroid has the shape of a series, and each of its features is a unit vector on which the aligned, centred
members project most: no unit vector has a greater sum of squared projections. -/
theorem C64_direction (e : KsEnv) (center : KsSer) (members : List (KsSer × ℝ)) {Xp : List KsSer}
    (hXp : Xp = yShifted e.d center (members.map Prod.fst) (-1) (members.map Prod.snd))
    (htop : ∀ i < e.d, IsTopVector e.sz (ksM e.sz Xp i) (e.top (ksM e.sz Xp i))) :
    (ksExtract e center members).length = e.sz ∧ Wide e.d (ksExtract e center members) ∧ ∀ i < e.d,
      ∑ t ∈ range e.sz, val (ksExtract e center members) t i ^ 2 = 1 ∧
      ∀ v : ℕ → ℝ, ∑ t ∈ range e.sz, v t ^ 2 = 1 → (Xp.map fun x => centredProj e.sz x i v ^ 2).sum ≤
        (Xp.map fun x => centredProj e.sz x i (fun t => val (ksExtract e center members) t i) ^ 2).sum := by
  refine ⟨by simp [ksExtract], ?_, fun i hi => ?_⟩
  · intro r hr
    obtain ⟨t, _, rfl⟩ := List.mem_map.1 hr
    simp
  · obtain ⟨hl, h1, h2⟩ := htop i hi
    have hval : (∀ t ∈ range e.sz, val (ksExtract e center members) t i = (e.top (ksM e.sz Xp i)).getD t 0) ∨
        (∀ t ∈ range e.sz, val (ksExtract e center members) t i = -(e.top (ksM e.sz Xp i)).getD t 0) := by
      by_cases hc : ksSpread Xp (-1) (e.top (ksM e.sz Xp i)) < ksSpread Xp 1 (e.top (ksM e.sz Xp i))
      · right
        intro t ht
        rw [extract_val (mem_range.1 ht) hi, ← hXp]
        unfold ksColumn
        rw [if_pos hc]
        simp only [List.getD_eq_getElem?_getD, List.getElem?_map]
        cases (e.top (ksM e.sz Xp i))[t]? <;> simp
      · left
        intro t ht
        rw [extract_val (mem_range.1 ht) hi, ← hXp]
        unfold ksColumn
        rw [if_neg hc]
    have hp : ∀ x : KsSer, centredProj e.sz x i (fun t => val (ksExtract e center members) t i) ^ 2 =
        centredProj e.sz x i (fun t => (e.top (ksM e.sz Xp i)).getD t 0) ^ 2 := by
      intro x
      unfold centredProj
      beta_reduce
      rcases hval with h | h
      · rw [sum_congr rfl fun t ht => by rw [h t ht]]
      · rw [sum_congr rfl fun t ht => by rw [h t ht, neg_mul], sum_neg_distrib, neg_sq]
    constructor
    · rw [← h1]
      refine sum_congr rfl fun t ht => ?_
      rcases hval with h | h
      · rw [h t ht]
      · rw [h t ht, neg_sq]
    · intro v hv
      simp only [hp]
      rw [← quad_ksM, ← quad_ksM]
      exact h2 v hv

theorem spread_one {Xp : List KsSer} (w : ∀ x ∈ Xp, Wide 1 x) (c : ℝ) (mu : List ℝ) :
    ksSpread Xp c mu = (Xp.map fun x => colDist x 0 (fun t => mu.getD t 0) c).sum := by
  unfold ksSpread
  congr 1
  refine List.map_congr_left fun x hx => ?_
  have hw : Wide 1 (x.mapIdx fun t r => r.map fun v => v - c * mu.getD t 0) := by
    intro r hr
    obtain ⟨t, ht, rfl⟩ := List.mem_mapIdx.1 hr
    simp [w x hx _ (List.getElem_mem ht)]
  rw [frobNorm_sq hw]
  unfold energy colDist
  congr 1
  rw [List.length_mapIdx]
  refine sum_congr rfl fun t ht => ?_
  have ht' := mem_range.1 ht
  have h1 := w x hx _ (List.getElem_mem ht')
  rw [sum_range_one]
  congr 1
  rw [val_nat, val_nat]
  simp only [ent, List.getD_eq_getElem?_getD, List.getElem?_mapIdx, List.getElem?_eq_getElem ht', Option.map_some, Option.getD_some, List.getElem?_map]
  obtain ⟨z, hz⟩ := List.length_eq_one_iff.1 h1
  simp [hz]

/-- Full claim: of the two signs of the extracted vector, each feature of the centroid has the one nearer to that feature of the
aligned members. Missing (and false, see below): series with more than one feature. -/
theorem C64_sign_partial (e : KsEnv) (hd : e.d = 1) (center : KsSer) (members : List (KsSer × ℝ)) {Xp : List KsSer}
    (hXp : Xp = yShifted e.d center (members.map Prod.fst) (-1) (members.map Prod.snd)) (hlen : ∀ x ∈ members, x.1.length = e.sz) :
    (Xp.map fun x => colDist x 0 (fun t => val (ksExtract e center members) t 0) 1).sum ≤
      (Xp.map fun x => colDist x 0 (fun t => val (ksExtract e center members) t 0) (-1)).sum := by
  have hx : ∀ x ∈ Xp, x.length = e.sz ∧ Wide 1 x := by
    intro x hx
    rw [hXp] at hx
    obtain ⟨i, hi, rfl⟩ := List.mem_mapIdx.1 hx
    constructor
    · simp only [List.length_map, List.length_range]
      rw [List.getElem_map]
      exact hlen _ (List.getElem_mem _)
    · intro r hr
      obtain ⟨t, _, rfl⟩ := List.mem_map.1 hr
      simp [hd]
  have hcol : ∀ c : ℝ, (Xp.map fun x => colDist x 0 (fun t => val (ksExtract e center members) t 0) c).sum =
      (Xp.map fun x => colDist x 0 (fun t => (ksColumn e Xp 0).getD t 0) c).sum := by
    intro c
    congr 1
    refine List.map_congr_left fun x hm => ?_
    unfold colDist
    congr 1
    refine sum_congr rfl fun t ht => ?_
    beta_reduce
    rw [extract_val (by rw [← (hx x hm).1]; exact mem_range.1 ht) (by omega), ← hXp]
  rw [hcol, hcol, ← spread_one fun x h => (hx x h).2, ← spread_one fun x h => (hx x h).2]
  unfold ksColumn
  simp only
  have hneg : ∀ (mu : List ℝ) (c : ℝ), ksSpread Xp c (mu.map fun v => -v) = ksSpread Xp (-c) mu := by
    intro mu c
    unfold ksSpread
    have : ∀ t, c * (mu.map fun v => -v).getD t 0 = -c * mu.getD t 0 := by
      intro t
      simp only [List.getD_eq_getElem?_getD, List.getElem?_map]
      cases mu[t]? <;> simp
    simp only [this]
  by_cases hc : ksSpread Xp (-1) (e.top (ksM e.sz Xp 0)) < ksSpread Xp 1 (e.top (ksM e.sz Xp 0))
  · rw [if_pos hc, hneg, hneg, neg_neg]
    exact hc.le
  · rw [if_neg hc]
    exact not_lt.1 hc

/-- Two features. -/
noncomputable def ksE2 : KsEnv := { ksE with d := 2 }

theorem ks2_shift : yShifted 2 [[1, -100], [-1, 100]] [[[1, -100], [-1, 100]]] (-1) [frobNorm [[1, -100], [-1, 100]]] =
    [[[1, -100], [-1, 100]]] := by
  have w : Wide 2 [[1, -100], [-1, 100]] := by simp [Wide]
  obtain ⟨h1, h2⟩ := C50_shift (d := 2) (ref := [[1, -100], [-1, 100]]) (D := [[[1, -100], [-1, 100]]]) (by simp) w (by simp [Wide])
    (normRef := -1) (norms := [frobNorm [[1, -100], [-1, 100]]]) (Or.inl (by norm_num)) (Or.inr (by simp [frobNorm_sq w]))
  obtain ⟨out, g1, g2, g3, lag, g4, g5, g6, g7⟩ := h2 0 (by simp)
  have hE : energy 2 [[1, -100], [-1, 100]] = 20002 := by simp [energy, sum_range_succ, Spec.val]; norm_num
  simp only [List.getElem_cons_zero] at g6 g7
  obtain ⟨g7, -⟩ := g7 (by rw [hE, Real.mul_self_sqrt (by norm_num)]; norm_num)
  have h0 := g7 0 (by simp) (by simp)
  simp at g4 g5
  have hlag : lag = 0 := by
    have : lag = -1 ∨ lag = 0 ∨ lag = 1 := by omega
    rcases this with rfl | rfl | rfl
    · simp [lagProd, sum_range_succ, Spec.val] at h0; norm_num at h0
    · rfl
    · simp [lagProd, sum_range_succ, Spec.val] at h0; norm_num at h0
  subst hlag
  have hout : out = [[1, -100], [-1, 100]] := by
    match out, g2, g3, g6 with
    | [r0, r1], _, g3, g6 =>
      have e0 := g3 r0 (by simp)
      have e1 := g3 r1 (by simp)
      match r0, r1, e0, e1 with
      | [a, b], [c, d], _, _ =>
        have a0 := g6 0 (by simp) 0 (by norm_num)
        have a1 := g6 0 (by simp) 1 (by norm_num)
        have a2 := g6 1 (by simp) 0 (by norm_num)
        have a3 := g6 1 (by simp) 1 (by norm_num)
        simp [ent, Spec.val] at a0 a1 a2 a3
        rw [a0, a1, a2, a3]
  rw [hout] at g1
  match hy : yShifted 2 [[1, -100], [-1, 100]] [[[1, -100], [-1, 100]]] (-1) [frobNorm [[1, -100], [-1, 100]]], h1, g1 with
  | [u], _, g1 => simpa using g1

theorem ks2_column (i : ℕ) : ksColumn ksE2 [[[1, -100], [-1, 100]]] i = [-(1 / √2), 1 / √2] := by
  obtain ⟨h0, h1⟩ := inv_sqrt2
  have htop : ∀ M, ksE2.top M = [1 / √2, -(1 / √2)] := fun M => rfl
  unfold ksColumn
  rw [htop]
  generalize hm : 1 / √(2 : ℝ) = m at h0 h1
  simp only [ksSpread, List.map_cons, List.map_nil, List.mapIdx_cons, List.mapIdx_nil, frobNorm, List.sum_cons, List.sum_nil,
    List.getD_cons_zero, List.getD_cons_succ]
  rw [if_pos]
  · simp
  · simp only [add_zero]
    exact Real.sqrt_lt_sqrt (by nlinarith [mul_self_nonneg (1 - -1 * m), mul_self_nonneg (-100 - -1 * m), mul_self_nonneg (-1 - -1 * -m), mul_self_nonneg (100 - -1 * -m)]) (by nlinarith)

/-- False for two features: the sign is decided by all features together. The cluster whose only member is `[[1, -100], [-1, 100]]`
gets a centroid whose first feature points away from that member. -/
theorem C64_false_sign :
    let x : KsSer := [[1, -100], [-1, 100]]
    let c := ksExtract ksE2 x [(x, frobNorm x)]
    yShifted 2 x [x] (-1) [frobNorm x] = [x] ∧ c = [[-(1 / √2), -(1 / √2)], [1 / √2, 1 / √2]] ∧
      centredProj 2 x 0 (fun t => val c t 0) < 0 ∧
      colDist x 0 (fun t => val c t 0) (-1) < colDist x 0 (fun t => val c t 0) 1 := by
  obtain ⟨h0, h1⟩ := inv_sqrt2
  have hc : ksExtract ksE2 [[1, -100], [-1, 100]] [([[1, -100], [-1, 100]], frobNorm [[1, -100], [-1, 100]])] =
      [[-(1 / √2), -(1 / √2)], [1 / √2, 1 / √2]] := by
    unfold ksExtract
    simp only [List.map_cons, List.map_nil, show ksE2.d = 2 from rfl, show ksE2.sz = 2 from rfl, ks2_shift, ks2_column]
    simp [show List.range 2 = [0, 1] by decide]
  refine ⟨ks2_shift, hc, ?_, ?_⟩
  · simp only [hc]
    generalize 1 / √(2 : ℝ) = m at *
    simp [centredProj, sum_range_succ, Spec.val]
    linarith
  · simp only [hc]
    generalize 1 / √(2 : ℝ) = m at *
    unfold colDist
    refine Real.sqrt_lt_sqrt (sum_nonneg fun _ _ => sq_nonneg _) ?_
    simp [sum_range_succ, Spec.val]
    nlinarith

theorem ksE_top (Xp : List KsSer) (i : ℕ) : IsTopVector 2 (ksM 2 Xp i) [1 / √2, -(1 / √2)] := by
  obtain ⟨h1, h2⟩ := ks_top Xp i
  refine ⟨rfl, ?_, fun v hv => h2 v ?_⟩
  · simpa [sum_range_succ] using h1
  · simpa [sum_range_succ] using hv

example : ∑ t ∈ range 2, val (ksExtract ksE2 [[1, -100], [-1, 100]] [([[1, -100], [-1, 100]], frobNorm [[1, -100], [-1, 100]])]) t 0 ^ 2 = 1 :=
  ((C64_direction ksE2 _ _ rfl fun i _ => ksE_top _ i).2.2 0 (by simp [ksE2])).1

example : let c := ksExtract ksE [[5], [-5]] [([[5], [-5]], frobNorm [[5], [-5]])]
    let Xp := yShifted 1 [[5], [-5]] [[[5], [-5]]] (-1) [frobNorm [[5], [-5]]]
    (Xp.map fun x => colDist x 0 (fun t => val c t 0) 1).sum ≤ (Xp.map fun x => colDist x 0 (fun t => val c t 0) (-1)).sum :=
  C64_sign_partial ksE rfl [[5], [-5]] [([[5], [-5]], frobNorm [[5], [-5]])] rfl (by simp [ksE])

end Verif
