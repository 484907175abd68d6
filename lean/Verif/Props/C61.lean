import Verif.Model.SoftBary
import Verif.Spec.SoftBary
import Verif.Proofs.Dba
import Verif.Props.C17
import Verif.Props.C20
import Mathlib.Tactic.IntervalCases
/-!
C61: the objective that `softdtw_barycenter` minimises is the weighted sum of soft-DTW values, and the gradient that it hands to
the optimiser is the derivative of this objective.
-/
set_option linter.unusedSectionVars false
namespace Verif
open Spec

/-- Expectation over paths of a sum over cells. -/
theorem gibbs_sum {n m : ℕ} {mask : Mat Bool} {S : Finset (List (ℕ × ℕ))} (hS : ∀ p, p ∈ S ↔ Admissible n m mask p)
    (cost : List (ℕ × ℕ) → ℝ) (γ : ℝ) (φ : ℕ → ℕ → ℝ) :
    (∑ p ∈ S, Real.exp (-cost p / γ) * sumCost φ p) / (∑ p ∈ S, Real.exp (-cost p / γ)) =
      ∑ i ∈ Finset.range n, ∑ j ∈ Finset.range m, visitProb S cost γ (i, j) * φ i j := by
  have h1 : ∀ p ∈ S, Real.exp (-cost p / γ) * sumCost φ p =
      ∑ i ∈ Finset.range n, ∑ j ∈ Finset.range m, (if (i, j) ∈ p then Real.exp (-cost p / γ) else 0) * φ i j := by
    intro p hp
    unfold sumCost
    rw [path_sum ((hS p).1 hp).1, Finset.mul_sum]
    refine Finset.sum_congr rfl fun i _ => ?_
    rw [Finset.mul_sum]
    refine Finset.sum_congr rfl fun j _ => ?_
    rw [warpMat_apply]
    split <;> simp
  rw [Finset.sum_congr rfl h1, Finset.sum_comm, Finset.sum_div]
  refine Finset.sum_congr rfl fun i _ => ?_
  rw [Finset.sum_comm, Finset.sum_div]
  refine Finset.sum_congr rfl fun j _ => ?_
  unfold visitProb
  rw [Finset.sum_filter, ← Finset.sum_mul]
  ring

theorem moveBy_rect (n d : ℕ) (z : List (List ℝ)) (h : ℕ → ℕ → ℝ) (t : ℝ) : Rect n d (moveBy n d z h t) := by
  refine ⟨by simp [moveBy], fun r hr => ?_⟩
  obtain ⟨i, -, rfl⟩ := List.mem_map.1 hr
  simp

theorem moveBy_zero {n d : ℕ} {z : List (List ℝ)} (hz : Rect n d z) (h : ℕ → ℕ → ℝ) : moveBy n d z h 0 = z :=
  rect_ext (moveBy_rect n d z h 0) hz fun i hi f hf => by
    rw [moveBy, getD_table (fun _ => d) (fun i f => (z.getD i []).getD f 0 + 0 * h i f) _ hi hf]; ring

theorem sampleCost_move {n d : ℕ} {z x : List (List ℝ)} (hx : Rect x.length d x) (h : ℕ → ℕ → ℝ)
    (i j : ℕ) (hi : i < n) (hj : j < x.length) :
    HasDerivAt (fun t => sampleCost (moveBy n d z h t) x i j)
      (∑ f ∈ Finset.range d, 2 * ((z.getD i []).getD f 0 - (x.getD j []).getD f 0) * h i f) 0 := by
  have e : (fun t => sampleCost (moveBy n d z h t) x i j) = fun t => ∑ f ∈ Finset.range d,
      ((z.getD i []).getD f 0 + t * h i f - (x.getD j []).getD f 0) ^ 2 := by
    funext t
    unfold sampleCost
    rw [sqEuclid_sum ((moveBy_rect n d z h t).get hi) (hx.get hj)]
    refine Finset.sum_congr rfl fun f hf => ?_
    rw [moveBy, getD_table (fun _ => d) (fun i f => (z.getD i []).getD f 0 + t * h i f) _ hi (Finset.mem_range.1 hf)]
  rw [e]
  refine HasDerivAt.fun_sum fun f _ => ?_
  have h1 : HasDerivAt (fun t : ℝ => (z.getD i []).getD f 0 + t * h i f - (x.getD j []).getD f 0) (1 * h i f) 0 :=
    (((hasDerivAt_id' (0 : ℝ)).mul_const (h i f)).const_add _).sub_const _
  refine (h1.pow 2).congr_deriv ?_
  norm_num

theorem sumCost_move {n d : ℕ} {z x : List (List ℝ)} (hx : Rect x.length d x) (h : ℕ → ℕ → ℝ)
    {p : List (ℕ × ℕ)} (hp : IsWarpingPath n x.length p) :
    HasDerivAt (fun t => sumCost (sampleCost (moveBy n d z h t) x) p)
      (sumCost (fun i j => ∑ f ∈ Finset.range d, 2 * ((z.getD i []).getD f 0 - (x.getD j []).getD f 0) * h i f) p) 0 := by
  have e : ∀ D : ℕ → ℕ → ℝ, sumCost D p = ∑ i ∈ Finset.range n, ∑ j ∈ Finset.range x.length, (warpMat p : Mat ℝ) i j * D i j :=
    fun D => path_sum hp D
  simp only [e]
  refine HasDerivAt.fun_sum fun i hi => ?_
  refine HasDerivAt.fun_sum fun j hj => ?_
  exact (sampleCost_move (z := z) hx h i j (Finset.mem_range.1 hi) (Finset.mem_range.1 hj)).const_mul (warpMat p i j : ℝ)

/-- Derivative of one soft-DTW value in the direction `h`. -/
theorem softMin_move {n d : ℕ} {z x : List (List ℝ)} (hz : Rect n d z) (hx : Rect x.length d x) (h : ℕ → ℕ → ℝ) {γ : ℝ}
    (hγ : 0 < γ) {mask : Mat Bool} {S : Finset (List (ℕ × ℕ))} (hS : ∀ p, p ∈ S ↔ Admissible n x.length mask p)
    (hne : S.Nonempty) :
    HasDerivAt (fun t => softMin S (sumCost (sampleCost (moveBy n d z h t) x)) γ)
      (∑ i ∈ Finset.range n, ∑ f ∈ Finset.range d, (∑ j ∈ Finset.range x.length,
        visitProb S (sumCost (sampleCost z x)) γ (i, j) * (2 * ((z.getD i []).getD f 0 - (x.getD j []).getD f 0))) * h i f) 0 := by
  set φ : ℕ → ℕ → ℝ := fun i j => ∑ f ∈ Finset.range d, 2 * ((z.getD i []).getD f 0 - (x.getD j []).getD f 0) * h i f with hφ
  have hpos : 0 < ∑ p ∈ S, Real.exp (-sumCost (sampleCost z x) p / γ) := Finset.sum_pos (fun _ _ => Real.exp_pos _) hne
  have hterm : ∀ p ∈ S, HasDerivAt (fun t => Real.exp (-sumCost (sampleCost (moveBy n d z h t) x) p / γ))
      (Real.exp (-sumCost (sampleCost z x) p / γ) * (-sumCost φ p / γ)) 0 := by
    intro p hp
    have := (((sumCost_move (z := z) hx h ((hS p).1 hp).1).fun_neg).div_const γ).exp
    simpa only [moveBy_zero hz] using this
  have hsum := HasDerivAt.fun_sum hterm
  have hlog := (hsum.log (by simp only [moveBy_zero hz]; exact hpos.ne')).const_mul (-γ)
  simp only [moveBy_zero hz] at hlog
  unfold softMin
  refine hlog.congr_deriv ?_
  have e : -γ * ((∑ p ∈ S, Real.exp (-sumCost (sampleCost z x) p / γ) * (-sumCost φ p / γ)) /
      ∑ p ∈ S, Real.exp (-sumCost (sampleCost z x) p / γ)) =
      (∑ p ∈ S, Real.exp (-sumCost (sampleCost z x) p / γ) * sumCost φ p) /
        ∑ p ∈ S, Real.exp (-sumCost (sampleCost z x) p / γ) := by
    rw [← mul_div_assoc, Finset.mul_sum]
    refine congrArg (· / _) (Finset.sum_congr rfl fun p _ => ?_)
    field_simp
  rw [e, gibbs_sum hS]
  symm
  refine Finset.sum_congr rfl fun i _ => ?_
  simp only [hφ, Finset.mul_sum, Finset.sum_mul]
  rw [Finset.sum_comm]
  exact Finset.sum_congr rfl fun j _ => Finset.sum_congr rfl fun f _ => by ring

theorem softJacProd_eq {z x : List (List ℝ)} {E : Mat Fl} {e : ℕ → ℕ → ℝ} {i : ℕ}
    (hE : ∀ j < x.length, E i j = .num (e i j)) (k : ℕ) : softJacProd z x E i k =
      .num (∑ j ∈ Finset.range x.length, e i j * (2 * ((z.getD i []).getD k 0 - (x.getD j []).getD k 0))) := by
  unfold softJacProd
  have : ∀ m ≤ x.length, (List.range m).foldl (fun g j =>
      g.add (Fl.scale ((z.getD i []).getD k 0 - (x.getD j []).getD k 0) (Fl.scale 2 (E i j)))) (Fl.num 0) =
      .num (∑ j ∈ Finset.range m, e i j * (2 * ((z.getD i []).getD k 0 - (x.getD j []).getD k 0))) := by
    intro m
    induction m with
    | zero => intro _; simp
    | succ m ih =>
      intro hm
      rw [List.range_succ, List.foldl_append, ih (by omega), Finset.sum_range_succ]
      simp only [List.foldl_cons, List.foldl_nil, hE m (by omega), Fl.scale, Fl.add, Fl.num.injEq]
      ring
  exact this _ le_rfl

/-- What the objective needs for one series. -/
structure SoftBaryOk (n d gc : ℕ) (radius : Option ℕ) (slope : Option ℚ) (x : List (List ℝ))
    (S : Finset (List (ℕ × ℕ))) : Prop where
  ne : x ≠ []
  rect : Rect x.length d x
  paths : ∃ mask, computeMask n x.length gc radius slope = .ok mask ∧ ∀ p, p ∈ S ↔ Admissible n x.length mask p

/-- Gradient contribution of one series. -/
noncomputable def softBaryGrad (γ : ℝ) (S : Finset (List (ℕ × ℕ))) (z x : List (List ℝ)) (i f : ℕ) : ℝ :=
  ∑ j ∈ Finset.range x.length, visitProb S (sumCost (sampleCost z x)) γ (i, j) *
    (2 * ((z.getD i []).getD f 0 - (x.getD j []).getD f 0))

theorem softdtwFunc_ok {n d gc : ℕ} {radius : Option ℕ} {slope : Option ℚ} {x : List (List ℝ)} {S : Finset (List (ℕ × ℕ))}
    (h : SoftBaryOk n d gc radius slope x S) (hs : ∀ s, slope = some s → 1 ≤ s) {γ : ℝ} (hγ : 0 < γ) {z : List (List ℝ)}
    (hz : z.length = n) (hn : 0 < n) (w : ℝ) (junk : Mat Fl) :
    ∃ G : Mat Fl, softdtwFunc γ gc radius slope junk z x w = .ok (.num (w * softMin S (sumCost (sampleCost z x)) γ), G) ∧
      ∀ i < n, ∀ f, G i f = .num (w * softBaryGrad γ S z x i f) := by
  obtain ⟨mask, hm, hS⟩ := h.paths
  subst hz
  have hzne : z ≠ [] := List.length_pos_iff.1 hn
  obtain ⟨E, v, h1, h2⟩ := C20_visit_probability .numpy z x hzne h.ne γ hγ gc radius slope hs mask hm S hS junk
  have h3 := C17_alignment_value .numpy z x hzne h.ne γ hγ gc radius slope hs junk E v h1
  rw [C17_softmin .numpy z x hzne h.ne γ hγ gc radius slope hs mask hm S hS] at h3
  simp only [Except.ok.injEq] at h3
  refine ⟨fun i k => Fl.scale w (softJacProd z x E i k), ?_, fun i hi f => ?_⟩
  · unfold softdtwFunc
    rw [h1, ← h3]
    rfl
  · simp only
    rw [softJacProd_eq (e := fun i j => visitProb S (sumCost (sampleCost z x)) γ (i, j)) (fun j hj => h2 i j hi hj)]
    rfl

theorem accSoftdtwFunc_ok {n d gc : ℕ} {radius : Option ℕ} {slope : Option ℚ} (hs : ∀ s, slope = some s → 1 ≤ s) {γ : ℝ}
    (hγ : 0 < γ) {z : List (List ℝ)} (hz : z.length = n) (hn : 0 < n) (junk : Mat Fl)
    (S : List (List ℝ) → Finset (List (ℕ × ℕ))) : ∀ (xws : List (List (List ℝ) × ℝ)),
    (∀ xw ∈ xws, SoftBaryOk n d gc radius slope xw.1 (S xw.1)) → ∀ (o : ℝ) (G : Mat Fl) (g : ℕ → ℕ → ℝ),
    (∀ i < n, ∀ f, G i f = .num (g i f)) →
    accSoftdtwFunc γ gc radius slope junk z d xws (.num o) G = .ok
      (.num (o + (xws.map fun xw => xw.2 * softMin (S xw.1) (sumCost (sampleCost z xw.1)) γ).sum),
        (List.range n).map fun i => (List.range d).map fun f =>
          .num (g i f + (xws.map fun xw => xw.2 * softBaryGrad γ (S xw.1) z xw.1 i f).sum)) := by
  intro xws
  induction xws with
  | nil =>
    intro _ o G g hG
    simp only [accSoftdtwFunc, hz, List.map_nil, List.sum_nil, add_zero]
    refine congrArg Except.ok (congrArg _ (List.map_congr_left fun i hi => List.map_congr_left fun f _ => ?_))
    exact hG i (List.mem_range.1 hi) f
  | cons xw xws ih =>
    intro h o G g hG
    obtain ⟨x, w⟩ := xw
    obtain ⟨G1, h1, h2⟩ := softdtwFunc_ok (h (x, w) (by simp)) hs hγ hz hn w junk
    simp only [accSoftdtwFunc, h1, bind, Except.bind, Fl.add]
    rw [ih (fun y hy => h y (by simp [hy])) _ _ (fun i f => g i f + w * softBaryGrad γ (S x) z x i f)]
    · simp only [List.map_cons, List.sum_cons, add_assoc]
    · intro i hi f
      rw [hG i hi f, h2 i hi f]

theorem zip_sum_range (xs : List (List (List ℝ))) (ws : List ℝ) (hl : ws.length = xs.length) (φ : List (List ℝ) → ℝ → ℝ) :
    ((xs.zip ws).map fun xw => φ xw.1 xw.2).sum = ∑ k ∈ Finset.range xs.length, φ (xs.getD k []) (ws.getD k 0) := by
  rw [← listsum_range]
  refine congrArg _ (List.ext_getElem (by simp [hl]) fun k h1 h2 => ?_)
  have hk : k < xs.length := by simpa using h2
  simp [hl, hk]

/-- Value and derivative: for every constraint name, every barycenter and direction. -/
theorem C61_gradient (γ : ℝ) (hγ : 0 < γ) (g : Option String) (gc : ℕ) (hg : gcCode g = .ok gc) (radius : Option ℕ)
    (slope : Option ℚ) (hs : ∀ s, slope = some s → 1 ≤ s) (junk : Mat Fl) (n d : ℕ) (hn : 0 < n) (xs : List (List (List ℝ)))
    (ws : List ℝ) (hl : ws.length = xs.length) (S : ℕ → Finset (List (ℕ × ℕ)))
    (hne : ∀ k < xs.length, xs.getD k [] ≠ []) (hrect : ∀ k < xs.length, Rect (xs.getD k []).length d (xs.getD k []))
    (masks : ℕ → Mat Bool) (hm : ∀ k < xs.length, computeMask n (xs.getD k []).length gc radius slope = .ok (masks k))
    (hS : ∀ k < xs.length, ∀ p, p ∈ S k ↔ Admissible n (xs.getD k []).length (masks k) p) (z : List (List ℝ)) (hz : Rect n d z) :
    ∃ G : ℕ → ℕ → ℝ, softBaryObjective γ g radius slope junk (xs.zip ws) d z =
        .ok (.num (softBaryCost γ S xs ws z), (List.range n).map fun i => (List.range d).map fun f => .num (G i f)) ∧
      ∀ h : ℕ → ℕ → ℝ, HasDerivAt (fun t => softBaryCost γ S xs ws (moveBy n d z h t))
        (∑ i ∈ Finset.range n, ∑ f ∈ Finset.range d, G i f * h i f) 0 := by
  have hcan : ∀ k < xs.length, S k = pathsB (masks k) n (xs.getD k []).length := fun k hk => by
    ext p
    rw [hS k hk, mem_pathsB_admissible hn (List.length_pos_iff.2 (hne k hk))]
  let T : List (List ℝ) → Finset (List (ℕ × ℕ)) := fun x =>
    match computeMask n x.length gc radius slope with
    | .ok mask => pathsB mask n x.length
    | .error _ => ∅
  have hT : ∀ k < xs.length, T (xs.getD k []) = S k := fun k hk => by simp only [T, hm k hk, hcan k hk]
  have hok : ∀ k < xs.length, SoftBaryOk n d gc radius slope (xs.getD k []) (S k) := fun k hk =>
    ⟨hne k hk, hrect k hk, masks k, hm k hk, hS k hk⟩
  have hok' : ∀ xw ∈ xs.zip ws, SoftBaryOk n d gc radius slope xw.1 (T xw.1) := by
    intro xw hxw
    obtain ⟨k, hk, he⟩ := List.getElem_of_mem (List.of_mem_zip (a := xw.1) (b := xw.2) hxw).1
    have := hok k hk
    rw [← hT k hk, List.getD_eq_getElem _ _ hk, he] at this
    exact this
  refine ⟨fun i f => ∑ k ∈ Finset.range xs.length, ws.getD k 0 * softBaryGrad γ (S k) z (xs.getD k []) i f, ?_, fun h => ?_⟩
  · unfold softBaryObjective
    rw [hg]
    simp only [bind, Except.bind]
    rw [accSoftdtwFunc_ok hs hγ hz.1 hn junk T _ hok' 0 (Mat.full (Fl.num 0)) (fun _ _ => 0) (fun _ _ _ => rfl)]
    simp only [zero_add]
    have e1 := zip_sum_range xs ws hl fun x w => w * softMin (T x) (sumCost (sampleCost z x)) γ
    rw [e1]
    have e1' : (∑ k ∈ Finset.range xs.length, ws.getD k 0 * softMin (T (xs.getD k [])) (sumCost (sampleCost z (xs.getD k []))) γ) =
        softBaryCost γ S xs ws z :=
      Finset.sum_congr rfl fun k hk => by rw [hT k (Finset.mem_range.1 hk)]
    rw [e1']
    refine congrArg Except.ok (congrArg _ (List.map_congr_left fun i _ => List.map_congr_left fun f _ => congrArg _ ?_))
    have e2 := zip_sum_range xs ws hl fun x w => w * softBaryGrad γ (T x) z x i f
    rw [e2]
    exact Finset.sum_congr rfl fun k hk => by rw [hT k (Finset.mem_range.1 hk)]
  · unfold softBaryCost
    have hd := HasDerivAt.fun_sum fun k (hk : k ∈ Finset.range xs.length) =>
      (softMin_move hz (hrect k (Finset.mem_range.1 hk)) h hγ (hS k (Finset.mem_range.1 hk)) (by
        obtain ⟨-, q, hq⟩ := computeMask_reachable hn (List.length_pos_iff.2 (hne k (Finset.mem_range.1 hk))) hs
          (hm k (Finset.mem_range.1 hk))
        exact ⟨q, (hS k (Finset.mem_range.1 hk) q).2 hq⟩)).const_mul (ws.getD k 0)
    refine hd.congr_deriv ?_
    symm
    simp only [Finset.sum_mul, Finset.mul_sum, softBaryGrad]
    rw [Finset.sum_congr rfl fun i _ => Finset.sum_comm, Finset.sum_comm]
    exact Finset.sum_congr rfl fun k _ => Finset.sum_congr rfl fun i _ => Finset.sum_congr rfl fun f _ =>
      Finset.sum_congr rfl fun j _ => by ring

/-- The order in which parallel workers deliver their results does not matter (exact arithmetic). -/
theorem C61_parallel (γ : ℝ) (hγ : 0 < γ) (g : Option String) (gc : ℕ) (hg : gcCode g = .ok gc) (radius : Option ℕ)
    (slope : Option ℚ) (hs : ∀ s, slope = some s → 1 ≤ s) (junk : Mat Fl) (n d : ℕ) (hn : 0 < n)
    (xws xws' : List (List (List ℝ) × ℝ)) (hp : xws.Perm xws') (hne : ∀ xw ∈ xws, xw.1 ≠ [] ∧ Rect xw.1.length d xw.1 ∧
      ∃ mask, computeMask n xw.1.length gc radius slope = .ok mask) (z : List (List ℝ)) (hz : Rect n d z) :
    ∃ r, softBaryObjective γ g radius slope junk xws d z = .ok r ∧ softBaryObjective γ g radius slope junk xws' d z = .ok r := by
  let T : List (List ℝ) → Finset (List (ℕ × ℕ)) := fun x =>
    match computeMask n x.length gc radius slope with
    | .ok mask => pathsB mask n x.length
    | .error _ => ∅
  have hok : ∀ xw ∈ xws, SoftBaryOk n d gc radius slope xw.1 (T xw.1) := by
    intro xw hxw
    obtain ⟨h1, h2, mask, h3⟩ := hne xw hxw
    exact ⟨h1, h2, mask, h3, fun p => by
      simp only [T, h3]; exact mem_pathsB_admissible hn (List.length_pos_iff.2 h1)⟩
  unfold softBaryObjective
  rw [hg]
  simp only [bind, Except.bind]
  rw [accSoftdtwFunc_ok hs hγ hz.1 hn junk T _ hok 0 (Mat.full (Fl.num 0)) (fun _ _ => 0) (fun _ _ _ => rfl),
    accSoftdtwFunc_ok hs hγ hz.1 hn junk T _ (fun xw h => hok xw (hp.mem_iff.2 h)) 0 (Mat.full (Fl.num 0)) (fun _ _ => 0) (fun _ _ _ => rfl)]
  refine ⟨_, rfl, congrArg Except.ok (Prod.ext ?_ ?_)⟩
  · simp only [(hp.map fun xw => xw.2 * softMin (T xw.1) (sumCost (sampleCost z xw.1)) γ).sum_eq]
  · refine List.map_congr_left fun i _ => List.map_congr_left fun f _ => ?_
    rw [(hp.map fun xw => xw.2 * softBaryGrad γ (T xw.1) z xw.1 i f).sum_eq]

/-- A constraint name is translated, unlike in `dtw_barycenter_averaging` (C57); an unknown one is refused. -/
theorem C61_names (γ : ℝ) (g : Option String) (radius : Option ℕ) (slope : Option ℚ) (junk : Mat Fl)
    (xws : List (List (List ℝ) × ℝ)) (d : ℕ) (z : List (List ℝ)) (h : gcCode g = .error .keyError) :
    softBaryObjective γ g radius slope junk xws d z = .error .keyError := by
  unfold softBaryObjective
  rw [h]; rfl

/-- The hypotheses are met: two series of different length under a band, barycenter of size 2. -/
example : ∃ (S : ℕ → Finset (List (ℕ × ℕ))) (G : ℕ → ℕ → ℝ),
    softBaryObjective 1 (some "sakoe_chiba") (some 1) none (Mat.full .nan) ([[[0], [2]], [[4]]].zip [1, 3]) 1 [[0], [1]] =
        .ok (.num (softBaryCost 1 S [[[0], [2]], [[4]]] [1, 3] [[0], [1]]),
          (List.range 2).map fun i => (List.range 1).map fun f => .num (G i f)) ∧
      ∀ h : ℕ → ℕ → ℝ, HasDerivAt (fun t => softBaryCost 1 S [[[0], [2]], [[4]]] [1, 3] (moveBy 2 1 [[0], [1]] h t))
        (∑ i ∈ Finset.range 2, ∑ f ∈ Finset.range 1, G i f * h i f) 0 := by
  obtain ⟨m1, h1⟩ : ∃ m, computeMask 2 2 2 (some 1) none = .ok m := ⟨_, rfl⟩
  obtain ⟨m2, h2⟩ : ∃ m, computeMask 2 1 2 (some 1) none = .ok m := ⟨_, rfl⟩
  let xs : List (List (List ℝ)) := [[[0], [2]], [[4]]]
  let masks : ℕ → Mat Bool := fun k => if k = 0 then m1 else m2
  obtain ⟨G, hG⟩ := C61_gradient 1 one_pos (some "sakoe_chiba") 2 rfl (some 1) none (by simp) (Mat.full .nan) 2 1 two_pos
    xs [1, 3] rfl
    (fun k => pathsB (masks k) 2 (xs.getD k []).length)
    (by intro k hk; have hk : k < 2 := hk; interval_cases k <;> simp [xs])
    (by intro k hk; have hk : k < 2 := hk; interval_cases k <;> simp [Rect, xs])
    masks
    (by intro k hk; have hk : k < 2 := hk; interval_cases k
        · exact h1
        · exact h2)
    (fun k hk p => mem_pathsB_admissible two_pos (by have hk : k < 2 := hk; interval_cases k <;> simp [xs]))
    [[0], [1]] ⟨rfl, by simp⟩
  exact ⟨_, G, hG⟩

end Verif
