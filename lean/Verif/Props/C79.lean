import Verif.Model.SoftLoss
import Verif.Spec.SoftLoss
import Verif.Props.C61
import Mathlib.Analysis.Complex.ExponentialBounds
/-!
C79: the PyTorch loss `SoftDTWLossPyTorch` is the soft-DTW value (or divergence) and its gradients are the derivatives; in 64-bit
precision it rounds to 32 bits, and it overwrites the matrix that the distance function returns.
-/
set_option linter.unusedSectionVars false
namespace Verif
open Spec
open Classical

theorem softLossDist_eq (x y : List (List ℝ)) : softLossDist x y = sampleCost x y := by
  funext i j
  simp only [softLossDist, sampleCost, sqEuclid, List.zip, List.map_zipWith]

/-- What `forward` and `backward` do on matrices of numbers. -/
theorem softLossApply_ok {m n : ℕ} (hm : 0 < m) (hn : 0 < n) {γ : ℝ} (hγ : 0 < γ) {code : ℕ} {radius : Option ℕ} {slope : Option ℚ}
    (hs : ∀ s, slope = some s → 1 ≤ s) {mask : Mat Bool} (hmask : computeMask m n code radius slope = .ok mask)
    {S : Finset (List (ℕ × ℕ))} (hS : ∀ p, p ∈ S ↔ Admissible m n mask p) (f32 : ℝ → ℝ) :
    ∃ T : Mat ℝ → SoftTape,
      (∀ Ds : List (Mat ℝ), softLossApply f32 m n (Ds.map fun D i j => Fl.num (D i j)) γ code radius slope = .ok (Ds.map T)) ∧
      (∀ D, (T D).loss = .num (f32 (softMin S (sumCost D) γ))) ∧
      (∀ D i j, (T D).D i j = if mask i j then .num (D i j) else .inf) ∧
      ((∀ z, f32 z = z) → ∀ D g i j, i < m → j < n → softLossBack f32 m n γ (T D) g i j =
        .num (g * visitProb S (sumCost D) γ (i, j))) := by
  obtain ⟨hr, q, hq⟩ := computeMask_reachable hm hn hs hmask
  obtain ⟨m, rfl⟩ : ∃ k, m = k + 1 := ⟨m - 1, by omega⟩
  obtain ⟨n, rfl⟩ : ∃ k, n = k + 1 := ⟨n - 1, by omega⟩
  let D' : Mat ℝ → Mat Fl := fun D i j => if mask i j then Fl.num (D i j) else Fl.inf
  have hR : ∀ (D : Mat ℝ) i j, i < m + 1 → j < n + 1 →
      softAccFromDist (m + 1) (n + 1) mask (D' D) γ i j = ofW γ (zsum mask (softK mask D γ) (i + 1) (j + 1)) :=
    fun D i j hi hj => softAccFromDist_eq D (fun i j _ _ h => by simp only [D', h, if_true]) hγ hr i j hi hj
  have hpos : ∀ D : ℕ → ℕ → ℝ, 0 < ∑ p ∈ S, Real.exp (-sumCost D p / γ) := fun D =>
    Finset.sum_pos (fun _ _ => Real.exp_pos _) ⟨q, (hS q).2 hq⟩
  refine ⟨fun D => ⟨D' D, fun i j => (softAccFromDist (m + 1) (n + 1) mask (D' D) γ i j).round f32,
    lastEntry (fun i j => (softAccFromDist (m + 1) (n + 1) mask (D' D) γ i j).round f32) (m + 1) (n + 1)⟩, ?_, ?_, ?_, ?_⟩
  · intro Ds
    simp only [softLossApply, hmask, bind, Except.bind, pure, Except.pure, List.map_map]
    rfl
  · intro D
    simp only [lastEntry, Nat.add_sub_cancel]
    rw [hR D m n (by omega) (by omega), zsum_eq_sum D γ hm hn hS, ofW, if_neg (hpos D).ne']
    rfl
  · intro D i j
    rfl
  · intro hf D g i j hi hj
    have hZ := zsum_pos_of_mem D γ ((mem_pathsB_admissible hm hn).2 hq)
    have hround : ∀ v : Fl, v.round f32 = v := fun v => by cases v <;> simp [Fl.round, hf]
    simp only [softLossBack, hround, hf]
    rw [softGrad_eq hγ hr hZ (fun i j _ _ => rfl) (fun i j hi hj => hR D i j hi hj) _ i j hi hj, gradT_eq_visit hm hn D γ hS]
    rfl

/-- Derivative of a soft minimum whose costs move. -/
theorem softMin_deriv {n m : ℕ} {mask : Mat Bool} {S : Finset (List (ℕ × ℕ))} (hS : ∀ p, p ∈ S ↔ Admissible n m mask p)
    (hne : S.Nonempty) {γ : ℝ} (hγ : 0 < γ) (c : ℝ → ℕ → ℕ → ℝ) (c' : ℕ → ℕ → ℝ)
    (hc : ∀ i < n, ∀ j < m, HasDerivAt (fun t => c t i j) (c' i j) 0) :
    HasDerivAt (fun t => softMin S (sumCost (c t)) γ)
      (∑ i ∈ Finset.range n, ∑ j ∈ Finset.range m, visitProb S (sumCost (c 0)) γ (i, j) * c' i j) 0 := by
  have hpos : 0 < ∑ p ∈ S, Real.exp (-sumCost (c 0) p / γ) := Finset.sum_pos (fun _ _ => Real.exp_pos _) hne
  have hterm : ∀ p ∈ S, HasDerivAt (fun t => Real.exp (-sumCost (c t) p / γ))
      (Real.exp (-sumCost (c 0) p / γ) * (-sumCost c' p / γ)) 0 := by
    intro p hp
    have hsc : HasDerivAt (fun t => sumCost (c t) p) (sumCost c' p) 0 := by
      have e : ∀ D : ℕ → ℕ → ℝ, sumCost D p = ∑ i ∈ Finset.range n, ∑ j ∈ Finset.range m, (warpMat p : Mat ℝ) i j * D i j :=
        fun D => path_sum ((hS p).1 hp).1 D
      simp only [e]
      refine HasDerivAt.fun_sum fun i hi => HasDerivAt.fun_sum fun j hj => ?_
      exact (hc i (Finset.mem_range.1 hi) j (Finset.mem_range.1 hj)).const_mul (warpMat p i j : ℝ)
    exact ((hsc.fun_neg).div_const γ).exp
  have hlog := ((HasDerivAt.fun_sum hterm).log hpos.ne').const_mul (-γ)
  unfold softMin
  refine hlog.congr_deriv ?_
  rw [← gibbs_sum hS, ← mul_div_assoc, Finset.mul_sum]
  refine congrArg (· / _) (Finset.sum_congr rfl fun p _ => ?_)
  field_simp

/-- Both series move. -/
theorem sampleCost_move2 {n m d : ℕ} (x y : List (List ℝ)) (h k : ℕ → ℕ → ℝ) (i j : ℕ) (hi : i < n) (hj : j < m) :
    HasDerivAt (fun t => sampleCost (moveBy n d x h t) (moveBy m d y k t) i j)
      (∑ f ∈ Finset.range d, 2 * ((x.getD i []).getD f 0 - (y.getD j []).getD f 0) * (h i f - k j f)) 0 := by
  have e : (fun t => sampleCost (moveBy n d x h t) (moveBy m d y k t) i j) = fun t => ∑ f ∈ Finset.range d,
      ((x.getD i []).getD f 0 + t * h i f - ((y.getD j []).getD f 0 + t * k j f)) ^ 2 := by
    funext t
    unfold sampleCost
    rw [sqEuclid_sum ((moveBy_rect n d x h t).get hi) ((moveBy_rect m d y k t).get hj)]
    refine Finset.sum_congr rfl fun f hf => ?_
    rw [moveBy, getD_table (fun _ => d) (fun i f => (x.getD i []).getD f 0 + t * h i f) _ hi (Finset.mem_range.1 hf),
      moveBy, getD_table (fun _ => d) (fun i f => (y.getD i []).getD f 0 + t * k i f) _ hj (Finset.mem_range.1 hf)]
  rw [e]
  refine HasDerivAt.fun_sum fun f _ => ?_
  have h1 : HasDerivAt (fun t : ℝ => (x.getD i []).getD f 0 + t * h i f - ((y.getD j []).getD f 0 + t * k j f))
      (1 * h i f - 1 * k j f) 0 :=
    (((hasDerivAt_id' (0 : ℝ)).mul_const (h i f)).const_add _).sub (((hasDerivAt_id' (0 : ℝ)).mul_const (k j f)).const_add _)
  refine (h1.pow 2).congr_deriv ?_
  norm_num

/-- Derivative of one soft-DTW value when both series move. -/
theorem softMin_move2 {n m d : ℕ} {x y : List (List ℝ)} (hx : Rect n d x) (hy : Rect m d y) {mask : Mat Bool}
    {S : Finset (List (ℕ × ℕ))} (hS : ∀ p, p ∈ S ↔ Admissible n m mask p) (hne : S.Nonempty) {γ : ℝ} (hγ : 0 < γ)
    (h k : ℕ → ℕ → ℝ) :
    HasDerivAt (fun t => softMin S (sumCost (sampleCost (moveBy n d x h t) (moveBy m d y k t))) γ)
      ((∑ i ∈ Finset.range n, ∑ f ∈ Finset.range d, (∑ j ∈ Finset.range m,
          2 * ((x.getD i []).getD f 0 - (y.getD j []).getD f 0) * visitProb S (sumCost (sampleCost x y)) γ (i, j)) * h i f) +
        ∑ j ∈ Finset.range m, ∑ f ∈ Finset.range d, (∑ i ∈ Finset.range n,
          -(2 * ((x.getD i []).getD f 0 - (y.getD j []).getD f 0)) * visitProb S (sumCost (sampleCost x y)) γ (i, j)) * k j f) 0 := by
  have := softMin_deriv hS hne hγ (fun t => sampleCost (moveBy n d x h t) (moveBy m d y k t)) _
    fun i hi j hj => sampleCost_move2 x y h k i j hi hj
  refine this.congr_deriv ?_
  simp only [moveBy_zero hx, moveBy_zero hy]
  set V := fun i j => visitProb S (sumCost (sampleCost x y)) γ (i, j)
  have e2 : ∑ j ∈ Finset.range m, ∑ f ∈ Finset.range d, (∑ i ∈ Finset.range n,
      -(2 * ((x.getD i []).getD f 0 - (y.getD j []).getD f 0)) * V i j) * k j f =
      ∑ i ∈ Finset.range n, ∑ f ∈ Finset.range d, ∑ j ∈ Finset.range m,
        -(2 * ((x.getD i []).getD f 0 - (y.getD j []).getD f 0)) * V i j * k j f := by
    simp only [Finset.sum_mul]
    calc _ = ∑ j ∈ Finset.range m, ∑ i ∈ Finset.range n, ∑ f ∈ Finset.range d,
          -(2 * ((x.getD i []).getD f 0 - (y.getD j []).getD f 0)) * V i j * k j f :=
        Finset.sum_congr rfl fun j _ => Finset.sum_comm
      _ = ∑ i ∈ Finset.range n, ∑ j ∈ Finset.range m, ∑ f ∈ Finset.range d,
          -(2 * ((x.getD i []).getD f 0 - (y.getD j []).getD f 0)) * V i j * k j f := Finset.sum_comm
      _ = _ := Finset.sum_congr rfl fun i _ => Finset.sum_comm
  rw [e2, ← Finset.sum_add_distrib]
  refine Finset.sum_congr rfl fun i _ => ?_
  simp only [Finset.mul_sum, Finset.sum_mul]
  rw [Finset.sum_comm, ← Finset.sum_add_distrib]
  refine Finset.sum_congr rfl fun f _ => ?_
  rw [← Finset.sum_add_distrib]
  exact Finset.sum_congr rfl fun j _ => by simp only [V]; ring

theorem foldl_scale_num (N : ℕ) (a : ℕ → ℝ) (G : ℕ → Fl) (e : ℕ → ℝ) (h : ∀ j < N, G j = .num (e j)) :
    (List.range N).foldl (fun s j => s.add (Fl.scale (a j) (G j))) (Fl.num 0) = .num (∑ j ∈ Finset.range N, a j * e j) := by
  induction N with
  | zero => simp
  | succ N ih =>
    rw [List.range_succ, List.foldl_append, ih (fun j hj => h j (by omega)), Finset.sum_range_succ]
    simp only [List.foldl_cons, List.foldl_nil, h N (by omega), Fl.scale, Fl.add]

theorem distBackX_num {x y : List (List ℝ)} {G : Mat Fl} {e : ℕ → ℕ → ℝ} {i : ℕ} (h : ∀ j < y.length, G i j = .num (e i j)) (k : ℕ) :
    distBackX x y G i k = .num (∑ j ∈ Finset.range y.length, 2 * ((x.getD i []).getD k 0 - (y.getD j []).getD k 0) * e i j) :=
  foldl_scale_num _ _ _ _ h

theorem distBackY_num {x y : List (List ℝ)} {G : Mat Fl} {e : ℕ → ℕ → ℝ} {j : ℕ} (h : ∀ i < x.length, G i j = .num (e i j)) (k : ℕ) :
    distBackY x y G j k = .num (∑ i ∈ Finset.range x.length, -(2 * ((x.getD i []).getD k 0 - (y.getD j []).getD k 0)) * e i j) :=
  foldl_scale_num _ _ (fun i => G i j) (fun i => e i j) h

/-- Two batches of series of the shapes that the loss accepts, with an accepted constraint; `S`, `Sx`, `Sy` are the paths that the
constraint allows. -/
structure SoftLossOk (l : SoftLoss) (x y : TBatch) (S Sx Sy : Finset (List (ℕ × ℕ))) : Prop where
  gamma : 0 < l.gamma
  slope : ∀ s, l.slope = some s → 1 ≤ s
  batch : x.items.length = y.items.length
  dim : x.dim = y.dim
  lx : 0 < x.len
  ly : 0 < y.len
  rectx : ∀ a ∈ x.items, Rect x.len x.dim a
  recty : ∀ a ∈ y.items, Rect y.len y.dim a
  paths : ∃ code, gcCode l.gc = .ok code ∧
    (∃ mask, computeMask x.len y.len code l.radius l.slope = .ok mask ∧ ∀ p, p ∈ S ↔ Admissible x.len y.len mask p) ∧
    (∃ mask, computeMask x.len x.len code l.radius l.slope = .ok mask ∧ ∀ p, p ∈ Sx ↔ Admissible x.len x.len mask p) ∧
    (∃ mask, computeMask y.len y.len code l.radius l.slope = .ok mask ∧ ∀ p, p ∈ Sy ↔ Admissible y.len y.len mask p)

theorem SoftLoss.pair_ok {l : SoftLoss} (f32 : ℝ → ℝ) {x y : TBatch} (hγ : 0 < l.gamma) (hs : ∀ s, l.slope = some s → 1 ≤ s)
    (hx : 0 < x.len) (hy : 0 < y.len) {code : ℕ} (hc : gcCode l.gc = .ok code) {mask : Mat Bool}
    (hm : computeMask x.len y.len code l.radius l.slope = .ok mask)
    {S : Finset (List (ℕ × ℕ))} (hS : ∀ p, p ∈ S ↔ Admissible x.len y.len mask p) :
    ∃ T : Mat ℝ → SoftTape, l.pair f32 x y = .ok (List.zipWith (fun a b => T (l.dist a b)) x.items y.items) ∧
      (∀ D, (T D).loss = .num (f32 (softMin S (sumCost D) l.gamma))) ∧
      ((∀ z, f32 z = z) → ∀ D g i j, i < x.len → j < y.len → softLossBack f32 x.len y.len l.gamma (T D) g i j =
        .num (g * visitProb S (sumCost D) l.gamma (i, j))) := by
  obtain ⟨T, h1, h2, -, h3⟩ := softLossApply_ok hx hy hγ hs hm hS f32
  refine ⟨T, ?_, h2, h3⟩
  have := h1 (List.zipWith l.dist x.items y.items)
  rw [List.map_zipWith, List.map_zipWith] at this
  simp only [SoftLoss.pair, hc, bind, Except.bind]
  exact this

/-- What one call computes and records. -/
theorem softLoss_run {l : SoftLoss} {x y : TBatch} {S Sx Sy : Finset (List (ℕ × ℕ))} (h : SoftLossOk l x y S Sx Sy)
    (f32 : ℝ → ℝ) : ∃ (T Tx Ty : Mat ℝ → SoftTape) (r : SoftRun),
      r.xy = List.zipWith (fun a b => T (l.dist a b)) x.items y.items ∧
      (l.normalize = true → r.xx = x.items.map (fun a => Tx (l.dist a a)) ∧ r.yy = y.items.map (fun a => Ty (l.dist a a))) ∧
      l.forward f32 x y = .ok (r, List.zipWith (fun a b => .num (f32 (softMin S (sumCost (l.dist a b)) l.gamma) -
        if l.normalize then 1 / 2 * (f32 (softMin Sx (sumCost (l.dist a a)) l.gamma) + f32 (softMin Sy (sumCost (l.dist b b)) l.gamma))
        else 0)) x.items y.items) ∧
      ((∀ z, f32 z = z) →
        (∀ D g i j, i < x.len → j < y.len → softLossBack f32 x.len y.len l.gamma (T D) g i j =
          .num (g * visitProb S (sumCost D) l.gamma (i, j))) ∧
        (∀ D g i j, i < x.len → j < x.len → softLossBack f32 x.len x.len l.gamma (Tx D) g i j =
          .num (g * visitProb Sx (sumCost D) l.gamma (i, j))) ∧
        (∀ D g i j, i < y.len → j < y.len → softLossBack f32 y.len y.len l.gamma (Ty D) g i j =
          .num (g * visitProb Sy (sumCost D) l.gamma (i, j)))) := by
  obtain ⟨code, hc, ⟨m1, hm1, hS1⟩, ⟨m2, hm2, hS2⟩, ⟨m3, hm3, hS3⟩⟩ := h.paths
  obtain ⟨T, a1, a2, a3⟩ := SoftLoss.pair_ok f32 h.gamma h.slope h.lx h.ly hc hm1 hS1
  obtain ⟨Tx, b1, b2, b3⟩ := SoftLoss.pair_ok f32 h.gamma h.slope h.lx h.lx hc hm2 hS2
  obtain ⟨Ty, c1, c2, c3⟩ := SoftLoss.pair_ok f32 h.gamma h.slope h.ly h.ly hc hm3 hS3
  have hz : ∀ (T : Mat ℝ → SoftTape) (xs : List (List (List ℝ))),
      List.zipWith (fun a b => T (l.dist a b)) xs xs = xs.map fun a => T (l.dist a a) := fun T xs => by
    induction xs with
    | nil => rfl
    | cons a xs ih => simp
  rw [hz] at b1 c1
  by_cases hn : l.normalize = true
  · refine ⟨T, Tx, Ty, ⟨_, _, _⟩, rfl, fun _ => ⟨rfl, rfl⟩, ?_, fun hf => ⟨a3 hf, b3 hf, c3 hf⟩⟩
    simp only [SoftLoss.forward, ne_eq, h.batch, h.dim, not_true_eq_false, if_false, hn, if_true, a1, b1, c1, bind, Except.bind,
      pure, Except.pure]
    refine congrArg Except.ok (congrArg _ ?_)
    have hl := h.batch
    revert hl
    generalize x.items = xs
    generalize y.items = ys
    intro hl
    induction xs generalizing ys with
    | nil => rfl
    | cons a xs ih =>
      cases ys with
      | nil => simp at hl
      | cons b ys =>
        simp only [List.zipWith_cons_cons, List.map_cons]
        rw [ih ys (by simpa using hl), a2, b2, c2]
        simp only [Fl.add, Fl.sub, Fl.neg, Fl.scale, ← sub_eq_add_neg]
  · refine ⟨T, Tx, Ty, ⟨_, [], []⟩, rfl, fun h => absurd h hn, ?_, fun hf => ⟨a3 hf, b3 hf, c3 hf⟩⟩
    simp only [SoftLoss.forward, ne_eq, h.batch, h.dim, not_true_eq_false, if_false, hn, a1, bind, Except.bind,
      pure, Except.pure, List.map_zipWith, a2]
    simp

/-- The loss values: soft minimum over all allowed paths of the costs given by the distance function, minus the mean of the self
values with `normalize`; each of them rounded to 32 bits. -/
theorem C79_rounded {l : SoftLoss} {x y : TBatch} {S Sx Sy : Finset (List (ℕ × ℕ))} (h : SoftLossOk l x y S Sx Sy) (f32 : ℝ → ℝ) :
    ∃ r, l.forward f32 x y = .ok (r, List.zipWith (fun a b => .num (f32 (softMin S (sumCost (l.dist a b)) l.gamma) -
      if l.normalize then 1 / 2 * (f32 (softMin Sx (sumCost (l.dist a a)) l.gamma) + f32 (softMin Sy (sumCost (l.dist b b)) l.gamma))
      else 0)) x.items y.items) := by
  obtain ⟨-, -, -, r, -, -, h1, -⟩ := softLoss_run h f32
  exact ⟨r, h1⟩

/-- The loss values without rounding. -/
theorem C79_value_partial {l : SoftLoss} {x y : TBatch} {S Sx Sy : Finset (List (ℕ × ℕ))} (h : SoftLossOk l x y S Sx Sy) :
    ∃ r, l.forward (fun z => z) x y =
      .ok (r, List.zipWith (fun a b => .num (softLossOf l.normalize l.gamma l.dist S Sx Sy a b)) x.items y.items) := by
  obtain ⟨r, h1⟩ := C79_rounded h fun z => z
  refine ⟨r, h1.trans ?_⟩
  simp only [softLossOf]
  refine congrArg Except.ok (congrArg _ (congrArg (fun f => List.zipWith f x.items y.items) ?_))
  funext a b
  split <;> simp <;> ring

/-- With the default distance the loss agrees with `soft_dtw` and `soft_dtw_normalized` on each pair. -/
theorem C79_soft_dtw_partial {l : SoftLoss} {x y : TBatch} {S Sx Sy : Finset (List (ℕ × ℕ))} (h : SoftLossOk l x y S Sx Sy)
    (hd : l.dist = softLossDist) (code : ℕ) (hc : gcCode l.gc = .ok code) (be : Backend) :
    ∃ r vs, l.forward (fun z => z) x y = .ok (r, vs) ∧ vs.length = x.items.length ∧ ∀ b < x.items.length,
      (if l.normalize then softDtwNormalizedGeneric be (x.items.getD b []) (y.items.getD b []) l.gamma code l.radius l.slope
        else softDtwGeneric be (x.items.getD b []) (y.items.getD b []) l.gamma code l.radius l.slope) = .ok (vs.getD b .nan) := by
  obtain ⟨r, h1⟩ := C79_value_partial h
  refine ⟨r, _, h1, by simp [h.batch], fun b hb => ?_⟩
  have hb' : b < y.items.length := h.batch ▸ hb
  obtain ⟨code', hc', ⟨m1, hm1, hS1⟩, ⟨m2, hm2, hS2⟩, ⟨m3, hm3, hS3⟩⟩ := h.paths
  obtain rfl : code = code' := by rw [hc] at hc'; injection hc'
  have rx := h.rectx _ (List.getElem_mem hb)
  have ry := h.recty _ (List.getElem_mem hb')
  rw [List.getD_eq_getElem _ _ hb, List.getD_eq_getElem _ _ hb', List.getD_eq_getElem _ _ (by simp [hb, hb']), List.getElem_zipWith]
  generalize x.items[b] = xb at *
  generalize y.items[b] = yb at *
  have hxl : xb.length = x.len := rx.1
  have hyl : yb.length = y.len := ry.1
  have hx0 : xb ≠ [] := List.length_pos_iff.1 (hxl ▸ h.lx)
  have hy0 : yb ≠ [] := List.length_pos_iff.1 (hyl ▸ h.ly)
  rw [← hxl, ← hyl] at hm1 hS1
  rw [← hxl] at hm2 hS2
  rw [← hyl] at hm3 hS3
  have e1 := C17_softmin be xb yb hx0 hy0 l.gamma h.gamma code l.radius l.slope h.slope m1 hm1 S hS1
  have e2 := C17_softmin be xb xb hx0 hx0 l.gamma h.gamma code l.radius l.slope h.slope m2 hm2 Sx hS2
  have e3 := C17_softmin be yb yb hy0 hy0 l.gamma h.gamma code l.radius l.slope h.slope m3 hm3 Sy hS3
  simp only [softLossOf, hd, softLossDist_eq]
  split
  · simp only [softDtwNormalizedGeneric, e1, e2, e3, bind, Except.bind, pure, Except.pure, Fl.add, Fl.sub, Fl.neg, Fl.scale, softMin]
    refine congrArg Except.ok (congrArg Fl.num ?_)
    ring
  · rw [e1, sub_zero]
    rfl

/-- The gradient handed to the distance matrix is the derivative of the soft minimum: `grad_output` times the probability of
visiting the cell, for every distance function. -/
theorem C79_backward_partial {m n : ℕ} (hm : 0 < m) (hn : 0 < n) {γ : ℝ} (hγ : 0 < γ) {code : ℕ} {radius : Option ℕ} {slope : Option ℚ}
    (hs : ∀ s, slope = some s → 1 ≤ s) {mask : Mat Bool} (hmask : computeMask m n code radius slope = .ok mask)
    {S : Finset (List (ℕ × ℕ))} (hS : ∀ p, p ∈ S ↔ Admissible m n mask p) (D : Mat ℝ) :
    ∃ (t : SoftTape) (e : ℕ → ℕ → ℝ), softLossApply (fun z => z) m n [fun i j => .num (D i j)] γ code radius slope = .ok [t] ∧
      (∀ g i j, i < m → j < n → softLossBack (fun z => z) m n γ t g i j = .num (g * e i j)) ∧
      ∀ (c : ℝ → ℕ → ℕ → ℝ) (c' : ℕ → ℕ → ℝ), c 0 = D → (∀ i < m, ∀ j < n, HasDerivAt (fun t => c t i j) (c' i j) 0) →
        HasDerivAt (fun t => softMin S (sumCost (c t)) γ) (∑ i ∈ Finset.range m, ∑ j ∈ Finset.range n, e i j * c' i j) 0 := by
  obtain ⟨-, q, hq⟩ := computeMask_reachable hm hn hs hmask
  obtain ⟨T, h1, -, -, h2⟩ := softLossApply_ok hm hn hγ hs hmask hS fun z => z
  refine ⟨T D, fun i j => visitProb S (sumCost D) γ (i, j), h1 [D], h2 (fun _ => rfl) D, fun c c' h0 hc => ?_⟩
  rw [← h0]
  exact softMin_deriv hS ⟨q, (hS q).2 hq⟩ hγ c c' hc

/-- `x.grad` and `y.grad` with the default distance are the derivatives of the loss, with or without `normalize`: the loss of
element `b` moves by `Σ GX·h + Σ GY·k` when the series move in the directions `h` and `k`. -/
theorem C79_gradient_partial {l : SoftLoss} {x y : TBatch} {S Sx Sy : Finset (List (ℕ × ℕ))} (h : SoftLossOk l x y S Sx Sy)
    (hd : l.dist = softLossDist) : ∃ r vs, l.forward (fun z => z) x y = .ok (r, vs) ∧ ∀ b < x.items.length,
      ∃ GX GY : ℕ → ℕ → ℝ,
        (∀ g, ∀ i < x.len, ∀ f < x.dim, l.gradX (fun z => z) x y r b g i f = .num (g * GX i f)) ∧
        (∀ g, ∀ j < y.len, ∀ f < x.dim, l.gradY (fun z => z) x y r b g j f = .num (g * GY j f)) ∧
        ∀ h k : ℕ → ℕ → ℝ, HasDerivAt (fun t => softLossOf l.normalize l.gamma sampleCost S Sx Sy
            (moveBy x.len x.dim (x.items.getD b []) h t) (moveBy y.len x.dim (y.items.getD b []) k t))
          ((∑ i ∈ Finset.range x.len, ∑ f ∈ Finset.range x.dim, GX i f * h i f) +
            ∑ j ∈ Finset.range y.len, ∑ f ∈ Finset.range x.dim, GY j f * k j f) 0 := by
  obtain ⟨T, Tx, Ty, r, r1, r2, r3, r4⟩ := softLoss_run h fun z => z
  obtain ⟨g1, g2, g3⟩ := r4 fun _ => rfl
  refine ⟨r, _, r3, fun b hb => ?_⟩
  have hb' : b < y.items.length := h.batch ▸ hb
  obtain ⟨code, hc, ⟨m1, hm1, hS1⟩, ⟨m2, hm2, hS2⟩, ⟨m3, hm3, hS3⟩⟩ := h.paths
  obtain ⟨-, q1, hq1⟩ := computeMask_reachable h.lx h.ly h.slope hm1
  obtain ⟨-, q2, hq2⟩ := computeMask_reachable h.lx h.lx h.slope hm2
  obtain ⟨-, q3, hq3⟩ := computeMask_reachable h.ly h.ly h.slope hm3
  have rx : Rect x.len x.dim (x.items.getD b []) := by
    rw [List.getD_eq_getElem _ _ hb]; exact h.rectx _ (List.getElem_mem hb)
  have ry : Rect y.len x.dim (y.items.getD b []) := by
    rw [List.getD_eq_getElem _ _ hb', h.dim]; exact h.recty _ (List.getElem_mem hb')
  have t1 : ∀ t, r.xy.getD b t = T (sampleCost (x.items.getD b []) (y.items.getD b [])) := fun t => by
    rw [r1, List.getD_eq_getElem _ _ (by simp [hb, hb']), List.getElem_zipWith, List.getD_eq_getElem _ _ hb,
      List.getD_eq_getElem _ _ hb', hd, softLossDist_eq]
  have t2 : l.normalize = true → ∀ t, r.xx.getD b t = Tx (sampleCost (x.items.getD b []) (x.items.getD b [])) := fun hn t => by
    rw [(r2 hn).1, List.getD_eq_getElem _ _ (by simp [hb]), List.getElem_map, List.getD_eq_getElem _ _ hb, hd, softLossDist_eq]
  have t3 : l.normalize = true → ∀ t, r.yy.getD b t = Ty (sampleCost (y.items.getD b []) (y.items.getD b [])) := fun hn t => by
    rw [(r2 hn).2, List.getD_eq_getElem _ _ (by simp [hb']), List.getElem_map, List.getD_eq_getElem _ _ hb', hd, softLossDist_eq]
  set xb := x.items.getD b []
  set yb := y.items.getD b []
  have hxl : xb.length = x.len := rx.1
  have hyl : yb.length = y.len := ry.1
  -- real-valued parts
  let AX : (List (List ℝ)) → (List (List ℝ)) → Finset (List (ℕ × ℕ)) → ℕ → ℕ → ℕ → ℝ := fun a c S n i f =>
    ∑ j ∈ Finset.range n, 2 * ((a.getD i []).getD f 0 - (c.getD j []).getD f 0) * visitProb S (sumCost (sampleCost a c)) l.gamma (i, j)
  let AY : (List (List ℝ)) → (List (List ℝ)) → Finset (List (ℕ × ℕ)) → ℕ → ℕ → ℕ → ℝ := fun a c S n j f =>
    ∑ i ∈ Finset.range n, -(2 * ((a.getD i []).getD f 0 - (c.getD j []).getD f 0)) *
      visitProb S (sumCost (sampleCost a c)) l.gamma (i, j)
  have eX : ∀ g, ∀ i < x.len, ∀ f, distBackX xb yb (softLossBack (fun z => z) x.len y.len l.gamma (T (sampleCost xb yb)) g) i f =
      .num (g * AX xb yb S y.len i f) := fun g i hi f => by
    rw [distBackX_num (e := fun i j => g * visitProb S (sumCost (sampleCost xb yb)) l.gamma (i, j))
      (fun j hj => g1 _ g i j hi (hyl ▸ hj)), hyl, Finset.mul_sum]
    exact congrArg _ (Finset.sum_congr rfl fun _ _ => by ring)
  have eY : ∀ g, ∀ j < y.len, ∀ f, distBackY xb yb (softLossBack (fun z => z) x.len y.len l.gamma (T (sampleCost xb yb)) g) j f =
      .num (g * AY xb yb S x.len j f) := fun g j hj f => by
    rw [distBackY_num (e := fun i j => g * visitProb S (sumCost (sampleCost xb yb)) l.gamma (i, j))
      (fun i hi => g1 _ g i j (hxl ▸ hi) hj), hxl, Finset.mul_sum]
    exact congrArg _ (Finset.sum_congr rfl fun _ _ => by ring)
  have eXX : ∀ g, ∀ i < x.len, ∀ f, distBackX xb xb (softLossBack (fun z => z) x.len x.len l.gamma (Tx (sampleCost xb xb)) g) i f =
      .num (g * AX xb xb Sx x.len i f) := fun g i hi f => by
    rw [distBackX_num (e := fun i j => g * visitProb Sx (sumCost (sampleCost xb xb)) l.gamma (i, j))
      (fun j hj => g2 _ g i j hi (hxl ▸ hj)), hxl, Finset.mul_sum]
    exact congrArg _ (Finset.sum_congr rfl fun _ _ => by ring)
  have eXY : ∀ g, ∀ j < x.len, ∀ f, distBackY xb xb (softLossBack (fun z => z) x.len x.len l.gamma (Tx (sampleCost xb xb)) g) j f =
      .num (g * AY xb xb Sx x.len j f) := fun g j hj f => by
    rw [distBackY_num (e := fun i j => g * visitProb Sx (sumCost (sampleCost xb xb)) l.gamma (i, j))
      (fun i hi => g2 _ g i j (hxl ▸ hi) hj), hxl, Finset.mul_sum]
    exact congrArg _ (Finset.sum_congr rfl fun _ _ => by ring)
  have eYX : ∀ g, ∀ i < y.len, ∀ f, distBackX yb yb (softLossBack (fun z => z) y.len y.len l.gamma (Ty (sampleCost yb yb)) g) i f =
      .num (g * AX yb yb Sy y.len i f) := fun g i hi f => by
    rw [distBackX_num (e := fun i j => g * visitProb Sy (sumCost (sampleCost yb yb)) l.gamma (i, j))
      (fun j hj => g3 _ g i j hi (hyl ▸ hj)), hyl, Finset.mul_sum]
    exact congrArg _ (Finset.sum_congr rfl fun _ _ => by ring)
  have eYY : ∀ g, ∀ j < y.len, ∀ f, distBackY yb yb (softLossBack (fun z => z) y.len y.len l.gamma (Ty (sampleCost yb yb)) g) j f =
      .num (g * AY yb yb Sy y.len j f) := fun g j hj f => by
    rw [distBackY_num (e := fun i j => g * visitProb Sy (sumCost (sampleCost yb yb)) l.gamma (i, j))
      (fun i hi => g3 _ g i j (hyl ▸ hi) hj), hyl, Finset.mul_sum]
    exact congrArg _ (Finset.sum_congr rfl fun _ _ => by ring)
  have d1 := fun u k => softMin_move2 rx ry hS1 ⟨q1, (hS1 q1).2 hq1⟩ h.gamma u k
  by_cases hn : l.normalize = true
  · refine ⟨fun i f => AX xb yb S y.len i f - (AX xb xb Sx x.len i f + AY xb xb Sx x.len i f) / 2,
      fun j f => AY xb yb S x.len j f - (AX yb yb Sy y.len j f + AY yb yb Sy y.len j f) / 2, ?_, ?_, ?_⟩
    · intro g i hi f _
      simp only [SoftLoss.gradX, hn, if_true, t1, t2 hn]
      rw [eX g i hi f, eXX _ i hi f, eXY _ i hi f]
      simp only [Fl.add, Fl.num.injEq]
      ring
    · intro g j hj f _
      simp only [SoftLoss.gradY, hn, if_true, t1, t3 hn]
      rw [eY g j hj f, eYX _ j hj f, eYY _ j hj f]
      simp only [Fl.add, Fl.num.injEq]
      ring
    · intro u k
      have d2 := softMin_move2 rx rx hS2 ⟨q2, (hS2 q2).2 hq2⟩ h.gamma u u
      have d3 := softMin_move2 ry ry hS3 ⟨q3, (hS3 q3).2 hq3⟩ h.gamma k k
      simp only [softLossOf, hn, if_true]
      refine ((d1 u k).sub ((d2.add d3).div_const 2)).congr_deriv ?_
      simp only [AX, AY, sub_mul, add_div, add_mul, Finset.sum_sub_distrib, Finset.sum_add_distrib, div_mul_eq_mul_div,
        ← Finset.sum_div]
      ring
  · refine ⟨AX xb yb S y.len, AY xb yb S x.len, ?_, ?_, ?_⟩
    · intro g i hi f _
      simp only [SoftLoss.gradX, hn, t1]
      exact eX g i hi f
    · intro g j hj f _
      simp only [SoftLoss.gradY, hn, t1]
      exact eY g j hj f
    · intro u k
      simp only [softLossOf, hn]
      rw [show (fun t => softMin S (sumCost (sampleCost (moveBy x.len x.dim xb u t) (moveBy y.len x.dim yb k t))) l.gamma -
        if false = true then (softMin Sx (sumCost (sampleCost (moveBy x.len x.dim xb u t) (moveBy x.len x.dim xb u t))) l.gamma +
          softMin Sy (sumCost (sampleCost (moveBy y.len x.dim yb k t) (moveBy y.len x.dim yb k t))) l.gamma) / 2 else 0) =
        fun t => softMin S (sumCost (sampleCost (moveBy x.len x.dim xb u t) (moveBy y.len x.dim yb k t))) l.gamma from by
          funext t; simp]
      exact d1 u k

/-- Refused calls. -/
theorem C79_refused (l : SoftLoss) (f32 : ℝ → ℝ) (x y : TBatch) :
    (x.items.length ≠ y.items.length → l.forward f32 x y = .error .assertion) ∧
    (x.dim ≠ y.dim → l.forward f32 x y = .error .assertion) ∧
    (x.items.length = y.items.length → x.dim = y.dim → gcCode l.gc = .error .keyError → l.forward f32 x y = .error .keyError) ∧
    (x.items.length = y.items.length → x.dim = y.dim → gcCode l.gc = .ok 0 → l.radius.isSome → l.slope.isSome →
      l.forward f32 x y = .error .runtimeWarning) := by
  refine ⟨fun h => ?_, fun h => ?_, fun h1 h2 h3 => ?_, fun h1 h2 h3 h4 h5 => ?_⟩
  · simp only [SoftLoss.forward, ne_eq, h, not_false_eq_true, if_true]
    rfl
  · simp only [SoftLoss.forward, ne_eq, h, not_false_eq_true, if_true]
    split <;> rfl
  · simp only [SoftLoss.forward, SoftLoss.pair, ne_eq, h1, h2, h3, not_true_eq_false, if_false]
    rfl
  · simp only [SoftLoss.forward, SoftLoss.pair, softLossApply, computeMask, ne_eq, h1, h2, h3, h4, h5, not_true_eq_false, if_false,
      and_self]
    rfl

/-- The tensor that the distance function returned is overwritten: after a call its entries outside the mask are `inf`. -/
theorem C79_overwrites (f32 : ℝ → ℝ) (m n : ℕ) (Ds : List (Mat Fl)) (γ : ℝ) (code : ℕ) (radius : Option ℕ) (slope : Option ℚ)
    (mask : Mat Bool) (hmask : computeMask m n code radius slope = .ok mask) : ∃ ts,
    softLossApply f32 m n Ds γ code radius slope = .ok ts ∧
      ts.map SoftTape.D = Ds.map fun D i j => if mask i j then D i j else .inf := by
  unfold softLossApply
  simp only [hmask, bind, Except.bind, pure, Except.pure]
  refine ⟨_, rfl, ?_⟩
  simp only [List.map_map]
  rfl

/-- Sharing the matrix between two losses changes the second value: a call with a Sakoe-Chiba band of radius 0, followed by an
unconstrained call on the same tensor, gives 0 instead of `-log 3`. -/
theorem C79_false_overwritten : ∃ (D : Mat Fl) (t t' t'' : SoftTape),
    softLossApply (fun z => z) 2 2 [D] 1 2 (some 0) none = .ok [t] ∧
    softLossApply (fun z => z) 2 2 [t.D] 1 0 none none = .ok [t'] ∧ t'.loss = .num 0 ∧
    softLossApply (fun z => z) 2 2 [D] 1 0 none none = .ok [t''] ∧ t''.loss = .num (-Real.log 3) := by
  have hround : ∀ v : Fl, v.round (fun z => z) = v := fun v => by cases v <;> rfl
  have hmin : ∀ a b c : ℝ, 0 ≤ a → 0 ≤ b → 0 ≤ c → a + b + c ≠ 0 →
      softmin3 (ofW 1 a) (ofW 1 b) (ofW 1 c) 1 = ofW 1 (a + b + c) := fun a b c ha hb hc h => softmin3_ofW one_pos ha hb hc h
  have w0 : ofW 1 0 = .inf := by simp [ofW]
  have w1 : ofW 1 1 = .num 0 := by simp [ofW]
  have w3 : ofW 1 3 = .num (-Real.log 3) := by simp [ofW]
  have key : ∀ D : Mat Fl, lastEntry (softAccFromDist 2 2 (Mat.full true) D 1) 2 2 =
      (D 1 1).add (softmin3 ((D 0 1).add (softmin3 .inf (D 0 0) .inf 1)) ((D 1 0).add (softmin3 (D 0 0) .inf .inf 1)) (D 0 0) 1) := by
    intro D
    have hM := dpLoop_isDP 2 2 (Mat.full true) (fun i j up left diag =>
      if i + j ≠ 0 then
        (D i j).add (softmin3 (if i ≠ 0 then up else Fl.inf) (if j ≠ 0 then left else Fl.inf)
          (if i * j ≠ 0 then diag else Fl.inf) 1)
      else D i j) (Mat.full Fl.inf)
    have b00 := hM.body 0 0 (by omega) (by omega)
    have b01 := hM.body 0 1 (by omega) (by omega)
    have b10 := hM.body 1 0 (by omega) (by omega)
    have b11 := hM.body 1 1 (by omega) (by omega)
    simp only [Mat.full, if_true, zero_add, ne_eq, one_ne_zero, not_false_eq_true, not_true_eq_false, if_false, Nat.reduceAdd,
      mul_one, mul_zero, OfNat.ofNat_ne_zero] at b00 b01 b10 b11
    unfold softAccFromDist lastEntry Mat.tail
    simp only [Nat.reduceSub, Nat.reduceAdd]
    rw [b11, b01, b10, b00]
  refine ⟨fun _ _ => .num 0, _, _, _, rfl, rfl, ?_, rfl, ?_⟩
  · simp only [hround]
    have hm : ∀ M : Mat Fl, lastEntry (fun i j => M i j) 2 2 = lastEntry M 2 2 := fun _ => rfl
    rw [hm, key]
    simp only [Mat.full, if_true]
    have m00 : sakoeChibaMask 2 2 0 0 0 = true := by decide
    have m01 : sakoeChibaMask 2 2 0 0 1 = false := by decide
    have m10 : sakoeChibaMask 2 2 0 1 0 = false := by decide
    have m11 : sakoeChibaMask 2 2 0 1 1 = true := by decide
    simp only [Option.getD_some, m00, m01, m10, m11, if_true, Bool.false_eq_true, if_false]
    have e1 := hmin 0 1 0 le_rfl zero_le_one le_rfl (by norm_num)
    have e2 := hmin 1 0 0 zero_le_one le_rfl le_rfl (by norm_num)
    have e3 := hmin 0 0 1 le_rfl le_rfl zero_le_one (by norm_num)
    simp only [add_zero, zero_add, w0, w1] at e1 e2 e3
    rw [e1, e2]
    simp only [Fl.add, e3, add_zero]
  · simp only [hround]
    have hm : ∀ M : Mat Fl, lastEntry (fun i j => M i j) 2 2 = lastEntry M 2 2 := fun _ => rfl
    rw [hm, key]
    simp only [Mat.full, if_true]
    have e1 := hmin 0 1 0 le_rfl zero_le_one le_rfl (by norm_num)
    have e2 := hmin 1 0 0 zero_le_one le_rfl le_rfl (by norm_num)
    have e3 := hmin 1 1 1 zero_le_one zero_le_one zero_le_one (by norm_num)
    have h3 : (1 : ℝ) + 1 + 1 = 3 := by norm_num
    simp only [add_zero, zero_add, w0, w1, h3, w3] at e1 e2 e3
    rw [e1, e2]
    simp only [Fl.add, e3, add_zero, zero_add]

/-! ### Rounding to 32 bits -/

theorem f32Round_error (x : ℝ) : |f32Round x - x| ≤ |x| / 2 ^ 24 := by
  by_cases hx : x = 0
  · subst hx; simp [f32Round]
  have hx' : 0 < |x| := abs_pos.2 hx
  set u : ℝ := 2 ^ (Int.log 2 |x| - 23) with hu
  have hupos : 0 < u := by positivity
  have hule : u / 2 ≤ |x| / 2 ^ 24 := by
    have h1 := Int.zpow_log_le_self (b := 2) (r := |x|) (by norm_num) hx'
    have h2 : u = 2 ^ (Int.log 2 |x|) / 2 ^ 23 := by
      rw [hu, zpow_sub₀ (by norm_num)]; norm_num
    rw [h2]
    push_cast at h1
    have : (2 : ℝ) ^ Int.log 2 |x| / 2 ^ 23 / 2 = 2 ^ Int.log 2 |x| / 2 ^ 24 := by ring
    rw [this]
    gcongr
  refine le_trans ?_ hule
  have hxq : x = u * (x / u) := by field_simp
  have hdef : f32Round x = u * ((if Int.fract (x / u) < 1 / 2 ∨ (Int.fract (x / u) = 1 / 2 ∧ Even ⌊x / u⌋) then ⌊x / u⌋
      else ⌊x / u⌋ + 1 : ℤ) : ℝ) := rfl
  have hq : f32Round x - x = u * (((if Int.fract (x / u) < 1 / 2 ∨ (Int.fract (x / u) = 1 / 2 ∧ Even ⌊x / u⌋) then ⌊x / u⌋
      else ⌊x / u⌋ + 1 : ℤ) : ℝ) - x / u) := by
    rw [mul_sub, ← hdef, ← hxq]
  rw [hq, abs_mul, abs_of_pos hupos, div_eq_mul_one_div u 2]
  refine mul_le_mul_of_nonneg_left ?_ hupos.le
  have hf := Int.floor_add_fract (x / u)
  have h0 := Int.fract_nonneg (x / u)
  have h1 := Int.fract_lt_one (x / u)
  rw [abs_le]
  split_ifs with hc
  · have : Int.fract (x / u) ≤ 1 / 2 := by
      rcases hc with hc | hc
      · exact hc.le
      · exact hc.1.le
    constructor <;> linarith
  · have : 1 / 2 ≤ Int.fract (x / u) := by
      by_contra hlt
      exact hc (.inl (not_le.1 hlt))
    push_cast
    constructor <;> linarith

theorem f32Round_eq {x : ℝ} {k z : ℤ} (hl : Int.log 2 |x| = k) (hz : x = 2 ^ (k - 23) * z) : f32Round x = x := by
  have hu : (2 : ℝ) ^ (k - 23) ≠ 0 := by positivity
  have hq : x / 2 ^ (k - 23) = z := by rw [hz]; field_simp
  unfold f32Round
  simp only [hl, hq, Int.floor_intCast, Int.fract_intCast]
  rw [if_pos (.inl (by norm_num)), ← hz]

/-- Without `normalize` every loss value is within a relative error of `2⁻²⁴` of the soft minimum. -/
theorem C79_error {l : SoftLoss} {x y : TBatch} {S Sx Sy : Finset (List (ℕ × ℕ))} (h : SoftLossOk l x y S Sx Sy)
    (hn : l.normalize = false) : ∃ r vs, l.forward f32Round x y = .ok (r, vs) ∧ ∀ b < x.items.length, ∃ v : ℝ,
      vs.getD b .nan = .num v ∧ |v - softMin S (sumCost (l.dist (x.items.getD b []) (y.items.getD b []))) l.gamma| ≤
        |softMin S (sumCost (l.dist (x.items.getD b []) (y.items.getD b []))) l.gamma| / 2 ^ 24 := by
  obtain ⟨r, h1⟩ := C79_rounded h f32Round
  refine ⟨r, _, h1, fun b hb => ⟨_, ?_, f32Round_error _⟩⟩
  have hb' : b < y.items.length := h.batch ▸ hb
  rw [List.getD_eq_getElem _ _ (by simp [hb, hb']), List.getElem_zipWith, List.getD_eq_getElem _ _ hb, List.getD_eq_getElem _ _ hb']
  simp [hn]

/-- In 64-bit precision the rounding spoils both: for the cost matrix `[[2²⁴, 1]]` and `gamma = 1` the only path has cost `2²⁴ + 1`
and derivative 1 in every entry; the loss is `2²⁴` and the gradient in the first entry is below `1/2`. -/
theorem C79_false_precision : ∃ (D : Mat Fl) (t : SoftTape) (e : ℝ),
    D 0 0 = .num (2 ^ 24) ∧ D 0 1 = .num 1 ∧
    softLossApply f32Round 1 2 [D] 1 0 none none = .ok [t] ∧ t.loss = .num (2 ^ 24) ∧
    softLossBack f32Round 1 2 1 t 1 0 0 = .num e ∧ e < 1 / 2 ∧
    ∃ t', softLossApply (fun z => z) 1 2 [D] 1 0 none none = .ok [t'] ∧ t'.loss = .num (2 ^ 24 + 1) ∧
      softLossBack (fun z => z) 1 2 1 t' 1 0 0 = .num 1 := by
  have l24 : Int.log 2 |(2 : ℝ) ^ 24| = 24 := by
    have := Int.log_zpow (R := ℝ) (b := 2) (by norm_num) 24
    rw [abs_of_pos (by positivity)]
    exact_mod_cast this
  have l0 : Int.log 2 |(1 : ℝ)| = 0 := by simp
  have lx : Int.log 2 |(2 : ℝ) ^ 24 + 1| = 24 := by
    have h := Int.log_natCast (R := ℝ) 2 16777217
    have h2 : Nat.log 2 16777217 = 24 := by rw [Nat.log_eq_iff (by norm_num)]; norm_num
    rw [h2] at h
    rw [abs_of_pos (by positivity)]
    norm_num at h ⊢
    exact h
  have r24 : f32Round (2 ^ 24) = 2 ^ 24 := f32Round_eq (z := 2 ^ 23) l24 (by norm_num)
  have r1 : f32Round 1 = 1 := f32Round_eq (z := 2 ^ 23) l0 (by norm_num)
  have rx : f32Round (2 ^ 24 + 1) = 2 ^ 24 := by
    have hq : ((2 : ℝ) ^ 24 + 1) / 2 ^ ((24 : ℤ) - 23) = (2 ^ 23 : ℤ) + 1 / 2 := by norm_num
    unfold f32Round
    simp only [lx, hq]
    have hf : ⌊((2 ^ 23 : ℤ) : ℝ) + 1 / 2⌋ = 2 ^ 23 := by
      rw [Int.floor_eq_iff]; constructor <;> norm_num
    have hfr : Int.fract (((2 ^ 23 : ℤ) : ℝ) + 1 / 2) = 1 / 2 := by
      rw [← Int.self_sub_floor, hf]; norm_num
    rw [hf, hfr, if_pos (.inr ⟨rfl, by decide⟩)]
    norm_num
  have acc : ∀ D : Mat Fl, softAccFromDist 1 2 (Mat.full true) D 1 0 0 = D 0 0 ∧
      softAccFromDist 1 2 (Mat.full true) D 1 0 1 = (D 0 1).add (softmin3 .inf (D 0 0) .inf 1) := by
    intro D
    have hM := dpLoop_isDP 1 2 (Mat.full true) (fun i j up left diag =>
      if i + j ≠ 0 then
        (D i j).add (softmin3 (if i ≠ 0 then up else Fl.inf) (if j ≠ 0 then left else Fl.inf)
          (if i * j ≠ 0 then diag else Fl.inf) 1)
      else D i j) (Mat.full Fl.inf)
    have b00 := hM.body 0 0 (by omega) (by omega)
    have b01 := hM.body 0 1 (by omega) (by omega)
    simp only [Mat.full, if_true, zero_add, ne_eq, one_ne_zero, not_false_eq_true, not_true_eq_false, if_false, Nat.reduceAdd,
      mul_one, mul_zero, OfNat.ofNat_ne_zero] at b00 b01
    unfold softAccFromDist Mat.tail
    simp only [Mat.full, Nat.reduceAdd, zero_add]
    rw [b01, b00]
    exact ⟨rfl, rfl⟩
  have hmin : softmin3 .inf (.num (2 ^ 24)) .inf 1 = .num (2 ^ 24) := by
    have h := softmin3_ofW (γ := 1) one_pos (a := 0) (b := Real.exp (-2 ^ 24)) (c := 0) le_rfl (Real.exp_pos _).le le_rfl
      (by simp)
    simpa [ofW, (Real.exp_pos _).ne'] using h
  have grad : ∀ (D R : Mat Fl) (r0 r1 d1 : ℝ), R 0 0 = .num r0 → R 0 1 = .num r1 → D 0 1 = .num d1 →
      softGrad 1 2 D R 1 (Mat.full (.num 0)) 0 0 = .num (Real.exp (r1 - r0 - d1)) := by
    intro D R r0 r1 d1 h0 h1 hd
    simp [softGrad, forRange, Mat.set, h0, h1, hd, Fl.sub, Fl.add, Fl.neg, Fl.div, Fl.scale, Fl.exp, Fl.isNan, Fl.mul, Mat.full,
      sub_eq_add_neg]
  let D : Mat Fl := fun _ j => if j = 0 then .num (2 ^ 24) else .num 1
  have R0 := (acc fun i j => if (Mat.full true : Mat Bool) i j then D i j else .inf).1
  have R1 := (acc fun i j => if (Mat.full true : Mat Bool) i j then D i j else .inf).2
  simp only [Mat.full, D, if_true, one_ne_zero, if_false, hmin, Fl.add] at R0 R1
  refine ⟨D, _, f32Round (Real.exp (-1)), rfl, rfl, rfl, ?_, ?_, ?_, _, rfl, ?_, ?_⟩
  · show Fl.round f32Round _ = _
    simp only [Nat.reduceSub, Mat.full, D, if_pos]
    rw [R1, Fl.round, add_comm, rx]
  · simp only [softLossBack, r1]
    rw [grad _ _ (2 ^ 24) (2 ^ 24) 1]
    · simp [Fl.round, Fl.scale]
    · simp only [Mat.full, D, if_pos]
      rw [R0, Fl.round, r24]
    · simp only [Mat.full, D, if_pos]
      rw [R1, Fl.round, add_comm, rx]
    · rfl
  · have he := abs_le.1 (f32Round_error (Real.exp (-1)))
    have h1 : Real.exp (-1) < 0.3678794412 := Real.exp_neg_one_lt_d9
    rw [abs_of_pos (Real.exp_pos _)] at he
    have : Real.exp (-1) / 2 ^ 24 ≤ Real.exp (-1) / 10 := by gcongr; norm_num
    linarith [he.2]
  · show Fl.round (fun z => z) _ = _
    simp only [Nat.reduceSub, Mat.full, D, if_pos]
    rw [R1, Fl.round, add_comm]
  · simp only [softLossBack]
    rw [grad _ _ (2 ^ 24) (2 ^ 24 + 1) 1]
    · simp [Fl.round, Fl.scale]
    · simp only [Mat.full, D, if_pos]
      rw [R0, Fl.round]
    · simp only [Mat.full, D, if_pos]
      rw [R1, Fl.round, add_comm]
    · rfl

/-- The hypotheses hold for two pairs of series under a Sakoe-Chiba band, with `normalize`; the self values are those of the
same band. -/
example : ∃ S Sx Sy, SoftLossOk ⟨1, true, softLossDist, some "sakoe_chiba", some 1, none⟩
    ⟨2, 1, [[[0], [1]], [[2], [3]]]⟩ ⟨3, 1, [[[0], [1], [2]], [[5], [4], [3]]]⟩ S Sx Sy := by
  refine ⟨_, _, _, one_pos, by simp, rfl, rfl, by norm_num, by norm_num, by simp [Rect], by simp [Rect], 2, rfl,
    ⟨_, rfl, fun p => mem_pathsB_admissible (by norm_num) (by norm_num)⟩,
    ⟨_, rfl, fun p => mem_pathsB_admissible (by norm_num) (by norm_num)⟩,
    ⟨_, rfl, fun p => mem_pathsB_admissible (by norm_num) (by norm_num)⟩⟩

/-- An unknown constraint name, and batches of different sizes. -/
example : SoftLoss.forward ⟨1, false, softLossDist, some "sakoechiba", none, none⟩ f32Round ⟨1, 1, [[[0]]]⟩ ⟨1, 1, [[[1]]]⟩ =
    .error .keyError ∧ SoftLoss.forward ⟨1, false, softLossDist, none, none, none⟩ f32Round ⟨1, 1, [[[0]]]⟩ ⟨1, 1, []⟩ =
    .error .assertion :=
  ⟨(C79_refused _ _ _ _).2.2.1 rfl rfl rfl, (C79_refused _ _ _ _).1 (by simp)⟩

end Verif
