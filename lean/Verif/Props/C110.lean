import Verif.Spec.Pooled
import Verif.Props.C66
import Mathlib.Data.List.GetD
import Mathlib.Algebra.BigOperators.Ring.Finset
/-!
# C110 — Order, copies and weights of the series in `KernelKMeans`
-/
set_option linter.unusedSectionVars false
namespace Verif
open Spec Finset
variable {K : Type} [Field K] [LinearOrder K] [IsStrictOrderedRing K]

section
variable {n n' : ℕ} {ρ : ℕ → ℕ} {sw sw' : ℕ → K} {c : K}

theorem listSum_range (m : ℕ) (g : ℕ → K) : ((List.range m).map g).sum = ∑ x ∈ range m, g x := by
  induction m with
  | zero => simp
  | succ m ih => rw [List.range_succ, List.map_append, List.sum_append, ih, sum_range_succ]; simp

theorem maskSum (L : List ℕ) (j : ℕ) (g : ℕ → K) :
    ((kkMask L j).map g).sum = ∑ i ∈ range L.length with L.getD i 0 = j, g i := by
  rw [sum_filter, ← listSum_range]
  unfold kkMask
  generalize List.range L.length = l
  induction l with
  | nil => rfl
  | cons a l ih =>
    by_cases h : L.getD a 0 = j
    · simp only [List.filter_cons, h, decide_true, if_true, List.map_cons, List.sum_cons, ih]
    · simp only [List.filter_cons, h, decide_false, if_false, List.map_cons, List.sum_cons, ih, zero_add, Bool.false_eq_true]

theorem follow_length (L : List ℕ) : (follow n' ρ L).length = n' := by simp [follow]

theorem follow_get (L : List ℕ) {i : ℕ} (h : i < n') : (follow n' ρ L).getD i 0 = L.getD (ρ i) 0 := by
  rw [List.getD_eq_getElem _ _ (by simpa [follow] using h)]; simp [follow]

theorem Spec.Pooled.sum (h : Pooled n n' ρ sw sw' c) {L : List ℕ} (hL : L.length = n) (j : ℕ) (g : ℕ → K) :
    ((kkMask (follow n' ρ L) j).map fun i => sw' i * g (ρ i)).sum = c * ((kkMask L j).map fun i => sw i * g i).sum := by
  rw [maskSum, maskSum, follow_length, hL, sum_filter, sum_filter, mul_sum]
  have e : ∀ i ∈ range n', (if (follow n' ρ L).getD i 0 = j then sw' i * g (ρ i) else 0) =
      ∑ k ∈ range n, if ρ i = k then (if L.getD k 0 = j then sw' i * g k else 0) else 0 := by
    intro i hi
    rw [sum_ite_eq, if_pos (mem_range.2 (h.maps i (mem_range.1 hi))), follow_get L (mem_range.1 hi)]
  rw [sum_congr rfl e, sum_comm]
  refine sum_congr rfl fun k hk => ?_
  rw [← sum_filter]
  by_cases hj : L.getD k 0 = j
  · simp only [hj, if_true]
    rw [← sum_mul, h.weight k (mem_range.1 hk), mul_assoc]
  · simp only [hj, if_false, sum_const_zero, mul_zero]

theorem Spec.Pooled.total (h : Pooled n n' ρ sw sw' c) {L : List ℕ} (hL : L.length = n) (j : ℕ) :
    ((kkMask (follow n' ρ L) j).map sw').sum = c * ((kkMask L j).map sw).sum := by
  have := h.sum hL j fun _ => 1
  simpa only [mul_one] using this

theorem Spec.Pooled.entryRow (h : Pooled n n' ρ sw sw' c) {M M' : ℕ → ℕ → K} {x x' : ℕ} (hM : ∀ i < n', M' x' i = M x (ρ i)) {L : List ℕ}
    (hL : L.length = n) (j : ℕ) : kkEntry sw' M' (follow n' ρ L) x' j = kkEntry sw M L x j := by
  unfold kkEntry
  have e : ((kkMask (follow n' ρ L) j).map fun i => sw' i * M' x' i) = (kkMask (follow n' ρ L) j).map fun i => sw' i * M x (ρ i) := by
    refine List.map_congr_left fun i hi => ?_
    have : i < n' := by
      have := (List.mem_filter.1 hi).1
      rw [List.mem_range, follow_length] at this; exact this
    rw [hM i this]
  rw [e, h.sum hL, h.total hL, ← mul_assoc, mul_comm 2 c, mul_assoc, mul_div_mul_left _ _ h.factor]

theorem Spec.Pooled.used (h : Pooled n n' ρ sw sw' c) {L : List ℕ} (hL : L.length = n) (k : ℕ) :
    hasEmpty (follow n' ρ L) k = hasEmpty L k := by
  rw [Bool.eq_iff_iff, hasEmpty_iff, hasEmpty_iff, not_iff_not]
  refine forall_congr' fun j => imp_congr_right fun _ => ?_
  constructor
  · intro hj
    obtain ⟨i, hi, rfl⟩ := List.mem_map.1 hj
    have hl : ρ i < L.length := hL ▸ h.maps i (List.mem_range.1 hi)
    rw [List.getD_eq_getElem _ _ hl]
    exact List.getElem_mem hl
  · intro hj
    obtain ⟨i, hi, rfl⟩ := List.getElem_of_mem hj
    obtain ⟨i', h1, h2⟩ := h.onto i (hL ▸ hi)
    exact List.mem_map.2 ⟨i', List.mem_range.2 h1, by rw [h2, List.getD_eq_getElem _ _ hi]⟩

/-- Rows of the distance matrix follow the series. -/
theorem Spec.Pooled.dist (h : Pooled n n' ρ sw sw' c) {M M' : ℕ → ℕ → K} (hM : ∀ i < n', ∀ j < n', M' i j = M (ρ i) (ρ j)) {L : List ℕ}
    (hL : L.length = n) (k : ℕ) : (∃ e, kkDist k n sw M L = .error e ∧ kkDist k n' sw' M' (follow n' ρ L) = .error e) ∨
      ∃ row : ℕ → List K, kkDist k n sw M L = .ok ((List.range n).map row) ∧
        kkDist k n' sw' M' (follow n' ρ L) = .ok ((List.range n').map fun i => row (ρ i)) := by
  unfold kkDist
  rw [h.used hL]
  have hz : ((List.range k).any fun j => ((kkMask (follow n' ρ L) j).map sw').sum = 0) =
      (List.range k).any fun j => ((kkMask L j).map sw).sum = 0 := by
    congr 1
    funext j
    rw [h.total hL]
    simp [h.factor]
  rw [hz]
  split_ifs
  · exact .inl ⟨_, rfl, rfl⟩
  · exact .inl ⟨_, rfl, rfl⟩
  · refine .inr ⟨fun x => (List.range k).map fun j => kkEntry sw M L x j, rfl, ?_⟩
    congr 1
    refine List.map_congr_left fun x hx => List.map_congr_left fun j _ => ?_
    exact h.entryRow (hM x (List.mem_range.1 hx)) hL j

theorem follow_rows (row : ℕ → List K) (hm : ∀ i < n', ρ i < n) :
    ((List.range n').map fun i => row (ρ i)).map argminL = follow n' ρ (((List.range n).map row).map argminL) := by
  unfold follow
  rw [List.map_map]
  refine List.map_congr_left fun i hi => ?_
  have := hm i (List.mem_range.1 hi)
  rw [List.getD_eq_getElem _ _ (by simpa using this)]
  simp

theorem copies_inertia {q : ℕ} (hm : ∀ i < n', ρ i < n) (hq : Copies n n' ρ q) (row : ℕ → List K) :
    kkInertia ((List.range n').map fun i => row (ρ i)) = q * kkInertia ((List.range n).map row) := by
  unfold kkInertia
  rw [List.map_map, List.map_map, listSum_range, listSum_range, mul_sum]
  have e : ∀ i ∈ range n', (rowMin ∘ fun i => row (ρ i)) i = ∑ k ∈ range n, if ρ i = k then rowMin (row k) else 0 := by
    intro i hi
    rw [sum_ite_eq, if_pos (mem_range.2 (hm i (mem_range.1 hi)))]; rfl
  rw [sum_congr rfl e, sum_comm]
  refine sum_congr rfl fun k hk => ?_
  rw [← sum_filter, sum_const, hq k (mem_range.1 hk), nsmul_eq_mul]; rfl

end

/-! ## Whole fits -/

/-- The same estimator on the other dataset: labels follow, tolerance and inertia are multiplied by the number of copies. -/
def KkObj.pool (n' : ℕ) (ρ : ℕ → ℕ) (q : ℕ) (o : KkObj K) : KkObj K :=
  { o with labels := o.labels.map (follow n' ρ), inertia := o.inertia.map (fun v => (q : K) * v), tol := (q : K) * o.tol }

/-- Two datasets as in `Pooled`, seen through every kernel, the initial labels being drawn alike. -/
structure SameSeries (D D' : KkData K) (ρ : ℕ → ℕ) (c : K) : Prop where
  pooled : Pooled D.n D'.n ρ D.sw D'.sw c
  gak : ∀ s, ∀ i < D'.n, ∀ j < D'.n, D'.gakMat s i j = D.gakMat s (ρ i) (ρ j)
  pair : ∀ kp, (∃ e, D.pairMat kp = .error e ∧ D'.pairMat kp = .error e) ∨
    ∃ M M', D.pairMat kp = .ok M ∧ D'.pairMat kp = .ok M' ∧ ∀ i < D'.n, ∀ j < D'.n, M' i j = M (ρ i) (ρ j)
  auto : D'.autoSigma = D.autoSigma
  sizes : ∀ a, (D.inits a).length = D.n
  inits : ∀ a, D'.inits a = follow D'.n ρ (D.inits a)

section
variable {D D' : KkData K} {ρ : ℕ → ℕ} {c : K} {q : ℕ}

theorem kmClose_pool (hq : 0 < q) (tol : K) (a b : WithTop K) :
    kmClose ((q : K) * tol) (a.map fun v => (q : K) * v) (b.map fun v => (q : K) * v) = kmClose tol a b := by
  have hq' : (0 : K) < q := by exact_mod_cast hq
  rcases a with _ | a <;> rcases b with _ | b <;> try rfl
  show decide (|(q : K) * a - q * b| < q * tol) = decide (|a - b| < tol)
  rw [decide_eq_decide, ← mul_sub, abs_mul, abs_of_pos hq', mul_lt_mul_iff_right₀ hq']

theorem kkLoop_pool (h : SameSeries D D' ρ c) (hq : 0 < q) (hc : Copies D.n D'.n ρ q) {M M' : ℕ → ℕ → K}
    (hM : ∀ i < D'.n, ∀ j < D'.n, M' i j = M (ρ i) (ρ j)) : ∀ (r it : ℕ) (old : WithTop K) (o : KkObj K) (L : List ℕ),
    o.labels = some L → L.length = D.n →
    kkLoop D' M' r it (old.map fun v => (q : K) * v) (o.pool D'.n ρ q) =
      ((kkLoop D M r it old o).1.pool D'.n ρ q, (kkLoop D M r it old o).2)
  | 0, it, old, o, L, _, _ => rfl
  | r + 1, it, old, o, L, hl, hL => by
    have hl' : (o.pool D'.n ρ q).labels.getD [] = follow D'.n ρ L := by simp [KkObj.pool, hl]
    rw [kkLoop, kkLoop, hl', hl]
    have hk : (o.pool D'.n ρ q).nClusters = o.nClusters := rfl
    rw [hk, Option.getD_some]
    rcases h.pooled.dist hM hL o.nClusters with ⟨e, h1, h2⟩ | ⟨row, h1, h2⟩
    · rw [h1, h2]
    · rw [h1, h2]
      simp only [follow_rows row h.pooled.maps, h.pooled.used (L := ((List.range D.n).map row).map argminL) (by simp),
        copies_inertia h.pooled.maps hc row]
      split_ifs with g1 g2 g3 g3
      · rfl
      · rfl
      · refine absurd ?_ g3
        rw [← g2]
        exact (kmClose_pool hq o.tol old (kkInertia ((List.range D.n).map row) : K)).symm
      · refine absurd ?_ g2
        rw [← g3]
        exact kmClose_pool hq o.tol old (kkInertia ((List.range D.n).map row) : K)
      · exact kkLoop_pool h hq hc hM r (it + 1) (kkInertia ((List.range D.n).map row) : K)
          { o with labels := some (((List.range D.n).map row).map argminL), inertia := (kkInertia ((List.range D.n).map row) : K) }
          _ rfl (by simp)

theorem kkFitOne_pool (h : SameSeries D D' ρ c) (hq : 0 < q) (hc : Copies D.n D'.n ρ q) {M M' : ℕ → ℕ → K}
    (hM : ∀ i < D'.n, ∀ j < D'.n, M' i j = M (ρ i) (ρ j)) (a : ℕ) (o : KkObj K) :
    kkFitOne D' M' (D'.inits a) (o.pool D'.n ρ q) =
      ((kkFitOne D M (D.inits a) o).1.pool D'.n ρ q, (kkFitOne D M (D.inits a) o).2) := by
  unfold kkFitOne
  have hm : (o.pool D'.n ρ q).maxIter = o.maxIter := rfl
  simp only [hm, h.inits a]
  split_ifs with h0
  · rfl
  · exact kkLoop_pool h hq hc hM o.maxIter 0 ⊤ { o with labels := some (D.inits a) } _ rfl (h.sizes a)

/-- The best attempt so far, on the other dataset. -/
def KkBest.pool (n' : ℕ) (ρ : ℕ → ℕ) (q : ℕ) (b : KkBest K) : KkBest K :=
  { b with best := b.best.map (follow n' ρ), minInertia := b.minInertia.map fun v => (q : K) * v }

theorem lt_pool (hq : 0 < q) (a b : WithTop K) : (a.map (fun v => (q : K) * v) < b.map fun v => (q : K) * v) ↔ a < b := by
  have hq' : (0 : K) < q := by exact_mod_cast hq
  induction a with
  | top => simp
  | coe a =>
    induction b with
    | top => simp
    | coe b => simp [WithTop.coe_lt_coe, mul_lt_mul_iff_right₀ hq']

theorem kkFitLoop_pool (h : SameSeries D D' ρ c) (hq : 0 < q) (hc : Copies D.n D'.n ρ q) {M M' : ℕ → ℕ → K}
    (hM : ∀ i < D'.n, ∀ j < D'.n, M' i j = M (ρ i) (ρ j)) : ∀ (fuel : ℕ) (b : KkBest K) (o : KkObj K),
    kkFitLoop D' M' fuel (b.pool D'.n ρ q) (o.pool D'.n ρ q) =
      ((kkFitLoop D M fuel b o).1.pool D'.n ρ q, (kkFitLoop D M fuel b o).2.1.pool D'.n ρ q, (kkFitLoop D M fuel b o).2.2)
  | 0, b, o => rfl
  | fuel + 1, b, o => by
    rw [kkFitLoop, kkFitLoop]
    have h1 : (b.pool D'.n ρ q).nSuccessful = b.nSuccessful := rfl
    have h2 : (o.pool D'.n ρ q).nInit = o.nInit := rfl
    have h3 : (b.pool D'.n ρ q).nAttempts = b.nAttempts := rfl
    rw [h1, h2]
    by_cases hs : b.nSuccessful < o.nInit
    · simp only [hs, if_true, h3, kkFitOne_pool h hq hc hM b.nAttempts o]
      obtain ⟨o1, e⟩ := kkFitOne D M (D.inits b.nAttempts) o
      cases e with
      | none =>
        have hi : ((o1.pool D'.n ρ q).inertia < (b.pool D'.n ρ q).minInertia) ↔ o1.inertia < b.minInertia := lt_pool hq _ _
        simp only [hi]
        split_ifs with h4
        · exact kkFitLoop_pool h hq hc hM fuel
            { b with best := o1.labels, minInertia := o1.inertia, nAttempts := b.nAttempts + 1, nSuccessful := b.nSuccessful + 1 }
            { o1 with nIter := o1.iter }
        · exact kkFitLoop_pool h hq hc hM fuel { b with nAttempts := b.nAttempts + 1, nSuccessful := b.nSuccessful + 1 } o1
      | some e =>
        cases e <;> try rfl
        exact kkFitLoop_pool h hq hc hM fuel { b with nAttempts := b.nAttempts + 1 } o1
    · simp only [hs, if_false]

theorem params_pool (n' : ℕ) (o : KkObj K) :
    kkGetParams (o.pool n' ρ q) = ((kkGetParams o).1, (kkGetParams o).2.pool n' ρ q) := by
  obtain ⟨_, _, _, _, _, kp, _, _, _, _, _, _, _⟩ := o
  cases kp <;> rfl

theorem sigma_tol (o : KkObj K) (t v : K) : kkSigma { o with tol := t } v = { kkSigma o v with tol := t } := by
  obtain ⟨_, _, _, _, _, kp, _, _, _, _, _, _, _⟩ := o
  cases kp <;> rfl

theorem kernel_pool (h : SameSeries D D' ρ c) (o : KkObj K) :
    (∃ o1 e, kkGetKernel o D.gakMat D.pairMat = (o1, .error e) ∧
      kkGetKernel (o.pool D'.n ρ q) D'.gakMat D'.pairMat = (o1.pool D'.n ρ q, .error e)) ∨
    ∃ o1 M M', kkGetKernel o D.gakMat D.pairMat = (o1, .ok M) ∧
      kkGetKernel (o.pool D'.n ρ q) D'.gakMat D'.pairMat = (o1.pool D'.n ρ q, .ok M') ∧
      ∀ i < D'.n, ∀ j < D'.n, M' i j = M (ρ i) (ρ j) := by
  unfold kkGetKernel
  rw [params_pool]
  obtain ⟨kp, o1⟩ := kkGetParams o
  have h1 : (o1.pool D'.n ρ q).gak = o1.gak := rfl
  simp only [h1]
  split_ifs with hg
  · unfold kkGakMatrix
    have h2 : (o1.pool D'.n ρ q).kernelParams = o1.kernelParams := rfl
    rw [h2]
    by_cases hr : kp.rest ≠ []
    · simp only [hr, if_true, ne_eq, not_false_eq_true]
      exact .inl ⟨_, _, rfl, rfl⟩
    · simp only [hr, if_false]
      cases kp.sigma.getD (.num 1) with
      | none => exact .inl ⟨_, _, rfl, rfl⟩
      | auto => exact .inl ⟨_, _, rfl, rfl⟩
      | num v =>
        by_cases hv : v = 0
        · simp only [hv, if_true]
          exact .inl ⟨_, _, rfl, rfl⟩
        · simp only [hv, if_false]
          exact .inr ⟨_, _, _, rfl, rfl, h.gak v⟩
  · rcases h.pair kp with ⟨e, h2, h3⟩ | ⟨M, M', h2, h3, h4⟩
    · exact .inl ⟨_, _, by rw [h2], by rw [h3]⟩
    · exact .inr ⟨_, M, M', by rw [h2], by rw [h3], h4⟩

/-- Fits on the two datasets differ by nothing else: the labels follow the series, and `inertia_` — with the tolerance — is multiplied by
the number of copies. Covers reordering (`q = 1`), multiplying all weights by a number, and repeating the dataset. -/
theorem C110_fit (h : SameSeries D D' ρ c) (hq : 0 < q) (hc : Copies D.n D'.n ρ q) (o : KkObj K) :
    kkFit { o with tol := (q : K) * o.tol } D' = ((kkFit o D).1.pool D'.n ρ q, (kkFit o D).2) := by
  unfold kkFit
  simp only [sigma_tol, h.auto]
  have ht : (kkSigma o D.autoSigma).tol = o.tol := (congrArg KkObj.tol (sigma_tol o o.tol D.autoSigma) :)
  generalize hr : ({ kkSigma o D.autoSigma with labels := none, inertia := ⊤, fitted := true, xfit := false, nIter := 0 } : KkObj K) = o1
  have h1 : ({ kkSigma o D.autoSigma with tol := (q : K) * o.tol, labels := none, inertia := ⊤, fitted := true, xfit := false, nIter := 0 } :
      KkObj K) = o1.pool D'.n ρ q := by
    rw [← hr, ← ht]; rfl
  rw [h1]
  rcases kernel_pool (q := q) h o1 with ⟨o2, e, h2, h3⟩ | ⟨o2, M, M', h2, h3, h4⟩
  · rw [h2, h3]
  · rw [h2, h3]
    simp only
    have h5 := kkFitLoop_pool h hq hc h4 (max o2.nInit 10) ⟨none, ⊤, 0, 0⟩ o2
    have h6 : (o2.pool D'.n ρ q).nInit = o2.nInit := rfl
    have h7 : (⟨none, ⊤, 0, 0⟩ : KkBest K).pool D'.n ρ q = ⟨none, ⊤, 0, 0⟩ := rfl
    rw [h7] at h5
    rw [h6, h5]
    obtain ⟨b, o3, e⟩ := kkFitLoop D M (max o2.nInit 10) ⟨none, ⊤, 0, 0⟩ o2
    cases e with
    | some e => rfl
    | none =>
      have h8 : (b.pool D'.n ρ q).nSuccessful = b.nSuccessful := rfl
      simp only [h8]
      split_ifs <;> rfl

/-- Predictions for any queries are the same from both. -/
theorem C110_predict (o : KkObj K) {n n' : ℕ} {sw sw' : ℕ → K} (h : Pooled n n' ρ sw sw' c) (Q Q' : KkQuery K) (hm : Q'.m = Q.m)
    (hsw : Q.sw = sw) (hsw' : Q'.sw = sw') (hg : ∀ s x i, i < n' → Q'.gakMat s x i = Q.gakMat s x (ρ i))
    (hp : ∀ kp, (∃ e, Q.pairMat kp = .error e ∧ Q'.pairMat kp = .error e) ∨
      ∃ M M', Q.pairMat kp = .ok M ∧ Q'.pairMat kp = .ok M' ∧ ∀ x i, i < n' → M' x i = M x (ρ i))
    (L : List ℕ) (hl : o.labels = some L) (hL : L.length = n) :
    (kkPredict (o.pool n' ρ q) Q').2 = (kkPredict o Q).2 := by
  have hd : ∀ k (M M' : ℕ → ℕ → K), (∀ x i, i < n' → M' x i = M x (ρ i)) →
      kkDist k Q'.m Q'.sw M' (follow n' ρ L) = kkDist k Q.m Q.sw M L := by
    intro k M M' hM
    unfold kkDist
    rw [h.used hL, hm, hsw, hsw']
    have hz : ((List.range k).any fun j => ((kkMask (follow n' ρ L) j).map sw').sum = 0) =
        (List.range k).any fun j => ((kkMask L j).map sw).sum = 0 := by
      congr 1
      funext j
      rw [h.total hL]
      simp [h.factor]
    rw [hz]
    simp only [h.entryRow (hM _) hL]
  unfold kkPredict kkGetKernel
  rw [params_pool]
  have e1 : (o.pool n' ρ q).fitted = o.fitted := rfl
  have e2 : (o.pool n' ρ q).xfit = o.xfit := rfl
  have hl1 : (kkGetParams o).2.labels = some L := by
    rw [← hl]; unfold kkGetParams; cases o.kernelParams <;> rfl
  rw [e1, e2]
  generalize kkGetParams o = r at hl1
  obtain ⟨kp, o1⟩ := r
  simp only at hl1
  have e3 : (o1.pool n' ρ q).gak = o1.gak := rfl
  have e4 : (o1.pool n' ρ q).labels.getD [] = follow n' ρ L := by simp [KkObj.pool, hl1]
  have e5 : (o1.pool n' ρ q).nClusters = o1.nClusters := rfl
  have e6 : (o1.pool n' ρ q).kernelParams = o1.kernelParams := rfl
  simp only [e3]
  by_cases hf : o.fitted = true
  · by_cases hx : o.xfit = true
    · simp only [hf, hx, if_true]
      have fin : ∀ M M' : ℕ → ℕ → K, (∀ x i, i < n' → M' x i = M x (ρ i)) →
          (match kkDist (o1.pool n' ρ q).nClusters Q'.m Q'.sw M' ((o1.pool n' ρ q).labels.getD []) with
            | .error err => (o1.pool n' ρ q, (.error err : Except PyErr (List ℕ)))
            | .ok ds => (o1.pool n' ρ q, .ok (ds.map argminL))).2 =
          (match kkDist o1.nClusters Q.m Q.sw M (o1.labels.getD []) with
            | .error err => (o1, (.error err : Except PyErr (List ℕ)))
            | .ok ds => (o1, .ok (ds.map argminL))).2 := by
        intro M M' hM
        rw [e4, e5, hd _ M M' hM, hl1, Option.getD_some]
        cases kkDist o1.nClusters Q.m Q.sw M L <;> rfl
      by_cases hgk : o1.gak = true
      · simp only [hgk, if_true]
        unfold kkGakMatrix
        rw [e6]
        by_cases hr : kp.rest ≠ []
        · simp only [hr, if_true, ne_eq, not_false_eq_true]
        · simp only [hr, if_false]
          cases kp.sigma.getD (.num 1) with
          | none => rfl
          | auto => rfl
          | num v =>
            by_cases hv : v = 0
            · simp only [hv, if_true]
            · simp only [hv, if_false]
              exact fin _ _ (hg v)
      · simp only [hgk]
        rcases hp kp with ⟨e, h2, h3⟩ | ⟨M, M', h2, h3, h4⟩
        · simp only [h2, h3, if_false, Bool.false_eq_true]
        · simp only [h2, h3, if_false, Bool.false_eq_true]
          exact fin M M' h4
    · simp only [hf, hx, if_true, if_false, Bool.false_eq_true]
  · simp only [hf, if_false, Bool.false_eq_true]

/-! ## Copies in different numbers: weights as multiplicities -/

/-- The same but for the inertia, which is a number in one if in the other. -/
def Akin (n' : ℕ) (ρ : ℕ → ℕ) (o o' : KkObj K) : Prop :=
  o' = { o with labels := o.labels.map (follow n' ρ), inertia := o'.inertia } ∧ (o'.inertia = ⊤ ↔ o.inertia = ⊤)

theorem kmClose_nonpos {tol : K} (h : tol ≤ 0) (a b : WithTop K) : kmClose tol a b = false := by
  rcases a with _ | a <;> rcases b with _ | b <;> try rfl
  show decide (|a - b| < tol) = false
  rw [decide_eq_false_iff_not, not_lt]
  exact h.trans (abs_nonneg _)

theorem kkLoop_akin (h : SameSeries D D' ρ c) {M M' : ℕ → ℕ → K} (hM : ∀ i < D'.n, ∀ j < D'.n, M' i j = M (ρ i) (ρ j)) :
    ∀ (r it : ℕ) (old old' : WithTop K) (o o' : KkObj K) (L : List ℕ), Akin D'.n ρ o o' → o.tol ≤ 0 → o.labels = some L → L.length = D.n →
    Akin D'.n ρ (kkLoop D M r it old o).1 (kkLoop D' M' r it old' o').1 ∧ (kkLoop D' M' r it old' o').2 = (kkLoop D M r it old o).2 ∧
      ((kkLoop D M r it old o).2 = none → 0 < r ∨ o.inertia ≠ ⊤ → (kkLoop D M r it old o).1.inertia ≠ ⊤)
  | 0, it, old, old', o, o', L, ⟨h1, h2⟩, _, _, _ => by
    refine ⟨⟨?_, h2⟩, rfl, fun _ hh => hh.resolve_left (lt_irrefl _)⟩
    show ({ o' with iter := it } : KkObj K) = _
    rw [h1]; rfl
  | r + 1, it, old, old', o, o', L, ⟨ho, hi⟩, ht, hl, hL => by
    have hl' : o'.labels.getD [] = follow D'.n ρ L := by rw [ho]; simp [hl]
    have hk : o'.nClusters = o.nClusters := by rw [ho]
    have ht' : o'.tol = o.tol := by rw [ho]
    rw [kkLoop, kkLoop, hl', hl, hk, Option.getD_some]
    rcases h.pooled.dist hM hL o.nClusters with ⟨e, h1, h2⟩ | ⟨row, h1, h2⟩
    · rw [h1, h2]
      exact ⟨⟨ho, hi⟩, rfl, by simp⟩
    · rw [h1, h2]
      simp only [follow_rows row h.pooled.maps, h.pooled.used (L := ((List.range D.n).map row).map argminL) (by simp), ht',
        kmClose_nonpos ht, if_false, Bool.false_eq_true]
      split_ifs with g1
      · refine ⟨⟨?_, hi⟩, rfl, by simp⟩
        simp only
        rw [ho]; rfl
      · obtain ⟨j1, j2, j3⟩ := kkLoop_akin h hM r (it + 1) (kkInertia ((List.range D.n).map row) : K)
          (kkInertia ((List.range D'.n).map fun i => row (ρ i)) : K)
          { o with labels := some (((List.range D.n).map row).map argminL), inertia := (kkInertia ((List.range D.n).map row) : K) }
          { o' with labels := some (follow D'.n ρ (((List.range D.n).map row).map argminL)),
                    inertia := (kkInertia ((List.range D'.n).map fun i => row (ρ i)) : K) }
          _ ⟨by simp only; rw [ho]; rfl, by simp⟩ ht rfl (by simp)
        simp only [hk, ht'] at j1 j2
        exact ⟨j1, j2, fun hn _ => j3 hn (.inr (by simp))⟩

theorem kkFitOne_akin (h : SameSeries D D' ρ c) {M M' : ℕ → ℕ → K} (hM : ∀ i < D'.n, ∀ j < D'.n, M' i j = M (ρ i) (ρ j)) (a : ℕ)
    {o o' : KkObj K} (ho : Akin D'.n ρ o o') (ht : o.tol ≤ 0) :
    Akin D'.n ρ (kkFitOne D M (D.inits a) o).1 (kkFitOne D' M' (D'.inits a) o').1 ∧
      (kkFitOne D' M' (D'.inits a) o').2 = (kkFitOne D M (D.inits a) o).2 ∧
      ((kkFitOne D M (D.inits a) o).2 = none → (kkFitOne D M (D.inits a) o).1.inertia ≠ ⊤) := by
  obtain ⟨h1, h2⟩ := ho
  have hm : o'.maxIter = o.maxIter := by rw [h1]
  have ha : Akin D'.n ρ { o with labels := some (D.inits a) } { o' with labels := some (follow D'.n ρ (D.inits a)) } :=
    ⟨by simp only; rw [h1]; rfl, h2⟩
  unfold kkFitOne
  simp only [hm, h.inits a]
  split_ifs with h0
  · refine ⟨?_, rfl, by simp⟩
    have := ha
    simp only [hm] at this
    exact this
  · obtain ⟨j1, j2, j3⟩ := kkLoop_akin h hM o.maxIter 0 ⊤ ⊤ _ _ (D.inits a) ha ht rfl (h.sizes a)
    simp only [hm] at j1 j2
    exact ⟨j1, j2, fun hn => j3 hn (.inl (by omega))⟩

theorem kkLoop_nInit (D : KkData K) (M : ℕ → ℕ → K) : ∀ (r it : ℕ) (old : WithTop K) (o : KkObj K),
    (kkLoop D M r it old o).1.nInit = o.nInit ∧ (kkLoop D M r it old o).1.tol = o.tol
  | 0, _, _, _ => ⟨rfl, rfl⟩
  | r + 1, it, old, o => by
    rw [kkLoop]
    cases kkDist o.nClusters D.n D.sw M (o.labels.getD []) with
    | error e => exact ⟨rfl, rfl⟩
    | ok ds =>
      simp only
      split_ifs
      · exact ⟨rfl, rfl⟩
      · exact ⟨rfl, rfl⟩
      · exact kkLoop_nInit D M r (it + 1) _ _

theorem kkFitOne_nInit (D : KkData K) (M : ℕ → ℕ → K) (init : List ℕ) (o : KkObj K) :
    (kkFitOne D M init o).1.nInit = o.nInit ∧ (kkFitOne D M init o).1.tol = o.tol := by
  unfold kkFitOne
  simp only
  split_ifs
  · exact ⟨rfl, rfl⟩
  · exact kkLoop_nInit D M _ _ _ _

/-- Result of the attempts of the two runs with `n_init = 1`. -/
def AkinRun (n' : ℕ) (ρ : ℕ → ℕ) (r r' : KkBest K × KkObj K × Option PyErr) : Prop :=
  Akin n' ρ r.2.1 r'.2.1 ∧ r'.2.2 = r.2.2 ∧ r'.1.nSuccessful = r.1.nSuccessful ∧ r'.1.best = r.1.best.map (follow n' ρ) ∧
    (r'.1.minInertia = ⊤ ↔ r.1.minInertia = ⊤)

theorem kkFitLoop_done (D : KkData K) (M : ℕ → ℕ → K) (fuel : ℕ) (b : KkBest K) (o : KkObj K) (h : ¬ b.nSuccessful < o.nInit) :
    kkFitLoop D M fuel b o = (b, o, none) := by
  cases fuel with
  | zero => rfl
  | succ fuel => rw [kkFitLoop, if_neg h]

theorem kkFitLoop_akin (h : SameSeries D D' ρ c) {M M' : ℕ → ℕ → K} (hM : ∀ i < D'.n, ∀ j < D'.n, M' i j = M (ρ i) (ρ j)) :
    ∀ (fuel a : ℕ) (o o' : KkObj K), Akin D'.n ρ o o' → o.tol ≤ 0 → o.nInit = 1 →
    AkinRun D'.n ρ (kkFitLoop D M fuel ⟨none, ⊤, 0, a⟩ o) (kkFitLoop D' M' fuel ⟨none, ⊤, 0, a⟩ o')
  | 0, a, o, o', ho, _, _ => ⟨ho, rfl, rfl, rfl, Iff.rfl⟩
  | fuel + 1, a, o, o', ho, ht, h1 => by
    have h1' : o'.nInit = 1 := by rw [ho.1]; exact h1
    rw [kkFitLoop, kkFitLoop, if_pos (show (0 : ℕ) < o.nInit by omega), if_pos (show (0 : ℕ) < o'.nInit by omega)]
    obtain ⟨j1, j2, j3⟩ := kkFitOne_akin h hM a ho ht
    have g1 := kkFitOne_nInit D M (D.inits a) o
    have g2 := kkFitOne_nInit D' M' (D'.inits a) o'
    simp only
    generalize kkFitOne D M (D.inits a) o = r at j1 j2 j3 g1
    generalize kkFitOne D' M' (D'.inits a) o' = r' at j1 j2 g2
    obtain ⟨o1, e⟩ := r
    obtain ⟨o1', e'⟩ := r'
    simp only at j1 j2 j3 g1 g2
    subst j2
    cases e' with
    | none =>
      have k1 : o1.inertia < ⊤ := lt_top_iff_ne_top.2 (j3 rfl)
      have k2 : o1'.inertia < ⊤ := lt_top_iff_ne_top.2 fun hc => j3 rfl (j1.2.1 hc)
      simp only [k1, k2, if_true]
      rw [kkFitLoop_done _ _ _ _ _ (by simp only; omega), kkFitLoop_done _ _ _ _ _ (by simp only; omega)]
      refine ⟨⟨?_, j1.2⟩, rfl, rfl, ?_, j1.2⟩
      · have hi : o1'.iter = o1.iter := by rw [j1.1]
        simp only [hi]
        rw [j1.1]
      · simp only
        rw [j1.1]
    | some e =>
      cases e <;> try exact ⟨j1, rfl, rfl, rfl, Iff.rfl⟩
      exact kkFitLoop_akin h hM fuel (a + 1) o1 o1' j1 (g1.2 ▸ ht) (g1.1.trans h1)

/-- Full claim: giving a series `k` times is giving it once with weight `k`. Missing (and false, see below): several attempts, and
a positive tolerance, since `inertia_` does not see the weights. -/
theorem C110_multiplicity_partial (h : SameSeries D D' ρ c) (o : KkObj K) (ht : o.tol ≤ 0) (hn : o.nInit = 1) :
    Akin D'.n ρ (kkFit o D).1 (kkFit o D').1 ∧ (kkFit o D').2 = (kkFit o D).2 := by
  unfold kkFit
  simp only [h.auto]
  generalize hr : ({ kkSigma o D.autoSigma with labels := none, inertia := ⊤, fitted := true, xfit := false, nIter := 0 } : KkObj K) = o1
  have pool1 : ∀ o : KkObj K, o.labels = none → o.inertia = ⊤ → o.pool D'.n ρ 1 = o := by
    rintro ⟨_, _, _, _, _, _, _, l, i, _, _, _, _⟩ h1 h2
    simp only at h1 h2
    subst h1 h2
    simp [KkObj.pool]
  have hs : ∀ o : KkObj K, (kkGetParams o).2.tol = o.tol ∧ (kkGetParams o).2.nInit = o.nInit ∧ (kkGetParams o).2.labels = o.labels ∧
      (kkGetParams o).2.inertia = o.inertia := by
    intro o
    unfold kkGetParams
    cases o.kernelParams <;> exact ⟨rfl, rfl, rfl, rfl⟩
  have hp : o1.pool D'.n ρ 1 = o1 := by rw [← hr]; exact pool1 _ rfl rfl
  have h1 : o1.tol = o.tol ∧ o1.nInit = o.nInit ∧ o1.labels = none ∧ o1.inertia = ⊤ := by
    rw [← hr]; exact ⟨(hs o).1, (hs o).2.1, rfl, rfl⟩
  have hk : ∀ o2 r, kkGetKernel o1 D.gakMat D.pairMat = (o2, r) → o2.tol = o.tol ∧ o2.nInit = o.nInit ∧ o2.labels = none ∧ o2.inertia = ⊤ := by
    intro o2 r hr'
    have : o2 = (kkGetParams o1).2 := (congrArg Prod.fst hr').symm
    obtain ⟨a1, a2, a3, a4⟩ := hs o1
    rw [this]
    exact ⟨a1.trans h1.1, a2.trans h1.2.1, a3.trans h1.2.2.1, a4.trans h1.2.2.2⟩
  have akin : ∀ o : KkObj K, o.labels = none → Akin D'.n ρ o o := by
    rintro ⟨_, _, _, _, _, _, _, l, i, _, _, _, _⟩ h1
    simp only at h1
    subst h1
    exact ⟨rfl, Iff.rfl⟩
  rcases kernel_pool (q := 1) h o1 with ⟨o2, e, h2, h3⟩ | ⟨o2, M, M', h2, h3, h4⟩
  · obtain ⟨a1, a2, a3, a4⟩ := hk _ _ h2
    rw [hp, pool1 o2 a3 a4] at h3
    rw [h2, h3]
    exact ⟨akin o2 a3, rfl⟩
  · obtain ⟨a1, a2, a3, a4⟩ := hk _ _ h2
    rw [hp, pool1 o2 a3 a4] at h3
    rw [h2, h3]
    simp only
    obtain ⟨j1, j2, j3, j4, j5⟩ := kkFitLoop_akin h h4 (max o2.nInit 10) 0 o2 o2 (akin o2 a3) (a1 ▸ ht) (a2.trans hn)
    generalize kkFitLoop D M (max o2.nInit 10) ⟨none, ⊤, 0, 0⟩ o2 = r at j1 j2 j3 j4 j5
    generalize kkFitLoop D' M' (max o2.nInit 10) ⟨none, ⊤, 0, 0⟩ o2 = r' at j1 j2 j3 j4 j5
    obtain ⟨b, o3, e⟩ := r
    obtain ⟨b', o3', e'⟩ := r'
    simp only at j1 j2 j3 j4 j5
    subst j2
    cases e' with
    | some e => exact ⟨j1, rfl⟩
    | none =>
      simp only [j3]
      split_ifs
      · refine ⟨⟨?_, j5⟩, rfl⟩
        simp only [j4]
        rw [j1.1]
      · exact ⟨j1, rfl⟩

end

/-! ## Concrete cases -/

/-- Kernel values of three series. -/
def k3 (i j : ℕ) : ℚ := ([[1, 3/10, 1/10], [3/10, 1, 0], [1/10, 0, 1]].getD i []).getD j 0

/-- Three series, the second with weight 2; two attempts start from different labels. -/
def kkHeavy : KkData ℚ where
  n := 3
  gakMat := fun _ => k3
  pairMat := fun _ => .error .notModelled
  autoSigma := 1
  sw := fun i => if i = 1 then 2 else 1
  inits := fun a => if a = 0 then [1, 1, 0] else [1, 0, 1]

/-- The second series stands twice instead. -/
def kkTwice : KkData ℚ where
  n := 4
  gakMat := fun _ i j => k3 ([0, 1, 1, 2].getD i 0) ([0, 1, 1, 2].getD j 0)
  pairMat := fun _ => .error .notModelled
  autoSigma := 1
  sw := fun _ => 1
  inits := fun a => if a = 0 then [1, 1, 1, 0] else [1, 0, 0, 1]

theorem kkTwice_same : SameSeries kkHeavy kkTwice (fun i => [0, 1, 1, 2].getD i 0) (1 : ℚ) where
  pooled := ⟨by decide, by decide, one_ne_zero, by decide +kernel⟩
  gak := fun _ _ _ _ _ => rfl
  pair := fun _ => .inl ⟨_, rfl, rfl⟩
  auto := rfl
  sizes := fun a => by simp only [kkHeavy]; split_ifs <;> rfl
  inits := fun a => by simp only [kkHeavy, kkTwice]; split_ifs <;> rfl

/-- Weights are not multiplicities when there are several attempts, even without tolerance: `inertia_` does not see the weights, so another
attempt wins. -/
theorem C110_false_attempts :
    (kkFit { kkO true none with nInit := 2, tol := 0 } kkHeavy).1.labels = some [1, 1, 0] ∧
    (kkFit { kkO true none with nInit := 2, tol := 0 } kkTwice).1.labels = some [1, 0, 0, 1] ∧
    follow 4 (fun i => [0, 1, 1, 2].getD i 0) [1, 1, 0] = [1, 1, 1, 0] := by
  decide +kernel

/-- With one attempt they are. -/
example : (kkFit { kkO true none with tol := 0 } kkHeavy).1.labels = some [1, 1, 0] ∧
    (kkFit { kkO true none with tol := 0 } kkTwice).1.labels = some [1, 1, 1, 0] ∧
    Akin 4 (fun i => [0, 1, 1, 2].getD i 0) (kkFit { kkO true none with tol := 0 } kkHeavy).1 (kkFit { kkO true none with tol := 0 } kkTwice).1 :=
  ⟨by decide +kernel, by decide +kernel,
    (C110_multiplicity_partial kkTwice_same { kkO true none with tol := 0 } (le_refl _) rfl).1⟩

/-- Kernel values of four series. -/
def k4 (i j : ℕ) : ℚ := ([[1, 7/10, 3/10, 9/10], [7/10, 1, 1, 4/5], [3/10, 1, 1, 1/5], [9/10, 4/5, 1/5, 1]].getD i []).getD j 0

/-- Four series, the second with weight 2. -/
def kkHeavy4 : KkData ℚ where
  n := 4
  gakMat := fun _ => k4
  pairMat := fun _ => .error .notModelled
  autoSigma := 1
  sw := fun i => if i = 1 then 2 else 1
  inits := fun _ => [1, 1, 0, 0]

/-- The second series stands twice instead. -/
def kkTwice4 : KkData ℚ where
  n := 5
  gakMat := fun _ i j => k4 ([0, 1, 1, 2, 3].getD i 0) ([0, 1, 1, 2, 3].getD j 0)
  pairMat := fun _ => .error .notModelled
  autoSigma := 1
  sw := fun _ => 1
  inits := fun _ => [1, 1, 1, 0, 0]

theorem kkTwice4_same : SameSeries kkHeavy4 kkTwice4 (fun i => [0, 1, 1, 2, 3].getD i 0) (1 : ℚ) where
  pooled := ⟨by decide, by decide, one_ne_zero, by decide +kernel⟩
  gak := fun _ _ _ _ _ => rfl
  pair := fun _ => .inl ⟨_, rfl, rfl⟩
  auto := rfl
  sizes := fun _ => rfl
  inits := fun _ => rfl

/-- Nor with one attempt and a positive tolerance: the rounds stop earlier for the weighted dataset. -/
theorem C110_false_tol :
    (kkFit { kkO true none with tol := 1 / 2 } kkHeavy4).1.labels = some [1, 0, 0, 0] ∧
    (kkFit { kkO true none with tol := 1 / 2 } kkTwice4).1.labels = some [1, 0, 0, 0, 1] ∧
    follow 5 (fun i => [0, 1, 1, 2, 3].getD i 0) [1, 0, 0, 0] = [1, 0, 0, 0, 0] := by
  decide +kernel

/-- The same series in another order, with all weights halved. -/
def kkSwap4 : KkData ℚ where
  n := 4
  gakMat := fun _ i j => k4 (3 - i) (3 - j)
  pairMat := fun _ => .error .notModelled
  autoSigma := 1
  sw := fun i => if i = 2 then 1 else 1 / 2
  inits := fun _ => [0, 0, 1, 1]

example : (kkFit { kkO true none with tol := 1 / 2 } kkSwap4).1.labels = some [0, 0, 0, 1] ∧
    (kkFit { kkO true none with tol := ((1 : ℕ) : ℚ) * (1 / 2) } kkSwap4).1 =
      (kkFit { kkO true none with tol := 1 / 2 } kkHeavy4).1.pool 4 (fun i => 3 - i) 1 := by
  refine ⟨by decide +kernel, congrArg Prod.fst (C110_fit (D := kkHeavy4) (D' := kkSwap4) (ρ := fun i => 3 - i) (c := 1 / 2) (q := 1)
    ⟨⟨by decide, by decide, by norm_num, by decide +kernel⟩, fun _ _ _ _ _ => rfl, fun _ => .inl ⟨_, rfl, rfl⟩, rfl, fun _ => rfl, fun _ => rfl⟩
    one_pos (by unfold Copies; decide) { kkO true none with tol := 1 / 2 })⟩

/-- The dataset given twice. -/
def kkDouble4 : KkData ℚ where
  n := 8
  gakMat := fun _ i j => k4 (i % 4) (j % 4)
  pairMat := fun _ => .error .notModelled
  autoSigma := 1
  sw := fun i => if i % 4 = 1 then 2 else 1
  inits := fun _ => [1, 1, 0, 0, 1, 1, 0, 0]

example : (kkFit { kkO true none with tol := ((2 : ℕ) : ℚ) * (1 / 2) } kkDouble4).1 =
      (kkFit { kkO true none with tol := 1 / 2 } kkHeavy4).1.pool 8 (fun i => i % 4) 2 :=
  congrArg Prod.fst (C110_fit (D := kkHeavy4) (D' := kkDouble4) (ρ := fun i => i % 4) (c := 2) (q := 2)
    ⟨⟨by decide, by decide, by norm_num, by decide +kernel⟩, fun _ _ _ _ _ => rfl, fun _ => .inl ⟨_, rfl, rfl⟩, rfl, fun _ => rfl, fun _ => rfl⟩
    two_pos (by unfold Copies; decide) { kkO true none with tol := 1 / 2 })

/-- Predictions from the two trained estimators for one query. -/
example : (kkPredict ((kkFit { kkO true none with tol := 0 } kkHeavy).1.pool 4 (fun i => [0, 1, 1, 2].getD i 0) 1)
      ⟨1, fun _ _ i => [2/5, 1/5, 1/5, 1/10].getD i 0, fun _ => .error .notModelled, fun _ => 1⟩).2 =
    (kkPredict (kkFit { kkO true none with tol := 0 } kkHeavy).1
      ⟨1, fun _ _ i => [2/5, 1/5, 1/10].getD i 0, fun _ => .error .notModelled, fun i => if i = 1 then 2 else 1⟩).2 :=
  C110_predict (q := 1) (c := (1 : ℚ)) _ kkTwice_same.pooled _ _ rfl rfl rfl
    (fun _ _ i hi => by have : i < 4 := hi; interval_cases i <;> rfl) (fun _ => .inl ⟨_, rfl, rfl⟩) [1, 1, 0] (by decide +kernel) rfl

end Verif
