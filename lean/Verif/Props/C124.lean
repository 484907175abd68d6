import Verif.Props.C98
import Verif.Props.C100
import Verif.Proofs.Binary
/-!
# C124 — Neighbours, classes and clusters decided by rounded distances
-/
set_option linter.unusedSectionVars false
namespace Verif
open Spec

/-- The distances `f'` are the distances `f` up to a relative error `ε`. -/
def Spec.RelMoved {K : Type} [Field K] [LinearOrder K] (n : ℕ) (ε : K) (f f' : ℕ → K) : Prop :=
  ∀ i < n, |f' i - f i| ≤ ε * f i

/-- `N` are `k` of the first `n` series, nearer than all others by more than the factor
`(1 + ε) / (1 - ε)`. -/
structure Spec.RelGap {K : Type} [Field K] [LinearOrder K] (f : ℕ → K) (n k : ℕ) (ε : K)
    (N : Finset ℕ) : Prop where
  sub : N ⊆ Finset.range n
  card : N.card = k
  gap : ∀ i ∈ N, ∀ j < n, j ∉ N → (1 + ε) * f i < (1 - ε) * f j

section
variable {K : Type} [Field K] [LinearOrder K] [IsStrictOrderedRing K]

theorem Spec.RelMoved.le {n : ℕ} {ε : K} {f f' : ℕ → K} (h : RelMoved n ε f f') {i : ℕ} (hi : i < n) :
    (1 - ε) * f i ≤ f' i ∧ f' i ≤ (1 + ε) * f i := by
  have := abs_le.1 (h i hi)
  constructor <;> linarith [this.1, this.2]

theorem Spec.RelGap.toFinset {f f' : ℕ → K} {n k : ℕ} {ε : K} {N : Finset ℕ} (hN : RelGap f n k ε N)
    (h : RelMoved n ε f f') {out : List ℕ} (ho : KNearest f' n k (fun _ => True) out) :
    out.toFinset = N := by
  symm
  have hc : out.toFinset.card = k := by rw [List.toFinset_card_of_nodup ho.nodup, ho.length]
  apply Finset.eq_of_subset_of_card_le
  · intro i hi
    by_contra hni
    obtain ⟨j, hj, hjN⟩ : ∃ j ∈ out.toFinset, j ∉ N := by
      by_contra hcon
      push Not at hcon
      have he := Finset.eq_of_subset_of_card_le (fun j hj => hcon j hj) (by rw [hc, hN.card])
      exact hni (he ▸ hi)
    have hin := Finset.mem_range.1 (hN.sub hi)
    have hj' := List.mem_toFinset.1 hj
    have hjn := (ho.mem j hj').1
    have h1 := ho.least i hin trivial (fun h => hni (List.mem_toFinset.2 h)) j hj'
    have h2 := hN.gap i hi j hjn hjN
    have h3 := (h.le hin).2
    have h4 := (h.le hjn).1
    linarith
  · rw [hc, hN.card]

/-- Every neighbour returned from computed distances is at most `(1 + ε) / (1 - ε)` times farther, in
exact distance, than any series that is not returned, and than any series returned after it. -/
theorem C124_quality {S : Selector K} (hS : S.Valid) (row row' : ℕ → K) (n k : ℕ) (hk : 0 < k)
    (hn : 0 < n) (ε : K) (h : RelMoved n ε row row') :
    (∀ a ∈ knnRow S row' n k false, ∀ b < n, b ∉ knnRow S row' n k false →
      (1 - ε) * row a ≤ (1 + ε) * row b) ∧
    (knnRow S row' n k false).Pairwise fun a b => (1 - ε) * row a ≤ (1 + ε) * row b := by
  have ho := C39_partial hS row' n k hk hn
  constructor
  · intro a ha b hb hnb
    exact (h.le (ho.mem a ha).1).1.trans ((ho.least b hb trivial hnb a ha).trans (h.le hb).2)
  · exact ho.sorted.imp_of_mem fun {a b} ha hb hab =>
      (h.le (ho.mem a ha).1).1.trans (hab.trans (h.le (ho.mem b hb).1).2)

/-- If the exact neighbours are separated by that factor, the computed neighbours are the same
series, and so are the class, the probabilities and the target of uniform neighbours. -/
theorem C124_same {S S' : Selector K} (hS : S.Valid) (hS' : S'.Valid) (row row' : ℕ → K) (n k : ℕ)
    (hk : 0 < k) (hn : 0 < n) (ε : K) (hε : 0 ≤ ε) (h0 : ∀ i < n, 0 ≤ row i)
    (h : RelMoved n ε row row') (N : Finset ℕ) (hN : RelGap row n (min k n) ε N) :
    (knnRow S row n k false).toFinset = N ∧ (knnRow S' row' n k false).toFinset = N ∧
    (∀ m (y : ℕ → ℕ), knnPredict S' .uniform m n k row' y = knnPredict S .uniform m n k row y ∧
      knnPredictProba S' .uniform m n k row' y = knnPredictProba S .uniform m n k row y) ∧
    ∀ y : ℕ → K, knnPredictTarget S' .uniform n k row' y = knnPredictTarget S .uniform n k row y := by
  have h1 := C39_partial hS row n k hk hn
  have h2 := C39_partial hS' row' n k hk hn
  have e1 := hN.toFinset (f' := row) (fun i hi => by simpa using mul_nonneg hε (h0 i hi)) h1
  have e2 := hN.toFinset h h2
  have hp : (knnRow S' row' n k false).Perm (knnRow S row n k false) := by
    refine (List.perm_ext_iff_of_nodup h2.nodup h1.nodup).2 fun a => ?_
    rw [← List.mem_toFinset, ← List.mem_toFinset, e1, e2]
  have hs : ∀ y : ℕ → ℕ,
      knnScore (knnWeights .uniform (knnDist S' row' n k false)) ((knnRow S' row' n k false).map y) =
      knnScore (knnWeights .uniform (knnDist S row n k false)) ((knnRow S row n k false).map y) := by
    intro y
    funext c
    unfold knnDist
    rw [uniform_score, uniform_score, (hp.filter _).length_eq]
  refine ⟨e1, e2, fun m y => ⟨?_, ?_⟩, fun y => ?_⟩
  · unfold knnPredict knnClass
    rw [hs]
  · funext c
    unfold knnPredictProba knnProba
    rw [hs]
  · unfold knnPredictTarget knnRegress
    simp only []
    rw [(hp.map y).sum_eq, (hp.map y).length_eq]

/-- The label of `TimeSeriesKMeans.predict` from computed distances: its center is at most
`(1 + ε) / (1 - ε)` times farther than any other, and it is the exact label when one center is nearer
by more than that factor. -/
theorem C124_kmeans {P C : Type} (e e' : KmEnv P C K) (x : P) (cs : List C) (hcs : cs ≠ []) (ε : K)
    (hd : ∀ c ∈ cs, |e'.dist x c - e.dist x c| ≤ ε * e.dist x c) :
    ∃ (l : ℕ) (hl : l < cs.length), kmLabels e' [x] cs = [l] ∧
      (∀ c ∈ cs, (1 - ε) * e.dist x cs[l] ≤ (1 + ε) * e.dist x c) ∧
      ∀ a (ha : a < cs.length), (∀ c (hc : c < cs.length), c ≠ a →
        (1 + ε) * e.dist x cs[a] < (1 - ε) * e.dist x cs[c]) → l = a := by
  have hb : ∀ c ∈ cs, (1 - ε) * e.dist x c ≤ e'.dist x c ∧ e'.dist x c ≤ (1 + ε) * e.dist x c := by
    intro c hc
    have := abs_le.1 (hd c hc)
    constructor <;> linarith [this.1, this.2]
  obtain ⟨v, h1, h2, -⟩ := argminL_spec (cs.map (e'.dist x)) (by simpa using hcs)
  obtain ⟨h3, h4⟩ := List.getElem?_eq_some_iff.1 h1
  rw [List.length_map] at h3
  rw [List.getElem_map] at h4
  have hle : ∀ c ∈ cs, (1 - ε) * e.dist x cs[argminL (cs.map (e'.dist x))] ≤ (1 + ε) * e.dist x c := by
    intro c hc
    have h5 := h2 _ (List.mem_map_of_mem hc)
    rw [← h4] at h5
    exact (hb _ (List.getElem_mem h3)).1.trans (h5.trans (hb c hc).2)
  refine ⟨argminL (cs.map (e'.dist x)), h3, rfl, hle, fun a ha hg => ?_⟩
  by_contra hne
  exact absurd (hg _ h3 hne) (not_lt.2 (hle _ (List.getElem_mem ha)))
/-- Votes weighted by inverse distances (exact matches first): the class whose votes are ahead by more
than the factor is predicted from exact and from computed distances, however near the neighbours
are. -/
theorem C124_distance {S S' : Selector K} (hS : S.Valid) (hS' : S'.Valid) (row row' : ℕ → K) (n k : ℕ)
    (hk : 0 < k) (hn : 0 < n) (ε : K) (hε : 0 ≤ ε) (hε1 : ε < 1) (h0 : ∀ i < n, 0 ≤ row i)
    (h : RelMoved n ε row row') (N : Finset ℕ) (hN : RelGap row n (min k n) ε N)
    (m : ℕ) (y : ℕ → ℕ) (hy : ∀ i < n, y i < m) (a : ℕ) (ha : a < m)
    (hv : ∀ c < m, c ≠ a →
      (1 + ε) * ∑ i ∈ N.filter (fun i => y i = c),
        (if ∃ j ∈ N, row j = 0 then (if row i = 0 then 1 else 0) else (row i)⁻¹) <
      (1 - ε) * ∑ i ∈ N.filter (fun i => y i = a),
        (if ∃ j ∈ N, row j = 0 then (if row i = 0 then 1 else 0) else (row i)⁻¹)) :
    knnPredict S .distance m n k row y = a ∧ knnPredict S' .distance m n k row' y = a := by
  have hlt : ∀ i ∈ N, i < n := fun i hi => Finset.mem_range.1 (hN.sub hi)
  have key : ∀ (T : Selector K), T.Valid → ∀ r : ℕ → K, RelMoved n ε row r →
      knnPredict T .distance m n k r y = a := by
    intro T hT r hr
    have hz : ∀ i < n, (r i = 0 ↔ row i = 0) := by
      intro i hi
      have h1 := hr.le hi
      have h2 := h0 i hi
      constructor
      · intro h3
        rw [h3] at h1
        rcases h2.eq_or_lt with h4 | h4
        · exact h4.symm
        · have := mul_pos (by linarith : 0 < 1 - ε) h4
          linarith [h1.1]
      · intro h3
        rw [h3] at h1
        linarith [h1.1, h1.2]
    have hr0 : ∀ i < n, 0 ≤ r i := fun i hi =>
      (mul_nonneg (by linarith) (h0 i hi)).trans (hr.le hi).1
    obtain ⟨out, ho, f1, f2, -⟩ := C72_class_partial hT r y m n k hk hn hy false (.inr hr0)
    have ho' := hN.toFinset hr ho
    change knnPredict T (weightsOf false) m n k r y = a
    generalize knnPredict T (weightsOf false) m n k r y = c at f1 f2
    have hex : (∃ j ∈ out, r j = 0) ↔ ∃ j ∈ N, row j = 0 := by
      constructor
      · rintro ⟨j, hj, e⟩
        exact ⟨j, ho' ▸ List.mem_toFinset.2 hj, (hz j (ho.mem j hj).1).1 e⟩
      · rintro ⟨j, hj, e⟩
        exact ⟨j, List.mem_toFinset.1 (ho' ▸ hj), (hz j (hlt j hj)).2 e⟩
    set W : ℕ → K := fun i =>
      if ∃ j ∈ N, row j = 0 then (if row i = 0 then 1 else 0) else (row i)⁻¹ with hW
    have hw : ∀ i ∈ N, (1 - ε) * neighbourWeight false r out i ≤ W i ∧
        W i ≤ (1 + ε) * neighbourWeight false r out i := by
      intro i hi
      rw [neighbourWeight_false, inverseDistance]
      simp only [hW, hex, hz i (hlt i hi)]
      by_cases hx : ∃ j ∈ N, row j = 0
      · simp only [hx, if_true]
        split_ifs <;> constructor <;> linarith
      · simp only [hx, if_false]
        have hp : 0 < row i := (h0 i (hlt i hi)).lt_of_ne fun e => hx ⟨i, hi, e.symm⟩
        have h1 := hr.le (hlt i hi)
        have hp' : 0 < r i := (mul_pos (by linarith) hp).trans_le h1.1
        constructor
        · rw [← div_eq_mul_inv, ← one_div, div_le_div_iff₀ hp' hp]
          linarith [h1.1]
        · rw [← div_eq_mul_inv, ← one_div, div_le_div_iff₀ hp hp']
          linarith [h1.2]
    have hsum : ∀ c, (1 - ε) * votes (neighbourWeight false r out) y out c ≤
          ∑ i ∈ N.filter (fun i => y i = c), W i ∧
        ∑ i ∈ N.filter (fun i => y i = c), W i ≤
          (1 + ε) * votes (neighbourWeight false r out) y out c := by
      intro c
      rw [votes_finset _ _ _ ho.nodup, ho', Finset.mul_sum, Finset.mul_sum]
      exact ⟨Finset.sum_le_sum fun i hi => (hw i (Finset.mem_filter.1 hi).1).1,
        Finset.sum_le_sum fun i hi => (hw i (Finset.mem_filter.1 hi).1).2⟩
    by_contra hc
    have h1 := f2 a ha
    have h2 := hv c f1 hc
    have h3 := mul_le_mul_of_nonneg_left (hsum a).2 (by linarith : 0 ≤ 1 - ε)
    have h4 := mul_le_mul_of_nonneg_left (hsum c).1 (by linarith : 0 ≤ 1 + ε)
    have h5 := mul_le_mul_of_nonneg_left h1
      (mul_nonneg (by linarith) (by linarith) : 0 ≤ (1 - ε) * (1 + ε))
    have h6 : (1 - ε) * ∑ i ∈ N.filter (fun i => y i = a), W i ≤
        (1 + ε) * ∑ i ∈ N.filter (fun i => y i = c), W i := by
      linarith
    exact absurd h2 (not_lt.2 h6)
  exact ⟨key S hS row (fun i hi => by simpa using mul_nonneg hε (h0 i hi)), key S' hS' row' h⟩

/-- DBSCAN: if no distance is within the relative error of `eps`, the whole fitted state is the same. -/
theorem C124_dbscan (D D' : ℕ → ℕ → K) (eps ε : K) (hε : 0 ≤ ε) (minTs n sz d : ℕ)
    (h0 : ∀ i < n, ∀ j < n, 0 ≤ D i j) (h : ∀ i < n, RelMoved n ε (D i) (D' i))
    (hg : ∀ i < n, ∀ j < n, (1 + ε) * D i j ≤ eps ∨ eps < (1 - ε) * D i j) :
    dbFit D' eps minTs n sz d = dbFit D eps minTs n sz d := by
  have hnb : ∀ i < n, dbNeighbours D' eps n i = dbNeighbours D eps n i := by
    intro i hi
    unfold dbNeighbours
    apply List.filter_congr
    intro j hj
    have hj' := List.mem_range.1 hj
    have h1 := (h i hi).le hj'
    have h2 : D' i j ≤ eps ↔ D i j ≤ eps := by
      have hn := mul_nonneg hε (h0 i hi j hj')
      rcases hg i hi j hj' with h3 | h3
      · exact ⟨fun _ => by linarith, fun _ => by linarith [h1.2]⟩
      · exact ⟨fun h4 => by linarith [h1.1], fun h4 => by linarith⟩
    simp only [h2]
  have hc : ∀ i < n, dbCore (dbNeighbours D' eps n) minTs i = dbCore (dbNeighbours D eps n) minTs i := by
    intro i hi
    unfold dbCore
    rw [hnb i hi]
  have hi : (List.range n).filter (dbCore (dbNeighbours D' eps n) minTs) =
      (List.range n).filter (dbCore (dbNeighbours D eps n) minTs) :=
    List.filter_congr fun i hi => hc i (List.mem_range.1 hi)
  unfold dbFit
  simp only [hi]
  rw [dbInner_congr hnb hc (fun i _ j hj => by
    simp only [dbNeighbours, List.mem_filter, List.mem_range] at hj; exact hj.1) n 0 _ le_rfl]
end

/-- Neighbours under DTW: distances to the training series computed with rounding, `n` series of
which the longest makes `len(query) + len(series) ≤ L`. The computed neighbours are nearest up to the
factor, and with a gap the predictions are those of exact arithmetic. -/
theorem C124_dtw {rnd : ℝ → ℝ} {u : ℝ} (hr : RelErr rnd u) (hm : Monotone rnd) (hu : 0 ≤ u)
    {S S' : Selector ℝ} (hS : S.Valid) (hS' : S'.Valid) (q : TsInput (Option ℝ))
    (X : ℕ → TsInput (Option ℝ)) (g : Option String) (radius : Option ℕ) (slope : Option ℚ)
    (x : List (List ℝ)) (z : ℕ → List (List ℝ)) (code d L n k : ℕ) (hk : 0 < k) (hn : 0 < n)
    (hv : ∀ i < n, validatePair q (X i) g = .ok (x, z i, code)) (hd : ∀ r ∈ x, r.length ≤ d)
    (hL : ∀ i < n, x.length + (z i).length ≤ L) (hN : ((L + d + 4 : ℕ) : ℝ) * u ≤ 1 / 2)
    (row : ℕ → ℝ) (hrow : ∀ i < n, dtw q (X i) g radius slope = .ok (row i : WithTop ℝ)) (ε : ℝ)
    (hε : ε = 2 * ((L + d + 4 : ℕ) : ℝ) * u) :
    ∃ row' : ℕ → ℝ, (∀ i < n, rDtw rnd q (X i) g radius slope = .ok (row' i : WithTop ℝ)) ∧
      (∀ a ∈ knnRow S' row' n k false, ∀ b < n, b ∉ knnRow S' row' n k false →
        (1 - ε) * row a ≤ (1 + ε) * row b) ∧
      ∀ N, RelGap row n (min k n) ε N → (knnRow S' row' n k false).toFinset = N ∧
        ∀ m (y : ℕ → ℕ), knnPredict S' .uniform m n k row' y = knnPredict S .uniform m n k row y := by
  have h0 : ∀ i < n, 0 ≤ row i := by
    intro i hi
    have h := hrow i hi
    simp only [dtw, dtwSq, hv i hi, bind, Except.bind, pure, Except.pure] at h
    cases hs : dtwSqGeneric x (z i) code radius slope with
    | error e => simp [hs] at h
    | ok c =>
      rw [hs] at h
      simp only [Except.ok.injEq] at h
      cases c with
      | top => simp [sqrtTop] at h
      | coe c =>
        simp only [sqrtTop, WithTop.map_coe, WithTop.coe_inj] at h
        rw [← h]
        exact Real.sqrt_nonneg _
  have key : ∀ i, ∃ r, i < n → rDtw rnd q (X i) g radius slope = .ok ((r : ℝ) : WithTop ℝ) ∧
      |r - row i| ≤ ε * row i := by
    intro i
    by_cases hi : i < n
    · have hle : ((x.length + (z i).length + d + 4 : ℕ) : ℝ) ≤ ((L + d + 4 : ℕ) : ℝ) := by
        have := hL i hi
        exact_mod_cast (by omega)
      obtain ⟨v', e, -, hf⟩ := C98_dtw_error hr hm hu q (X i) g radius slope x (z i) code (hv i hi) d
        hd ((mul_le_mul_of_nonneg_right hle hu).trans hN) _ (hrow i hi)
      obtain ⟨w', rfl, hw⟩ := hf _ rfl
      refine ⟨w', fun _ => ⟨e, hw.trans ?_⟩⟩
      rw [hε]
      have := h0 i hi
      gcongr
    · exact ⟨0, fun h => absurd h hi⟩
  choose row' hrow' using key
  have hmv : RelMoved n ε row row' := fun i hi => (hrow' i hi).2
  refine ⟨row', fun i hi => (hrow' i hi).1, (C124_quality hS' row row' n k hk hn ε hmv).1,
    fun N hG => ?_⟩
  have hε0 : 0 ≤ ε := by rw [hε]; positivity
  obtain ⟨-, e2, hc, -⟩ := C124_same hS hS' row row' n k hk hn ε hε0 h0 hmv N hG
  exact ⟨e2, fun m y => (hc m y).1⟩

/-- DBSCAN under the Fréchet distance computed with rounding: the relative error, and with it the gap
around `eps`, depends on the number of features only. -/
theorem C124_frechet {rnd : ℝ → ℝ} {u : ℝ} (hr : RelErr rnd u) (hu : 0 ≤ u)
    (X : ℕ → TsInput (Option ℝ)) (g : Option String) (radius : Option ℕ) (slope : Option ℚ)
    (z : ℕ → List (List ℝ)) (code d n : ℕ)
    (hv : ∀ i < n, ∀ j < n, validatePair (X i) (X j) g = .ok (z i, z j, code))
    (hd : ∀ i < n, ∀ r ∈ z i, r.length ≤ d) (hN : ((d + 5 : ℕ) : ℝ) * u ≤ 1 / 2) (D D' : ℕ → ℕ → ℝ)
    (hD : ∀ i < n, ∀ j < n, frechet (X i) (X j) g radius slope = .ok (D i j : WithTop ℝ))
    (hD' : ∀ i < n, ∀ j < n, rFrechet rnd (X i) (X j) g radius slope = .ok (D' i j : WithTop ℝ))
    (h0 : ∀ i < n, ∀ j < n, 0 ≤ D i j) (eps ε : ℝ) (hε : ε = 2 * ((d + 5 : ℕ) : ℝ) * u)
    (hg : ∀ i < n, ∀ j < n, (1 + ε) * D i j ≤ eps ∨ eps < (1 - ε) * D i j) (minTs sz dd : ℕ) :
    dbFit D' eps minTs n sz dd = dbFit D eps minTs n sz dd := by
  refine C124_dbscan D D' eps ε (by rw [hε]; positivity) minTs n sz dd h0 (fun i hi j hj => ?_) hg
  obtain ⟨v', e, -, hf⟩ := C98_frechet_error hr hu (X i) (X j) g radius slope (z i) (z j) code
    (hv i hi j hj) d (hd i hi) hN _ (hD i hi j hj)
  rw [hD' i hi j hj] at e
  cases e
  obtain ⟨w', e', hw⟩ := hf _ rfl
  rw [WithTop.coe_inj] at e'
  subst e'
  rw [hε]
  exact hw

/-- Without a gap the computed label can be another one: with three bits the centers 9 and 17/2 are
both computed at 64 from 0 (squared), and `argmin` takes the first, the farther. -/
theorem C124_false_label :
    dtwSqGeneric ([[0]] : List (List ℚ)) [[9]] 0 none none = .ok ((81 : ℚ) : WithTop ℚ) ∧
    dtwSqGeneric ([[0]] : List (List ℚ)) [[17 / 2]] 0 none none = .ok ((289 / 4 : ℚ) : WithTop ℚ) ∧
    rDtwSq (nearBits 2 : ℚ → ℚ) [[0]] [[9]] 0 none none = .ok ((64 : ℚ) : WithTop ℚ) ∧
    rDtwSq (nearBits 2 : ℚ → ℚ) [[0]] [[17 / 2]] 0 none none = .ok ((64 : ℚ) : WithTop ℚ) ∧
    argminL [(81 : ℚ), 289 / 4] = 1 ∧ argminL [(64 : ℚ), 64] = 0 := by
  decide +kernel

/-- Distances 1, 5, 2, 9 with a relative error of at most 1/10: two neighbours, the same series. -/
example : RelMoved 4 (1 / 10) (fun i => [1, 5, 2, 9].getD i (0 : ℚ))
      (fun i => [11 / 10, 5, 19 / 10, 9].getD i (0 : ℚ)) ∧
    RelGap (fun i => [1, 5, 2, 9].getD i (0 : ℚ)) 4 (min 2 4) (1 / 10) {0, 2} := by
  refine ⟨fun i hi => ?_, by decide, by decide, fun i hi j hj hn => ?_⟩
  · have : i = 0 ∨ i = 1 ∨ i = 2 ∨ i = 3 := by omega
    rcases this with rfl | rfl | rfl | rfl <;> norm_num [abs_le]
  · have h1 : i = 0 ∨ i = 2 := by simpa using hi
    have h2 : j = 1 ∨ j = 3 := by
      simp at hn
      omega
    rcases h1 with rfl | rfl <;> rcases h2 with rfl | rfl <;> norm_num

/-- A query 0 and the training series 1 and 10, in doubles: the class is that of the series 1. -/
example : ∃ row' : ℕ → ℝ,
    (∀ i < 2, rDtw (nearBits 52) (.oneD [some 0]) (.oneD [some ([1, 10].getD i 0)]) none none none =
      .ok (row' i : WithTop ℝ)) ∧ (knnRow numpySel row' 2 1 false).toFinset = {0} := by
  have hv : ∀ a b : ℝ, validatePair (.oneD [some a]) (.oneD [some b]) none = .ok ([[a]], [[b]], 0) := by
    intro a b
    simp [validatePair, toTimeSeries, tsSize, tsSizeLoop, denan, gcCode, nFeatures, bind, Except.bind,
      pure, Except.pure]
  obtain ⟨row', h1, -, h3⟩ := C124_dtw (nearBits_relErr 52) (nearBits_oddMono 52).mono (by positivity)
    numpySel_valid numpySel_valid (.oneD [some 0]) (fun i => .oneD [some ([1, 10].getD i 0)]) none none
    none [[0]] (fun i => [[[1, 10].getD i 0]]) 0 1 2 2 1 (by norm_num) (by norm_num)
    (fun i _ => hv _ _) (by simp) (fun i _ => by simp) (by norm_num)
    (fun i => |0 - [1, 10].getD i 0|) (fun i _ => dtw_sample _ _) _ rfl
  refine ⟨row', h1, (h3 {0} ⟨by decide, by decide, fun i hi j hj hji => ?_⟩).1⟩
  have e0 : i = 0 := by simpa using hi
  have e1 : j = 1 := by simp at hji; omega
  subst e0 e1
  norm_num

/-- Two neighbours at 1 and 2 of classes 0 and 1: the votes 1 and 1/2 are ahead by more than 11/9. -/
example : knnPredict numpySel .distance 2 4 2 (fun i => [11 / 10, 5, 19 / 10, 9].getD i (0 : ℚ))
    (fun i => [0, 1, 1, 1].getD i 0) = 0 := by
  refine (C124_distance numpySel_valid numpySel_valid (fun i => [1, 5, 2, 9].getD i (0 : ℚ)) _ 4 2
    (by norm_num) (by norm_num) (1 / 10) (by norm_num) (by norm_num) (fun i hi => ?_) (fun i hi => ?_)
    {0, 2} ⟨by decide, by decide, fun i hi j hj hn => ?_⟩ 2 (fun i => [0, 1, 1, 1].getD i 0)
    (by decide) 0 (by norm_num) (fun c hc hca => ?_)).2
  · have : i = 0 ∨ i = 1 ∨ i = 2 ∨ i = 3 := by omega
    rcases this with rfl | rfl | rfl | rfl <;> norm_num
  · have : i = 0 ∨ i = 1 ∨ i = 2 ∨ i = 3 := by omega
    rcases this with rfl | rfl | rfl | rfl <;> norm_num [abs_le]
  · have h1 : i = 0 ∨ i = 2 := by simpa using hi
    have h2 : j = 1 ∨ j = 3 := by
      simp at hn
      omega
    rcases h1 with rfl | rfl <;> rcases h2 with rfl | rfl <;> norm_num
  · obtain rfl : c = 1 := by omega
    decide +kernel

/-- DBSCAN with `eps = 3` on three series at distances 1, 6, 5, computed with a relative error of at
most 1/10. -/
example : dbFit (fun i j => ([[0, 11 / 10, 6], [11 / 10, 0, 5], [6, 5, 0]].getD i []).getD j (0 : ℚ)) 3 2 3 1 1 =
    dbFit (fun i j => ([[0, 1, 6], [1, 0, 5], [6, 5, 0]].getD i []).getD j (0 : ℚ)) 3 2 3 1 1 := by
  have three : ∀ {P : ℕ → Prop}, P 0 → P 1 → P 2 → ∀ i < 3, P i := by
    intro P h0 h1 h2 i hi
    have : i = 0 ∨ i = 1 ∨ i = 2 := by omega
    rcases this with rfl | rfl | rfl
    · exact h0
    · exact h1
    · exact h2
  refine C124_dbscan _ _ 3 (1 / 10) (by norm_num) 2 3 1 1 (three ?_ ?_ ?_) (three ?_ ?_ ?_)
    (three ?_ ?_ ?_)
  all_goals refine three ?_ ?_ ?_
  all_goals norm_num [abs_le]
end Verif
