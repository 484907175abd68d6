import Verif.Proofs.KShape
/-!
C42: `KShape.predict` compares queries to centroids with the norms of the training series in the same positions.
-/
set_option linter.unusedSectionVars false
namespace Verif
open Spec Finset

/-- Full claim: for any number of queries each label is the first centroid of greatest shape similarity to the (standardised)
query. Missing (and false, see below): more queries than training series, and positions whose training series has a norm near
zero. -/
theorem C42_partial {sz d : ℕ} (hsz : 2 ≤ sz) (hd : 0 < d) {s : KsState} {cs : List KsSer} (hc : s.centers = some cs)
    (hne : cs ≠ []) (hcs : ∀ c ∈ cs, c.length = sz ∧ Wide d c) (hnC : s.normsC = cs.map fun c => √(energy d c))
    {X : List KsSer} (hX0 : X ≠ []) (hX : ∀ x ∈ X, x.length = sz ∧ Wide d x) (hpos : ∀ n ∈ s.norms, 0 ≤ n)
    (hlen : X.length ≤ s.norms.length)
    (hbig : ∀ i < X.length, ∀ n, s.norms[i]? = some n → ∀ c ∈ cs, 1 / 1000000000 ≤ n * √(energy d c)) :
    ∃ lab, ksPredict sz d s X = .ok lab ∧ lab.length = X.length ∧
      ∀ (i : ℕ) (h : i < X.length), ∃ y l, Standardised d X[i] y ∧ lab[i]? = some l ∧ NearestShape d y cs l := by
  obtain ⟨Y, h1, h2, h3⟩ := ksScale_ok (by omega) hd hX0 hX
  have hd' := ksDists_ok (d := d) (X := Y) (cs := cs) (normsC := s.normsC) hpos
    (by rw [hnC]; intro n hn; obtain ⟨_, _, rfl⟩ := List.mem_map.1 hn; exact Real.sqrt_nonneg _)
    (by rw [hnC, List.length_map]) (by rw [h2]; exact hlen)
  refine ⟨_, by unfold ksPredict; rw [hc]; simp only [h1, hd', bind, Except.bind]; rfl, by simp [h2], ?_⟩
  intro i h
  obtain ⟨y, hy, hst⟩ := h3 i h
  have hn : i < s.norms.length := by omega
  refine ⟨y, _, hst, ?_, row_nearest (n := s.norms[i]) hsz (hst.1.trans (hX _ (List.getElem_mem h)).1) hne hcs
    (hpos _ (List.getElem_mem hn)) (fun c hc => hbig i h _ (List.getElem?_eq_getElem hn) c hc)⟩
  rw [List.getElem?_map, List.getElem?_map, List.getElem?_range (by omega), Option.map_some, Option.map_some]
  congr 2
  rw [List.getD_eq_getElem?_getD (l := Y), hy, List.getD_eq_getElem?_getD (l := s.norms), List.getElem?_eq_getElem hn, hnC]
  rfl

/-- Two centroids of length 2. -/
noncomputable def ksWit : KsState :=
  { labels := none, inertia := ⊤, centers := some [[[1], [-1]], [[-1], [1]]], norms := [1],
    normsC := [√2, √2], xfit := true, nIter := 1, iter := 1 }

theorem energy_pm : energy 1 [[1], [-1]] = 2 ∧ energy 1 [[-1], [1]] = 2 := by
  constructor <;> (simp [energy, sum_range_succ, Spec.val]; norm_num)

theorem sqrt2_gt : (1 : ℝ) < √2 := by
  rw [Real.lt_sqrt (by norm_num)]; norm_num

example : ∃ lab, ksPredict 2 1 ksWit [[[-1], [1]]] = .ok lab ∧ lab.length = 1 ∧
    ∀ (i : ℕ) (h : i < 1), ∃ y l, Standardised 1 ([[[-1], [1]]] : List KsSer)[i] y ∧ lab[i]? = some l ∧
      NearestShape 1 y [[[1], [-1]], [[-1], [1]]] l := by
  refine C42_partial (by norm_num) (by norm_num) rfl (by simp) (by simp [Wide]) ?_ (by simp) (by simp [Wide]) ?_ (by simp [ksWit]) ?_
  · simp [ksWit, energy_pm.1, energy_pm.2]
  · simp [ksWit]
  · intro i hi n hn c hc
    have := sqrt2_gt
    simp at hi
    subst hi
    obtain rfl : 1 = n := by simpa [ksWit] using hn
    simp at hc
    rcases hc with rfl | rfl <;> simp only [energy_pm.1, energy_pm.2] <;> linarith

theorem argminL_const {l : List ℝ} {v : ℝ} (hl : l ≠ []) (h : ∀ w ∈ l, w = v) : argminL l = 0 := by
  obtain ⟨u, h1, -, h3⟩ := argminL_spec l hl
  by_contra h0
  have hlen := List.length_pos_iff.2 hl
  have := h3 0 (by omega) _ (List.getElem?_eq_getElem hlen)
  rw [h u (List.mem_iff_getElem?.2 ⟨_, h1⟩), h _ (List.getElem_mem hlen)] at this
  exact lt_irrefl _ this

/-- A training series of norm zero in position `i` makes query `i` fall into cluster 0, whatever the query is. -/
theorem C42_zero_norm {sz d : ℕ} (hsz : 2 ≤ sz) (hd : 0 < d) {s : KsState} {cs : List KsSer} (hc : s.centers = some cs)
    (hne : cs ≠ []) (hlC : s.normsC.length = cs.length) (hposC : ∀ n ∈ s.normsC, 0 ≤ n)
    {X : List KsSer} (hX0 : X ≠ []) (hX : ∀ x ∈ X, x.length = sz ∧ Wide d x) (hpos : ∀ n ∈ s.norms, 0 ≤ n)
    (hlen : X.length ≤ s.norms.length) {i : ℕ} (hi : i < X.length) (h0 : s.norms[i]? = some 0) :
    ∃ lab, ksPredict sz d s X = .ok lab ∧ lab[i]? = some 0 := by
  obtain ⟨Y, h1, h2, h3⟩ := ksScale_ok (by omega) hd hX0 hX
  have hd' := ksDists_ok (d := d) (X := Y) (cs := cs) (normsC := s.normsC) hpos hposC hlC (by rw [h2]; exact hlen)
  refine ⟨_, by unfold ksPredict; rw [hc]; simp only [h1, hd', bind, Except.bind]; rfl, ?_⟩
  obtain ⟨y, hy, hst⟩ := h3 i hi
  rw [List.getElem?_map, List.getElem?_map, List.getElem?_range (by omega), Option.map_some, Option.map_some]
  congr 1
  refine argminL_const (v := 1) (by simpa using hne) fun w hw => ?_
  obtain ⟨k, hk, rfl⟩ := List.mem_map.1 hw
  have hk' := List.mem_range.1 hk
  have hkC : k < s.normsC.length := by omega
  have hn0 : s.norms.getD i 0 = 0 := by rw [List.getD_eq_getElem?_getD, h0]; rfl
  have hyl := (hX _ (List.getElem_mem hi)).1
  rw [hn0, List.getD_eq_getElem?_getD (l := Y), hy, listMax_small (by rw [Option.getD_some, hst.1, hyl]; omega) le_rfl, sub_zero]
  · rw [List.getD_eq_getElem?_getD, List.getElem?_eq_getElem hkC]
    exact hposC _ (List.getElem_mem hkC)
  · norm_num

/-- Hence the claim is false: with a training series of norm zero the query `[-1, 1]`, equal to the second centroid, is put into
the first cluster. -/
theorem C42_false_zero : ∃ lab, ksPredict 2 1 { ksWit with norms := [0] } [[[-1], [1]]] = .ok lab ∧ lab[0]? = some 0 ∧
    Standardised 1 [[-1], [1]] [[-1], [1]] ∧ ¬ NearestShape 1 [[-1], [1]] [[[1], [-1]], [[-1], [1]]] 0 := by
  obtain ⟨lab, h1, h2⟩ := C42_zero_norm (sz := 2) (d := 1) (s := { ksWit with norms := [0] }) (cs := [[[1], [-1]], [[-1], [1]]])
    (X := [[[-1], [1]]]) (i := 0) (by norm_num) (by norm_num) rfl (by simp) (by simp [ksWit]) (by simp [ksWit]) (by simp)
    (by simp [Wide]) (by simp) (by simp) (by simp) (by simp)
  refine ⟨lab, h1, h2, ⟨rfl, by simp [Wide], ?_⟩, ?_⟩
  · have hm : colMean [[-1], [1]] 0 = 0 := by simp [colMean, sum_range_succ, Spec.val]
    have hs : colStd [[-1], [1]] 0 = 1 := by
      unfold colStd
      rw [hm]
      simp [sum_range_succ, Spec.val]
    intro t _ f hf
    obtain rfl : f = 0 := by omega
    rw [hm, hs]
    simp
  · rintro ⟨-, v, hv, hbest⟩
    obtain ⟨⟨lag, l1, l2, l3⟩, -⟩ := hv 0 (by simp)
    obtain ⟨-, u⟩ := hv 1 (by simp)
    have h1 := (hbest 1 (by simp)).1
    have h2 := u 0 (by simp) (by simp)
    simp only [List.getElem_cons_zero, List.getElem_cons_succ, energy_pm.1, energy_pm.2, Real.mul_self_sqrt (show (0 : ℝ) ≤ 2 by norm_num)] at l3 h2
    have e0 : lagProd 1 [[-1], [1]] [[-1], [1]] 0 = 2 := by simp [lagProd, sum_range_succ, Spec.val]; norm_num
    rw [e0] at h2
    simp at l1 l2
    have : lag = -1 ∨ lag = 0 ∨ lag = 1 := by omega
    rcases this with rfl | rfl | rfl <;> simp [lagProd, sum_range_succ, Spec.val] at l3 <;> norm_num at l3 <;> linarith

/-- More queries than training series: `norms_` is read past its end. -/
theorem C42_false_more {sz d : ℕ} (hsz : 2 ≤ sz) (hd : 0 < d) {s : KsState} {cs : List KsSer} (hc : s.centers = some cs)
    (hne : cs ≠ []) {X : List KsSer} (hX0 : X ≠ []) (hX : ∀ x ∈ X, x.length = sz ∧ Wide d x) (hpos : ∀ n ∈ s.norms, 0 ≤ n)
    (hlen : s.norms.length < X.length) : ∃ err, ksPredict sz d s X = .error err := by
  obtain ⟨Y, h1, h2, -⟩ := ksScale_ok (by omega) hd hX0 hX
  unfold ksPredict
  rw [hc]
  simp only [h1, bind, Except.bind]
  cases hD : ksDists d Y cs s.norms s.normsC with
  | error err => exact ⟨err, rfl⟩
  | ok ds =>
    exfalso
    have hrow : ksRow d Y cs s.norms s.normsC s.norms.length = .error .indexError := by
      obtain ⟨c, cs', rfl⟩ := List.exists_cons_of_ne_nil hne
      unfold ksRow
      rw [List.length_cons, List.range_succ_eq_map, List.mapM_cons]
      have : cdistCcEntry d Y (c :: cs') s.norms s.normsC false s.norms.length 0 = .error .indexError := by
        unfold cdistCcEntry
        rw [fillNorms_nonneg Y hpos]
        simp
      rw [this]; rfl
    unfold ksDists at hD
    have hmem : s.norms.length ∈ List.range Y.length := List.mem_range.2 (by omega)
    have : ∀ (l : List ℕ) (out : List (List ℝ)), l.mapM (fun i => ksRow d Y cs s.norms s.normsC i) = .ok out →
        ∀ i ∈ l, ∃ r, ksRow d Y cs s.norms s.normsC i = .ok r := by
      intro l
      induction l with
      | nil => simp
      | cons a l ih =>
        intro out h i hi
        rw [List.mapM_cons] at h
        cases ha : ksRow d Y cs s.norms s.normsC a with
        | error e => rw [ha] at h; cases h
        | ok r =>
          rw [ha] at h
          rcases List.mem_cons.1 hi with rfl | hi
          · exact ⟨r, ha⟩
          · cases hl : l.mapM (fun i => ksRow d Y cs s.norms s.normsC i) with
            | error e => simp only [bind, Except.bind, hl] at h; cases h
            | ok out' => exact ih out' hl i hi
    obtain ⟨r, hr⟩ := this _ _ hD _ hmem
    rw [hrow] at hr
    cases hr

example : ∃ err, ksPredict 2 1 ksWit [[[-1], [1]], [[1], [-1]]] = .error err :=
  C42_false_more (by norm_num) (by norm_num) rfl (by simp) (by simp) (by simp [Wide]) (by simp [ksWit]) (by simp [ksWit])

end Verif
