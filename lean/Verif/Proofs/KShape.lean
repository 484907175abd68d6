import Verif.Model.KShape
import Verif.Spec.KShape
import Verif.Props.C50
import Verif.Props.C29
import Verif.Proofs.KMeans
/-!
Lemmas on `KShape`.
-/
set_option linter.unusedSectionVars false
namespace Verif
open Spec Finset

/-- Values of `normalized_cc` for arbitrary non-negative norms. -/
theorem normalizedCc_value {d : ℕ} {s1 s2 : List (List ℝ)} (h : 2 ≤ s1.length) (h2 : s2.length = s1.length) {n1 n2 : ℝ}
    (hn1 : 0 ≤ n1) (hn2 : 0 ≤ n2) :
    (normalizedCc d s1 s2 n1 n2).length = 2 * s1.length - 1 ∧
    ∀ k < 2 * s1.length - 1, (normalizedCc d s1 s2 n1 n2)[k]? =
      some (if n1 * n2 < 1 / 1000000000 then 0 else lagProd d s1 s2 ((k : ℤ) - (s1.length - 1 : ℕ)) / (n1 * n2)) := by
  obtain ⟨hl, hg⟩ := ccRows_get h (fftSize_ge (sz := s1.length) (by omega))
  unfold normalizedCc
  rw [if_neg (not_lt.2 hn1), if_neg (not_lt.2 hn2)]
  refine ⟨by rw [List.length_map]; exact hl, fun k hk => ?_⟩
  rw [List.getElem?_map, hg k hk, Option.map_some, ccSum_eq d h h2.le hk]

/-- Greatest lagged product. -/
theorem exists_maxLag (d : ℕ) (s1 s2 : List (List ℝ)) (h : 0 < s1.length) :
    ∃ m, (∃ lag : ℤ, -(s1.length : ℤ) < lag ∧ lag < s1.length ∧ m = lagProd d s1 s2 lag) ∧
      ∀ lag : ℤ, -(s1.length : ℤ) < lag → lag < s1.length → lagProd d s1 s2 lag ≤ m := by
  obtain ⟨l, hl, hm⟩ := Finset.exists_max_image (Finset.Ioo (-(s1.length : ℤ)) s1.length) (lagProd d s1 s2)
    ⟨0, Finset.mem_Ioo.2 ⟨by omega, by omega⟩⟩
  exact ⟨_, ⟨l, (Finset.mem_Ioo.1 hl).1, (Finset.mem_Ioo.1 hl).2, rfl⟩, fun lag h1 h2 => hm lag (Finset.mem_Ioo.2 ⟨h1, h2⟩)⟩

theorem listMax_cc {d : ℕ} {s1 s2 : List (List ℝ)} (h : 2 ≤ s1.length) (h2 : s2.length = s1.length) {n1 n2 : ℝ}
    (hn1 : 0 ≤ n1) (hn2 : 0 ≤ n2) (hbig : 1 / 1000000000 ≤ n1 * n2) {m : ℝ}
    (hm : ∃ lag : ℤ, -(s1.length : ℤ) < lag ∧ lag < s1.length ∧ m = lagProd d s1 s2 lag)
    (hmax : ∀ lag : ℤ, -(s1.length : ℤ) < lag → lag < s1.length → lagProd d s1 s2 lag ≤ m) :
    listMax (normalizedCc d s1 s2 n1 n2) = m / (n1 * n2) := by
  obtain ⟨hlen, hval⟩ := normalizedCc_value (d := d) h h2 hn1 hn2
  simp only [if_neg (not_lt.2 hbig)] at hval
  have hpos : 0 < n1 * n2 := lt_of_lt_of_le (by norm_num) hbig
  obtain ⟨ha, hb⟩ := listMax_spec (normalizedCc_ne d (s2 := s2) (show 0 < s1.length by omega) n1 n2)
  apply le_antisymm
  · obtain ⟨k, hk⟩ := List.mem_iff_getElem?.1 ha
    have hk' : k < 2 * s1.length - 1 := by
      by_contra hge
      rw [List.getElem?_eq_none (by omega)] at hk
      cases hk
    rw [hval k hk'] at hk
    rw [← Option.some.inj hk, div_le_div_iff_of_pos_right hpos]
    exact hmax _ (by omega) (by omega)
  · obtain ⟨lag, h3, h4, rfl⟩ := hm
    obtain ⟨k, hk⟩ := Int.eq_ofNat_of_zero_le (show 0 ≤ lag + (s1.length - 1 : ℕ) by omega)
    have hv := hval k (by omega)
    rw [show (k : ℤ) - (s1.length - 1 : ℕ) = lag by omega] at hv
    exact hb _ (List.mem_iff_getElem?.2 ⟨k, hv⟩)

theorem listMax_small {d : ℕ} {s1 s2 : List (List ℝ)} (h : 0 < s1.length) {n1 n2 : ℝ}
    (hn1 : 0 ≤ n1) (hn2 : 0 ≤ n2) (hs : n1 * n2 < 1 / 1000000000) : listMax (normalizedCc d s1 s2 n1 n2) = 0 := by
  obtain ⟨ha, -⟩ := listMax_spec (normalizedCc_ne d (s2 := s2) h n1 n2)
  revert ha
  unfold normalizedCc
  rw [if_neg (not_lt.2 hn1), if_neg (not_lt.2 hn2)]
  simp only [if_pos hs]
  intro ha
  obtain ⟨_, _, h⟩ := List.mem_map.1 ha
  exact h.symm

theorem fillNorms_nonneg (D : List (List (List ℝ))) {norms : List ℝ} (h : ∀ n ∈ norms, 0 ≤ n) : fillNorms D norms = norms := by
  unfold fillNorms
  rw [if_neg]
  rintro ⟨n, hn, hlt⟩
  exact absurd (h n hn) (not_le.2 hlt)

theorem cdistCc_nonneg {d : ℕ} {X cs : List KsSer} {norms normsC : List ℝ} (h1 : ∀ n ∈ norms, 0 ≤ n) (h2 : ∀ n ∈ normsC, 0 ≤ n)
    {i k : ℕ} {a b : ℝ} (ha : norms[i]? = some a) (hb : normsC[k]? = some b) :
    cdistCcEntry d X cs norms normsC false i k = .ok (listMax (normalizedCc d (X.getD i []) (cs.getD k []) a b)) := by
  unfold cdistCcEntry
  rw [fillNorms_nonneg X h1, fillNorms_nonneg cs h2]
  simp only [ha, hb]
  rfl

theorem mapM_ok_of {A B : Type} (f : A → Except PyErr B) (g : A → B) : ∀ l : List A, (∀ a ∈ l, f a = .ok (g a)) →
    l.mapM f = .ok (l.map g)
  | [], _ => rfl
  | a :: l, h => by
    rw [List.mapM_cons, h a (by simp), List.map_cons]
    simp only [bind, Except.bind]
    rw [mapM_ok_of f g l fun x hx => h x (by simp [hx])]
    rfl

theorem ksRow_ok {d : ℕ} {X cs : List KsSer} {norms normsC : List ℝ} (h1 : ∀ n ∈ norms, 0 ≤ n) (h2 : ∀ n ∈ normsC, 0 ≤ n)
    (hl : normsC.length = cs.length) {i : ℕ} {a : ℝ} (ha : norms[i]? = some a) :
    ksRow d X cs norms normsC i = .ok ((List.range cs.length).map fun k =>
      1 - listMax (normalizedCc d (X.getD i []) (cs.getD k []) a (normsC.getD k 0))) := by
  unfold ksRow
  refine mapM_ok_of _ _ _ fun k hk => ?_
  have hk' := List.mem_range.1 hk
  rw [cdistCc_nonneg h1 h2 ha (b := normsC.getD k 0) (by
    rw [List.getD_eq_getElem?_getD, List.getElem?_eq_getElem (by omega)]; rfl)]
  rfl

theorem ksDists_ok {d : ℕ} {X cs : List KsSer} {norms normsC : List ℝ} (h1 : ∀ n ∈ norms, 0 ≤ n) (h2 : ∀ n ∈ normsC, 0 ≤ n)
    (hl : normsC.length = cs.length) (hn : X.length ≤ norms.length) :
    ksDists d X cs norms normsC = .ok ((List.range X.length).map fun i => (List.range cs.length).map fun k =>
      1 - listMax (normalizedCc d (X.getD i []) (cs.getD k []) (norms.getD i 0) (normsC.getD k 0))) := by
  unfold ksDists
  refine mapM_ok_of _ _ _ fun i hi => ?_
  have hi' := List.mem_range.1 hi
  exact ksRow_ok h1 h2 hl (by rw [List.getD_eq_getElem?_getD, List.getElem?_eq_getElem (by omega)]; rfl)

theorem lagProd_zero {d : ℕ} {x : KsSer} (h : energy d x = 0) (c : KsSer) (lag : ℤ) : lagProd d x c lag = 0 := by
  have hz : ∀ t : ℤ, ∀ f < d, val x t f = 0 := by
    intro t f hf
    rcases lt_or_ge t 0 with h0 | h0
    · exact val_neg x h0 f
    · obtain ⟨n, rfl⟩ := Int.eq_ofNat_of_zero_le h0
      rcases Nat.lt_or_ge n x.length with hn | hn
      · have h1 := (sum_eq_zero_iff_of_nonneg fun t _ => sum_nonneg fun f _ => sq_nonneg _).1 h n (mem_range.2 hn)
        have h2 := (sum_eq_zero_iff_of_nonneg fun f _ => sq_nonneg _).1 h1 f (mem_range.2 hf)
        exact pow_eq_zero_iff (two_ne_zero) |>.1 h2
      · exact val_ge x (by exact_mod_cast hn) f
  unfold lagProd
  refine sum_eq_zero fun t _ => sum_eq_zero fun f hf => ?_
  rw [hz _ f (mem_range.1 hf), zero_mul]

/-- The first nearest centroid does not depend on the norm used for the series, as long as it is not tiny. -/
theorem row_nearest {d sz : ℕ} (hsz : 2 ≤ sz) {x : KsSer} (hx : x.length = sz) {cs : List KsSer} (hcs : cs ≠ [])
    (hc : ∀ c ∈ cs, c.length = sz ∧ Wide d c) {n : ℝ} (hn : 0 ≤ n)
    (hbig : ∀ c ∈ cs, 1 / 1000000000 ≤ n * √(energy d c)) :
    NearestShape d x cs (argminL ((List.range cs.length).map fun k =>
      1 - listMax (normalizedCc d x (cs.getD k []) n ((cs.map fun c => √(energy d c)).getD k 0)))) := by
  have hgetc : ∀ k (h : k < cs.length), cs.getD k [] = cs[k] ∧ (cs.map fun c => √(energy d c)).getD k 0 = √(energy d cs[k]) := by
    intro k h
    constructor
    · rw [List.getD_eq_getElem?_getD, List.getElem?_eq_getElem h]; rfl
    · rw [List.getD_eq_getElem?_getD, List.getElem?_map, List.getElem?_eq_getElem h]; rfl
  have hex : ∀ k, ∃ m, ∀ (h : k < cs.length), (∃ lag : ℤ, -(x.length : ℤ) < lag ∧ lag < x.length ∧ m = lagProd d x cs[k] lag) ∧
      ∀ lag : ℤ, -(x.length : ℤ) < lag → lag < x.length → lagProd d x cs[k] lag ≤ m := by
    intro k
    by_cases h : k < cs.length
    · obtain ⟨m, h1, h2⟩ := exists_maxLag d x cs[k] (by omega)
      exact ⟨m, fun _ => ⟨h1, h2⟩⟩
    · exact ⟨0, fun h' => absurd h' h⟩
  choose m hm using hex
  have hval : ∀ k (h : k < cs.length), listMax (normalizedCc d x (cs.getD k []) n ((cs.map fun c => √(energy d c)).getD k 0)) =
      m k / (n * √(energy d cs[k])) := by
    intro k h
    rw [(hgetc k h).1, (hgetc k h).2]
    exact listMax_cc (by omega) (by rw [(hc _ (List.getElem_mem h)).1, hx]) hn (Real.sqrt_nonneg _) (hbig _ (List.getElem_mem h))
      (hm k h).1 (hm k h).2
  have hne : ((List.range cs.length).map fun k => 1 - listMax (normalizedCc d x (cs.getD k []) n
      ((cs.map fun c => √(energy d c)).getD k 0))) ≠ [] := by
    simpa using hcs
  obtain ⟨v, h1, h2, h3⟩ := argminL_spec _ hne
  generalize hl : argminL ((List.range cs.length).map fun k => 1 - listMax (normalizedCc d x (cs.getD k []) n
      ((cs.map fun c => √(energy d c)).getD k 0))) = l at *
  have hlt : l < cs.length := by
    have := (List.getElem?_eq_some_iff.1 h1).1
    simpa using this
  have hget : ∀ k (h : k < cs.length), ((List.range cs.length).map fun k => 1 - listMax (normalizedCc d x (cs.getD k []) n
      ((cs.map fun c => √(energy d c)).getD k 0)))[k]? = some (1 - m k / (n * √(energy d cs[k]))) := by
    intro k h
    rw [List.getElem?_map, List.getElem?_range h, Option.map_some, hval k h]
  rw [hget l hlt] at h1
  obtain rfl := Option.some.inj h1
  have hpos : ∀ k (h : k < cs.length), 0 < n ∧ 0 < √(energy d cs[k]) := by
    intro k h
    have hp : 0 < n * √(energy d cs[k]) := lt_of_lt_of_le (by norm_num) (hbig _ (List.getElem_mem h))
    exact ⟨pos_of_mul_pos_left hp (Real.sqrt_nonneg _), pos_of_mul_pos_right hp hn⟩
  have conv : ∀ k (h : k < cs.length) j (h' : j < cs.length),
      (m k / (n * √(energy d cs[k])) ≤ m j / (n * √(energy d cs[j])) ↔ m k / √(energy d cs[k]) ≤ m j / √(energy d cs[j])) := by
    intro k h j h'
    have hn' := (hpos k h).1
    rw [mul_comm n, mul_comm n, ← div_div, ← div_div, div_le_div_iff_of_pos_right hn']
  refine ⟨hlt, fun k => if h : k < cs.length then m k / (√(energy d x) * √(energy d cs[k])) else 0, ?_, ?_⟩
  · intro k h
    simp only [h, dif_pos]
    obtain ⟨⟨lag, ha, hb, hc'⟩, hmx⟩ := hm k h
    refine ⟨⟨lag, ha, hb, by rw [hc']⟩, fun lag' h4 h5 => ?_⟩
    exact div_le_div_of_nonneg_right (hmx lag' h4 h5) (mul_nonneg (Real.sqrt_nonneg _) (Real.sqrt_nonneg _))
  · intro k h
    simp only [h, hlt, dif_pos]
    have hle := h2 _ (List.mem_iff_getElem?.2 ⟨k, hget k h⟩)
    have hle' : m k / √(energy d cs[k]) ≤ m l / √(energy d cs[l]) := (conv k h l hlt).1 (by linarith)
    have e : ∀ j (h' : j < cs.length), m j / (√(energy d x) * √(energy d cs[j])) = m j / √(energy d cs[j]) / √(energy d x) := by
      intro j h'; rw [mul_comm, div_div]
    rw [e k h, e l hlt]
    refine ⟨div_le_div_of_nonneg_right hle' (Real.sqrt_nonneg _), fun hkl => ?_⟩
    have hlt' := h3 k hkl _ (hget k h)
    have hs : m k / √(energy d cs[k]) < m l / √(energy d cs[l]) := by
      refine lt_of_le_of_ne hle' fun he => ?_
      have := (conv l hlt k h).2 he.ge
      linarith
    rcases (energy_nonneg d x).eq_or_lt with h0 | h0
    · obtain ⟨⟨_, _, _, ek⟩, -⟩ := hm k h
      obtain ⟨⟨_, _, _, el⟩, -⟩ := hm l hlt
      rw [ek, el, lagProd_zero h0.symm, lagProd_zero h0.symm] at hs
      simp at hs
    · exact div_lt_div_of_pos_right hs (Real.sqrt_pos.2 h0)

/-- `ksScale` standardises every series. -/
theorem ksScale_ok {sz d : ℕ} (hsz : 0 < sz) (hd : 0 < d) {X : List KsSer} (hne : X ≠ []) (hX : ∀ s ∈ X, s.length = sz ∧ Wide d s) :
    ∃ Y, ksScale sz d X = .ok Y ∧ Y.length = X.length ∧
      ∀ (i : ℕ) (h : i < X.length), ∃ y, Y[i]? = some y ∧ Standardised d X[i] y := by
  let A : Arr3 ℝ := { sz := sz, d := d, data := X.map fun s => s.map fun r => r.map some }
  have hent : ∀ i (h : i < X.length), ∀ t < sz, ∀ f < d, A.entry i t f = some (val X[i] t f) := by
    intro i h t ht f hf
    obtain ⟨h1, h2⟩ := hX _ (List.getElem_mem h)
    have ht' : t < X[i].length := by omega
    have hf' : f < X[i][t].length := by rw [h2 _ (List.getElem_mem ht')]; exact hf
    rw [val_nat]
    simp [Arr3.entry, A, ent, List.getD_eq_getElem?_getD, h, ht', hf']
  have hobs : ∀ i (h : i < X.length), ∀ f < d, ∀ g : ℝ → ℝ, obsSum A true true i f g = ∑ t ∈ range sz, g (val X[i] t f) := by
    intro i h f hf g
    unfold obsSum
    have hlen : A.data.length = X.length := by simp [A]
    rw [hlen, sum_eq_single_of_mem i (mem_range.2 h)]
    · refine sum_congr rfl fun t ht => ?_
      rw [sum_eq_single_of_mem f (mem_range.2 hf)]
      · rw [if_pos ⟨fun _ => rfl, fun _ => rfl⟩, hent i h t (mem_range.1 ht) f hf]; rfl
      · intro f' _ hne'
        rw [if_neg (fun hh => hne' (hh.2 rfl))]
    · intro i' _ hne'
      refine sum_eq_zero fun t _ => sum_eq_zero fun f' _ => ?_
      rw [if_neg (fun hh => hne' (hh.1 rfl))]
  have hF : Formatted A := by
    refine ⟨?_, fun h => absurd h (by simpa [A] using hne), .inr ?_⟩
    · intro s hs
      obtain ⟨x, hx, rfl⟩ := List.mem_map.1 hs
      obtain ⟨h1, h2⟩ := hX x hx
      refine ⟨by simp [h1, A], fun r hr => ?_⟩
      obtain ⟨q, hq, rfl⟩ := List.mem_map.1 hr
      simp [h2 q hq, A]
    · obtain ⟨x, hx⟩ := List.exists_mem_of_ne_nil X hne
      obtain ⟨h1, h2⟩ := hX x hx
      refine ⟨x.map fun r => r.map some, List.mem_map.2 ⟨x, hx, rfl⟩, .inr ?_, ?_⟩
      · change Observed _ (sz - 1)
        have hlt : sz - 1 < x.length := by omega
        have hd' : 0 < x[sz - 1].length := by rw [h2 _ (List.getElem_mem hlt)]; exact hd
        refine ⟨x[sz - 1].map some, by rw [List.getElem?_map, List.getElem?_eq_getElem hlt]; rfl, some x[sz - 1][0], ?_, rfl⟩
        exact List.mem_map.2 ⟨_, List.getElem_mem hd', rfl⟩
      · rintro i hi ⟨r, hr, -⟩
        change sz ≤ i at hi
        rw [List.getElem?_eq_none (by simp; omega)] at hr
        cases hr
  obtain ⟨Y, h1, h2, h3, h4, h5, h6⟩ := C29_affine ⟨0, 1, true, true⟩ A A hF hF (by simpa [A] using hne) (by simpa [A] using hne) rfl
  refine ⟨Y.data.map fun s => s.map fun r => r.map fun v => v.getD 0, ?_, by simp [h3, A], ?_⟩
  · unfold ksScale
    change (meanVarTransform ⟨0, 1, true, true⟩ A A >>= _) = _
    rw [h1]; rfl
  · intro i h
    have hi : i < Y.data.length := by rw [h3]; simpa [A] using h
    obtain ⟨hy1, hy2⟩ := h2 _ (List.getElem_mem hi)
    obtain ⟨hx1, hx2⟩ := hX _ (List.getElem_mem h)
    have hszA : Y.sz = sz := h4
    have hdA : Y.d = d := h5
    refine ⟨Y.data[i].map fun r => r.map fun v => v.getD 0, ?_, ?_, ?_, ?_⟩
    · rw [List.getElem?_map, List.getElem?_eq_getElem hi]; rfl
    · rw [List.length_map, hy1, hszA, hx1]
    · intro r hr
      obtain ⟨q, hq, rfl⟩ := List.mem_map.1 hr
      rw [List.length_map, hy2 q hq, hdA]
    · intro t ht f hf
      have hszpos : (0 : ℝ) < sz := by exact_mod_cast hsz
      have hone : obsSum A true true i f (fun _ => 1) = sz := by rw [hobs i h f hf]; simp
      have hmean : IsMean A true true i f (colMean X[i] f) := by
        refine ⟨by rw [hone]; exact hszpos, ?_⟩
        rw [hone, hobs i h f hf]
        unfold colMean
        rw [hx1, div_mul_cancel₀ _ hszpos.ne']
        rfl
      have hstd : IsStd A true true i f (colMean X[i] f) (colStd X[i] f) := by
        refine ⟨Real.sqrt_nonneg _, ?_⟩
        rw [hone, hobs i h f hf]
        unfold colStd
        rw [Real.sq_sqrt (div_nonneg (sum_nonneg fun _ _ => sq_nonneg _) (Nat.cast_nonneg _)), hx1,
          div_mul_cancel₀ _ hszpos.ne']
      have h7 := h6 i (by simpa [A] using h) f hf _ _ hmean hstd t (by omega)
      rw [hent i h t (by omega) f hf, Option.map_some] at h7
      have ht1 : t < Y.data[i].length := by omega
      have hf1 : f < Y.data[i][t].length := by rw [hy2 _ (List.getElem_mem ht1)]; omega
      have h8 : Y.entry i t f = Y.data[i][t][f] := by
        simp [Arr3.entry, List.getD_eq_getElem?_getD, hi, ht1, hf1]
      rw [h8] at h7
      rw [val_nat]
      have : ent (Y.data[i].map fun r => r.map fun v => v.getD 0) t f = (Y.data[i][t][f]).getD 0 := by
        simp [ent, List.getD_eq_getElem?_getD, ht1, hf1]
      rw [this, h7]
      simp only [Option.getD_some]
      ring

end Verif
