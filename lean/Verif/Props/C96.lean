import Verif.Proofs.Pieces
import Verif.Props.C01
import Verif.Props.C10
import Verif.Props.C15
import Verif.Props.C17
import Verif.Props.C21
import Mathlib.Data.List.NodupEquivFin
import Mathlib.Tactic.NormNum
/-!
# C96 — Series joined from pieces, and series recorded slower
-/
set_option linter.unusedSectionVars false
namespace Verif
open Spec

section pieces
variable {K : Type} [CommRing K] [LinearOrder K] [IsStrictOrderedRing K]

/-- Squared distances of joined series under any masks that let joined paths through. -/
theorem concat_masks (x y x' y' : List (List K)) (hx : x ≠ []) (hy : y ≠ []) (hx' : x' ≠ []) (hy' : y' ≠ [])
    (g1 g2 g3 : ℕ) (r1 r2 r3 : Option ℕ) (t1 t2 t3 : Option ℚ) (M1 M2 M3 : Mat Bool)
    (h1 : computeMask x.length y.length g1 r1 t1 = .ok M1)
    (h2 : computeMask x'.length y'.length g2 r2 t2 = .ok M2)
    (h3 : computeMask (x ++ x').length (y ++ y').length g3 r3 t3 = .ok M3)
    (hM1 : ∀ i < x.length, ∀ j < y.length, M1 i j = true → M3 i j = true)
    (hM2 : ∀ i < x'.length, ∀ j < y'.length, M2 i j = true → M3 (i + x.length) (j + y.length) = true) :
    (∀ a b : K, dtwSqGeneric x y g1 r1 t1 = .ok (a : WithTop K) →
      dtwSqGeneric x' y' g2 r2 t2 = .ok (b : WithTop K) →
      ∃ c : K, dtwSqGeneric (x ++ x') (y ++ y') g3 r3 t3 = .ok (c : WithTop K) ∧ c ≤ a + b) ∧
    ∀ a b : K, frechetSqGeneric x y g1 r1 t1 = .ok (a : WithTop K) →
      frechetSqGeneric x' y' g2 r2 t2 = .ok (b : WithTop K) →
      ∃ c : K, frechetSqGeneric (x ++ x') (y ++ y') g3 r3 t3 = .ok (c : WithTop K) ∧ c ≤ max a b := by
  have hxx : x ++ x' ≠ [] := by simp [hx]
  have hyy : y ++ y' ≠ [] := by simp [hy]
  have adm : ∀ p q, Admissible x.length y.length M1 p → Admissible x'.length y'.length M2 q →
      Admissible (x ++ x').length (y ++ y').length M3 (catPath x.length y.length p q) := by
    rintro p q ⟨hp, mp⟩ ⟨hq, mq⟩
    rw [List.length_append, List.length_append]
    refine ⟨catPath_isWarpingPath hp hq, fun c hc => ?_⟩
    rcases List.mem_append.1 hc with hc | hc
    · have := hp.mem_lt c hc
      exact hM1 _ this.1 _ this.2 (mp c hc)
    · obtain ⟨d, hd, rfl⟩ := List.mem_map.1 hc
      have := hq.mem_lt d hd
      exact hM2 _ this.1 _ this.2 (mq d hd)
  constructor
  · intro a b ha hb
    obtain ⟨u, hu, -, lu⟩ := C01_dtw_squared x y hx hy g1 r1 t1 M1 h1
    obtain ⟨v, hv, -, lv⟩ := C01_dtw_squared x' y' hx' hy' g2 r2 t2 M2 h2
    obtain ⟨w, hw, tw, lw⟩ := C01_dtw_squared (x ++ x') (y ++ y') hxx hyy g3 r3 t3 M3 h3
    rw [hu] at ha
    rw [hv] at hb
    obtain ⟨p, hp, ep⟩ := ((lu a).1 (Except.ok.inj ha)).1
    obtain ⟨q, hq, eq⟩ := ((lv b).1 (Except.ok.inj hb)).1
    have had := adm p q hp hq
    cases w with
    | top => exact absurd ⟨_, had⟩ (tw.1 rfl)
    | coe c =>
      refine ⟨c, hw, ((lw c).1 rfl).2 ⟨_, had, ?_⟩⟩
      rw [sumCost_catPath x y x' y' hp.1, ep, eq]
  · intro a b ha hb
    obtain ⟨u, hu, -, lu⟩ := C10_frechet_squared x y hx hy g1 r1 t1 M1 h1
    obtain ⟨v, hv, -, lv⟩ := C10_frechet_squared x' y' hx' hy' g2 r2 t2 M2 h2
    obtain ⟨w, hw, tw, lw⟩ := C10_frechet_squared (x ++ x') (y ++ y') hxx hyy g3 r3 t3 M3 h3
    rw [hu] at ha
    rw [hv] at hb
    obtain ⟨p, hp, ⟨c1, hc1, e1⟩, bp⟩ := ((lu a).1 (Except.ok.inj ha)).1
    obtain ⟨q, hq, ⟨c2, hc2, e2⟩, bq⟩ := ((lv b).1 (Except.ok.inj hb)).1
    have had := adm p q hp hq
    have left : ∀ c ∈ p, sampleCost (x ++ x') (y ++ y') c.1 c.2 = sampleCost x y c.1 c.2 := by
      intro c hc
      have := hp.1.mem_lt c hc
      exact (getD_append_cell sqEuclid [] x y x' y' _ _ rfl rfl c).1 this.1 this.2
    have right : ∀ c : ℕ × ℕ, sampleCost (x ++ x') (y ++ y') (c.1 + x.length) (c.2 + y.length) =
        sampleCost x' y' c.1 c.2 :=
      fun c => (getD_append_cell sqEuclid [] x y x' y' _ _ rfl rfl c).2
    cases w with
    | top => exact absurd ⟨_, had⟩ (tw.1 rfl)
    | coe c =>
      refine ⟨c, hw, ((lw c).1 rfl).2 ⟨_, had, ?_, ?_⟩⟩
      · rcases le_total a b with h | h
        · refine ⟨_, List.mem_append_right _ (List.mem_map_of_mem hc2), ?_⟩
          rw [max_eq_right h]
          exact (right c2).trans e2
        · refine ⟨c1, List.mem_append_left _ hc1, ?_⟩
          rw [max_eq_left h, left c1 hc1, e1]
      · intro d hd
        rcases List.mem_append.1 hd with hd | hd
        · rw [left d hd]
          exact (bp d hd).trans (le_max_left _ _)
        · obtain ⟨e, he, rfl⟩ := List.mem_map.1 hd
          exact (right e).le.trans ((bq e he).trans (le_max_right _ _))

theorem unconstrained_finite (x y : List (List K)) (hx : x ≠ []) (hy : y ≠ []) :
    (∃ a : K, dtwSqGeneric x y 0 none none = .ok (a : WithTop K)) ∧
      ∃ a : K, frechetSqGeneric x y 0 none none = .ok (a : WithTop K) := by
  have hp := (computeMask_reachable (List.length_pos_iff.2 hx) (List.length_pos_iff.2 hy) (by simp)
    (rfl : computeMask x.length y.length 0 none none = .ok _)).2
  constructor
  · obtain ⟨w, hw, tw, -⟩ := C01_dtw_squared x y hx hy 0 none none _ rfl
    cases w with
    | top => exact absurd hp (tw.1 rfl)
    | coe c => exact ⟨c, hw⟩
  · obtain ⟨w, hw, tw, -⟩ := C10_frechet_squared x y hx hy 0 none none _ rfl
    cases w with
    | top => exact absurd hp (tw.1 rfl)
    | coe c => exact ⟨c, hw⟩

/-- Joined series are at most as far apart as their pieces together: squared DTW adds up, squared
Fréchet takes the worse piece. -/
theorem C96_concat (x y x' y' : List (List K)) (hx : x ≠ []) (hy : y ≠ []) (hx' : x' ≠ []) (hy' : y' ≠ []) :
    (∃ a b c : K, dtwSqGeneric x y 0 none none = .ok (a : WithTop K) ∧
      dtwSqGeneric x' y' 0 none none = .ok (b : WithTop K) ∧
      dtwSqGeneric (x ++ x') (y ++ y') 0 none none = .ok (c : WithTop K) ∧ c ≤ a + b) ∧
    ∃ a b c : K, frechetSqGeneric x y 0 none none = .ok (a : WithTop K) ∧
      frechetSqGeneric x' y' 0 none none = .ok (b : WithTop K) ∧
      frechetSqGeneric (x ++ x') (y ++ y') 0 none none = .ok (c : WithTop K) ∧ c ≤ max a b := by
  have key := concat_masks x y x' y' hx hy hx' hy' 0 0 0 none none none none none none _ _ _ rfl rfl rfl
    (fun _ _ _ _ _ => rfl) (fun _ _ _ _ _ => rfl)
  obtain ⟨⟨a, ha⟩, a', ha'⟩ := unconstrained_finite x y hx hy
  obtain ⟨⟨b, hb⟩, b', hb'⟩ := unconstrained_finite x' y' hx' hy'
  obtain ⟨c, hc, le⟩ := key.1 a b ha hb
  obtain ⟨c', hc', le'⟩ := key.2 a' b' ha' hb'
  exact ⟨⟨a, b, c, ha, hb, hc, le⟩, a', b', c', ha', hb', hc', le'⟩

/-- In a Sakoe-Chiba band of one radius the same holds when the pieces have equal lengths pairwise. -/
theorem C96_concat_band (x y x' y' : List (List K)) (hx : x ≠ []) (hx' : x' ≠ []) (hl : x.length = y.length)
    (hl' : x'.length = y'.length) (r : ℕ) :
    (∃ a b c : K, dtwSqGeneric x y 2 (some r) none = .ok (a : WithTop K) ∧
      dtwSqGeneric x' y' 2 (some r) none = .ok (b : WithTop K) ∧
      dtwSqGeneric (x ++ x') (y ++ y') 2 (some r) none = .ok (c : WithTop K) ∧ c ≤ a + b) ∧
    ∃ a b c : K, frechetSqGeneric x y 2 (some r) none = .ok (a : WithTop K) ∧
      frechetSqGeneric x' y' 2 (some r) none = .ok (b : WithTop K) ∧
      frechetSqGeneric (x ++ x') (y ++ y') 2 (some r) none = .ok (c : WithTop K) ∧ c ≤ max a b := by
  have px := List.length_pos_iff.2 hx
  have px' := List.length_pos_iff.2 hx'
  have hy : y ≠ [] := List.length_pos_iff.1 (by omega)
  have hy' : y' ≠ [] := List.length_pos_iff.1 (by omega)
  have key := concat_masks x y x' y' hx hy hx' hy' 2 2 2 (some r) (some r) (some r) none none none _ _ _ rfl rfl rfl
    (by
      intro i hi j hj h
      simp only [Option.getD_some] at h ⊢
      rw [sakoeChibaMask_iff _ _ _ _ _ hi hj] at h
      rw [sakoeChibaMask_iff _ _ _ _ _ (by simp; omega) (by simp; omega)]
      simp only [InBand, List.length_append] at h ⊢
      omega)
    (by
      intro i hi j hj h
      simp only [Option.getD_some] at h ⊢
      rw [sakoeChibaMask_iff _ _ _ _ _ hi hj] at h
      rw [sakoeChibaMask_iff _ _ _ _ _ (by simp; omega) (by simp; omega)]
      simp only [InBand, List.length_append] at h ⊢
      omega)
  have fin : ∀ x y : List (List K), x ≠ [] → y ≠ [] →
      (∃ a : K, dtwSqGeneric x y 2 (some r) none = .ok (a : WithTop K)) ∧
        ∃ a : K, frechetSqGeneric x y 2 (some r) none = .ok (a : WithTop K) := by
    intro x y hx hy
    have hp := (computeMask_reachable (List.length_pos_iff.2 hx) (List.length_pos_iff.2 hy) (by simp)
      (rfl : computeMask x.length y.length 2 (some r) none = .ok _)).2
    constructor
    · obtain ⟨w, hw, tw, -⟩ := C01_dtw_squared x y hx hy 2 (some r) none _ rfl
      cases w with
      | top => exact absurd hp (tw.1 rfl)
      | coe c => exact ⟨c, hw⟩
    · obtain ⟨w, hw, tw, -⟩ := C10_frechet_squared x y hx hy 2 (some r) none _ rfl
      cases w with
      | top => exact absurd hp (tw.1 rfl)
      | coe c => exact ⟨c, hw⟩
  obtain ⟨⟨a, ha⟩, a', ha'⟩ := fin x y hx hy
  obtain ⟨⟨b, hb⟩, b', hb'⟩ := fin x' y' hx' hy'
  obtain ⟨c, hc, le⟩ := key.1 a b ha hb
  obtain ⟨c', hc', le'⟩ := key.2 a' b' ha' hb'
  exact ⟨⟨a, b, c, ha, hb, hc, le⟩, a', b', c', ha', hb', hc', le'⟩

/-- With pieces of different lengths it is **false** in a band: each piece is matched perfectly in the
band of radius 0 (widened by the difference of lengths), the joined series of equal length are not. -/
theorem C96_false_band :
    dtwSqGeneric ([[0]] : List (List ℤ)) [[0], [0], [0]] 2 (some 0) none = .ok ((0 : ℤ) : WithTop ℤ) ∧
    dtwSqGeneric ([[1], [1], [1]] : List (List ℤ)) [[1]] 2 (some 0) none = .ok ((0 : ℤ) : WithTop ℤ) ∧
    dtwSqGeneric ([[0], [1], [1], [1]] : List (List ℤ)) [[0], [0], [0], [1]] 2 (some 0) none =
      .ok ((2 : ℤ) : WithTop ℤ) := by
  refine ⟨?_, ?_, ?_⟩ <;> decide +kernel

/-- Series recorded slower: when every sample is repeated at most `k` times in one series and at most
`l` times in the other, squared DTW does not decrease and grows at most `k * l` times; squared Fréchet
stays the same. -/
theorem C96_stretched (k l : ℕ) (x y x' y' : List (List K)) (hx : x ≠ []) (hy : y ≠ [])
    (sx : Stretched k x x') (sy : Stretched l y y') :
    (∃ a a' : K, dtwSqGeneric x y 0 none none = .ok (a : WithTop K) ∧
      dtwSqGeneric x' y' 0 none none = .ok (a' : WithTop K) ∧ a ≤ a' ∧ a' ≤ (k * l : ℕ) * a) ∧
    ∃ f : K, frechetSqGeneric x y 0 none none = .ok (f : WithTop K) ∧
      frechetSqGeneric x' y' 0 none none = .ok (f : WithTop K) := by
  have ne : ∀ (k : ℕ) (x x' : List (List K)), x ≠ [] → Stretched k x x' → x' ≠ [] := by
    intro k x x' hx h
    cases h with
    | nil => exact hx
    | cons a r h1 => simp; omega
  have hx' := ne k x x' hx sx
  have hy' := ne l y y' hy sy
  have dtwAl : ∀ x y : List (List K), x ≠ [] → y ≠ [] → ∃ a : K, dtwSqGeneric x y 0 none none = .ok (a : WithTop K) ∧
      Al x y a ∧ ∀ c, Al x y c → a ≤ c := by
    intro x y hx hy
    obtain ⟨⟨a, ha⟩, -⟩ := unconstrained_finite x y hx hy
    obtain ⟨w, hw, -, lw⟩ := C01_dtw_squared x y hx hy 0 none none _ rfl
    rw [hw] at ha
    obtain ⟨⟨p, hp, e⟩, le⟩ := (lw a).1 (Except.ok.inj ha)
    refine ⟨a, hw.trans ha, (al_iff x y a).2 ⟨p, hp.1, e.symm⟩, fun c hc => ?_⟩
    obtain ⟨q, hq, rfl⟩ := (al_iff x y c).1 hc
    exact le ⟨q, ⟨hq, fun _ _ => rfl⟩, rfl⟩
  constructor
  · obtain ⟨a, ha, al, amin⟩ := dtwAl x y hx hy
    obtain ⟨a', ha', al', amin'⟩ := dtwAl x' y' hx' hy'
    refine ⟨a, a', ha, ha', ?_, ?_⟩
    · obtain ⟨c, hc, le⟩ := al'.unstretch sx
      obtain ⟨c2, hc2, le2⟩ := hc.symm.unstretch sy
      exact (amin c2 hc2.symm).trans (le2.trans le)
    · obtain ⟨c, hc, le⟩ := al.stretch sx
      obtain ⟨c2, hc2, le2⟩ := hc.symm.stretch sy
      refine (amin' c2 hc2.symm).trans (le2.trans ?_)
      calc (l : K) * c ≤ l * (k * a) := mul_le_mul_of_nonneg_left le (Nat.cast_nonneg l)
        _ = (k * l : ℕ) * a := by push_cast; ring
  · have half : ∀ x y x' y' : List (List K), x ≠ [] → y ≠ [] → x' ≠ [] → y' ≠ [] → squeeze x = squeeze x' →
        squeeze y = squeeze y' → ∀ f f' : K, frechetSqGeneric x y 0 none none = .ok (f : WithTop K) →
        frechetSqGeneric x' y' 0 none none = .ok (f' : WithTop K) → f' ≤ f := by
      intro x y x' y' hx hy hx' hy' ex ey f f' hf hf'
      obtain ⟨u, hu, -, lu⟩ := C10_frechet_squared x y hx hy 0 none none _ rfl
      obtain ⟨v, hv, -, lv⟩ := C10_frechet_squared x' y' hx' hy' 0 none none _ rfl
      rw [hu] at hf
      rw [hv] at hf'
      obtain ⟨p, ⟨hp, -⟩, -, bp⟩ := ((lu f).1 (Except.ok.inj hf)).1
      obtain ⟨q, hq, eq⟩ := exists_path_of_squeeze x' x hx' hx ex.symm
      obtain ⟨r, hr, er⟩ := exists_path_of_squeeze y y' hy hy' ey
      obtain ⟨i, j, hi, hj, wp⟩ := isWarpingPath_iff.1 hp
      obtain ⟨i', i2, hi', hi2, wq⟩ := isWarpingPath_iff.1 hq
      obtain ⟨j2, j', hj2, hj', wr⟩ := isWarpingPath_iff.1 hr
      obtain rfl : i2 = i := by omega
      obtain rfl : j2 = j := by omega
      obtain ⟨s, ws, hs⟩ := wq.compose wp
      obtain ⟨t, wt, ht⟩ := ws.compose wr
      have path : IsWarpingPath x'.length y'.length t := isWarpingPath_iff.2 ⟨i', j', hi', hj', wt⟩
      have bound : ∀ c ∈ t, sampleCost x' y' c.1 c.2 ≤ f := by
        intro c hc
        obtain ⟨b, h1, h2⟩ := ht c hc
        obtain ⟨a, h3, h4⟩ := hs _ h1
        have e1 := eq _ h3
        have e2 := er _ h2
        have := bp _ h4
        simp only [sampleCost, List.getD_eq_getElem?_getD] at this ⊢
        rw [e1, ← e2]
        exact this
      have hne : t ≠ [] := wt.ne_nil
      obtain ⟨w, hw⟩ : ∃ w, IsMaxCost (sampleCost x' y') t w := by
        clear bound path wt ht
        induction t with
        | nil => exact absurd rfl hne
        | cons c t ih =>
          cases t with
          | nil => exact ⟨_, ⟨c, by simp, rfl⟩, by simp⟩
          | cons d t =>
            obtain ⟨w, ⟨e, he, h1⟩, h2⟩ := ih (by simp)
            rcases le_total (sampleCost x' y' c.1 c.2) w with h | h
            · refine ⟨w, ⟨e, List.mem_cons_of_mem _ he, h1⟩, fun b hb => ?_⟩
              rcases List.mem_cons.1 hb with rfl | hb
              · exact h
              · exact h2 b hb
            · refine ⟨_, ⟨c, by simp, rfl⟩, fun b hb => ?_⟩
              rcases List.mem_cons.1 hb with rfl | hb
              · exact le_rfl
              · exact (h2 b hb).trans h
      obtain ⟨⟨e, he, rfl⟩, -⟩ := id hw
      exact (((lv f').1 (Except.ok.inj hf')).2 ⟨t, ⟨path, fun _ _ => rfl⟩, hw⟩).trans (bound e he)
    obtain ⟨-, f, hf⟩ := unconstrained_finite x y hx hy
    obtain ⟨-, f', hf'⟩ := unconstrained_finite x' y' hx' hy'
    have h1 := half x y x' y' hx hy hx' hy' sx.squeeze_eq sy.squeeze_eq f f' hf hf'
    have h2 := half x' y' x y hx' hy' hx hy sx.squeeze_eq.symm sy.squeeze_eq.symm f' f hf' hf
    obtain rfl : f = f' := le_antisymm h2 h1
    exact ⟨f, hf, hf'⟩

end pieces

/-- The factor is attained and squared DTW is **not** unchanged: a sample recorded twice is paid twice.
Under a band the squared Fréchet distance changes, too. -/
theorem C96_false_stretched :
    dtwSqGeneric ([[0]] : List (List ℤ)) [[1]] 0 none none = .ok ((1 : ℤ) : WithTop ℤ) ∧
    dtwSqGeneric ([[0], [0]] : List (List ℤ)) [[1]] 0 none none = .ok ((2 : ℤ) : WithTop ℤ) ∧
    frechetSqGeneric ([[0], [1], [2]] : List (List ℤ)) [[0], [1], [2]] 2 (some 0) none = .ok ((0 : ℤ) : WithTop ℤ) ∧
    frechetSqGeneric ([[0], [0], [0], [1], [2]] : List (List ℤ)) [[0], [1], [2], [2], [2]] 2 (some 0) none =
      .ok ((4 : ℤ) : WithTop ℤ) := by
  refine ⟨?_, ?_, ?_, ?_⟩ <;> decide +kernel

example : Stretched 3 ([[0], [1], [2]] : List (List ℤ)) [[0], [0], [0], [1], [2], [2]] :=
  .cons [0] 3 (by simp) (by simp) (.cons [1] 1 (by simp) (by simp) (.cons [2] 2 (by simp) (by simp) .nil))

/-- Joined series can be strictly closer than their pieces: 0 1 | 0 against 0 | 1 0. -/
example : dtwSqGeneric ([[0], [1]] : List (List ℤ)) [[0]] 0 none none = .ok ((1 : ℤ) : WithTop ℤ) ∧
    dtwSqGeneric ([[0]] : List (List ℤ)) [[1], [0]] 0 none none = .ok ((1 : ℤ) : WithTop ℤ) ∧
    dtwSqGeneric ([[0], [1], [0]] : List (List ℤ)) [[0], [1], [0]] 0 none none = .ok ((0 : ℤ) : WithTop ℤ) := by
  refine ⟨?_, ?_, ?_⟩ <;> decide +kernel

/-! ### Public functions -/

/-- `dtw` and `frechet` of joined series against those of the pieces: squares of DTW add up, Fréchet is
at most the worse piece. -/
theorem C96_dtw_frechet (s1 s2 s1' s2' t1 t2 : TsInput (Option ℝ)) (x y x' y' : List (List ℝ)) (c1 c2 c3 : ℕ)
    (h1 : validatePair s1 s2 none = .ok (x, y, c1)) (h2 : validatePair s1' s2' none = .ok (x', y', c2))
    (h3 : validatePair t1 t2 none = .ok (x ++ x', y ++ y', c3)) :
    (∃ a b c : ℝ, dtw s1 s2 none none none = .ok (a : WithTop ℝ) ∧
      dtw s1' s2' none none none = .ok (b : WithTop ℝ) ∧
      dtw t1 t2 none none none = .ok (c : WithTop ℝ) ∧ c ^ 2 ≤ a ^ 2 + b ^ 2) ∧
    ∃ a b c : ℝ, frechet s1 s2 none none none = .ok (a : WithTop ℝ) ∧
      frechet s1' s2' none none none = .ok (b : WithTop ℝ) ∧
      frechet t1 t2 none none none = .ok (c : WithTop ℝ) ∧ c ≤ max a b := by
  obtain ⟨-, -, hc1, hx, hy, -⟩ := validatePair_ok h1
  obtain ⟨-, -, hc2, hx', hy', -⟩ := validatePair_ok h2
  obtain ⟨-, -, hc3, -⟩ := validatePair_ok h3
  obtain rfl : 0 = c1 := by simpa [gcCode] using hc1
  obtain rfl : 0 = c2 := by simpa [gcCode] using hc2
  obtain rfl : 0 = c3 := by simpa [gcCode] using hc3
  obtain ⟨⟨a, b, c, ha, hb, hc, le⟩, a', b', c', ha', hb', hc', le'⟩ := C96_concat x y x' y' hx hy hx' hy'
  have nn : ∀ x y : List (List ℝ), x ≠ [] → y ≠ [] → ∀ v : ℝ,
      dtwSqGeneric x y 0 none none = .ok (v : WithTop ℝ) → 0 ≤ v := by
    intro x y hx hy v hv
    obtain ⟨w, hw, -, lw⟩ := C01_dtw_squared x y hx hy 0 none none _ rfl
    rw [hw] at hv
    obtain ⟨⟨p, hp, e⟩, -⟩ := (lw v).1 (Except.ok.inj hv)
    exact ((al_iff x y v).2 ⟨p, hp.1, e.symm⟩).nonneg
  refine ⟨⟨Real.sqrt a, Real.sqrt b, Real.sqrt c, ?_, ?_, ?_, ?_⟩, Real.sqrt a', Real.sqrt b', Real.sqrt c', ?_, ?_, ?_, ?_⟩
  · simp only [dtw, dtwSq, h1, ha, bind, Except.bind, pure, Except.pure]; rfl
  · simp only [dtw, dtwSq, h2, hb, bind, Except.bind, pure, Except.pure]; rfl
  · simp only [dtw, dtwSq, h3, hc, bind, Except.bind, pure, Except.pure]; rfl
  · rw [Real.sq_sqrt (nn _ _ hx hy _ ha), Real.sq_sqrt (nn _ _ hx' hy' _ hb),
      Real.sq_sqrt (nn _ _ (by simp [hx]) (by simp [hy]) _ hc)]
    exact le
  · simp only [frechet, frechetSq, h1, ha', bind, Except.bind, pure, Except.pure]; rfl
  · simp only [frechet, frechetSq, h2, hb', bind, Except.bind, pure, Except.pure]; rfl
  · simp only [frechet, frechetSq, h3, hc', bind, Except.bind, pure, Except.pure]; rfl
  · rcases le_total a' b' with h | h
    · rw [max_eq_right (Real.sqrt_le_sqrt h)]
      exact Real.sqrt_le_sqrt (by rwa [max_eq_right h] at le')
    · rw [max_eq_left (Real.sqrt_le_sqrt h)]
      exact Real.sqrt_le_sqrt (by rwa [max_eq_left h] at le')

/-- `dtw` and `frechet` of series recorded slower. -/
theorem C96_dtw_frechet_stretched (s1 s2 s1' s2' : TsInput (Option ℝ)) (x y x' y' : List (List ℝ)) (c1 c2 k l : ℕ)
    (h1 : validatePair s1 s2 none = .ok (x, y, c1)) (h2 : validatePair s1' s2' none = .ok (x', y', c2))
    (sx : Stretched k x x') (sy : Stretched l y y') :
    (∃ a b : ℝ, dtw s1 s2 none none none = .ok (a : WithTop ℝ) ∧
      dtw s1' s2' none none none = .ok (b : WithTop ℝ) ∧ a ≤ b ∧ b ≤ Real.sqrt (k * l : ℕ) * a) ∧
    frechet s1' s2' none none none = frechet s1 s2 none none none := by
  obtain ⟨-, -, hc1, hx, hy, -⟩ := validatePair_ok h1
  obtain ⟨-, -, hc2, -⟩ := validatePair_ok h2
  obtain rfl : 0 = c1 := by simpa [gcCode] using hc1
  obtain rfl : 0 = c2 := by simpa [gcCode] using hc2
  obtain ⟨⟨a, b, ha, hb, le, le'⟩, f, hf, hf'⟩ := C96_stretched k l x y x' y' hx hy sx sy
  refine ⟨⟨Real.sqrt a, Real.sqrt b, ?_, ?_, Real.sqrt_le_sqrt le, ?_⟩, ?_⟩
  · simp only [dtw, dtwSq, h1, ha, bind, Except.bind, pure, Except.pure]; rfl
  · simp only [dtw, dtwSq, h2, hb, bind, Except.bind, pure, Except.pure]; rfl
  · rw [← Real.sqrt_mul (Nat.cast_nonneg _)]
    exact Real.sqrt_le_sqrt le'
  · simp only [frechet, frechetSq, h1, h2, hf, hf', bind, Except.bind, pure, Except.pure]

/-- Sums over the paths of joined series dominate the product of the sums over the pieces. -/
theorem sum_paths_concat {n m n' m' : ℕ} (S T U : Finset (List (ℕ × ℕ)))
    (hS : ∀ p, p ∈ S ↔ IsWarpingPath n m p) (hT : ∀ p, p ∈ T ↔ IsWarpingPath n' m' p)
    (hU : ∀ p, p ∈ U ↔ IsWarpingPath (n + n') (m + m') p) (f g w : List (ℕ × ℕ) → ℝ)
    (hw : ∀ p, 0 ≤ w p) (hc : ∀ p ∈ S, ∀ q ∈ T, w (catPath n m p q) = f p * g q) :
    (∑ p ∈ S, f p) * ∑ q ∈ T, g q ≤ ∑ p ∈ U, w p := by
  classical
  rw [Finset.sum_mul_sum, ← Finset.sum_product']
  have e : ∑ z ∈ S ×ˢ T, f z.1 * g z.2 = ∑ p ∈ (S ×ˢ T).image (fun z => catPath n m z.1 z.2), w p := by
    rw [Finset.sum_image]
    · refine Finset.sum_congr rfl fun z hz => ?_
      rw [Finset.mem_product] at hz
      exact (hc _ hz.1 _ hz.2).symm
    · rintro ⟨p, q⟩ hz ⟨p', q'⟩ hz' h
      simp only [Finset.coe_product, Set.mem_prod, Finset.mem_coe] at hz hz'
      have := catPath_inj ((hS p).1 hz.1) ((hS p').1 hz'.1) h
      exact Prod.ext this.1 this.2
  rw [e]
  refine Finset.sum_le_sum_of_subset_of_nonneg ?_ fun p _ _ => hw p
  intro p hp
  obtain ⟨z, hz, rfl⟩ := Finset.mem_image.1 hp
  rw [Finset.mem_product] at hz
  exact (hU _).2 (catPath_isWarpingPath ((hS _).1 hz.1) ((hT _).1 hz.2))

/-- `soft_dtw` of joined series is at most the sum over the pieces, on either backend. -/
theorem C96_soft_dtw (be : Backend) (s1 s2 s1' s2' t1 t2 : TsInput (Option ℝ)) (x y x' y' : List (List ℝ))
    (c1 c2 c3 : ℕ) (γ : ℝ) (hγ : 0 < γ)
    (h1 : validatePair s1 s2 none = .ok (x, y, c1)) (h2 : validatePair s1' s2' none = .ok (x', y', c2))
    (h3 : validatePair t1 t2 none = .ok (x ++ x', y ++ y', c3)) :
    ∃ a b c : ℝ, softDtw be s1 s2 γ none none none = .ok (.num a) ∧
      softDtw be s1' s2' γ none none none = .ok (.num b) ∧
      softDtw be t1 t2 γ none none none = .ok (.num c) ∧ c ≤ a + b := by
  obtain ⟨-, -, hc1, hx, hy, -⟩ := validatePair_ok h1
  obtain ⟨-, -, hc2, hx', hy', -⟩ := validatePair_ok h2
  obtain ⟨-, -, hc3, hx3, hy3, -⟩ := validatePair_ok h3
  obtain rfl : 0 = c1 := by simpa [gcCode] using hc1
  obtain rfl : 0 = c2 := by simpa [gcCode] using hc2
  obtain rfl : 0 = c3 := by simpa [gcCode] using hc3
  have pos : ∀ {l : List (List ℝ)}, l ≠ [] → 0 < l.length := fun h => List.length_pos_iff.2 h
  have ad : ∀ {n m : ℕ} {S : Finset (List (ℕ × ℕ))}, (∀ p, p ∈ S ↔ Admissible n m (Mat.full true) p) →
      ∀ p, p ∈ S ↔ IsWarpingPath n m p := by
    intro n m S h p
    rw [h]
    exact ⟨fun h => h.1, fun h => ⟨h, fun _ _ => rfl⟩⟩
  have nz : ∀ {n m : ℕ} {S : Finset (List (ℕ × ℕ))}, 0 < n → 0 < m →
      (∀ p, p ∈ S ↔ Admissible n m (Mat.full true) p) → S.Nonempty := by
    intro n m S hn hm h
    obtain ⟨p, hp⟩ := (computeMask_reachable hn hm (by simp) (rfl : computeMask n m 0 none none = .ok _)).2
    exact ⟨p, (h p).2 hp⟩
  obtain ⟨S, hS⟩ := C17_paths_finite _ _ (pos hx) (pos hy) (Mat.full true)
  obtain ⟨T, hT⟩ := C17_paths_finite _ _ (pos hx') (pos hy') (Mat.full true)
  obtain ⟨U, hU⟩ := C17_paths_finite _ _ (pos hx3) (pos hy3) (Mat.full true)
  refine ⟨_, _, _, C17_soft_dtw be s1 s2 γ hγ none none none (by simp) x y 0 _ h1 rfl S hS,
    C17_soft_dtw be s1' s2' γ hγ none none none (by simp) x' y' 0 _ h2 rfl T hT,
    C17_soft_dtw be t1 t2 γ hγ none none none (by simp) _ _ 0 _ h3 rfl U hU, ?_⟩
  have psum : ∀ {S : Finset (List (ℕ × ℕ))} (f : List (ℕ × ℕ) → ℝ), S.Nonempty →
      0 < ∑ p ∈ S, Real.exp (f p) := fun f h => Finset.sum_pos (fun p _ => Real.exp_pos _) h
  have le := sum_paths_concat (n := x.length) (m := y.length) (n' := x'.length) (m' := y'.length) S T U (ad hS) (ad hT) (by simpa using ad hU)
    (fun p => Real.exp (-sumCost (sampleCost x y) p / γ)) (fun p => Real.exp (-sumCost (sampleCost x' y') p / γ))
    (fun p => Real.exp (-sumCost (sampleCost (x ++ x') (y ++ y')) p / γ)) (fun p => (Real.exp_pos _).le)
    (fun p hp q _ => by
      rw [sumCost_catPath x y x' y' ((ad hS p).1 hp), ← Real.exp_add]
      congr 1
      ring)
  have l := Real.log_le_log (mul_pos (psum _ (nz (pos hx) (pos hy) hS)) (psum _ (nz (pos hx') (pos hy') hT))) le
  rw [Real.log_mul (psum _ (nz (pos hx) (pos hy) hS)).ne' (psum _ (nz (pos hx') (pos hy') hT)).ne'] at l
  have := mul_le_mul_of_nonneg_left l hγ.le
  linarith

/-- `unnormalized_gak` of joined series is at least the product over the pieces. -/
theorem C96_gak (s1 s2 s1' s2' t1 t2 : TsInput (Option ℝ)) (x y x' y' : List (List ℝ)) (σ : ℝ)
    (h1 : gakArgs s1 s2 σ = .ok (x, y)) (h2 : gakArgs s1' s2' σ = .ok (x', y'))
    (h3 : gakArgs t1 t2 σ = .ok (x ++ x', y ++ y')) :
    ∃ a b c : ℝ, unnormalizedGak s1 s2 σ = .ok a ∧ unnormalizedGak s1' s2' σ = .ok b ∧
      unnormalizedGak t1 t2 σ = .ok c ∧ 0 < a * b ∧ a * b ≤ c := by
  obtain ⟨-, hx, hy⟩ := gakArgs_ok h1
  obtain ⟨-, hx', hy'⟩ := gakArgs_ok h2
  obtain ⟨-, hx3, hy3⟩ := gakArgs_ok h3
  have pos : ∀ {l : List (List ℝ)}, l ≠ [] → 0 < l.length := fun h => List.length_pos_iff.2 h
  obtain ⟨S, hS⟩ := C21_alignments_finite _ _ (pos hx) (pos hy)
  obtain ⟨T, hT⟩ := C21_alignments_finite _ _ (pos hx') (pos hy')
  obtain ⟨U, hU⟩ := C21_alignments_finite _ _ (pos hx3) (pos hy3)
  have nz : ∀ {n m : ℕ} {S : Finset (List (ℕ × ℕ))}, 0 < n → 0 < m →
      (∀ p, p ∈ S ↔ IsWarpingPath n m p) → S.Nonempty := by
    intro n m S hn hm h
    obtain ⟨p, hp⟩ := (computeMask_reachable hn hm (by simp) (rfl : computeMask n m 0 none none = .ok _)).2
    exact ⟨p, (h p).2 hp.1⟩
  have kpos : ∀ (x y : List (List ℝ)) (c : ℕ × ℕ), 0 < localKernel σ x y c := by
    intro x y c
    have h : gaussian σ (x.getD c.1 []) (y.getD c.2 []) ≤ 1 := by
      unfold gaussian
      rw [Real.exp_le_one_iff, neg_div]
      exact neg_nonpos.2 (div_nonneg (sqEuclid_nn _ _) (by positivity))
    have h0 : 0 < gaussian σ (x.getD c.1 []) (y.getD c.2 []) := Real.exp_pos _
    exact div_pos h0 (by linarith)
  have apos : ∀ (x y : List (List ℝ)) p, 0 < alignmentKernel σ x y p := by
    intro x y p
    refine List.prod_pos fun a ha => ?_
    obtain ⟨c, -, rfl⟩ := List.mem_map.1 ha
    exact kpos x y c
  refine ⟨_, _, _, C21_unnormalized s1 s2 σ x y h1 S hS, C21_unnormalized s1' s2' σ x' y' h2 T hT,
    C21_unnormalized t1 t2 σ _ _ h3 U hU, ?_, ?_⟩
  · exact mul_pos (Finset.sum_pos (fun p _ => apos x y p) (nz (pos hx) (pos hy) hS))
      (Finset.sum_pos (fun p _ => apos x' y' p) (nz (pos hx') (pos hy') hT))
  · refine sum_paths_concat (n := x.length) (m := y.length) (n' := x'.length) (m' := y'.length) S T U hS hT
      (by simpa using hU) _ _ _ (fun p => (apos _ _ p).le) fun p hp q _ => ?_
    unfold alignmentKernel catPath
    rw [List.map_append, List.prod_append, List.map_map]
    congr 1
    · congr 1
      refine List.map_congr_left fun c hc => ?_
      have := ((hS p).1 hp).mem_lt c hc
      exact (getD_append_cell (fun u v => gaussian σ u v / (2 - gaussian σ u v)) [] x y x' y' _ _ rfl rfl c).1 this.1 this.2
    · congr 1
      refine List.map_congr_left fun c _ => ?_
      exact (getD_append_cell (fun u v => gaussian σ u v / (2 - gaussian σ u v)) [] x y x' y' _ _ rfl rfl c).2

/-- `lcss` of joined series: the numbers of matched samples add up at least. -/
theorem C96_lcss (s1 s2 s1' s2' t1 t2 : TsInput (Option ℝ)) (x y x' y' : List (List ℝ)) (eps : ℝ)
    (M1 M2 M3 : Mat Bool) (h1 : lcssArgs s1 s2 none none none = .ok (x, y, M1))
    (h2 : lcssArgs s1' s2' none none none = .ok (x', y', M2))
    (h3 : lcssArgs t1 t2 none none none = .ok (x ++ x', y ++ y', M3)) :
    ∃ a b c : ℝ, lcss s1 s2 eps none none none = .ok a ∧ lcss s1' s2' eps none none none = .ok b ∧
      lcss t1 t2 eps none none none = .ok c ∧
      (min x.length y.length : ℕ) * a + (min x'.length y'.length : ℕ) * b ≤
        (min (x.length + x'.length) (y.length + y'.length) : ℕ) * c := by
  obtain ⟨k1, ⟨⟨p, hp, lp⟩, -⟩, e1⟩ := C15_value s1 s2 eps x y M1 h1
  obtain ⟨k2, ⟨⟨q, hq, lq⟩, -⟩, e2⟩ := C15_value s1' s2' eps x' y' M2 h2
  obtain ⟨k3, ⟨-, g3⟩, e3⟩ := C15_value t1 t2 eps _ _ M3 h3
  obtain ⟨-, -, hx, hy, -⟩ := lcssArgs_ok h1
  obtain ⟨-, -, hx', hy', -⟩ := lcssArgs_ok h2
  have px := List.length_pos_iff.2 hx
  have py := List.length_pos_iff.2 hy
  have px' := List.length_pos_iff.2 hx'
  have py' := List.length_pos_iff.2 hy'
  refine ⟨_, _, _, e1, e2, e3, ?_⟩
  have can : ∀ (n : ℕ) (k : ℝ), 0 < n → (n : ℝ) * (k / n) = k := fun n k h => by
    have : (n : ℝ) ≠ 0 := by exact_mod_cast h.ne'
    field_simp
  rw [List.length_append, List.length_append, can _ _ (by omega), can _ _ (by omega), can _ _ (by omega)]
  have : k1 + k2 ≤ k3 := by
    refine g3 ⟨catPath x.length y.length p q, ⟨?_, ?_, ?_⟩, by simp [catPath, lp, lq]⟩
    · rw [catPath, List.pairwise_append]
      refine ⟨hp.incr, ?_, ?_⟩
      · rw [List.pairwise_map]
        exact hq.incr.imp fun h => ⟨by simpa using h.1, by simpa using h.2⟩
      · intro a ha b hb
        obtain ⟨c, -, rfl⟩ := List.mem_map.1 hb
        have := hp.inside a ha
        exact ⟨by simp only; omega, by simp only; omega⟩
    · intro c hc
      rw [List.length_append, List.length_append]
      rcases List.mem_append.1 hc with hc | hc
      · have := hp.inside c hc
        omega
      · obtain ⟨d, hd, rfl⟩ := List.mem_map.1 hc
        have := hq.inside d hd
        exact ⟨by simp only; omega, by simp only; omega⟩
    · intro c hc
      unfold Close sampleCost
      rcases List.mem_append.1 hc with hc | hc
      · have hb := hp.inside c hc
        rw [(getD_append_cell sqEuclid [] x y x' y' _ _ rfl rfl c).1 hb.1 hb.2]
        exact hp.hits c hc
      · obtain ⟨d, hd, rfl⟩ := List.mem_map.1 hc
        simp only
        rw [(getD_append_cell sqEuclid [] x y x' y' _ _ rfl rfl d).2]
        exact hq.hits d hd
  exact_mod_cast this

/-- Dropping samples (anywhere in either series) never raises the number of matched samples. -/
theorem C96_lcss_sublist (s1 s2 t1 t2 : TsInput (Option ℝ)) (x y x' y' : List (List ℝ)) (eps : ℝ)
    (M1 M2 : Mat Bool) (h1 : lcssArgs s1 s2 none none none = .ok (x, y, M1))
    (h2 : lcssArgs t1 t2 none none none = .ok (x', y', M2)) (sx : x.Sublist x') (sy : y.Sublist y') :
    ∃ a b : ℝ, lcss s1 s2 eps none none none = .ok a ∧ lcss t1 t2 eps none none none = .ok b ∧
      (min x.length y.length : ℕ) * a ≤ (min x'.length y'.length : ℕ) * b := by
  obtain ⟨k1, ⟨⟨p, hp, lp⟩, -⟩, e1⟩ := C15_value s1 s2 eps x y M1 h1
  obtain ⟨k3, ⟨-, g3⟩, e3⟩ := C15_value t1 t2 eps _ _ M2 h2
  obtain ⟨-, -, hx, hy, -⟩ := lcssArgs_ok h1
  obtain ⟨-, -, hx', hy', -⟩ := lcssArgs_ok h2
  have px := List.length_pos_iff.2 hx
  have py := List.length_pos_iff.2 hy
  have px' := List.length_pos_iff.2 hx'
  have py' := List.length_pos_iff.2 hy'
  refine ⟨_, _, e1, e3, ?_⟩
  have can : ∀ (n : ℕ) (k : ℝ), 0 < n → (n : ℝ) * (k / n) = k := fun n k h => by
    have : (n : ℝ) ≠ 0 := by exact_mod_cast h.ne'
    field_simp
  rw [can _ _ (by omega), can _ _ (by omega)]
  obtain ⟨f, hf⟩ := List.sublist_iff_exists_orderEmbedding_getElem?_eq.1 sx
  obtain ⟨g, hg⟩ := List.sublist_iff_exists_orderEmbedding_getElem?_eq.1 sy
  have bound : ∀ {l l' : List (List ℝ)} (f : ℕ ↪o ℕ), (∀ i, l[i]? = l'[f i]?) → ∀ i < l.length, f i < l'.length := by
    intro l l' f hf i hi
    have := hf i
    rw [List.getElem?_eq_getElem hi] at this
    exact (List.getElem?_eq_some_iff.1 this.symm).1
  have : k1 ≤ k3 := by
    refine g3 ⟨p.map fun c => (f c.1, g c.2), ⟨?_, ?_, ?_⟩, by simp [lp]⟩
    · rw [List.pairwise_map]
      exact hp.incr.imp fun h => ⟨f.lt_iff_lt.2 h.1, g.lt_iff_lt.2 h.2⟩
    · intro c hc
      obtain ⟨d, hd, rfl⟩ := List.mem_map.1 hc
      have := hp.inside d hd
      exact ⟨bound f hf _ this.1, bound g hg _ this.2⟩
    · intro c hc
      obtain ⟨d, hd, rfl⟩ := List.mem_map.1 hc
      have := hp.hits d hd
      unfold Close sampleCost at this ⊢
      simp only [List.getD_eq_getElem?_getD] at this ⊢
      rw [← hf, ← hg]
      exact this
  exact_mod_cast this

/-- A series compared with any series that contains it as a subsequence has similarity 1. -/
theorem C96_lcss_contained (s1 s2 : TsInput (Option ℝ)) (x y : List (List ℝ)) (eps : ℝ) (heps : 0 ≤ eps)
    (M : Mat Bool) (h : lcssArgs s1 s2 none none none = .ok (x, y, M)) (sx : x.Sublist y) :
    lcss s1 s2 eps none none none = .ok 1 := by
  obtain ⟨k, ⟨⟨p, hp, lp⟩, g⟩, e⟩ := C15_value s1 s2 eps x y M h
  obtain ⟨-, -, hx, hy, -⟩ := lcssArgs_ok h
  have px := List.length_pos_iff.2 hx
  have hlen := sx.length_le
  obtain ⟨f, hf⟩ := List.sublist_iff_exists_orderEmbedding_getElem?_eq.1 sx
  have up : k ≤ x.length := by
    have := hp.length_le
    omega
  have low : x.length ≤ k := by
    refine g ⟨(List.range x.length).map fun i => (i, f i), ⟨?_, ?_, ?_⟩, by simp⟩
    · rw [List.pairwise_map]
      exact List.pairwise_lt_range.imp fun h => ⟨h, f.lt_iff_lt.2 h⟩
    · intro c hc
      obtain ⟨i, hi, rfl⟩ := List.mem_map.1 hc
      have hi := List.mem_range.1 hi
      refine ⟨hi, ?_⟩
      have := hf i
      rw [List.getElem?_eq_getElem hi] at this
      exact (List.getElem?_eq_some_iff.1 this.symm).1
    · intro c hc
      obtain ⟨i, hi, rfl⟩ := List.mem_map.1 hc
      unfold Close sampleCost
      simp only [List.getD_eq_getElem?_getD]
      rw [← hf, (sqEuclid_eq_zero_iff _ _ rfl).2 rfl, Real.sqrt_zero]
      exact heps
  rw [e, le_antisymm up low, min_eq_left hlen]
  have : (x.length : ℝ) ≠ 0 := by exact_mod_cast px.ne'
  rw [div_self this]

/-- Inputs meeting the hypotheses of the joined and the slower series. -/
example : validatePair (α := ℝ) (.oneD [some 1, some 2]) (.oneD [some 4]) none = .ok ([[1], [2]], [[4]], 0) ∧
    validatePair (α := ℝ) (.oneD [some 3]) (.oneD [some 5, some 6]) none = .ok ([[3]], [[5], [6]], 0) ∧
    validatePair (α := ℝ) (.oneD [some 1, some 2, some 3]) (.oneD [some 4, some 5, some 6]) none =
      .ok ([[1], [2]] ++ [[3]], [[4]] ++ [[5], [6]], 0) := ⟨rfl, rfl, rfl⟩

example : ∃ M, lcssArgs (K := ℝ) (.oneD [some 1, some 3]) (.oneD [some 1, some 2, some 3]) none none none =
    .ok ([[1], [3]], [[1], [2], [3]], M) ∧ ([[1], [3]] : List (List ℝ)).Sublist [[1], [2], [3]] :=
  ⟨_, rfl, .cons_cons _ (.cons _ (.cons_cons _ .slnil))⟩

example : gakArgs (.oneD [some 1, some 2]) (.oneD [some 4]) 2 = .ok ([[1], [2]], [[4]]) := by
  have : (2 : ℝ) ≠ 0 := two_ne_zero
  simp only [gakArgs, this, if_false]
  rfl

end Verif
