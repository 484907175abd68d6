import Verif.Proofs.GakPsd
import Verif.Props.C21
/-!
# C53 — GAK is a positive semidefinite kernel with values in (0, 1]
-/
namespace Verif
open Spec
open Classical

theorem gakArgs_denan {s1 s2 : TsInput (Option ℝ)} {σ : ℝ} {x y : List (List ℝ)}
    (h : gakArgs s1 s2 σ = .ok (x, y)) :
    denan (toTimeSeries s1 true) = some x ∧ denan (toTimeSeries s2 true) = some y := by
  unfold gakArgs at h
  simp only [bind, Except.bind, pure, Except.pure, throw, throwThe, MonadExceptOf.throw] at h
  split_ifs at h with h0 h1 h2
  · cases hd1 : denan (toTimeSeries s1 true) with
    | none => simp [hd1] at h
    | some x1 =>
      cases hd2 : denan (toTimeSeries s2 true) with
      | none => simp [hd1, hd2] at h
      | some x2 =>
        simp only [hd1, hd2, Except.ok.injEq, Prod.mk.injEq] at h
        exact ⟨by rw [h.1], by rw [h.2]⟩

theorem gak_inv {s1 s2 : TsInput (Option ℝ)} {σ v : ℝ} (h : gak s1 s2 σ = .ok v) :
    ∃ x y, gakArgs s1 s2 σ = .ok (x, y) ∧ v = gakGeneric x y σ := by
  unfold gak at h
  cases hg : gakArgs s1 s2 σ with
  | error e => simp [hg, bind, Except.bind] at h
  | ok xy =>
    simp only [hg, bind, Except.bind, pure, Except.pure, Except.ok.injEq] at h
    exact ⟨xy.1, xy.2, rfl, h.symm⟩

theorem denan_trim_rect {rows : List (List (Option ℝ))} {d : ℕ} (hr : ∀ r ∈ rows, r.length = d)
    {x : List (List ℝ)} (h : denan (toTimeSeries (.twoD rows) true) = some x) : ∀ r ∈ x, r.length = d :=
  denan_rect h fun r h' => hr r (List.mem_of_mem_take (by simpa [toTimeSeries] using h'))

/-- `gak` takes its values in `(0, 1]`. -/
theorem C53_range (rows1 rows2 : List (List (Option ℝ))) (d : ℕ) (h1 : ∀ r ∈ rows1, r.length = d)
    (h2 : ∀ r ∈ rows2, r.length = d) (σ v : ℝ) (h : gak (.twoD rows1) (.twoD rows2) σ = .ok v) :
    0 < v ∧ v ≤ 1 := by
  obtain ⟨x, y, hg, rfl⟩ := gak_inv h
  obtain ⟨-, hx, hy⟩ := gakArgs_ok hg
  obtain ⟨dx, dy⟩ := gakArgs_denan hg
  refine ⟨gakGeneric_pos hx hy σ, ?_⟩
  have rx := denan_trim_rect h1 dx
  have ry := denan_trim_rect h2 dy
  have px := unnormGak_pos hx hx σ
  have py := unnormGak_pos hy hy σ
  have pxy := unnormGak_pos hx hy σ
  have ht : (0:ℝ) ≤ 1 / (2 * σ ^ 2) := by positivity
  have cs := (zk_psd (d := d) ht).cauchySchwarz (serOf x, x.length) (serOf y, y.length)
    (by rw [← unnormGak_eq_zk ry ry]; exact py)
  rw [← unnormGak_eq_zk ry ry, ← unnormGak_eq_zk rx rx, ← unnormGak_eq_zk rx ry] at cs
  unfold gakGeneric
  simp only
  rw [← Real.sqrt_mul px.le, div_le_one (Real.sqrt_pos.2 (mul_pos px py))]
  exact Real.le_sqrt_of_sq_le cs

/-- The Gram matrix of `unnormalized_gak` on any finite family of series with the same number of
features is positive semidefinite. -/
theorem C53_unnormalized_psd {ι : Type} [Fintype ι] (rows : ι → List (List (Option ℝ))) (d : ℕ)
    (hd : ∀ i, ∀ r ∈ rows i, r.length = d) (σ : ℝ) (M : Matrix ι ι ℝ)
    (hM : ∀ i j, unnormalizedGak (.twoD (rows i)) (.twoD (rows j)) σ = .ok (M i j)) : M.PosSemidef := by
  have hx : ∀ i, ∃ x, denan (toTimeSeries (.twoD (rows i)) true) = some x := by
    intro i
    have := hM i i
    unfold unnormalizedGak at this
    cases hg : gakArgs (.twoD (rows i)) (.twoD (rows i)) σ with
    | error e => simp [hg, bind, Except.bind] at this
    | ok xy => exact ⟨_, (gakArgs_denan hg).1⟩
  choose x hx using hx
  have ht : (0:ℝ) ≤ 1 / (2 * σ ^ 2) := by positivity
  have key := (zk_psd (d := d) ht).posSemidef fun i => (serOf (x i), (x i).length)
  convert key using 1
  ext i j
  have := hM i j
  unfold unnormalizedGak at this
  cases hg : gakArgs (.twoD (rows i)) (.twoD (rows j)) σ with
  | error e => simp [hg, bind, Except.bind] at this
  | ok xy =>
    obtain ⟨a, b⟩ := xy
    obtain ⟨da, db⟩ := gakArgs_denan hg
    rw [hx] at da db
    obtain rfl := Option.some.inj da
    obtain rfl := Option.some.inj db
    simp only [hg, bind, Except.bind, pure, Except.pure, Except.ok.injEq] at this
    rw [← this, Matrix.of_apply,
      unnormGak_eq_zk (denan_trim_rect (hd i) (hx i)) (denan_trim_rect (hd j) (hx j))]

/-- The same for the normalised `gak`. -/
theorem C53_gak_psd {ι : Type} [Fintype ι] (rows : ι → List (List (Option ℝ))) (d : ℕ)
    (hd : ∀ i, ∀ r ∈ rows i, r.length = d) (σ : ℝ) (M : Matrix ι ι ℝ)
    (hM : ∀ i j, gak (.twoD (rows i)) (.twoD (rows j)) σ = .ok (M i j)) : M.PosSemidef := by
  have hx : ∀ i, ∃ x, denan (toTimeSeries (.twoD (rows i)) true) = some x := by
    intro i
    obtain ⟨x, y, hg, -⟩ := gak_inv (hM i i)
    exact ⟨_, (gakArgs_denan hg).1⟩
  choose x hx using hx
  have ht : (0:ℝ) ≤ 1 / (2 * σ ^ 2) := by positivity
  have key := (((zk_psd (d := d) ht).comp fun i => (serOf (x i), (x i).length)).mul
    (IsPsd.rankOne fun i => 1 / Real.sqrt (unnormGak (x i) (x i) σ))).posSemidef id
  convert key using 1
  ext i j
  obtain ⟨a, b, hg, hv⟩ := gak_inv (hM i j)
  obtain ⟨da, db⟩ := gakArgs_denan hg
  rw [hx] at da db
  obtain rfl := Option.some.inj da
  obtain rfl := Option.some.inj db
  rw [Matrix.of_apply, hv]
  unfold gakGeneric
  simp only [id]
  rw [unnormGak_eq_zk (denan_trim_rect (hd i) (hx i)) (denan_trim_rect (hd j) (hx j)),
    ← one_div_mul_one_div, mul_one_div, div_eq_mul_inv]
  field_simp

/-- `cdist_gak(X)` is a positive semidefinite matrix with entries in `(0, 1]`, for every schedule. -/
theorem C53_cdist_psd (l : List (Ts ℝ)) (d : ℕ) (hwf : ∀ t ∈ l, t.WF ∧ t.d = d) (σ : ℝ)
    (run) (hrun : Execution run) (M : Mat ℝ) (h : cdistGak (.series l) none σ run = .ok M) :
    (Matrix.of fun i j : Fin l.length => M i j).PosSemidef ∧
      ∀ i j : Fin l.length, 0 < M i j ∧ M i j ≤ 1 := by
  have hrect : ∀ i : Fin l.length, ∀ r ∈ (l[i]).rows, r.length = d := by
    intro i r hr
    obtain ⟨hw, hd⟩ := hwf l[i] (List.getElem_mem _)
    rw [← hd]
    exact hw r hr
  have hM : ∀ i j : Fin l.length, gak (.twoD (l[i]).rows) (.twoD (l[j]).rows) σ = .ok (M i j) :=
    fun i j => (C21_cdist_self l d hwf σ run hrun M h i j l[i] l[j] (by simp) (by simp)).1
  exact ⟨C53_gak_psd (fun i : Fin l.length => (l[i]).rows) d hrect σ _ hM,
    fun i j => C53_range _ _ d (hrect i) (hrect j) σ _ (hM i j)⟩

/-- Non-vacuity: two series of lengths 2 and 1. -/
example : ∀ i j : Fin 2, ∃ v, gak (.twoD (![[[some 0], [some 1]], [[some 2]]] i))
    (.twoD (![[[some 0], [some 1]], [[some 2]]] j)) 1 = .ok v := by
  have h : ∀ a b : List (List (Option ℝ)), a ∈ [[[some 0], [some 1]], [[some 2]]] →
      b ∈ [[[some 0], [some 1]], [[some 2]]] → ∃ v, gak (.twoD a) (.twoD b) 1 = .ok v := by
    intro a b ha hb
    have : ∃ xy, gakArgs (.twoD a) (.twoD b) 1 = .ok xy := by
      simp only [List.mem_cons, List.not_mem_nil, or_false] at ha hb
      rcases ha with rfl | rfl <;> rcases hb with rfl | rfl
      all_goals exact ⟨_, gakArgs_of_validatePair one_ne_zero (g := none) (code := 0) rfl⟩
    obtain ⟨xy, hxy⟩ := this
    exact ⟨gakGeneric xy.1 xy.2 1, by simp only [gak, hxy, bind, Except.bind, pure, Except.pure]⟩
  intro i j
  apply h
  · fin_cases i <;> simp
  · fin_cases j <;> simp

end Verif
