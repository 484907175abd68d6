import Verif.Model.Blocks
import Verif.Props.C01
import Verif.Props.C10
/-!
# C101 — The published building blocks compose to the metrics

`dtw` is the root of the last entry of `dtw_accumulated_matrix` under the mask of `compute_mask`, and every entry is the squared distance
of prefixes. Padded series, series of different numbers of features, integers of NumPy and unknown codes are treated otherwise than by
`dtw`.
-/
set_option linter.unusedSectionVars false
namespace Verif
open Spec
variable {K : Type} [CommRing K] [LinearOrder K] [IsStrictOrderedRing K]

/-- The least of three numbers; nothing is asked of it with NaN. -/
def IsMin3 (min3 : Option (WithTop K) → Option (WithTop K) → Option (WithTop K) → Option (WithTop K)) : Prop :=
  ∀ a b c, min3 (some a) (some b) (some c) = some (min (min a b) c)

theorem nanSqDist_some (a b : List K) : nanSqDist (a.map some) (b.map some) = some (sqDist a b) := by
  unfold nanSqDist sqDist
  rw [List.zipWith_map]
  simp only [Option.bind_some, Option.map_some]
  generalize (0 : K) = z
  induction a generalizing b z with
  | nil => simp
  | cons u a ih =>
    cases b with
    | nil => simp
    | cons v b =>
      simp only [List.zipWith_cons_cons, List.foldl_cons, Option.bind_some, Option.map_some]
      exact ih b _

theorem getD_map_some (x : List (List K)) (i : ℕ) : (x.map fun r => r.map some).getD i [] = (x.getD i []).map some := by
  rw [List.getD_eq_getElem?_getD, List.getD_eq_getElem?_getD, List.getElem?_map]
  cases x[i]? <;> simp

/-- Without NaN: the matrix of the metric. -/
theorem C101_matrix (min3) (hmin : IsMin3 (K := K) min3) (s1 s2 : TsInput (Option K)) (mask : Mat Bool) (x y : List (List K))
    (h1 : toTimeSeries s1 false = x.map fun r => r.map some) (h2 : toTimeSeries s2 false = y.map fun r => r.map some)
    (i j : ℕ) (hi : i < x.length) (hj : j < y.length) :
    dtwAccumulated min3 s1 s2 mask i j = some (accumulatedMatrix x y mask i j) := by
  unfold dtwAccumulated accumulatedMatrix accFromDist
  simp only [h1, h2, List.length_map]
  have hM := dpLoop_isDP x.length y.length mask (nanDtwCell min3 (x.map fun r => r.map some) (y.map fun r => r.map some))
    ((Mat.full (some ⊤)).set 0 0 (some 0))
  have hN := accTableWith_isDP (fun (d : K) (c : WithTop K) => (d : WithTop K) + c) 0 x.length y.length mask (localCost x y)
  have key : ∀ a b, a ≤ x.length → b ≤ y.length →
      dpLoop x.length y.length mask (nanDtwCell min3 (x.map fun r => r.map some) (y.map fun r => r.map some))
        ((Mat.full (some ⊤)).set 0 0 (some 0)) a b =
      some (accTableWith (fun (d : K) (c : WithTop K) => (d : WithTop K) + c) 0 x.length y.length mask (localCost x y) a b) := by
    intro a
    induction a with
    | zero =>
      intro b _ _
      rw [hM.row0, hN.row0]
      by_cases hb : b = 0 <;> simp [Mat.set, Mat.full, dpInit, hb]
    | succ a iha =>
      intro b
      induction b with
      | zero =>
        intro _ _
        rw [hM.col0, hN.col0]
        simp [Mat.set, Mat.full, dpInit]
      | succ b ihb =>
        intro ha hb
        rw [hM.body a b (by omega) (by omega), hN.body a b (by omega) (by omega), iha (b + 1) (by omega) hb, iha b (by omega) (by omega),
          ihb ha (by omega)]
        by_cases hm : mask a b
        · simp only [hm, if_true, nanDtwCell, minCell, getD_map_some, nanSqDist_some, Option.bind_some, localCost]
          rw [hmin, Option.map_some]
        · simp [hm, Mat.set, Mat.full, dpInit]
  simp only [Mat.tail]
  exact key (i + 1) (j + 1) (by omega) (by omega)


theorem mapM_id_all_some {α : Type} : ∀ {l : List (Option α)} {r : List α}, l.mapM id = some r → l = r.map some
  | [], r, h => by
    simp at h
    subst h
    rfl
  | a :: l, r, h => by
    cases a with
    | none => simp at h
    | some a =>
      cases hl : l.mapM id with
      | none => simp [hl] at h
      | some r' =>
        have := mapM_id_all_some hl
        simp [hl] at h
        rw [← h, this]
        rfl

theorem denan_some {α : Type} : ∀ {ts : List (List (Option α))} {x : List (List α)}, denan ts = some x → ts = x.map fun r => r.map some
  | [], x, h => by
    simp [denan] at h
    subst h
    rfl
  | a :: ts, x, h => by
    cases ha : a.mapM id with
    | none => simp [denan, ha] at h
    | some a' =>
      cases hl : denan ts with
      | none =>
        have hl' : (List.mapM (fun row => List.mapM id row) ts) = none := hl
        simp [denan, ha, hl'] at h
      | some r' =>
        have h1 := denan_some hl
        have hl' : (List.mapM (fun row => List.mapM id row) ts) = some r' := hl
        simp [denan, ha, hl'] at h
        rw [← h, h1, mapM_id_all_some ha]
        rfl

/-- A series that is as long as its array has no padding. -/
theorem unpadded {α : Type} {s : TsInput (Option α)} {x : List (List α)} (h : denan (toTimeSeries s true) = some x)
    (hl : (toTimeSeries s false).length = x.length) : toTimeSeries s false = x.map fun r => r.map some := by
  rw [← denan_some h]
  have h1 := denan_length h
  have e : toTimeSeries s true = (toTimeSeries s false).take (tsSize (toTimeSeries s false)) := by cases s <;> rfl
  rw [e] at h1 ⊢
  rw [List.length_take] at h1
  rw [List.take_of_length_le (by omega)]

/-- `dtw` from its parts: sizes, mask, matrix, last entry, root. -/
theorem C101_dtw (min3) (hmin : IsMin3 (K := ℝ) min3) (s1 s2 : TsInput (Option ℝ)) (g : Option String) (radius : Option ℕ) (slope : Option ℚ)
    (x y : List (List ℝ)) (code : ℕ) (mask : Mat Bool) (hv : validatePair s1 s2 g = .ok (x, y, code))
    (h1 : (toTimeSeries s1 false).length = x.length) (h2 : (toTimeSeries s2 false).length = y.length)
    (hm : publicMask (.sized (toTimeSeries s1 false).length) (.sized (toTimeSeries s2 false).length) code radius slope = .ok mask) :
    ∃ v, dtwAccumulated min3 s1 s2 mask (x.length - 1) (y.length - 1) = some v ∧ dtw s1 s2 g radius slope = .ok (sqrtTop v) := by
  obtain ⟨e1, e2, -, hx, hy, -⟩ := validatePair_ok hv
  have hx0 := List.length_pos_iff.2 hx
  have hy0 := List.length_pos_iff.2 hy
  refine ⟨_, C101_matrix min3 hmin s1 s2 mask x y (unpadded e1 h1) (unpadded e2 h2) _ _ (by omega) (by omega), ?_⟩
  rw [h1, h2] at hm
  have hm' : computeMask x.length y.length code radius slope = .ok mask := hm
  simp [dtw, dtwSq, hv, dtwSqGeneric, hm', bind, Except.bind, pure, Except.pure, lastEntry]

/-- The same for `frechet`. -/
theorem C101_frechet (s1 s2 : TsInput (Option ℝ)) (g : Option String) (radius : Option ℕ) (slope : Option ℚ)
    (x y : List (List ℝ)) (code : ℕ) (mask : Mat Bool) (hv : validatePair s1 s2 g = .ok (x, y, code))
    (h1 : (toTimeSeries s1 false).length = x.length) (h2 : (toTimeSeries s2 false).length = y.length)
    (hm : publicMask (.sized (toTimeSeries s1 false).length) (.sized (toTimeSeries s2 false).length) code radius slope = .ok mask) :
    ∃ M, frechetAccumulated s1 s2 mask = .ok M ∧ frechet s1 s2 g radius slope = .ok (sqrtTop (M (x.length - 1) (y.length - 1))) := by
  obtain ⟨e1, e2, -, hx, hy, -⟩ := validatePair_ok hv
  have f : ∀ {s : TsInput (Option ℝ)} {z : List (List ℝ)}, denan (toTimeSeries s true) = some z →
      (toTimeSeries s false).length = z.length → denan (toTimeSeries s false) = some z := by
    intro s z h hl
    rw [unpadded h hl, ← denan_some h, h]
  refine ⟨frechetAccumulatedMatrix x y mask, by simp [frechetAccumulated, f e1 h1, f e2 h2], ?_⟩
  rw [h1, h2] at hm
  have hm' : computeMask x.length y.length code radius slope = .ok mask := hm
  simp [frechet, frechetSq, hv, frechetSqGeneric, hm', bind, Except.bind, pure, Except.pure, lastEntry]

theorem IsDP.shrink {C : Type*} {l1 l2 k1 k2 : ℕ} {mask : ℕ → ℕ → Bool} {cell : ℕ → ℕ → C → C → C → C} {init M : Mat C}
    (h : IsDP l1 l2 mask cell init M) (h1 : k1 ≤ l1) (h2 : k2 ≤ l2) : IsDP k1 k2 mask cell init M :=
  ⟨h.row0, h.col0, fun i j hi hj => h.body i j (by omega) (by omega)⟩

/-- Every entry without constraint is the squared DTW of the prefixes that end there. -/
theorem C101_prefix (x y : List (List K)) (i j : ℕ) (hi : i < x.length) (hj : j < y.length) :
    dtwSqGeneric (x.take (i + 1)) (y.take (j + 1)) 0 none none = .ok (accumulatedMatrix x y (Mat.full true) i j) := by
  have l1 : (x.take (i + 1)).length = i + 1 := by rw [List.length_take]; omega
  have l2 : (y.take (j + 1)).length = j + 1 := by rw [List.length_take]; omega
  simp only [dtwSqGeneric, computeMask, bind, Except.bind, pure, Except.pure]
  simp only [Option.isSome_none, Bool.false_eq_true, and_false, if_false, or_false, OfNat.zero_ne_ofNat, zero_ne_one]
  congr 1
  unfold lastEntry accumulatedMatrix accFromDist
  simp only [Mat.tail, l1, l2, Nat.add_sub_cancel]
  refine IsDP.congr (accTableWith_isDP _ _ (i + 1) (j + 1) _ _) ((accTableWith_isDP _ _ x.length y.length _ _).shrink hi hj)
    (fun _ => rfl) (fun _ => rfl) ?_ (i + 1) (j + 1) le_rfl le_rfl
  intro a b u v w ha hb
  have t : ∀ (z : List (List K)) (k c : ℕ), c < k + 1 → (z.take (k + 1)).getD c [] = z.getD c [] := by
    intro z k c hc
    rw [List.getD_eq_getElem?_getD, List.getD_eq_getElem?_getD, List.getElem?_take_of_lt hc]
  simp only [minCell, localCost, t x i a ha, t y j b hb]

/-- Two Python integers are the sizes; two sized objects are asked for their lengths. -/
theorem C101_mask (n m gc : ℕ) (radius : Option ℕ) (slope : Option ℚ) :
    publicMask (.int n) (.int m) gc radius slope = computeMask n m gc radius slope ∧
    publicMask (.sized n) (.sized m) gc radius slope = computeMask n m gc radius slope := ⟨rfl, rfl⟩

/-- Full claim: sizes and series can be given in any combination. False: an integer beside a series, and integers of NumPy, are refused. -/
theorem C101_false_sizes (n m gc : ℕ) (radius : Option ℕ) (slope : Option ℚ) :
    publicMask (.int n) (.sized m) gc radius slope = .error .typeError ∧
    publicMask (.sized n) (.int m) gc radius slope = .error .typeError ∧
    publicMask (.npInt n) (.npInt m) gc radius slope = .error .typeError ∧
    publicMask (.int n) (.npInt m) gc radius slope = .error .typeError := ⟨rfl, rfl, rfl, rfl⟩

/-- Full claim: an unknown constraint is refused, as `dtw` does. False: an unknown code means no constraint, and parameters that are given
are ignored. -/
theorem C101_false_code (n m gc : ℕ) (hg : 3 ≤ gc) (radius : Option ℕ) (slope : Option ℚ) :
    publicMask (.int n) (.int m) gc radius slope = .ok (Mat.full true) := by
  have h0 : gc ≠ 0 := by omega
  have h1 : gc ≠ 1 := by omega
  have h2 : gc ≠ 2 := by omega
  simp [publicMask, maskSizes, computeMask, h0, h1, h2, bind, Except.bind]

/-- Full claim: series of different numbers of features are refused, as `dtw` does. False: features of the second series that the first does
not have are ignored. -/
theorem C101_false_features (min3) (hmin : IsMin3 (K := ℝ) min3) (a b c : ℝ) (g : Option String) (radius : Option ℕ) (slope : Option ℚ) :
    dtwAccumulated min3 (.twoD [[some a]]) (.twoD [[some b, some c]]) (Mat.full true) 0 0 = some (((a - b) ^ 2 : ℝ) : WithTop ℝ) ∧
    dtw (.twoD [[some a]]) (.twoD [[some b, some c]]) g radius slope = .error .valueError := by
  constructor
  · rw [C101_matrix min3 hmin _ _ _ [[a]] [[b, c]] rfl rfl 0 0 (by simp) (by simp)]
    have h1 : ((a - b) * (a - b) : ℝ) = (a - b) ^ 2 := by ring
    simp [accumulatedMatrix, accFromDist, accTableWith, dpLoop, Mat.tail, Mat.full, sqDist, localCost, forRange, Mat.set, h1]
  · simp [dtw, dtwSq, validatePair, toTimeSeries, tsSize, tsSizeLoop, nFeatures, bind, Except.bind, throw, throwThe, MonadExceptOf.throw]

/-- Full claim: padding does not matter, as for `dtw`. False: with one padded timestamp the last entry is NaN, and the mask is that of the
padded length. -/
theorem C101_false_padding (min3) (a b : ℝ) (mask : Mat Bool) (hm : mask 1 0 = true) :
    dtwAccumulated min3 (.oneD [some a, none]) (.oneD [some b]) mask 1 0 = none ∧
    validatePair (.oneD [some a, none]) (.oneD [some b]) none = .ok ([[a]], [[b]], 0) := by
  constructor
  · unfold dtwAccumulated
    have hM := dpLoop_isDP 2 1 mask (nanDtwCell min3 [[some a], [none]] [[some b]]) ((Mat.full (some ⊤)).set 0 0 (some 0))
    have := hM.body 1 0 (by norm_num) (by norm_num)
    rw [hm] at this
    simp only [toTimeSeries, Mat.tail]
    exact this.trans (by simp [nanDtwCell, nanSqDist])
  · simp [validatePair, toTimeSeries, tsSize, tsSizeLoop, denan, gcCode, nFeatures, bind, Except.bind, pure, Except.pure]

/-! Concrete cases of the hypotheses above. -/

/-- A minimum that gives NaN whenever one of the three is NaN. -/
def strictMin3 : Option (WithTop K) → Option (WithTop K) → Option (WithTop K) → Option (WithTop K)
  | some a, some b, some c => some (min (min a b) c)
  | _, _, _ => none
theorem strictMin3_isMin3 : IsMin3 (K := K) strictMin3 := fun _ _ _ => rfl

/-- Series of two and three samples under a Sakoe-Chiba band. -/
example : ∃ v, dtwAccumulated strictMin3 (.oneD [some 1, some 2]) (.oneD [some 0, some 3, some (1 : ℝ)]) (sakoeChibaMask 2 3 1) 1 2 = some v ∧
    dtw (.oneD [some 1, some 2]) (.oneD [some 0, some 3, some 1]) (some "sakoe_chiba") (some 1) none = .ok (sqrtTop v) :=
  C101_dtw strictMin3 strictMin3_isMin3 _ _ (some "sakoe_chiba") (some 1) none [[1], [2]] [[0], [3], [1]] 2 (sakoeChibaMask 2 3 1)
    (by simp [validatePair, toTimeSeries, tsSize, tsSizeLoop, denan, gcCode, nFeatures, bind, Except.bind, pure, Except.pure]) rfl rfl
    (by simp [publicMask, maskSizes, MaskArg.len, toTimeSeries, computeMask, bind, Except.bind, pure, Except.pure])

example : accumulatedMatrix [[1], [2], [4]] [[0], [(3 : ℤ)]] (Mat.full true) 1 1 = (2 : ℤ) := by decide +kernel
example : dtwSqGeneric [[1], [2]] [[0], [(3 : ℤ)]] 0 none none = .ok ((2 : ℤ) : WithTop ℤ) := by decide +kernel

end Verif
