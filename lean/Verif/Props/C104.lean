import Verif.Model.RoundedMore
import Verif.Spec.Dot
import Verif.Props.C13
import Verif.Props.C14
import Verif.Props.C15
import Verif.Props.C98
/-!
# C104 — LB_Keogh, subsequence search and LCSS in rounded arithmetic

How far computed lower bounds, matches and scores are from the exact ones, and by how much a
computed lower bound may exceed the computed distance.
-/
set_option linter.unusedSectionVars false
namespace Verif
open Spec

/-! ## Sums of squares in an unknown order -/

section
variable {K : Type} [Field K] [LinearOrder K] [IsStrictOrderedRing K]

theorem sumSq_nonneg (l : List K) : 0 ≤ (l.map fun a => a ^ 2).sum :=
  List.sum_nonneg (by simp only [List.mem_map]; rintro _ ⟨a, -, rfl⟩; exact sq_nonneg a)

/-- Whatever the order, grouping and fusing, at most one relative error per term and one more. -/
theorem C104_dot_error {rnd : K → K} {u : K} (hr : RelErr rnd u) (hu : 0 ≤ u) (hu1 : u ≤ 1)
    {l : List K} {s : K} (h : RoundedDot rnd l s) :
    NearRel u (l.length + 1) s (l.map fun a => a ^ 2).sum := by
  have one : ∀ a : K, NearRel u 1 (rnd (a * a)) (a ^ 2) := fun a =>
    NearRel.rnd hr hu hu1 (sq_nonneg a) (N := 0) (by rw [← pow_two]; exact NearRel.refl _ _)
  induction h with
  | nil => simpa using NearRel.zero u 1
  | single a => simpa using (one a).mono hu hu1 (sq_nonneg a) (by simp : 1 ≤ [a].length + 1)
  | first a =>
    rw [zero_add]
    simpa using NearRel.rnd hr hu hu1 (sq_nonneg a) (one a)
  | @fused a l s _ ih =>
    have h0 := sumSq_nonneg l
    have : NearRel u (l.length + 1) (s + a * a) ((l.map fun a => a ^ 2).sum + a ^ 2) :=
      ih.add (NearRel.mono (N := 0) hu hu1 (sq_nonneg a) (by omega)
        (by rw [← pow_two]; exact NearRel.refl u _))
    have := NearRel.rnd hr hu hu1 (by positivity) this
    simpa [add_comm] using this
  | @add l l' s s' hl hl' _ _ ih ih' =>
    have h0 := sumSq_nonneg l
    have h0' := sumSq_nonneg l'
    have e := List.length_pos_iff.2 hl
    have e' := List.length_pos_iff.2 hl'
    have := NearRel.rnd hr hu hu1 (add_nonneg h0 h0')
      ((ih.mono hu hu1 h0 (by omega : l.length + 1 ≤ l.length + l'.length)).add
        (ih'.mono hu hu1 h0' (by omega : l'.length + 1 ≤ l.length + l'.length)))
    simpa using this
  | @perm l l' s hp _ ih =>
    rw [← hp.length_eq, ← (hp.map fun a => a ^ 2).sum_eq]
    exact ih

theorem Spec.NearRel.trans {u : K} {N M : ℕ} {a b c : K} (hu : 0 ≤ u) (hu1 : u ≤ 1)
    (h : NearRel u N a b) (h' : NearRel u M b c) : NearRel u (N + M) a c := by
  constructor
  · rw [pow_add, mul_assoc]
    exact (mul_le_mul_of_nonneg_left h'.1 (pow_nonneg (by linarith) _)).trans h.1
  · rw [pow_add, mul_assoc]
    exact h.2.trans (mul_le_mul_of_nonneg_left h'.2 (pow_nonneg (by linarith) _))

/-- Rounded differences: two relative errors on the sum of squares. -/
theorem near_diffs {rnd : K → K} {u : K} (hr : RelErr rnd u) (_hu : 0 ≤ u) (hu1 : u ≤ 1)
    {A : Type} (l : List A) (f : A → K) :
    NearRel u 2 ((l.map fun e => rnd (f e)).map fun a => a ^ 2).sum ((l.map f).map fun a => a ^ 2).sum := by
  induction l with
  | nil => simpa using NearRel.zero u 2
  | cons e l ih =>
    simp only [List.map_cons, List.sum_cons]
    refine NearRel.add ?_ ih
    have h := hr (f e)
    have hb : (1 - u) * |f e| ≤ |rnd (f e)| ∧ |rnd (f e)| ≤ (1 + u) * |f e| := by
      have h1 := abs_sub_abs_le_abs_sub (rnd (f e)) (f e)
      have h2 := abs_sub_abs_le_abs_sub (f e) (rnd (f e))
      rw [abs_sub_comm] at h2
      constructor <;> linarith
    rw [← sq_abs (rnd (f e)), ← sq_abs (f e)]
    constructor
    · rw [← mul_pow]
      exact pow_le_pow_left₀ (mul_nonneg (by linarith) (abs_nonneg _)) hb.1 2
    · rw [← mul_pow]
      exact pow_le_pow_left₀ (abs_nonneg _) hb.2 2

end

/-! ## LB_Keogh -/

/-- One side of the envelope: `n + 6` relative errors. -/
theorem rNormSq_near {rnd : ℝ → ℝ} {u : ℝ} (hr : RelErr rnd u) (hu : 0 ≤ u) (hu1 : u ≤ 1)
    {dot : List ℝ → ℝ} (hdot : ∀ l, RoundedDot rnd l (dot l)) {A : Type} (l : List A) (f : A → ℝ)
    (n : ℕ) (hn : l.length ≤ n) :
    NearRel u (n + 6) (rNormSq rnd dot (l.map fun e => rnd (f e)))
      ((l.map f).map fun a => a ^ 2).sum := by
  have h0 := sumSq_nonneg (l.map f)
  have h1 : NearRel u (n + 3) (dot (l.map fun e => rnd (f e))) ((l.map f).map fun a => a ^ 2).sum := by
    have := (C104_dot_error hr hu hu1 (hdot (l.map fun e => rnd (f e)))).trans hu hu1
      (near_diffs hr hu hu1 l f)
    rw [List.length_map] at this
    exact this.mono hu hu1 h0 (by omega)
  obtain ⟨-, h2⟩ := near_sqrt hr hu1 h0 h1
  rw [pow_two] at h2
  exact NearRel.rnd hr hu hu1 h0 h2

theorem keoghSq_sums (q down up : List ℝ) :
    keoghSq q down up =
      ((((q.zip up).filter fun e => decide (e.2 < e.1)).map fun e => e.1 - e.2).map fun a => a ^ 2).sum +
      ((((q.zip down).filter fun e => decide (e.1 < e.2)).map fun e => e.1 - e.2).map fun a => a ^ 2).sum := by
  unfold keoghSq
  simp only [foldl_add_eq_sum, zero_add, List.map_map, Function.comp_def, pow_two]

/-- Any envelope: the square of the computed value carries `n + 9` relative errors. -/
theorem rKeogh_near {rnd : ℝ → ℝ} {u : ℝ} (hr : RelErr rnd u) (hu : 0 ≤ u) (hu1 : u ≤ 1)
    {dot : List ℝ → ℝ} (hdot : ∀ l, RoundedDot rnd l (dot l)) (q down up : List ℝ) :
    ∃ s', NearRel u (q.length + 7) s' (keoghSq q down up) ∧
      rKeogh rnd dot q down up = rnd (Real.sqrt s') := by
  refine ⟨_, ?_, rfl⟩
  rw [keoghSq_sums]
  have hl : ∀ (l : List ℝ) (P : ℝ × ℝ → Bool), ((q.zip l).filter P).length ≤ q.length := by
    intro l P
    refine (List.length_filter_le _ _).trans ?_
    simp
  exact NearRel.rnd hr hu hu1 (add_nonneg (sumSq_nonneg _) (sumSq_nonneg _))
    ((rNormSq_near hr hu hu1 hdot _ _ _ (hl up _)).add (rNormSq_near hr hu hu1 hdot _ _ _ (hl down _)))

theorem keoghSq_nonneg (q down up : List ℝ) : 0 ≤ keoghSq q down up := by
  rw [keoghSq_sums]
  exact add_nonneg (sumSq_nonneg _) (sumSq_nonneg _)

/-- The computed `lb_keogh`: defined when the exact one is, with a relative error of at most
`2 (n + 9) u`, for every summation order of the scalar products. -/
theorem C104_keogh_error {rnd : ℝ → ℝ} {u : ℝ} (hr : RelErr rnd u) (hu : 0 ≤ u)
    {dot : List ℝ → ℝ} (hdot : ∀ l, RoundedDot rnd l (dot l)) (q c : List ℝ) (r : ℕ)
    (hN : ((q.length + 9 : ℕ) : ℝ) * u ≤ 1 / 2) (v : ℝ) (h : lbKeogh q c r = .ok v) :
    ∃ v', rLbKeogh rnd dot q c r = .ok v' ∧ 0 ≤ v' ∧
      |v' - v| ≤ 2 * ((q.length + 9 : ℕ) : ℝ) * u * v := by
  have hu1 : u ≤ 1 := by
    have : (1 : ℝ) ≤ ((q.length + 9 : ℕ) : ℝ) := by exact_mod_cast (by omega)
    nlinarith
  unfold lbKeogh lbKeoghSq at h
  unfold rLbKeogh
  cases he : lbEnvelope c r with
  | error e => simp [he, bind, Except.bind] at h
  | ok du =>
    obtain ⟨down, up⟩ := du
    simp only [he, bind, Except.bind, pure, Except.pure, ne_eq] at h ⊢
    by_cases hlen : q.length = down.length
    · simp only [hlen, not_true, if_false, Except.ok.injEq] at h ⊢
      obtain ⟨s', hs', e⟩ := rKeogh_near hr hu hu1 hdot q down up
      refine ⟨_, rfl, ?_, ?_⟩
      · rw [e]
        exact (near_sqrt hr hu1 (keoghSq_nonneg _ _ _) hs').1
      · rw [e, ← h, ← hlen]
        exact sqrt_error hr hu hN (keoghSq_nonneg _ _ _) hs'
    · simp only [hlen, not_false_eq_true, if_true, throw, throwThe, MonadExceptOf.throw] at h
      cases h

/-- A computed bound of zero is no accident: with `u < 1` it is zero exactly when the query lies in
the envelope, that is when the exact bound is zero. -/
theorem C104_keogh_zero {rnd : ℝ → ℝ} {u : ℝ} (hr : RelErr rnd u) (hu : 0 ≤ u) (hu1 : u < 1)
    {dot : List ℝ → ℝ} (hdot : ∀ l, RoundedDot rnd l (dot l)) (q c : List ℝ) (r : ℕ)
    (hl : q.length = c.length) :
    ∃ v', rLbKeogh rnd dot q c r = .ok v' ∧
      (v' = 0 ↔ ∀ (i : ℕ) (x l b : ℝ), q[i]? = some x → IsLeast (Near c r i) l →
        IsGreatest (Near c r i) b → l ≤ x ∧ x ≤ b) := by
  obtain ⟨down, up, he, hdl, hul, henv⟩ := lbEnvelope_spec c r
  have hr' : rLbKeogh rnd dot q c r = .ok (rKeogh rnd dot q down up) := by
    simp [rLbKeogh, he, hl, hdl, bind, Except.bind, pure, Except.pure]
  refine ⟨_, hr', ?_⟩
  obtain ⟨s', hs', e⟩ := rKeogh_near hr hu hu1.le hdot q down up
  obtain ⟨h0, hn⟩ := near_sqrt hr hu1.le (keoghSq_nonneg q down up) hs'
  rw [← e] at h0 hn
  have hz : rKeogh rnd dot q down up = 0 ↔ keoghSq q down up = 0 := by
    constructor
    · intro h
      rw [h] at hn
      have h1 := hn.1
      have hpos : 0 < (1 - u) ^ (q.length + 7 + 2) := pow_pos (by linarith) _
      have h2 := keoghSq_nonneg q down up
      by_contra hne
      have : 0 < keoghSq q down up := lt_of_le_of_ne h2 (Ne.symm hne)
      have := mul_pos hpos this
      simp only [ne_eq, OfNat.ofNat_ne_zero, not_false_eq_true, zero_pow] at h1
      linarith
    · intro h
      have h2 := hn.2
      rw [h, mul_zero] at h2
      have : rKeogh rnd dot q down up ^ 2 = 0 := le_antisymm h2 (sq_nonneg _)
      simpa using this
  rw [hz, keoghSq_eq q down up q.length rfl (by omega) (by omega)]
  have hs : (((List.range q.length).map fun i =>
      gap (q.getD i 0) (down.getD i 0) (up.getD i 0)).sum = 0) ↔
      ∀ i < q.length, gap (q.getD i 0) (down.getD i 0) (up.getD i 0) = 0 := by
    constructor
    · intro h i hi
      have := List.all_zero_of_le_zero_le_of_sum_eq_zero (l := (List.range q.length).map fun i =>
        gap (q.getD i 0) (down.getD i 0) (up.getD i 0)) (by
          simp only [List.mem_map]; rintro _ ⟨i, -, rfl⟩; exact gap_nonneg _ _ _) h
        (x := gap (q.getD i 0) (down.getD i 0) (up.getD i 0))
        (List.mem_map.2 ⟨i, by simpa using hi, rfl⟩)
      exact this
    · intro h
      apply List.sum_eq_zero
      simp only [List.mem_map, List.mem_range]
      rintro _ ⟨i, hi, rfl⟩
      exact h i hi
  rw [hs]
  constructor
  · intro h i x l b hx hlb hgb
    have hi := (List.getElem?_eq_some_iff.1 hx).1
    obtain ⟨l', b', hd', hu', a', a''⟩ := henv i (by omega)
    obtain rfl := hlb.unique a'
    obtain rfl := hgb.unique a''
    have := h i hi
    simp only [List.getD_eq_getElem?_getD, hx, hd', hu', Option.getD_some, gap] at this
    have p1 : 0 ≤ (if b < x then (x - b) * (x - b) else 0) := by
      split_ifs <;> first | exact mul_self_nonneg _ | exact le_rfl
    have p2 : 0 ≤ (if x < l then (x - l) * (x - l) else 0) := by
      split_ifs <;> first | exact mul_self_nonneg _ | exact le_rfl
    constructor
    · by_contra hc
      push Not at hc
      rw [if_pos hc] at this p2
      have : 0 < (x - l) * (x - l) := by nlinarith
      linarith
    · by_contra hc
      push Not at hc
      rw [if_pos hc] at this p1
      have : 0 < (x - b) * (x - b) := by nlinarith
      linarith
  · intro h i hi
    obtain ⟨l', b', hd', hu', a', a''⟩ := henv i (by omega)
    have hx : q[i]? = some (q[i]'hi) := List.getElem?_eq_getElem hi
    obtain ⟨h1, h2⟩ := h i _ _ _ hx a' a''
    simp only [List.getD_eq_getElem?_getD, hx, hd', hu', Option.getD_some, gap]
    rw [if_neg (not_lt.2 h2), if_neg (not_lt.2 h1), add_zero]

theorem denan_oneD (x : List ℝ) :
    denan (toTimeSeries (.oneD (x.map some)) true) = some (asSeries x) := by
  have h1 : tsSize (x.map fun v => [some v]) = x.length := by
    unfold tsSize
    rw [List.length_map]
    cases hx : x.length with
    | zero => rfl
    | succ n =>
      have : n < x.length := by omega
      simp [tsSizeLoop, List.getD_eq_getElem?_getD, this]
  have key : toTimeSeries (.oneD (x.map some)) true = x.map fun v => [some v] := by
    simp only [toTimeSeries, if_true, List.map_map]
    have h2 : (x.map ((fun v => [v]) ∘ some)) = x.map fun v => [some v] := rfl
    rw [h2, h1, List.take_of_length_le (by simp)]
  rw [key]
  unfold denan asSeries
  clear h1 key
  induction x with
  | nil => rfl
  | cons a x ih => rw [List.map_cons, List.mapM_cons, ih]; rfl

/-- Pruning: the computed bound exceeds the computed band-constrained DTW by at most the rounding
factors, whatever the summation order. -/
theorem C104_keogh_safe {rnd : ℝ → ℝ} {u : ℝ} (hr : RelErr rnd u) (hm : Monotone rnd) (hu : 0 ≤ u)
    {dot : List ℝ → ℝ} (hdot : ∀ l, RoundedDot rnd l (dot l)) (q c : List ℝ) (r : ℕ) (hc : c ≠ [])
    (hl : q.length = c.length) (name : Option String)
    (hname : name = none ∨ name = some "sakoe_chiba")
    (hN : ((2 * q.length + 9 : ℕ) : ℝ) * u ≤ 1 / 2) :
    ∃ v' w' : ℝ, rLbKeogh rnd dot q c r = .ok v' ∧
      rDtw rnd (.oneD (q.map some)) (.oneD (c.map some)) name (some r) none = .ok (w' : WithTop ℝ) ∧
      (1 - 2 * ((2 * q.length + 5 : ℕ) : ℝ) * u) * v' ≤
        (1 + 2 * ((q.length + 9 : ℕ) : ℝ) * u) * w' := by
  obtain ⟨v, w, hv, hw, hv0, hvw⟩ := C14_lower_bound q c r hc hl name hname
  have ha : ((q.length + 9 : ℕ) : ℝ) * u ≤ 1 / 2 := by
    refine le_trans (mul_le_mul_of_nonneg_right ?_ hu) hN
    exact_mod_cast (by omega)
  have hb : ((2 * q.length + 5 : ℕ) : ℝ) * u ≤ 1 / 2 := by
    refine le_trans (mul_le_mul_of_nonneg_right ?_ hu) hN
    exact_mod_cast (by omega)
  obtain ⟨v', hv', h0, herr⟩ := C104_keogh_error hr hu hdot q c r ha v hv
  obtain ⟨code, hval⟩ : ∃ code, validatePair (.oneD (q.map some)) (.oneD (c.map some)) name =
      .ok (asSeries q, asSeries c, code) := by
    have hw' := hw
    simp only [dtw, dtwSq, bind, Except.bind] at hw'
    cases hvp : validatePair (.oneD (q.map some)) (.oneD (c.map some)) name with
    | error e => simp [hvp] at hw'
    | ok t =>
      obtain ⟨x, y, code⟩ := t
      obtain ⟨hx, hy, -⟩ := validatePair_ok hvp
      rw [denan_oneD, Option.some.injEq] at hx hy
      exact ⟨code, by rw [hx, hy]⟩
  have hlen : (asSeries q).length + (asSeries c).length + 1 + 4 = 2 * q.length + 5 := by
    simp only [asSeries, List.length_map]; omega
  obtain ⟨W, hW, -, hfin⟩ := C98_dtw_error hr hm hu _ _ _ _ _ _ _ _ hval 1
    (by simp [asSeries]) (by rw [hlen]; exact hb) _ hw
  obtain ⟨w', rfl, hw'⟩ := hfin w rfl
  rw [hlen] at hw'
  refine ⟨v', w', hv', hW, ?_⟩
  set A := ((q.length + 9 : ℕ) : ℝ) with hA
  set B := ((2 * q.length + 5 : ℕ) : ℝ) with hB
  have h1 : v' ≤ (1 + 2 * A * u) * v := by linarith [(abs_le.1 herr).2]
  have h2 : (1 - 2 * B * u) * w ≤ w' := by linarith [(abs_le.1 hw').1]
  have hB1 : 0 ≤ 1 - 2 * B * u := by linarith
  have hA1 : 0 ≤ 1 + 2 * A * u := by positivity
  calc (1 - 2 * B * u) * v' ≤ (1 - 2 * B * u) * ((1 + 2 * A * u) * v) :=
        mul_le_mul_of_nonneg_left h1 hB1
    _ ≤ (1 - 2 * B * u) * ((1 + 2 * A * u) * w) :=
        mul_le_mul_of_nonneg_left (mul_le_mul_of_nonneg_left hvw hA1) hB1
    _ = (1 + 2 * A * u) * ((1 - 2 * B * u) * w) := by ring
    _ ≤ _ := mul_le_mul_of_nonneg_left h2 hA1

/-! ## Subsequence search -/

section
variable {K : Type} [Field K] [LinearOrder K] [IsStrictOrderedRing K]

theorem rSubseq_isDP (rnd : K → K) (l1 l2 : ℕ) (D : ℕ → ℕ → K) :
    ∃ M : Mat (WithTop K), M.tail = rSubseqCost rnd l1 l2 D ∧
      IsDP l1 l2 (fun _ _ => true) (minCell (rAdd rnd) D) (dpInit 0 true) M := by
  refine ⟨_, rfl, ?_⟩
  rw [← subseqInit_eq]
  exact dpLoop_isDP _ _ _ _ _

/-- The traceback of a subsequence table for any step that keeps costs non-negative. -/
theorem subseqWith_traceback {step : K → WithTop K → WithTop K} {D : ℕ → ℕ → K} {l1 l2 : ℕ}
    {M : Mat (WithTop K)} (hnn : ∀ i j c, 0 ≤ c → 0 ≤ step (D i j) c)
    (hM : IsDP l1 l2 (fun _ _ => true) (minCell step D) (dpInit 0 true) M)
    {am} (ham : IsArgmin3 am) :
    ∀ (n i j fuel : ℕ) (rest : List (ℕ × ℕ)), i + j = n → n < fuel → i < l1 → j < l2 →
      ∃ p, WP true p i j ∧ pathCost step 0 D p = M (i+1) (j+1) ∧
        subseqPathLoop am M.tail fuel (i, j) rest = some (p ++ rest) := by
  have nn : ∀ i j, i ≤ l1 → j ≤ l2 → 0 ≤ M i j := by
    intro i
    induction i with
    | zero => intro j _ _; rw [hM.row0]; simp [dpInit]
    | succ i ih =>
      intro j
      induction j with
      | zero => intro _ _; rw [hM.col0]; simp [dpInit]
      | succ j ihj =>
        intro hi hj
        rw [hM.body i j (by omega) (by omega)]
        simp only [if_true, minCell]
        exact hnn _ _ _ (le_min (le_min (ih _ (by omega) hj) (ihj hi (by omega)))
          (ih _ (by omega) (by omega)))
  intro n
  induction n using Nat.strong_induction_on with
  | _ n ih =>
    intro i j fuel rest hn hf hi hj
    obtain ⟨fuel, rfl⟩ : ∃ f, fuel = f + 1 := ⟨fuel - 1, by omega⟩
    rcases i with _ | i
    · refine ⟨[(0, j)], .start j (.inl rfl), ?_, by simp [subseqPathLoop]⟩
      rw [hM.body 0 j hi hj, pathCost_singleton]
      simp only [if_true, minCell]
      rw [hM.row0, hM.row0, min_eq_right]
      · simp [dpInit]
      · have := nn (0+1) j (by omega) (by omega)
        simp [dpInit, this]
    · have hstep : subseqPathLoop am M.tail (fuel+1) (i+1, j) rest =
          subseqPathLoop am M.tail fuel (pathNext am M.tail (i+1) j) ((i+1, j) :: rest) := by
        simp [subseqPathLoop]
      rw [hstep, hM.body (i+1) j hi hj]
      simp only [if_true, minCell]
      rcases j with _ | j
      · obtain ⟨p, hp, hc, hpath⟩ := ih (i + 0) (by omega) i 0 fuel ((i+1, 0) :: rest) rfl (by omega)
          (by omega) hj
        refine ⟨p ++ [(i+1, 0)], hp.down, ?_, ?_⟩
        · rw [pathCost_append, hc]
          have h1 : M (i+1+1) 0 = ⊤ := by rw [hM.col0]; simp [dpInit]
          have h2 : M (i+1) 0 = ⊤ := by rw [hM.col0]; simp [dpInit]
          simp only [h1, h2, min_top_right]
        · simp [pathNext, hpath]
      · set a := M (i+1) (j+1) with ha
        set b := M (i+1) (j+1+1) with hb
        set c := M (i+1+1) (j+1) with hc'
        have hnext : pathNext am M.tail (i+1) (j+1) =
            if am a b c = 0 then (i, j) else if am a b c = 1 then (i, j+1) else (i+1, j) := by
          simp [pathNext, Mat.tail, ha, hb, hc']
        rw [hnext]
        rcases ham a b c with ⟨h0, h1, h2⟩ | ⟨h0, h1, h2⟩ | ⟨h0, h1, h2⟩
        · obtain ⟨p, hp, hc, hpath⟩ := ih (i + j) (by omega) i j fuel ((i+1, j+1) :: rest) rfl
            (by omega) (by omega) (by omega)
          refine ⟨p ++ [(i+1, j+1)], hp.diag, ?_, ?_⟩
          · rw [pathCost_append, hc, min_eq_right (le_min h1 h2)]
          · rw [h0, if_pos rfl, hpath]; simp
        · obtain ⟨p, hp, hc, hpath⟩ := ih (i + (j+1)) (by omega) i (j+1) fuel ((i+1, j+1) :: rest) rfl
            (by omega) (by omega) (by omega)
          refine ⟨p ++ [(i+1, j+1)], hp.down, ?_, ?_⟩
          · rw [pathCost_append, hc, min_eq_left (h2 : b ≤ c), min_eq_left h1]
          · rw [h0, if_neg (by omega), if_pos rfl, hpath]; simp
        · obtain ⟨p, hp, hc, hpath⟩ := ih (i + 1 + j) (by omega) (i+1) j fuel ((i+1, j+1) :: rest) rfl
            (by omega) (by omega) (by omega)
          refine ⟨p ++ [(i+1, j+1)], hp.right, ?_, ?_⟩
          · rw [pathCost_append, hc, min_eq_right (h2 : c ≤ b), min_eq_left h1]
          · rw [h0, if_neg (by omega), if_neg (by omega), hpath]; simp

/-- The computed match: a warping path of the whole query with a window of the long series, whose
exact cost is within the rounding factors of the best DTW over all windows; the computed value is
within the factors of both. -/
theorem C104_subsequence {rnd : K → K} {u : K} (hr : RelErr rnd u) (hm : Monotone rnd)
    (hu : 0 ≤ u) (hu1 : u ≤ 1) (q x : List (List K)) (hq : q ≠ []) (hx : x ≠ [])
    (hd : nFeatures q = nFeatures x) (d : ℕ) (hqd : ∀ r ∈ q, r.length ≤ d)
    (am) (ham : IsArgmin3 am) (aml) (haml : IsArgminL aml) :
    ∃ (v' : K) (p : List (ℕ × ℕ)) (a b : ℕ), a ≤ b ∧ b < x.length ∧
      rDtwSubsequencePath rnd q x am aml = .ok (some (p.map fun c => (c.1, a + c.2)), (v' : WithTop K)) ∧
      IsWarpingPath q.length (window x a b).length p ∧
      NearRel u (q.length + x.length + d + 2) v' (sumCost (sampleCost q (window x a b)) p) ∧
      (∀ am₀ aml₀ path (w : K), IsArgmin3 am₀ → IsArgminL aml₀ →
        dtwSubsequencePath q x am₀ aml₀ = .ok (path, (w : WithTop K)) →
        NearRel u (q.length + x.length + d + 2) v' w) ∧
      ∀ a' b', a' ≤ b' → b' < x.length → ∀ w : K,
        dtwSqGeneric q (window x a' b') 0 none none = .ok (w : WithTop K) →
        (1 - u) ^ (q.length + x.length + d + 2) * sumCost (sampleCost q (window x a b)) p ≤
          (1 + u) ^ (q.length + x.length + d + 2) * w := by
  have hq' := List.length_pos_iff.2 hq
  have hx' := List.length_pos_iff.2 hx
  set N := q.length + x.length + d + 2 with hN
  have near := fun p => rPathCost_near hr hu hu1 (sampleCost_nonneg q x)
    (rLocalCost_near hr hu hu1 q x d hqd) p
  have hcost0 : ∀ p, 0 ≤ sumCost (sampleCost q x) p := sumCost_nonneg (sampleCost_nonneg q x)
  set acc := rSubseqCost rnd q.length x.length (rLocalCost rnd q x) with hacc
  set row := (List.range x.length).map fun j => acc (q.length - 1) j with hrow
  have hrowne : row ≠ [] := by
    intro h
    have := congrArg List.length h
    simp [hrow] at this
    exact hx this
  have hb : aml row < x.length := by simpa [hrow] using haml.lt hrowne
  obtain ⟨v, hv1, hv2⟩ := haml row hrowne
  have hrv : v = acc (q.length - 1) (aml row) := by
    rw [hrow, List.getElem?_map, List.getElem?_range hb] at hv1
    simpa using hv1.symm
  obtain ⟨M, hMt, hM⟩ := rSubseq_isDP rnd q.length x.length (rLocalCost rnd q x)
  -- every window path bounds the computed value
  have hup : ∀ a' b', a' ≤ b' → b' < x.length → ∀ p,
      IsWarpingPath q.length (window x a' b').length p →
      p.length ≤ q.length + x.length - 1 ∧
      ∃ c' : K, v ≤ (c' : WithTop K) ∧
        NearRel u N c' (sumCost (sampleCost q (window x a' b')) p) := by
    intro a' b' hab' hb' p hp
    have hwl := window_length x a' b' hab' hb'
    have hlen := hp.length_le
    obtain ⟨i, j, hi, hj, hwp⟩ := isWarpingPath_iff.1 hp
    rw [hwl] at hj hlen
    obtain rfl : i = q.length - 1 := by omega
    have hfree : WP true (p.map (shift a')) (q.length - 1) b' :=
      WP.free_iff.2 ⟨a', p, j, by omega, hwp, rfl⟩
    refine ⟨by omega, ?_⟩
    rw [sumCost_window q x a' b' p (fun c hc => by have := (hwp.mem_le c hc).2; omega)]
    obtain ⟨c', e, hc⟩ := near (p.map (shift a'))
    refine ⟨c', ?_, hc.mono hu hu1 (hcost0 _) (by rw [List.length_map]; omega)⟩
    have h1 := hM.le_cost (rAdd_mono hm) hfree (by omega) hb' (fun _ _ => rfl)
    rw [e] at h1
    refine le_trans (hv2 _ (List.mem_map.2 ⟨b', by simpa using hb', rfl⟩)) ?_
    rw [hacc, ← hMt]
    exact h1
  -- the traced path
  have hnn : ∀ i j c, 0 ≤ c → 0 ≤ rAdd rnd (rLocalCost rnd q x i j) c := by
    intro i j c hc
    cases c with
    | top => exact le_top
    | coe c =>
      have h1 : 0 ≤ c := WithTop.coe_nonneg.1 hc
      have h2 := (rLocalCost_near hr hu hu1 q x d hqd i j).nonneg hu1 (sampleCost_nonneg q x i j)
      have h3 := (hr.bounds (add_nonneg h2 h1)).1
      exact WithTop.coe_nonneg.2
        ((mul_nonneg (by linarith) (add_nonneg h2 h1)).trans h3)
  obtain ⟨p', hp', hc', hpath⟩ := subseqWith_traceback hnn hM ham (q.length - 1 + aml row)
    (q.length - 1) (aml row) (q.length + x.length) [] rfl (by omega) (by omega) hb
  obtain ⟨a, p, k, hk, hwp, rfl⟩ := WP.free_iff.1 hp'
  have hwl := window_length x a (aml row) (by omega) hb
  have hpw : IsWarpingPath q.length (window x a (aml row)).length p :=
    isWarpingPath_iff.2 ⟨q.length - 1, k, by omega, by omega, hwp⟩
  obtain ⟨v', ev', hv'⟩ := near (p.map (shift a))
  have hvv : v = (v' : WithTop K) := by
    rw [hrv, hacc, ← hMt, ← ev', hc']
    rfl
  have hnear : NearRel u N v' (sumCost (sampleCost q (window x a (aml row))) p) := by
    rw [sumCost_window q x a _ p (fun c hc => by have := (hwp.mem_le c hc).2; omega)]
    have := (hup a (aml row) (by omega) hb p hpw).1
    exact hv'.mono hu hu1 (hcost0 _) (by rw [List.length_map]; omega)
  have hpos : 0 ≤ (1 - u) ^ N := pow_nonneg (by linarith) _
  have hwne : ∀ a' b', a' ≤ b' → b' < x.length → window x a' b' ≠ [] := by
    intro a' b' hab hb' h
    have hwl := window_length x a' b' hab hb'
    rw [h] at hwl
    simp at hwl
    omega
  have hleast : ∀ a' b', a' ≤ b' → b' < x.length → ∀ w : K,
      dtwSqGeneric q (window x a' b') 0 none none = .ok (w : WithTop K) →
      (∃ p₁, IsWarpingPath q.length (window x a' b').length p₁ ∧
        sumCost (sampleCost q (window x a' b')) p₁ = w) ∧
      ∀ p₁, IsWarpingPath q.length (window x a' b').length p₁ →
        w ≤ sumCost (sampleCost q (window x a' b')) p₁ := by
    intro a' b' hab hb' w hw
    obtain ⟨t, ht, -, htw⟩ := C01_dtw_squared q (window x a' b') hq (hwne a' b' hab hb') 0 none none
      (Mat.full true) (by simp [computeMask])
    rw [hw] at ht
    cases ht
    obtain ⟨⟨p₁, hp₁, e⟩, hl⟩ := (htw w).1 rfl
    exact ⟨⟨p₁, hp₁.1, e.symm⟩, fun p₂ hp₂ => hl ⟨p₂, ⟨hp₂, fun _ _ => rfl⟩, rfl⟩⟩
  refine ⟨v', p, a, aml row, by omega, hb, ?_, hpw, hnear, ?_, ?_⟩
  · simp only [rDtwSubsequencePath, hq, hx, hd, if_false, ne_eq, not_true]
    rw [← hacc, ← hrow]
    congr 2
    · unfold subsequencePath
      rw [hacc, ← hMt, hpath]
      simp only [List.append_nil]
      rfl
    · rw [List.getD_eq_getElem?_getD, hv1, ← hvv]; rfl
  · intro am₀ aml₀ path w ham₀ haml₀ hw
    obtain ⟨v₀, p₀, a₀, b₀, h1, h2, h3, h4, h5, h6, h7⟩ := C13_optimal q x hq hx hd am₀ ham₀ aml₀ haml₀
    rw [hw] at h3
    simp only [Except.ok.injEq, Prod.mk.injEq] at h3
    obtain ⟨-, rfl⟩ := h3
    rw [WithTop.coe_inj] at h5
    constructor
    · obtain ⟨t, ht, htop, htw⟩ := C01_dtw_squared q (window x a (aml row)) hq
        (hwne a (aml row) (by omega) hb) 0 none none (Mat.full true) (by simp [computeMask])
      have := h7 a (aml row) (by omega) hb t ht
      cases t with
      | top => exact absurd ⟨p, hpw, fun _ _ => rfl⟩ (htop.1 rfl)
      | coe t =>
        rw [WithTop.coe_le_coe] at this
        have h8 := (hleast a (aml row) (by omega) hb t ht).2 p hpw
        exact (mul_le_mul_of_nonneg_left (this.trans h8) hpos).trans hnear.1
    · obtain ⟨-, c', hc1, hc2⟩ := hup a₀ b₀ h1 h2 p₀ h4
      rw [hvv, WithTop.coe_le_coe] at hc1
      rw [h5] at hc2
      exact hc1.trans hc2.2
  · intro a' b' hab hb' w hw
    obtain ⟨⟨p₁, hp₁, rfl⟩, -⟩ := hleast a' b' hab hb' w hw
    obtain ⟨-, c', hc1, hc2⟩ := hup a' b' hab hb' p₁ hp₁
    rw [hvv, WithTop.coe_le_coe] at hc1
    exact hnear.1.trans (hc1.trans hc2.2)

end

/-! ## LCSS -/

/-- The computed distance of two samples of at most `d` features. -/
theorem rDist_near {rnd : ℝ → ℝ} {u : ℝ} (hr : RelErr rnd u) (hu : 0 ≤ u) (x y : List (List ℝ))
    (d : ℕ) (hd : ∀ r ∈ x, r.length ≤ d) (hN : ((d + 5 : ℕ) : ℝ) * u ≤ 1 / 2) (i j : ℕ) :
    |rnd (Real.sqrt (rLocalCost rnd x y i j)) - Real.sqrt (sampleCost x y i j)| ≤
      2 * ((d + 5 : ℕ) : ℝ) * u * Real.sqrt (sampleCost x y i j) := by
  have hu1 : u ≤ 1 := by
    have : (1 : ℝ) ≤ ((d + 5 : ℕ) : ℝ) := by exact_mod_cast (by omega)
    nlinarith
  exact sqrt_error hr hu hN (sampleCost_nonneg x y i j) (rLocalCost_near hr hu hu1 x y d hd i j)

/-- Thresholds around `eps`: pairs clearly inside are matched, matched pairs are nearly inside. -/
theorem C104_lcss_hits {rnd : ℝ → ℝ} {u : ℝ} (hr : RelErr rnd u) (hu : 0 ≤ u) (x y : List (List ℝ))
    (d : ℕ) (hd : ∀ r ∈ x, r.length ≤ d) (hN : ((d + 5 : ℕ) : ℝ) * u ≤ 1 / 2) (eps lo hi : ℝ)
    (hlo : lo * (1 + 2 * ((d + 5 : ℕ) : ℝ) * u) ≤ eps)
    (hhi : eps < hi * (1 - 2 * ((d + 5 : ℕ) : ℝ) * u)) (i j : ℕ) :
    (Close x y lo i j → rLcssHit rnd x y eps i j = true) ∧
      (rLcssHit rnd x y eps i j = true → Close x y hi i j) := by
  have h := abs_le.1 (rDist_near hr hu x y d hd hN i j)
  set δ := 2 * ((d + 5 : ℕ) : ℝ) * u with hδ
  have hδ0 : 0 ≤ δ := by positivity
  have hδ1 : δ ≤ 1 := by rw [hδ]; linarith
  set s := Real.sqrt (sampleCost x y i j) with hs
  have hs0 : 0 ≤ s := Real.sqrt_nonneg _
  simp only [Close, rLcssHit, decide_eq_true_eq, ← hs]
  constructor
  · intro hc
    have : s * (1 + δ) ≤ lo * (1 + δ) := mul_le_mul_of_nonneg_right hc (by linarith)
    linarith
  · intro hc
    by_contra hne
    push Not at hne
    have : hi * (1 - δ) ≤ s * (1 - δ) := mul_le_mul_of_nonneg_right hne.le (by linarith)
    linarith

theorem matchingSizes_mono {n m : ℕ} {P Q : ℕ → ℕ → Prop} (h : ∀ i j, P i j → Q i j) {k k' : ℕ}
    (hk : IsGreatest (MatchingSizes n m P) k) (hk' : IsGreatest (MatchingSizes n m Q) k') : k ≤ k' := by
  obtain ⟨p, hp, rfl⟩ := hk.1
  exact hk'.2 ⟨p, ⟨hp.incr, hp.inside, fun c hc => h _ _ (hp.hits c hc)⟩, rfl⟩

theorem rLcss_value {s1 s2 : TsInput (Option ℝ)} {g radius slope x y mask} (rnd : ℝ → ℝ) (eps : ℝ)
    (h : lcssArgs s1 s2 g radius slope = .ok (x, y, mask)) :
    rLcss rnd s1 s2 eps g radius slope = .ok (rnd ((lcssAcc x.length y.length mask
      (rLcssHit rnd x y eps) x.length y.length : ℝ) / ((min x.length y.length : ℕ) : ℝ))) := by
  simp [rLcss, h, lcssScore, bind, Except.bind, pure, Except.pure]

/-- Without constraint, or with a band that is not a bare diagonal, the computed score lies between
the (rounded) exact scores for a slightly smaller and a slightly larger threshold. -/
theorem C104_lcss {rnd : ℝ → ℝ} {u : ℝ} (hr : RelErr rnd u) (hm : Monotone rnd) (hu : 0 ≤ u)
    (s1 s2 : TsInput (Option ℝ)) (g : Option String) (radius : Option ℕ) (x y : List (List ℝ))
    (mask : Mat Bool) (hargs : lcssArgs s1 s2 g radius none = .ok (x, y, mask))
    (hg : (g = none ∧ radius = none) ∨
      ((g = none ∨ g = some "sakoe_chiba") ∧ ∃ r, radius = some r ∧ (1 ≤ r ∨ x.length ≠ y.length)))
    (d : ℕ) (hd : ∀ r ∈ x, r.length ≤ d) (hN : ((d + 5 : ℕ) : ℝ) * u ≤ 1 / 2) (eps lo hi : ℝ)
    (hlo : lo * (1 + 2 * ((d + 5 : ℕ) : ℝ) * u) ≤ eps)
    (hhi : eps < hi * (1 - 2 * ((d + 5 : ℕ) : ℝ) * u)) :
    ∃ v a b : ℝ, rLcss rnd s1 s2 eps g radius none = .ok v ∧ lcss s1 s2 lo g radius none = .ok a ∧
      lcss s1 s2 hi g radius none = .ok b ∧ rnd a ≤ v ∧ v ≤ rnd b := by
  obtain ⟨-, -, hx, hy, -, code, hc, hmk⟩ := lcssArgs_ok hargs
  have hx' := List.length_pos_iff.2 hx
  have hy' := List.length_pos_iff.2 hy
  have hM : LcssMask x.length y.length mask ∧ mask (x.length - 1) (y.length - 1) = true := by
    rcases hg with ⟨rfl, rfl⟩ | ⟨hg, r, rfl, hr'⟩
    · cases hc
      obtain rfl : Mat.full true = mask := by simpa [computeMask] using hmk
      exact ⟨lcssMask_full _ _, rfl⟩
    · obtain rfl : sakoeChibaMask x.length y.length r = mask := by
        rcases hg with rfl | rfl <;> (cases hc; simpa [computeMask] using hmk)
      exact ⟨lcssMask_sakoe _ _ r hr', (sakoeChibaMask_iff _ _ _ _ _ (by omega) (by omega)).2
        (by unfold InBand; omega)⟩
  have hh := C104_lcss_hits hr hu x y d hd hN eps lo hi hlo hhi
  have g0 : ∀ hit, IsGreatest (MatchingSizes x.length y.length (okPair mask hit))
      (lcssAcc x.length y.length mask hit x.length y.length) := fun hit =>
    lcssAcc_isGreatest hM.1 hx' hy' hM.2
  refine ⟨_, _, _, rLcss_value rnd eps hargs,
    lcss_value lo hargs, lcss_value hi hargs, hm ?_, hm ?_⟩
  · refine div_le_div_of_nonneg_right ?_ (Nat.cast_nonneg _)
    have := matchingSizes_mono (P := okPair mask (lcssHit x y lo))
      (Q := okPair mask (rLcssHit rnd x y eps)) (fun i j h => by
        rw [okPair_close] at h
        exact ⟨h.1, (hh i j).1 h.2⟩) (g0 _) (g0 _)
    exact_mod_cast this
  · refine div_le_div_of_nonneg_right ?_ (Nat.cast_nonneg _)
    have := matchingSizes_mono (P := okPair mask (rLcssHit rnd x y eps))
      (Q := okPair mask (lcssHit x y hi)) (fun i j h => by
        rw [okPair_close]
        exact ⟨h.1, (hh i j).2 h.2⟩) (g0 _) (g0 _)
    exact_mod_cast this

/-- Under any constraint: when no two samples are at a distance close to the threshold, the computed
score is the exact score, rounded once. -/
theorem C104_lcss_exact {rnd : ℝ → ℝ} {u : ℝ} (hr : RelErr rnd u) (hu : 0 ≤ u)
    (s1 s2 : TsInput (Option ℝ)) (g : Option String) (radius : Option ℕ) (slope : Option ℚ)
    (x y : List (List ℝ)) (mask : Mat Bool)
    (hargs : lcssArgs s1 s2 g radius slope = .ok (x, y, mask))
    (d : ℕ) (hd : ∀ r ∈ x, r.length ≤ d) (hN : ((d + 5 : ℕ) : ℝ) * u ≤ 1 / 2) (eps : ℝ)
    (hfar : ∀ i j, Real.sqrt (sampleCost x y i j) * (1 + 2 * ((d + 5 : ℕ) : ℝ) * u) ≤ eps ∨
      eps < Real.sqrt (sampleCost x y i j) * (1 - 2 * ((d + 5 : ℕ) : ℝ) * u)) :
    ∃ v, lcss s1 s2 eps g radius slope = .ok v ∧ rLcss rnd s1 s2 eps g radius slope = .ok (rnd v) := by
  have e : rLcssHit rnd x y eps = lcssHit x y eps := by
    funext i j
    have h := abs_le.1 (rDist_near hr hu x y d hd hN i j)
    have hs0 : 0 ≤ Real.sqrt (sampleCost x y i j) := Real.sqrt_nonneg _
    have hp : 0 ≤ 2 * ((d + 5 : ℕ) : ℝ) * u * Real.sqrt (sampleCost x y i j) := by positivity
    simp only [rLcssHit, lcssHit, localCost_eq]
    rcases hfar i j with hf | hf
    · rw [decide_eq_true (by linarith), decide_eq_true (by linarith)]
    · rw [decide_eq_false (by push Not; linarith), decide_eq_false (by push Not; linarith)]
  refine ⟨_, lcss_value eps hargs, ?_⟩
  simp [rLcss, hargs, e, lcssScore, bind, Except.bind, pure, Except.pure]

/-! ## What rounding can break -/

section
variable {K : Type} [Field K] [LinearOrder K] [IsStrictOrderedRing K] [FloorRing K]

theorem truncBits_of (p : ℕ) (a : K) (e k : ℤ) (h1 : 2 ^ e ≤ a) (h2 : a < 2 ^ (e + 1))
    (hk : k * 2 ^ (e - p) ≤ a) (hk' : a < (k + 1) * 2 ^ (e - p)) :
    truncBits p a = k * 2 ^ (e - p) := by
  have h0 : (0 : K) < 2 ^ e := zpow_pos (by norm_num) _
  have ha : 0 < a := h0.trans_le h1
  have hlog : Int.log 2 a = e := by
    apply le_antisymm
    · have : Int.log 2 a < e + 1 := by
        rw [← Int.lt_zpow_iff_log_lt (by norm_num) ha]
        exact_mod_cast h2
      omega
    · rw [← Int.zpow_le_iff_le_log (by norm_num) ha]
      exact_mod_cast h1
  have he : (0 : K) < 2 ^ (e - p) := zpow_pos (by norm_num) _
  rw [truncBits_nonneg_eq p ha.le, hlog]
  congr 2
  rw [Int.floor_eq_iff, le_div_iff₀ he, div_lt_iff₀ he]
  exact ⟨hk, hk'⟩

end

/-- The scalar product computed from left to right. -/
noncomputable def seqDot (rnd : ℝ → ℝ) (l : List ℝ) : ℝ :=
  l.foldl (fun s a => rnd (s + rnd (a * a))) 0

theorem seqDot_rounded (rnd : ℝ → ℝ) (l : List ℝ) : RoundedDot rnd l (seqDot rnd l) := by
  induction l using List.reverseRecOn with
  | nil => exact .nil
  | append_singleton l a ih =>
    cases l with
    | nil => simpa [seqDot] using RoundedDot.first a
    | cons b l =>
      have := RoundedDot.add (by simp) (by simp) ih (RoundedDot.single (rnd := rnd) a)
      simpa [seqDot] using this

/-- The computed bound is not a lower bound of the computed distance: rounding to five significant
bits, the bound is 17 and the band-constrained DTW at most 16. -/
theorem C104_false_keogh :
    rLbKeogh (truncBits 4) (seqDot (truncBits 4)) [-16, 5, 5] [0, 0, 0] 1 = .ok 17 ∧
    ∃ w : WithTop ℝ, rDtw (truncBits 4) (.oneD [some (-16), some 5, some 5])
      (.oneD [some 0, some 0, some 0]) (some "sakoe_chiba") (some 1) none = .ok w ∧
      w ≤ ((16 : ℝ) : WithTop ℝ) := by
  have z0 : truncBits 4 (0 : ℝ) = 0 := by simp [truncBits]
  have t5 : truncBits 4 (5 : ℝ) = 5 := by
    have := truncBits_int (K := ℝ) 4 5 (by norm_num); simpa using this
  have t16 : truncBits 4 (16 : ℝ) = 16 := by
    have := truncBits_int (K := ℝ) 4 16 (by norm_num); simpa using this
  have tm16 : truncBits 4 (-16 : ℝ) = -16 := by rw [truncBits_neg, t16]
  have t25 : truncBits 4 (25 : ℝ) = 25 := by
    have := truncBits_int (K := ℝ) 4 25 (by norm_num); simpa using this
  have t256 : truncBits 4 (256 : ℝ) = 256 := by
    rw [truncBits_of 4 _ 8 16] <;> norm_num
  have t281 : truncBits 4 (281 : ℝ) = 272 := by
    rw [truncBits_of 4 _ 8 17] <;> norm_num
  have t297 : truncBits 4 (297 : ℝ) = 288 := by
    rw [truncBits_of 4 _ 8 18] <;> norm_num
  have t50 : truncBits 4 (50 : ℝ) = 50 := by
    rw [truncBits_of 4 _ 5 25] <;> norm_num
  have t49 : truncBits 4 (49 : ℝ) = 48 := by
    rw [truncBits_of 4 _ 5 24] <;> norm_num
  have t304 : truncBits 4 (304 : ℝ) = 304 := by
    rw [truncBits_of 4 _ 8 19] <;> norm_num
  have r50 : truncBits 4 (Real.sqrt 50) = 7 := by
    have h1 : 7 ≤ Real.sqrt 50 := Real.le_sqrt' (by norm_num) |>.2 (by norm_num)
    have h2 : Real.sqrt 50 < 29 / 4 := (Real.sqrt_lt' (by norm_num)).2 (by norm_num)
    rw [truncBits_of 4 _ 2 28] <;> norm_num <;> linarith
  have r256 : Real.sqrt 256 = 16 := by
    rw [show (256 : ℝ) = 16 ^ 2 by norm_num]; exact Real.sqrt_sq (by norm_num)
  have r304 : truncBits 4 (Real.sqrt 304) = 17 := by
    have h1 : 17 ≤ Real.sqrt 304 := Real.le_sqrt' (by norm_num) |>.2 (by norm_num)
    have h2 : Real.sqrt 304 < 18 := (Real.sqrt_lt' (by norm_num)).2 (by norm_num)
    rw [truncBits_of 4 _ 4 17] <;> norm_num <;> linarith
  have r288 : truncBits 4 (Real.sqrt 288) = 16 := by
    have h1 : 16 ≤ Real.sqrt 288 := Real.le_sqrt' (by norm_num) |>.2 (by norm_num)
    have h2 : Real.sqrt 288 < 17 := (Real.sqrt_lt' (by norm_num)).2 (by norm_num)
    rw [truncBits_of 4 _ 4 16] <;> norm_num <;> linarith
  constructor
  · have he : lbEnvelope ([0, 0, 0] : List ℝ) 1 = .ok ([0, 0, 0], [0, 0, 0]) := by
      simp [lbEnvelope, List.range_succ, envWindow, npMin, npMax, bind, Except.bind, pure, Except.pure]
    simp only [rLbKeogh, he, bind, Except.bind, pure, Except.pure]
    have f1 : (([(-16, 0), (5, 0), (5, 0)] : List (ℝ × ℝ)).filter fun e => decide (e.2 < e.1)) =
        [(5, 0), (5, 0)] := by norm_num [List.filter]
    have f2 : (([(-16, 0), (5, 0), (5, 0)] : List (ℝ × ℝ)).filter fun e => decide (e.1 < e.2)) =
        [(-16, 0)] := by norm_num [List.filter]
    simp only [rKeogh, List.zip_cons_cons, List.zip_nil_right, f1, f2, List.map_cons, List.map_nil,
      sub_zero, t5, tm16, rNormSq, seqDot, List.foldl_cons, List.foldl_nil]
    norm_num [t25, t256, t50, r50, t49, r256, t16, t304, r304]
  · have hval : validatePair (.oneD [some (-16), some 5, some 5])
        (.oneD [some (0 : ℝ), some 0, some 0]) (some "sakoe_chiba") =
        .ok ([[-16], [5], [5]], [[0], [0], [0]], 2) := by
      simp [validatePair, toTimeSeries, tsSize, tsSizeLoop, denan, gcCode, nFeatures, bind,
        Except.bind, pure, Except.pure]
    have hmk : computeMask 3 3 2 (some 1) none = .ok (sakoeChibaMask 3 3 1) := by simp [computeMask]
    refine ⟨_, by simp [rDtw, hval, rDtwSq, hmk, bind, Except.bind, pure, Except.pure]; rfl, ?_⟩
    have s := (lastEntry_spec (zero := 0) (rAdd_mono (truncBits_oddMono (K := ℝ) 4).mono)
      (rAdd_top (truncBits 4)) (n := 3) (m := 3) (by norm_num) (by norm_num) (sakoeChibaMask 3 3 1)
      (rLocalCost (truncBits 4) [[-16], [5], [5]] [[0], [0], [0]])).1 [(0,0),(1,1),(2,2)] (by
        refine ⟨isWarpingPath_iff.2 ⟨2, 2, rfl, rfl, ?_⟩, fun c hc => ?_⟩
        swap
        · simp only [List.mem_cons, List.not_mem_nil, or_false] at hc
          rcases hc with rfl | rfl | rfl <;> decide +kernel
        exact WP.diag (p := [(0,0),(1,1)]) (WP.diag (p := [(0,0)]) (.start 0 (.inr rfl))))
    have hc : pathCost (rAdd (truncBits 4)) 0
        (rLocalCost (truncBits 4) [[-16], [5], [5]] [[0], [0], [0]]) [(0,0),(1,1),(2,2)] =
        ((288 : ℝ) : WithTop ℝ) := by
      have e0 : rAdd (truncBits 4) (256 : ℝ) 0 = ((256 : ℝ) : WithTop ℝ) := by
        change ((truncBits 4 ((256 : ℝ) + 0) : ℝ) : WithTop ℝ) = _
        rw [add_zero, t256]
      have e1 : rAdd (truncBits 4) (25 : ℝ) ((256 : ℝ) : WithTop ℝ) = ((272 : ℝ) : WithTop ℝ) := by
        change ((truncBits 4 ((25 : ℝ) + 256) : ℝ) : WithTop ℝ) = _
        norm_num [t281]
      have e2 : rAdd (truncBits 4) (25 : ℝ) ((272 : ℝ) : WithTop ℝ) = ((288 : ℝ) : WithTop ℝ) := by
        change ((truncBits 4 ((25 : ℝ) + 272) : ℝ) : WithTop ℝ) = _
        norm_num [t297]
      have l0 : truncBits 4 ((16 : ℝ) * 16) = 256 := by norm_num [t256]
      have l1 : truncBits 4 ((5 : ℝ) * 5) = 25 := by norm_num [t25]
      simp [pathCost, rLocalCost, rSqDist, tm16, t5, t25, l1]
      rw [l0, t256, e0, e1, e2]; rfl
    rw [hc] at s
    change rSqrt (truncBits 4) _ ≤ _
    have := mapTop_mono (g := fun a : ℝ => truncBits 4 (Real.sqrt a))
      (fun a b h => (truncBits_oddMono (K := ℝ) 4).mono (Real.sqrt_le_sqrt h)) s
    refine le_trans this ?_
    change ((truncBits 4 (Real.sqrt 288) : ℝ) : WithTop ℝ) ≤ _
    rw [r288]

/-- A pair at distance 9 passes the threshold 8 when numbers are rounded to three bits: the computed
score is 1, the exact one 0. -/
theorem C104_false_lcss_threshold :
    rLcss (truncBits 2) (.oneD [some 9]) (.oneD [some 0]) 8 none none none = .ok 1 ∧
    lcss (.oneD [some 9]) (.oneD [some 0]) 8 none none none = .ok 0 := by
  have hargs : lcssArgs (.oneD [some (9 : ℝ)]) (.oneD [some 0]) none none none =
      .ok ([[9]], [[0]], Mat.full true) := by
    simp [lcssArgs, toTimeSeries, tsSize, tsSizeLoop, denan, gcCode, nFeatures, computeMask, bind,
      Except.bind, pure, Except.pure]
  have t9 : truncBits 2 (9 : ℝ) = 8 := by
    rw [truncBits_of 2 _ 3 4] <;> norm_num
  have t8 : truncBits 2 (8 : ℝ) = 8 := by
    rw [truncBits_of 2 _ 3 4] <;> norm_num
  have t64 : truncBits 2 (64 : ℝ) = 64 := by
    rw [truncBits_of 2 _ 6 4] <;> norm_num
  have t1 : truncBits 2 (1 : ℝ) = 1 := by
    have := truncBits_int (K := ℝ) 2 1 (by norm_num); simpa using this
  have t64' : truncBits 2 ((8 : ℝ) * 8) = 64 := by norm_num [t64]
  have r64 : Real.sqrt 64 = 8 := by
    rw [show (64 : ℝ) = 8 ^ 2 by norm_num]; exact Real.sqrt_sq (by norm_num)
  have r81 : Real.sqrt (9 * 9) = 9 := Real.sqrt_mul_self (by norm_num)
  have hit : rLcssHit (truncBits 2) [[9]] [[0]] 8 0 0 = true := by
    simp [rLcssHit, rLocalCost, rSqDist, t9, t64', t64, r64, t8]
  have miss : lcssHit [[9]] [[0]] 8 0 0 = false := by
    simp only [lcssHit, decide_eq_false_iff_not]
    have r81' : Real.sqrt 81 = 9 := by rw [← r81]; norm_num
    norm_num [localCost, sqDist, r81']
  constructor
  · rw [rLcss_value _ _ hargs]
    simp [lcssAcc, dpLoop, forRange, Mat.set, Mat.full, hit, t1]
  · rw [lcss_value _ hargs]
    simp [lcssAcc, dpLoop, forRange, Mat.set, Mat.full, miss]

/-- The computed match need not be the best one: of two windows with exact costs 9 and 8 that round
to the same number, the worse one is returned. -/
theorem C104_false_best_match :
    rDtwSubsequencePath (truncBits 2 : ℚ → ℚ) [[0, 0]] [[3, 0], [2, 2]] argmin3 argminL =
      .ok (some [(0, 0)], ((8 : ℚ) : WithTop ℚ)) ∧
    dtwSubsequencePath ([[0, 0]] : List (List ℚ)) [[3, 0], [2, 2]] argmin3 argminL =
      .ok (some [(0, 1)], ((8 : ℚ) : WithTop ℚ)) ∧
    dtwSqGeneric ([[0, 0]] : List (List ℚ)) [[3, 0]] 0 none none = .ok ((9 : ℚ) : WithTop ℚ) := by
  refine ⟨?_, ?_, ?_⟩ <;> decide +kernel

/-! Concrete instances. -/

/-- Double precision and series of a million samples meet the hypothesis of `C104_keogh_safe`. -/
example : ((2 * 1000000 + 9 : ℕ) : ℝ) * (2 ^ 52)⁻¹ ≤ 1 / 2 := by norm_num

/-- Pruning on concrete data, truncation to 53 bits, summation from left to right. -/
example : ∃ v' w' : ℝ,
    rLbKeogh (truncBits 52) (seqDot (truncBits 52)) [4, 0, 3, 2, 0] [1, 2, 3, 2, 1] 1 = .ok v' ∧
    rDtw (truncBits 52) (.oneD (([4, 0, 3, 2, 0] : List ℝ).map some))
      (.oneD (([1, 2, 3, 2, 1] : List ℝ).map some)) (some "sakoe_chiba") (some 1) none =
        .ok (w' : WithTop ℝ) ∧
    (1 - 2 * ((2 * 5 + 5 : ℕ) : ℝ) * (2 ^ 52)⁻¹) * v' ≤
      (1 + 2 * ((5 + 9 : ℕ) : ℝ) * (2 ^ 52)⁻¹) * w' :=
  C104_keogh_safe (truncBits_relErr 52) (truncBits_oddMono 52).mono (by positivity)
    (seqDot_rounded _) [4, 0, 3, 2, 0] [1, 2, 3, 2, 1] 1 (by simp) rfl _ (.inr rfl) (by norm_num)

/-- Pairwise summation with a fused step is among the orders allowed. -/
example (rnd : ℝ → ℝ) : RoundedDot rnd [1, 2, 3, 4]
    (rnd (rnd (rnd (1 * 1) + 2 * 2) + rnd (rnd (3 * 3) + rnd (4 * 4)))) :=
  RoundedDot.add (l := [1, 2]) (l' := [3, 4]) (by simp) (by simp)
    ((RoundedDot.fused 2 (.single 1)).perm (List.Perm.swap _ _ _))
    (RoundedDot.add (l := [3]) (l' := [4]) (by simp) (by simp) (.single 3) (.single 4))

/-- A subsequence search meeting the hypotheses, with a result that differs from the exact one. -/
example : ∃ (v' : ℚ) (p : List (ℕ × ℕ)) (a b : ℕ), a ≤ b ∧ b < 2 ∧
    rDtwSubsequencePath (truncBits 2 : ℚ → ℚ) [[0, 0]] [[3, 0], [2, 2]] argmin3 argminL =
      .ok (some (p.map fun c => (c.1, a + c.2)), (v' : WithTop ℚ)) := by
  obtain ⟨v', p, a, b, h1, h2, h3, -⟩ := C104_subsequence (truncBits_relErr (K := ℚ) 2)
    (truncBits_oddMono 2).mono (by norm_num) (by norm_num) [[0, 0]] [[3, 0], [2, 2]] (by simp)
    (by simp) (by decide) 2 (by simp) argmin3 argmin3_isArgmin argminL argminL_isArgmin
  exact ⟨v', p, a, b, h1, h2, h3⟩

/-- Thresholds around `eps = 8` for univariate series in double precision. -/
example : (7.99 : ℝ) * (1 + 2 * ((1 + 5 : ℕ) : ℝ) * (2 ^ 52)⁻¹) ≤ 8 ∧
    (8 : ℝ) < 8.01 * (1 - 2 * ((1 + 5 : ℕ) : ℝ) * (2 ^ 52)⁻¹) := by constructor <;> norm_num

/-- The bound is zero exactly inside the envelope: a query inside. -/
example : ∃ v', rLbKeogh (truncBits 52) (seqDot (truncBits 52)) [1, 1] [1, 2] 1 = .ok v' ∧ v' = 0 := by
  obtain ⟨v', h, hz⟩ := C104_keogh_zero (truncBits_relErr (K := ℝ) 52) (by positivity)
    (by norm_num) (seqDot_rounded (truncBits 52)) [1, 1] [1, 2] 1 rfl
  refine ⟨v', h, hz.2 fun i x l b hx hl hb => ?_⟩
  have h1 : ∀ v ∈ Near ([1, 2] : List ℝ) 1 i, 1 ≤ v ∧ v ≤ 2 := by
    rintro v ⟨j, hj, -, -⟩
    rcases j with _ | _ | j <;> simp at hj <;> subst hj <;> norm_num
  have hi : i < 2 := (List.getElem?_eq_some_iff.1 hx).1
  have h2 : (1 : ℝ) ∈ Near ([1, 2] : List ℝ) 1 i := ⟨0, rfl, by omega, by omega⟩
  have hx1 : x = 1 := by
    rcases i with _ | _ | i
    · simpa using hx.symm
    · simpa using hx.symm
    · omega
  exact ⟨hx1 ▸ hl.2 h2, hx1 ▸ hb.2 h2⟩

end Verif
