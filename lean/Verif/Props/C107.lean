import Verif.Proofs.FloatGak
import Verif.Props.C21
/-!
# C107 — The global alignment kernel in floating-point arithmetic

`Rounding A.rnd u tiny` holds of doubles with `u = 2⁻⁵³` and `tiny = 2⁻¹⁰²²` (`C107_doubles`). `A.width σ` is the computed
`2 * sigma * sigma`, assumed to be a positive number throughout (it is not for bandwidths like `1e-170` or `1e160`).
-/
set_option linter.unusedSectionVars false
namespace Verif
open Spec
noncomputable section
open Classical

/-- Arithmetic on doubles, with the exponential and the logarithm of the platform. -/
def doubles (exp log : ℝ → ℝ) : Arith := ⟨double, exp, log, 2 ^ 1024⟩

/-- Doubles round to nearest, subnormal numbers included. -/
theorem C107_doubles : Rounding (double : ℝ → ℝ) ((2 : ℝ) ^ 53)⁻¹ (2 ^ (-1022 : ℤ)) := double_rounding

variable {A : Arith} {u tiny : ℝ}

theorem gakF_ok {s1 s2 : TsInput (Option ℝ)} {σ : ℝ} {x y : List (List ℝ)} (h : gakArgs s1 s2 σ = .ok (x, y)) :
    A.gak s1 s2 σ = .ok (A.gakGeneric x y σ) := by
  simp only [Arith.gak, h, bind, Except.bind, pure, Except.pure]

theorem gakArgs_same {s : TsInput (Option ℝ)} {σ : ℝ} {x y : List (List ℝ)} (h : gakArgs s s σ = .ok (x, y)) : y = x := by
  have := gakArgs_swap s s σ
  rw [h] at this
  simp only [Except.map, Prod.swap, Except.ok.injEq, Prod.mk.injEq] at this
  exact this.2

/-- The floating-point kernel is symmetric to the last bit, exceptions and not-a-number included. -/
theorem C107_symm (hA : Rounding A.rnd u tiny) (hbig : 1 < A.big) (s1 s2 : TsInput (Option ℝ)) (σ : ℝ) :
    A.gak s1 s2 σ = A.gak s2 s1 σ := by
  unfold Arith.gak
  rw [gakArgs_swap s1 s2]
  cases gakArgs s2 s1 σ with
  | error e => rfl
  | ok xy =>
    simp only [Except.map, bind, Except.bind, pure, Except.pure, Prod.swap]
    rw [gakF_comm hA hbig]

/-- False for long series: when consecutive samples differ little compared to the bandwidth (squared distance at most
`2 * sigma * sigma / 16`) and there are too many of them, `gak(s, s)` is not-a-number and not 1. -/
theorem C107_false_long (hA : Rounding A.rnd u tiny) (hE : ExpLike A.exp) (hL : LogLike A.log) (hbig : 2 < A.big) {σ w : ℝ}
    (hw : A.width σ = .num w) (hw0 : 0 < w) {s : TsInput (Option ℝ)} {x y : List (List ℝ)} (hs : gakArgs s s σ = .ok (x, y))
    (hslow : ∀ i, i + 1 < x.length → ∃ v, A.sqDist (x.getD i []) (x.getD (i + 1) []) = .num v ∧ v ≤ w / 16)
    (hlong : A.big ≤ 2 ^ (x.length - 1) / 2) : A.gak s s σ = .ok .nan := by
  obtain rfl := gakArgs_same hs
  obtain ⟨-, hx, -⟩ := gakArgs_ok hs
  rw [gakF_ok hs, gakF_lost (unnorm_lost hA hE hL hbig hw hw0 hx hslow hlong)]

theorem denan_const (n : ℕ) (r : List ℝ) : denan (List.replicate n (r.map some)) = some (List.replicate n r) := by
  have hrow : (r.map some).mapM id = some r := by
    induction r with
    | nil => rfl
    | cons a r ih => simp only [List.map_cons, List.mapM_cons, ih, id, bind, Option.bind, pure]
  unfold denan
  induction n with
  | zero => rfl
  | succ n ih => simp only [List.replicate_succ, List.mapM_cons, hrow, ih, bind, Option.bind, pure]

theorem gakArgs_const (n : ℕ) (hn : 0 < n) (r : List ℝ) (hr : r ≠ []) {σ : ℝ} (hσ : σ ≠ 0) :
    gakArgs (.twoD (List.replicate n (r.map some))) (.twoD (List.replicate n (r.map some))) σ =
      .ok (List.replicate n r, List.replicate n r) := by
  have ht : toTimeSeries (.twoD (List.replicate n (r.map some))) true = List.replicate n (r.map some) := by
    have : tsSize (List.replicate n (r.map some)) = n := by
      obtain ⟨k, rfl⟩ : ∃ k, n = k + 1 := ⟨n - 1, by omega⟩
      unfold tsSize
      rw [List.length_replicate, tsSizeLoop, if_neg]
      rw [List.getD_eq_getElem _ _ (by simp), List.getElem_replicate]
      cases r with
      | nil => exact absurd rfl hr
      | cons a r => simp
    simp only [toTimeSeries, if_true, this]
    exact List.take_of_length_le (by simp)
  unfold gakArgs
  simp only [bind, Except.bind, pure, Except.pure, throw, throwThe, MonadExceptOf.throw, hσ, if_false, ht, List.length_replicate,
    denan_const, ne_eq, not_true_eq_false]
  rw [if_neg (by omega)]


/-- In doubles: constant series of 1026 samples or more, in any number of features. -/
theorem C107_false_constant {exp log : ℝ → ℝ} (hE : ExpLike exp) (hL : LogLike log) {σ w : ℝ} (hσ : σ ≠ 0)
    (hw : (doubles exp log).width σ = .num w) (hw0 : 0 < w) (r : List ℝ) (hr : r ≠ []) (n : ℕ) (hn : 1026 ≤ n) :
    (doubles exp log).gak (.twoD (List.replicate n (r.map some))) (.twoD (List.replicate n (r.map some))) σ = .ok .nan := by
  have hbig : (2 : ℝ) < (doubles exp log).big := by
    show (2 : ℝ) < 2 ^ 1024
    calc (2 : ℝ) = 2 ^ 1 := by norm_num
      _ < 2 ^ 1024 := pow_lt_pow_right₀ (by norm_num) (by norm_num)
  refine C107_false_long (A := doubles exp log) double_rounding hE hL hbig hw hw0 (gakArgs_const n (by omega) r hr hσ) ?_ ?_
  · intro i hi
    rw [List.length_replicate] at hi
    refine ⟨0, ?_, by positivity⟩
    rw [List.getD_eq_getElem _ _ (by rw [List.length_replicate]; omega), List.getD_eq_getElem _ _ (by rw [List.length_replicate]; omega),
      List.getElem_replicate, List.getElem_replicate]
    exact sqDist_self (A := doubles exp log) double_rounding (by linarith) r
  · rw [List.length_replicate]
    show (2 : ℝ) ^ 1024 ≤ 2 ^ (n - 1) / 2
    rw [le_div_iff₀ (by norm_num), ← pow_succ]
    exact pow_le_pow_right₀ (by norm_num) (by omega)

/-- Short series (`4 ^ (2 n) < 16 * big`; 256 samples for doubles) never overflow: whatever the samples, `gak` is a nonnegative
number. -/
theorem C107_finite (hA : Rounding A.rnd u tiny) (hE : ExpLike A.exp) (hL : LogLike A.log) (hbig : 2 < A.big) {σ w : ℝ}
    (hw : A.width σ = .num w) (hw0 : 0 < w) {s1 s2 : TsInput (Option ℝ)} {x y : List (List ℝ)} (hs : gakArgs s1 s2 σ = .ok (x, y))
    (h1 : (4 : ℝ) ^ (x.length + x.length) / 16 < A.big) (h2 : (4 : ℝ) ^ (y.length + y.length) / 16 < A.big) :
    ∃ v, A.gak s1 s2 σ = .ok (.num v) ∧ 0 ≤ v := by
  obtain ⟨-, hx, hy⟩ := gakArgs_ok hs
  have h3 : (4 : ℝ) ^ (x.length + y.length) / 16 < A.big := by
    rcases le_total x.length y.length with h | h
    · exact lt_of_le_of_lt (div_le_div_of_nonneg_right (pow_le_pow_right₀ (by norm_num) (by omega)) (by norm_num)) h2
    · exact lt_of_le_of_lt (div_le_div_of_nonneg_right (pow_le_pow_right₀ (by norm_num) (by omega)) (by norm_num)) h1
  obtain ⟨a, ea, a0, a1⟩ := unnorm_within hA hE hL hbig hw hw0 hx h1
  obtain ⟨b, eb, b0, b1⟩ := unnorm_within hA hE hL hbig hw hw0 hy h2
  obtain ⟨c, ec, c0, c1⟩ := unnorm_within hA hE hL hbig hw hw0 (y := y) hx h3
  have ga := unnorm_self_ge hA hE hL hbig hw hw0 x
  have gb := unnorm_self_ge hA hE hL hbig hw hw0 y
  rw [ea] at ga
  rw [eb] at gb
  obtain ⟨p, ep, p1, -⟩ := denomF hA (List.length_pos_iff.2 hx) (List.length_pos_iff.2 hy) h3 ga gb a1 b1
  obtain ⟨v, ev, v0, -⟩ := Within.fit hA h3 (rnd_pow4 hA _) (div_nonneg c0 (by linarith : (0 : ℝ) ≤ p))
    ((div_le_self c0 p1).trans c1)
  refine ⟨v, ?_, v0⟩
  rw [gakF_ok hs]
  unfold Arith.gakGeneric
  simp only [ea, eb, ec, ep]
  rw [← ev]
  simp only [Arith.div, Arith.quot]
  rw [if_neg (by linarith)]

theorem near_one {u r s p q : ℝ} (hu0 : 0 ≤ u) (hu : u ≤ 1 / 100) (hr : 1 ≤ r) (h1 : |s - r| ≤ u * r) (h2 : |p - s * s| ≤ u * (s * s))
    (h3 : |q - r * r / p| ≤ u * (r * r / p)) : |q - 1| ≤ 5 * u := by
  rw [abs_le] at h1 h2 h3
  have hs1 : (1 - u) * r ≤ s := by linarith
  have hs2 : s ≤ (1 + u) * r := by linarith
  have hs0 : 0 < (1 - u) * r := mul_pos (by linarith) (by linarith)
  have hss1 : ((1 - u) * r) * ((1 - u) * r) ≤ s * s := mul_le_mul hs1 hs1 hs0.le (by linarith)
  have hss2 : s * s ≤ ((1 + u) * r) * ((1 + u) * r) := mul_le_mul hs2 hs2 (by linarith) (by nlinarith)
  have hrr : 0 < r * r := by positivity
  have hp1 : (1 - u) ^ 3 * (r * r) ≤ p := by nlinarith
  have hp2 : p ≤ (1 + u) ^ 3 * (r * r) := by nlinarith
  have h1u : 0 < (1 - u) ^ 3 := by have : 0 < 1 - u := by linarith
                                   positivity
  have hp0 : 0 < p := lt_of_lt_of_le (by positivity) hp1
  have d1 : r * r / p ≤ 1 / (1 - u) ^ 3 := by
    rw [div_le_div_iff₀ hp0 h1u]; linarith
  have d2 : 1 / (1 + u) ^ 3 ≤ r * r / p := by
    rw [div_le_div_iff₀ (by positivity) hp0]; linarith
  have e1 : (1 + u) * (1 / (1 - u) ^ 3) ≤ 1 + 5 * u := by
    rw [mul_one_div, div_le_iff₀ h1u]
    nlinarith [mul_nonneg hu0 hu0, mul_nonneg (mul_nonneg hu0 hu0) hu0]
  have e2 : 1 - 5 * u ≤ (1 - u) * (1 / (1 + u) ^ 3) := by
    rw [mul_one_div, le_div_iff₀ (by positivity)]
    nlinarith [mul_nonneg hu0 hu0, mul_nonneg (mul_nonneg hu0 hu0) hu0, mul_nonneg (mul_nonneg hu0 hu0) (mul_nonneg hu0 hu0)]
  have f1 : (1 + u) * (r * r / p) ≤ (1 + u) * (1 / (1 - u) ^ 3) := mul_le_mul_of_nonneg_left d1 (by linarith)
  have f2 : (1 - u) * (1 / (1 + u) ^ 3) ≤ (1 - u) * (r * r / p) := mul_le_mul_of_nonneg_left d2 (by linarith)
  rw [abs_le]
  constructor <;> linarith

/-- `gak(s, s)` of a short series is 1 up to five roundings, however inaccurate the sums over alignments are. -/
theorem C107_self (hA : Rounding A.rnd u tiny) (hu0 : 0 ≤ u) (hu : u ≤ 1 / 100) (ht : tiny ≤ 1 / 2) (hE : ExpLike A.exp)
    (hL : LogLike A.log) (hbig : 2 < A.big) {σ w : ℝ} (hw : A.width σ = .num w) (hw0 : 0 < w) {s : TsInput (Option ℝ)}
    {x y : List (List ℝ)} (hs : gakArgs s s σ = .ok (x, y)) (h1 : (4 : ℝ) ^ (x.length + x.length) / 16 < A.big) :
    ∃ v, A.gak s s σ = .ok (.num v) ∧ |v - 1| ≤ 5 * u := by
  obtain rfl := gakArgs_same hs
  obtain ⟨-, hx, -⟩ := gakArgs_ok hs
  obtain ⟨a, ea, a0, a1⟩ := unnorm_within hA hE hL hbig hw hw0 hx h1
  have ga := unnorm_self_ge hA hE hL hbig hw hw0 y
  rw [ea] at ga
  have ga' : (1 : ℝ) ≤ a := ga
  have hpos := List.length_pos_iff.2 hx
  obtain ⟨p, ep, p1, rp⟩ := denomF hA hpos hpos h1 ga ga a1 a1
  have hr : 1 ≤ Real.sqrt a := Real.one_le_sqrt.2 ga
  have hrr : Real.sqrt a * Real.sqrt a = a := Real.mul_self_sqrt a0
  have e1 := hA.rel (Real.sqrt a) (by rw [abs_of_nonneg (by linarith)]; linarith)
  rw [abs_of_nonneg (by linarith : 0 ≤ Real.sqrt a)] at e1
  have s1 : 1 ≤ A.rnd (Real.sqrt a) := by have := hA.mono hr; rwa [rnd_one hA] at this
  have e2 := hA.rel (A.rnd (Real.sqrt a) * A.rnd (Real.sqrt a)) (by
    rw [abs_of_nonneg (by positivity)]; nlinarith)
  rw [abs_of_nonneg (mul_self_nonneg (A.rnd (Real.sqrt a))), ← rp] at e2
  have hlow : 1 / 2 ≤ a / p := by
    rw [le_div_iff₀ (by linarith)]
    have h3 := (abs_le.1 e1).2
    have h4 := (abs_le.1 e2).2
    have h5 : A.rnd (Real.sqrt a) ≤ (1 + u) * Real.sqrt a := by linarith
    have h6 : A.rnd (Real.sqrt a) * A.rnd (Real.sqrt a) ≤ ((1 + u) * Real.sqrt a) * ((1 + u) * Real.sqrt a) :=
      mul_le_mul h5 h5 (by linarith) (by positivity)
    have h7 : p ≤ (1 + u) * ((1 + u) * (1 + u) * a) := by
      rw [show (1 + u) * Real.sqrt a * ((1 + u) * Real.sqrt a) = (1 + u) * (1 + u) * (Real.sqrt a * Real.sqrt a) by ring, hrr] at h6
      nlinarith
    have h8 : (1 + u) * ((1 + u) * (1 + u)) ≤ 2 := by nlinarith
    nlinarith
  have e3 := hA.rel (a / p) (by rw [abs_of_nonneg (by linarith)]; linarith)
  rw [abs_of_nonneg (by linarith : 0 ≤ a / p)] at e3
  have key := near_one hu0 hu hr e1 e2 (q := A.rnd (a / p)) (by rw [hrr]; exact e3)
  refine ⟨A.rnd (a / p), ?_, key⟩
  rw [gakF_ok hs]
  unfold Arith.gakGeneric
  simp only [ea, ep]
  simp only [Arith.div, Arith.quot]
  rw [if_neg (by linarith)]
  have := (abs_le.1 key)
  exact congrArg _ (fit_num hA (by rw [abs_lt]; constructor <;> linarith))

/-! ### Matrices -/

theorem mul_zero_lost {A : Arith} {x : Fl} (h : x.Lost) : A.mul (.num 0) x = .nan := by
  rcases h with rfl | rfl
  · simp [Arith.mul, Fl.mul, Fl.scale, Arith.fit]
  · rfl

theorem mul_nan_left (A : Arith) (x : Fl) : A.mul .nan x = .nan := rfl

theorem inv_sqrt_lost (hA : Rounding A.rnd u tiny) (hbig : 1 < A.big) {x : Fl} (h : x.Lost) :
    A.mul (A.sqrt (A.div (.num 1) x)) x = .nan ∧ A.mul (A.div (.num 1) (A.sqrt x)) x = .nan := by
  have z : A.fit (.num 0) = .num 0 := fit_fix hA (rnd_zero hA) (by rw [abs_zero]; linarith)
  rcases h with rfl | rfl
  · have e1 : A.div (.num 1) .inf = .num 0 := z
    have e2 : A.sqrt (.num 0) = .num 0 := by simp only [Arith.sqrt, Arith.root, lt_irrefl, if_false, Real.sqrt_zero]; exact z
    have e3 : A.sqrt .inf = .inf := rfl
    rw [e1, e2, e3, e1]
    exact ⟨mul_zero_lost (Or.inl rfl), mul_zero_lost (Or.inl rfl)⟩
  · exact ⟨rfl, rfl⟩

/-- A lost self-kernel makes the product lost. -/
theorem matMul_lost {sum : List Fl → Fl} (hsum : Adds A.fit sum) {n1 n2 k k' : ℕ} (hk : k < n1) (hk' : k' < n2) {L R U : Mat Fl}
    (hL : ∀ i, A.mul (L i k) (U k k') = .nan) (i j : ℕ) : A.matMul sum n2 (A.matMul sum n1 L U) R i j = .nan := by
  unfold Arith.matMul
  apply hsum.nan
  refine List.mem_map.2 ⟨k', List.mem_range.2 hk', ?_⟩
  rw [hsum.nan _ (List.mem_map.2 ⟨k, List.mem_range.2 hk, hL i⟩)]
  rfl

/-- A long series whose consecutive samples are close. -/
structure LongSlow (A : Arith) (w : ℝ) (x : List (List ℝ)) : Prop where
  slow : ∀ i, i + 1 < x.length → ∃ v, A.sqDist (x.getD i []) (x.getD (i + 1) []) = .num v ∧ v ≤ w / 16
  long : A.big ≤ 2 ^ (x.length - 1) / 2

/-- One long series whose consecutive samples are close makes every entry of `cdist_gak(X)` not-a-number, those of pairs of
short series included — for which `gak` gives a number (`C107_finite`). -/
theorem C107_false_cdist (hA : Rounding A.rnd u tiny) (hE : ExpLike A.exp) (hL : LogLike A.log) (hbig : 2 < A.big)
    {sum : List Fl → Fl} (hsum : Adds A.fit sum) {σ w : ℝ} (hw : A.width σ = .num w) (hw0 : 0 < w) (l : List (Ts ℝ)) (d : ℕ)
    (hwf : ∀ t ∈ l, t.WF ∧ t.d = d) (run) (hrun : Execution run) (M : Mat Fl)
    (h : A.cdistGak sum (.series l) none σ run = .ok M) (k : ℕ) (t : Ts ℝ) (hk : l[k]? = some t) (x : List (List ℝ))
    (hx : denan t.trim.rows = some x) (hls : LongSlow A w x) (i j : ℕ) : M i j = .nan := by
  unfold Arith.cdistGak at h
  simp only [bind, Except.bind, pure, Except.pure, throw, throwThe, MonadExceptOf.throw] at h
  split_ifs at h with hσ
  cases hX : toDataset (.series l) with
  | error e => simp [hX] at h
  | ok X =>
  cases hU : cdistOf (fun x y => .ok (A.unnorm x y σ)) (.num 0) true (.series l) none run with
  | error e => simp [hX, hU] at h
  | ok U =>
  simp only [hX, hU, Except.ok.injEq] at h
  subst h
  obtain ⟨sl, hs, -⟩ := slot_trim hwf hX hk
  have hlt := (List.getElem?_eq_some_iff.1 hs).1
  obtain ⟨x1, x2, hv, hx1, hx2, hfv⟩ := cdistOf_self_symm hwf hrun hU
    (fun x y _ _ => by rw [unnorm_comm hA (by linarith)]) (g := none) (code := 0) rfl hk hk
  obtain ⟨d1, d2, -⟩ := validatePair_ok hv
  have d1' : denan t.trim.rows = some x1 := d1
  have d2' : denan t.trim.rows = some x2 := d2
  rw [hx] at d1' d2'
  cases d1'
  cases d2'
  have hlost : (U k k).Lost := by
    rw [← Except.ok.inj hfv]; exact unnorm_lost hA hE hL hbig hw hw0 hx1 hls.slow hls.long
  refine matMul_lost hsum hlt hlt (k := k) (k' := k) ?_ i j
  intro i
  unfold Arith.diag
  split_ifs with hik
  · subst hik; exact (inv_sqrt_lost hA (by linarith) hlost).1
  · exact mul_zero_lost hlost

/-- The same for `cdist_gak(X, Y)` when such a series occurs in both datasets, as it does when an estimator is asked
about one of its training series. -/
theorem C107_false_cdist_query (hA : Rounding A.rnd u tiny) (hE : ExpLike A.exp) (hL : LogLike A.log) (hbig : 2 < A.big)
    {sum : List Fl → Fl} (hsum : Adds A.fit sum) {σ w : ℝ} (hw : A.width σ = .num w) (hw0 : 0 < w) (l l' : List (Ts ℝ)) (d : ℕ)
    (hwf : ∀ t ∈ l, t.WF ∧ t.d = d) (hwf' : ∀ t ∈ l', t.WF ∧ t.d = d) (run) (hrun : Execution run) (M : Mat Fl)
    (h : A.cdistGak sum (.series l) (some (.series l')) σ run = .ok M) (k k' : ℕ) (t t' : Ts ℝ) (hk : l[k]? = some t)
    (hk' : l'[k']? = some t') (x : List (List ℝ)) (hx : denan t.trim.rows = some x) (hx' : denan t'.trim.rows = some x)
    (hls : LongSlow A w x) (i j : ℕ) : M i j = .nan := by
  unfold Arith.cdistGak at h
  simp only [bind, Except.bind, pure, Except.pure, throw, throwThe, MonadExceptOf.throw] at h
  split_ifs at h with hσ
  cases hX : toDataset (.series l) with
  | error e => simp [hX] at h
  | ok X =>
  cases hU : cdistOf (fun x y => .ok (A.unnorm x y σ)) (.num 0) true (.series l) (some (.series l')) run with
  | error e => simp [hX, hU] at h
  | ok U =>
  cases hY : toDataset (.series l') with
  | error e => simp [hX, hU, hY] at h
  | ok Y =>
  simp only [hX, hU, hY] at h
  cases hLs : run (X.slots.map (A.selfK σ)) with
  | error e => simp [hLs] at h
  | ok L =>
  cases hRs : run (Y.slots.map (A.selfK σ)) with
  | error e => simp [hLs, hRs] at h
  | ok R =>
  simp only [hLs, hRs, Except.ok.injEq] at h
  subst h
  obtain ⟨sl, hs, hst⟩ := slot_trim hwf hX hk
  obtain ⟨sl', hs', -⟩ := slot_trim hwf' hY hk'
  obtain ⟨x1, x2, hv, hx1, hx2, hfv⟩ := cdistOf_cross hwf hwf' hrun hU (g := none) (code := 0) rfl hk hk'
  obtain ⟨d1, d2, -⟩ := validatePair_ok hv
  have d1' : denan t.trim.rows = some x1 := d1
  have d2' : denan t'.trim.rows = some x2 := d2
  rw [hx] at d1'
  rw [hx'] at d2'
  cases d1'
  cases d2'
  have hl : (A.unnorm x x σ).Lost := unnorm_lost hA hE hL hbig hw hw0 hx1 hls.slow hls.long
  have hlost : (U k k').Lost := by rw [← Except.ok.inj hfv]; exact hl
  have hUe : U k k' = A.unnorm x x σ := (Except.ok.inj hfv).symm
  obtain ⟨v, hv1, hr1⟩ := run_get hrun hLs (k := k) (by rw [List.getElem?_map, hs]; rfl)
  rw [Arith.selfK, onSlots_congr _ hst hst] at hr1
  simp only [onSlots, hx, hx1, or_self, if_false, Except.ok.injEq] at hr1
  refine matMul_lost hsum (List.getElem?_eq_some_iff.1 hs).1 (List.getElem?_eq_some_iff.1 hs').1 (k := k) (k' := k') ?_ i j
  intro i
  unfold Arith.diag
  split_ifs with hik
  · subst hik
    show A.mul (A.div (.num 1) (A.sqrt (L.getD i (.num 0)))) (U i k') = .nan
    rw [List.getD_eq_getElem?_getD, hv1, Option.getD_some, ← hr1, hUe]
    exact (inv_sqrt_lost hA (by linarith) hl).2
  · exact mul_zero_lost hlost


theorem sum_single {sum : List Fl → Fl} (hsum : Adds A.fit sum) {n i : ℕ} (hi : i < n) {f : ℕ → Fl} (hx : A.fit (f i) = f i)
    (h0 : ∀ k < n, k ≠ i → f k = .num 0) : sum ((List.range n).map f) = f i := by
  obtain ⟨m, rfl⟩ : ∃ m, n = i + (m + 1) := ⟨n - i - 1, by omega⟩
  rw [List.range_add, List.map_append, List.range_succ_eq_map, List.map_cons, List.map_cons, Nat.add_zero]
  refine hsum.zeros _ _ _ hx ?_
  intro z hz
  rw [List.mem_append] at hz
  rcases hz with hz | hz
  · obtain ⟨k, hk, rfl⟩ := List.mem_map.1 hz
    have := List.mem_range.1 hk
    exact h0 k (by omega) (by omega)
  · simp only [List.map_map, List.mem_map, List.mem_range, Function.comp] at hz
    obtain ⟨k, hk, rfl⟩ := hz
    exact h0 _ (by omega) (by omega)

theorem diag_zero (hA : Rounding A.rnd u tiny) (hbig : 1 < A.big) (v : ℝ) : A.mul (.num 0) (.num v) = .num 0 ∧ A.mul (.num v) (.num 0) = .num 0 := by
  have z : A.fit (.num 0) = .num 0 := fit_fix hA (rnd_zero hA) (by rw [abs_zero]; linarith)
  simp only [Arith.mul, Fl.mul, Fl.scale, zero_mul, mul_zero, z, and_self]

/-- Multiplying by diagonal matrices of numbers. -/
theorem diag_mul_diag (hA : Rounding A.rnd u tiny) (hbig : 1 < A.big) {sum : List Fl → Fl} (hsum : Adds A.fit sum) {n : ℕ} {D : ℕ → ℝ}
    {U : Mat Fl} (hU : ∀ i < n, ∀ j < n, ∃ v, U i j = .num v) (hDU : ∀ i < n, ∀ j < n, ∃ v, A.mul (.num (D i)) (U i j) = .num v)
    {i j : ℕ} (hi : i < n) (hj : j < n) :
    A.matMul sum n (A.matMul sum n (Arith.diag fun k => .num (D k)) U) (Arith.diag fun k => .num (D k)) i j =
      A.mul (A.mul (.num (D i)) (U i j)) (.num (D j)) := by
  have inner : ∀ k < n, A.matMul sum n (Arith.diag fun k => .num (D k)) U i k = A.mul (.num (D i)) (U i k) := by
    intro k hk
    unfold Arith.matMul
    have := sum_single (A := A) hsum hi (f := fun q => A.mul (Arith.diag (fun k => .num (D k)) i q) (U q k)) (fit_fit hA _) (by
      intro q hq hne
      obtain ⟨v, hv⟩ := hU q hq k hk
      simp only [Arith.diag, if_neg (Ne.symm hne), hv]
      exact (diag_zero hA hbig v).1)
    rw [this]
    simp only [Arith.diag, if_true]
  unfold Arith.matMul at inner ⊢
  have := sum_single (A := A) hsum hj (f := fun q => A.mul (A.matMul sum n (Arith.diag fun k => .num (D k)) U i q)
      (Arith.diag (fun k => .num (D k)) q j)) (fit_fit hA _) (by
    intro q hq hne
    obtain ⟨v, hv⟩ := hDU i hi q hq
    unfold Arith.matMul
    rw [inner q hq, hv]
    simp only [Arith.diag, if_neg hne]
    exact (diag_zero hA hbig v).2)
  unfold Arith.matMul at this
  rw [this, inner j hj]
  simp only [Arith.diag, if_true]

/-- `sqrt(1.0 / a)` for a self-kernel `a`. -/
theorem invSqrt (hA : Rounding A.rnd u tiny) (hbig : 2 < A.big) {a : ℝ} (ha : 1 ≤ a) :
    A.sqrt (A.div (.num 1) (.num a)) = .num (A.rnd (Real.sqrt (A.rnd (1 / a)))) ∧ 0 ≤ A.rnd (1 / a) ∧ A.rnd (1 / a) ≤ 1 ∧
      0 ≤ A.rnd (Real.sqrt (A.rnd (1 / a))) ∧ A.rnd (Real.sqrt (A.rnd (1 / a))) ≤ 1 := by
  have h0 : 0 ≤ 1 / a := by positivity
  have h1 : 1 / a ≤ 1 := by rw [div_le_one (by linarith)]; exact ha
  have h2 := rnd_nonneg hA h0
  have h3 := hA.mono h1
  rw [rnd_one hA] at h3
  have h4 : Real.sqrt (A.rnd (1 / a)) ≤ 1 := by exact (Real.sqrt_le_one).2 h3
  have h5 := rnd_nonneg hA (Real.sqrt_nonneg (A.rnd (1 / a)))
  have h6 := hA.mono h4
  rw [rnd_one hA] at h6
  refine ⟨?_, h2, h3, h5, h6⟩
  simp only [Arith.div, Arith.quot]
  rw [if_neg (by linarith), fit_num hA (by rw [abs_of_nonneg h2]; linarith)]
  simp only [Arith.sqrt, Arith.root]
  rw [if_neg (by linarith), fit_num hA (by rw [abs_of_nonneg h5]; linarith)]

theorem near_one' {u a e D m q : ℝ} (hu0 : 0 ≤ u) (hu : u ≤ 1 / 100) (ha : 1 ≤ a) (h1 : |e - 1 / a| ≤ u * (1 / a))
    (h2 : |D - Real.sqrt e| ≤ u * Real.sqrt e) (h3 : |m - D * a| ≤ u * (D * a)) (h4 : |q - m * D| ≤ u * (m * D)) :
    |q - 1| ≤ 6 * u := by
  rw [abs_le] at h1 h2 h3 h4
  have ha0 : 0 < a := by linarith
  have e1 : (1 - u) * (1 / a) ≤ e := by linarith
  have e2 : e ≤ (1 + u) * (1 / a) := by linarith
  have he : 0 < e := lt_of_lt_of_le (mul_pos (by linarith) (by positivity)) e1
  have hs := Real.sqrt_pos.2 he
  have hss := Real.mul_self_sqrt he.le
  set s := Real.sqrt e
  have d1 : (1 - u) * s ≤ D := by linarith
  have d2 : D ≤ (1 + u) * s := by linarith
  have hD : 0 < D := lt_of_lt_of_le (mul_pos (by linarith) hs) d1
  have dd1 : ((1 - u) * s) * ((1 - u) * s) ≤ D * D := mul_le_mul d1 d1 (mul_nonneg (by linarith) hs.le) hD.le
  have dd2 : D * D ≤ ((1 + u) * s) * ((1 + u) * s) := mul_le_mul d2 d2 hD.le (by positivity)
  have x1 : (1 - u) ^ 3 ≤ D * D * a := by
    have : (1 - u) ^ 2 * e ≤ D * D := by rw [← hss]; linarith
    have h5 : (1 - u) ^ 2 * ((1 - u) * (1 / a)) ≤ D * D := (mul_le_mul_of_nonneg_left e1 (by positivity)).trans this
    calc (1 - u) ^ 3 = (1 - u) ^ 2 * ((1 - u) * (1 / a)) * a := by field_simp
      _ ≤ _ := mul_le_mul_of_nonneg_right h5 ha0.le
  have x2 : D * D * a ≤ (1 + u) ^ 3 := by
    have : D * D ≤ (1 + u) ^ 2 * e := by rw [← hss]; linarith
    have h5 : D * D ≤ (1 + u) ^ 2 * ((1 + u) * (1 / a)) := this.trans (mul_le_mul_of_nonneg_left e2 (by positivity))
    calc D * D * a ≤ (1 + u) ^ 2 * ((1 + u) * (1 / a)) * a := mul_le_mul_of_nonneg_right h5 ha0.le
      _ = (1 + u) ^ 3 := by field_simp
  have m1 : (1 - u) * (D * a) ≤ m := by linarith
  have m2 : m ≤ (1 + u) * (D * a) := by linarith
  have y1 : (1 - u) * (D * D * a) ≤ m * D := by
    have := mul_le_mul_of_nonneg_right m1 hD.le
    linarith
  have y2 : m * D ≤ (1 + u) * (D * D * a) := by
    have := mul_le_mul_of_nonneg_right m2 hD.le
    linarith
  have z1 : (1 - u) ^ 5 ≤ q := by
    have h5 : (1 - u) * (m * D) ≤ q := by linarith
    have h6 : (1 - u) * ((1 - u) * (1 - u) ^ 3) ≤ (1 - u) * (m * D) :=
      mul_le_mul_of_nonneg_left ((mul_le_mul_of_nonneg_left x1 (by linarith)).trans y1) (by linarith)
    calc (1 - u) ^ 5 = (1 - u) * ((1 - u) * (1 - u) ^ 3) := by ring
      _ ≤ _ := h6.trans h5
  have z2 : q ≤ (1 + u) ^ 5 := by
    have h5 : q ≤ (1 + u) * (m * D) := by linarith
    have h6 : (1 + u) * (m * D) ≤ (1 + u) * ((1 + u) * (1 + u) ^ 3) :=
      mul_le_mul_of_nonneg_left (y2.trans (mul_le_mul_of_nonneg_left x2 (by linarith))) (by linarith)
    calc q ≤ (1 + u) * ((1 + u) * (1 + u) ^ 3) := h5.trans h6
      _ = (1 + u) ^ 5 := by ring
  have u2 : u ^ 2 ≤ u / 100 := by nlinarith
  have u3 : 0 ≤ u ^ 2 := by positivity
  have u4 : 0 ≤ u ^ 3 := by positivity
  have u5 : u ^ 3 ≤ u / 100 := by nlinarith
  have u6 : u ^ 4 ≤ u / 100 := by nlinarith
  have u7 : u ^ 5 ≤ u / 100 := by nlinarith [mul_nonneg u3 u3]
  have u8 : 0 ≤ u ^ 4 := by positivity
  have b1 : (1 + u) ^ 5 ≤ 1 + 6 * u := by
    have : (1 + u) ^ 5 = 1 + 5 * u + 10 * u ^ 2 + 10 * u ^ 3 + 5 * u ^ 4 + u ^ 5 := by ring
    nlinarith
  have b2 : 1 - 6 * u ≤ (1 - u) ^ 5 := by
    have : (1 - u) ^ 5 = 1 - 5 * u + 10 * u ^ 2 - 10 * u ^ 3 + 5 * u ^ 4 - u ^ 5 := by ring
    nlinarith
  rw [abs_le]
  constructor <;> linarith

theorem slots_length {l : List (Ts ℝ)} {d : ℕ} (hwf : ∀ t ∈ l, t.WF ∧ t.d = d) {X : Arr3 ℝ} (hX : toDataset (.series l) = .ok X) :
    X.slots.length = l.length := by
  cases l with
  | nil =>
    have e : toDatasetSeries [] = .ok X := hX
    simp only [toDatasetSeries] at e
    cases e
    simp [Arr3.slots]
  | cons t0 l =>
    have e : toDatasetSeries (t0 :: l) = .ok X := hX
    rw [toDatasetSeries_wf t0 l fun t ht => ⟨(hwf t ht).1, (hwf t ht).2.trans (hwf t0 (by simp)).2.symm⟩] at e
    cases e
    simp [Arr3.slots]

/-- When all series are short, `cdist_gak(X)` has nonnegative numbers only, and its diagonal is 1 up to six roundings. -/
theorem C107_cdist (hA : Rounding A.rnd u tiny) (hu0 : 0 ≤ u) (hu : u ≤ 1 / 100) (ht : tiny ≤ 1 / 2) (hE : ExpLike A.exp)
    (hL : LogLike A.log) (hbig : 2 < A.big) {sum : List Fl → Fl} (hsum : Adds A.fit sum) {σ w : ℝ} (hw : A.width σ = .num w)
    (hw0 : 0 < w) (l : List (Ts ℝ)) (d : ℕ) (hwf : ∀ t ∈ l, t.WF ∧ t.d = d) (N : ℕ) (hN : ∀ t ∈ l, t.trim.rows.length ≤ N)
    (h1 : (4 : ℝ) ^ (N + N) / 16 < A.big) (h2 : tiny ≤ 1 / (4 ^ (N + N) / 16)) (run) (hrun : Execution run) (M : Mat Fl)
    (h : A.cdistGak sum (.series l) none σ run = .ok M) (i j : ℕ) (hi : i < l.length) (hj : j < l.length) :
    ∃ v, M i j = .num v ∧ 0 ≤ v ∧ (i = j → |v - 1| ≤ 6 * u) := by
  unfold Arith.cdistGak at h
  simp only [bind, Except.bind, pure, Except.pure, throw, throwThe, MonadExceptOf.throw] at h
  split_ifs at h with hσ
  cases hX : toDataset (.series l) with
  | error e => simp [hX] at h
  | ok X =>
  cases hU : cdistOf (fun x y => .ok (A.unnorm x y σ)) (.num 0) true (.series l) none run with
  | error e => simp [hX, hU] at h
  | ok U =>
  simp only [hX, hU, Except.ok.injEq] at h
  subst h
  have hlen := slots_length hwf hX
  set B : ℝ := 4 ^ (N + N) / 16 with hB
  have entry : ∀ i < l.length, ∀ j < l.length, ∃ v, U i j = .num v ∧ 0 ≤ v ∧ v ≤ B ∧ (i = j → 1 ≤ v) := by
    intro i hi j hj
    obtain ⟨x, y, hv, hx, hy, hfv⟩ := cdistOf_self_symm hwf hrun hU
      (fun x y _ _ => by rw [unnorm_comm hA (by linarith)]) (g := none) (code := 0) rfl (List.getElem?_eq_getElem hi)
      (List.getElem?_eq_getElem hj)
    obtain ⟨d1, d2, -⟩ := validatePair_ok hv
    have lx : x.length ≤ N := by rw [denan_length d1]; exact hN _ (List.getElem_mem hi)
    have ly : y.length ≤ N := by rw [denan_length d2]; exact hN _ (List.getElem_mem hj)
    have hle : (4 : ℝ) ^ (x.length + y.length) / 16 ≤ B :=
      div_le_div_of_nonneg_right (pow_le_pow_right₀ (by norm_num) (by omega)) (by norm_num)
    obtain ⟨v, ev, v0, v1⟩ := unnorm_within hA hE hL hbig hw hw0 (y := y) hx (lt_of_le_of_lt hle h1)
    refine ⟨v, by rw [← Except.ok.inj hfv, ev], v0, v1.trans hle, ?_⟩
    rintro rfl
    rw [d1] at d2
    cases d2
    have := unnorm_self_ge hA hE hL hbig hw hw0 x
    rw [ev] at this
    exact this
  choose! V eV V0 VB V1 using entry
  have hD : ∀ i < l.length, A.sqrt (A.div (.num 1) (U i i)) = .num (A.rnd (Real.sqrt (A.rnd (1 / V i i)))) := by
    intro i hi
    rw [eV i hi i hi]
    exact (invSqrt hA hbig (V1 i hi i hi rfl)).1
  set D : ℕ → ℝ := fun i => A.rnd (Real.sqrt (A.rnd (1 / V i i))) with hDd
  have rB : A.rnd B = B := rnd_pow4 hA _
  have inner : ∀ i < l.length, ∀ j < l.length, ∃ m, A.mul (.num (D i)) (U i j) = .num m ∧ m = A.rnd (D i * V i j) ∧ 0 ≤ m ∧ m ≤ B := by
    intro i hi j hj
    obtain ⟨-, -, -, p1, p2⟩ := invSqrt hA hbig (V1 i hi i hi rfl)
    rw [eV i hi j hj]
    have q1 : 0 ≤ D i * V i j := mul_nonneg p1 (V0 i hi j hj)
    have q2 : D i * V i j ≤ B := (mul_le_of_le_one_left (V0 i hi j hj) p2).trans (VB i hi j hj)
    have q3 := rnd_nonneg hA q1
    have q4 := hA.mono q2
    rw [rB] at q4
    exact ⟨_, fit_num hA (by rw [abs_of_nonneg q3]; linarith), rfl, q3, q4⟩
  have hUn : ∀ i < X.slots.length, ∀ j < X.slots.length, ∃ v, U i j = .num v := by
    rw [hlen]; exact fun i hi j hj => ⟨_, eV i hi j hj⟩
  have hDU : ∀ i < X.slots.length, ∀ j < X.slots.length, ∃ v, A.mul (.num (D i)) (U i j) = .num v := by
    rw [hlen]; exact fun i hi j hj => (inner i hi j hj).imp fun _ h => h.1
  have main := diag_mul_diag hA (by linarith) hsum hUn hDU (D := D) (by rw [hlen]; exact hi) (by rw [hlen]; exact hj)
  have swap : A.matMul sum X.slots.length (A.matMul sum X.slots.length (Arith.diag fun i => A.sqrt (A.div (.num 1) (U i i))) U)
      (Arith.diag fun i => A.sqrt (A.div (.num 1) (U i i))) i j =
      A.matMul sum X.slots.length (A.matMul sum X.slots.length (Arith.diag fun k => .num (D k)) U) (Arith.diag fun k => .num (D k)) i j := by
    have hd : ∀ a b, a < l.length → Arith.diag (fun i => A.sqrt (A.div (.num 1) (U i i))) a b = Arith.diag (fun k => .num (D k)) a b := by
      intro a b ha
      simp only [Arith.diag, hD a ha]
      rfl
    unfold Arith.matMul
    congr 1
    apply List.map_congr_left
    intro k hk
    rw [List.mem_range, hlen] at hk
    rw [hd k j hk]
    congr 2
    apply List.map_congr_left
    intro q _
    rw [hd i q hi]
  obtain ⟨m, em, rm, m0, mB⟩ := inner i hi j hj
  obtain ⟨-, -, -, p1, p2⟩ := invSqrt hA hbig (V1 j hj j hj rfl)
  have q1 : 0 ≤ m * D j := mul_nonneg m0 p1
  have q2 : m * D j ≤ B := (mul_le_of_le_one_right m0 p2).trans mB
  have q3 := rnd_nonneg hA q1
  have q4 := hA.mono q2
  rw [rB] at q4
  refine ⟨A.rnd (m * D j), ?_, q3, ?_⟩
  · rw [swap, main, em]
    exact fit_num hA (by rw [abs_of_nonneg q3]; linarith)
  · rintro rfl
    have ha := V1 i hi i hi rfl
    have haB := VB i hi i hi
    set a := V i i
    have hB0 : 0 < B := by positivity
    have ia : tiny ≤ |1 / a| := by
      rw [abs_of_nonneg (by positivity)]
      exact h2.trans (one_div_le_one_div_of_le (by linarith) haB)
    have r1 := hA.rel _ ia
    rw [abs_of_nonneg (by positivity : 0 ≤ 1 / a)] at r1
    have he : (1 - u) * (1 / a) ≤ A.rnd (1 / a) := by linarith [(abs_le.1 r1).1]
    have he0 : 0 < A.rnd (1 / a) := lt_of_lt_of_le (mul_pos (by linarith) (by positivity)) he
    have he1 := (invSqrt hA hbig ha).2.2.1
    -- the root is at least its square
    have hsq : A.rnd (1 / a) ≤ Real.sqrt (A.rnd (1 / a)) := by
      have h5 := Real.sqrt_le_one.2 he1
      have h6 := Real.mul_self_sqrt he0.le
      have h7 := Real.sqrt_nonneg (A.rnd (1 / a))
      nlinarith
    have ta : tiny ≤ A.rnd (1 / a) ∨ tiny ≤ Real.sqrt (A.rnd (1 / a)) := by
      by_cases h8 : 0 ≤ tiny
      · right
        have h9 : (1 - u) * tiny ≤ A.rnd (1 / a) := by
          rw [abs_of_nonneg (by positivity : 0 ≤ 1 / a)] at ia
          exact (mul_le_mul_of_nonneg_left ia (by linarith)).trans he
        have h10 : tiny ^ 2 ≤ A.rnd (1 / a) := by nlinarith
        exact Real.le_sqrt_of_sq_le h10
      · left; linarith
    have r2 := hA.rel (Real.sqrt (A.rnd (1 / a))) (by
      rw [abs_of_nonneg (Real.sqrt_nonneg _)]
      rcases ta with h | h
      · exact h.trans hsq
      · exact h)
    rw [abs_of_nonneg (Real.sqrt_nonneg _)] at r2
    have hDi : D i = A.rnd (Real.sqrt (A.rnd (1 / a))) := rfl
    rw [← hDi] at r2 p1 p2
    -- the products are not tiny
    have hs2 := Real.mul_self_sqrt he0.le
    set s := Real.sqrt (A.rnd (1 / a)) with hs
    have hs0 : 0 < s := Real.sqrt_pos.2 he0
    have hs1 : s ≤ 1 := Real.sqrt_le_one.2 he1
    have Ds : (1 - u) * s ≤ D i := by linarith [(abs_le.1 r2).1]
    have hsa : (1 - u) ≤ s * a := by
      have h5 : (1 - u) ≤ s * s * a := by
        rw [hs2]
        calc (1 - u) = (1 - u) * (1 / a) * a := by field_simp
          _ ≤ _ := mul_le_mul_of_nonneg_right he (by linarith)
      have h6 : s * s * a ≤ s * a := by
        have : s * s ≤ s := by nlinarith
        exact mul_le_mul_of_nonneg_right this (by linarith)
      linarith
    have Da : 1 / 2 ≤ D i * a := by
      have h5 : (1 - u) * (s * a) ≤ D i * a := by
        have := mul_le_mul_of_nonneg_right Ds (by linarith : 0 ≤ a)
        linarith
      nlinarith
    have r3 := hA.rel (D i * a) (by rw [abs_of_nonneg (by linarith)]; linarith)
    rw [abs_of_nonneg (by linarith : 0 ≤ D i * a), ← rm] at r3
    have mD : 1 / 2 ≤ m * D i := by
      have h5 : (1 - u) * (D i * a) ≤ m := by linarith [(abs_le.1 r3).1]
      have h6 : (1 - u) * (D i * a) * D i ≤ m * D i := mul_le_mul_of_nonneg_right h5 p1
      have h7 : ((1 - u) * s) * ((1 - u) * s) ≤ D i * D i := mul_le_mul Ds Ds (mul_nonneg (by linarith) hs0.le) p1
      have h8 : (1 - u) * ((1 - u) * (1 - u) * (s * s * a)) ≤ (1 - u) * (D i * a) * D i := by
        have := mul_le_mul_of_nonneg_right h7 (by linarith : 0 ≤ a)
        have := mul_le_mul_of_nonneg_left this (by linarith : 0 ≤ 1 - u)
        linarith
      have h9 : (1 - u) ≤ s * s * a := by
        rw [hs2]
        calc (1 - u) = (1 - u) * (1 / a) * a := by field_simp
          _ ≤ _ := mul_le_mul_of_nonneg_right he (by linarith)
      have h10 : (99 / 100 : ℝ) ≤ 1 - u := by linarith
      have h11 : (99 / 100 : ℝ) * (99 / 100) ≤ (1 - u) * (1 - u) := mul_le_mul h10 h10 (by norm_num) (by linarith)
      have h12 : (99 / 100 : ℝ) * (99 / 100) * (99 / 100) ≤ (1 - u) * (1 - u) * (s * s * a) :=
        mul_le_mul h11 (h10.trans h9) (by norm_num) (mul_self_nonneg _)
      have h13 : (99 / 100 : ℝ) * ((99 / 100 : ℝ) * (99 / 100) * (99 / 100)) ≤ (1 - u) * ((1 - u) * (1 - u) * (s * s * a)) :=
        mul_le_mul h10 h12 (by norm_num) (by linarith)
      norm_num at h13
      linarith
    have r4 := hA.rel (m * D i) (by rw [abs_of_nonneg (by linarith)]; linarith)
    rw [abs_of_nonneg (by linarith : 0 ≤ m * D i)] at r4
    exact near_one' hu0 hu ha r1 r2 r3 r4

/-! ### The matrix and the function agree -/

/-- Two nonnegative numbers whose ratio is at most `(1 - u)⁻ᴺ` either way. -/
def CloseF (u : ℝ) (N : ℕ) (q T : ℝ) : Prop := 0 ≤ T ∧ (1 - u) ^ N * T ≤ q ∧ (1 - u) ^ N * q ≤ T

namespace CloseF
variable {N M : ℕ} {p q T S : ℝ}

theorem nonneg (hu : u ≤ 1) (h : CloseF u N q T) : 0 ≤ q :=
  (mul_nonneg (pow_nonneg (by linarith) _) h.1).trans h.2.1

theorem symm (hu : u ≤ 1) (h : CloseF u N q T) : CloseF u N T q := ⟨h.nonneg hu, h.2.2, h.2.1⟩

theorem trans (hu : u ≤ 1) (h : CloseF u N p q) (h' : CloseF u M q T) : CloseF u (N + M) p T := by
  have h1 : 0 ≤ (1 - u) ^ N := pow_nonneg (by linarith) _
  have h2 : 0 ≤ (1 - u) ^ M := pow_nonneg (by linarith) _
  refine ⟨h'.1, ?_, ?_⟩
  · calc (1 - u) ^ (N + M) * T = (1 - u) ^ N * ((1 - u) ^ M * T) := by ring
      _ ≤ (1 - u) ^ N * q := mul_le_mul_of_nonneg_left h'.2.1 h1
      _ ≤ p := h.2.1
  · calc (1 - u) ^ (N + M) * p = (1 - u) ^ M * ((1 - u) ^ N * p) := by ring
      _ ≤ (1 - u) ^ M * q := mul_le_mul_of_nonneg_left h.2.2 h2
      _ ≤ T := h'.2.2

theorem mul (hu : u ≤ 1) (h : CloseF u N p S) (h' : CloseF u M q T) : CloseF u (N + M) (p * q) (S * T) := by
  have h1 : 0 ≤ (1 - u) ^ N := pow_nonneg (by linarith) _
  have h2 : 0 ≤ (1 - u) ^ M := pow_nonneg (by linarith) _
  have hp := h.nonneg hu
  have hq := h'.nonneg hu
  refine ⟨mul_nonneg h.1 h'.1, ?_, ?_⟩
  · calc (1 - u) ^ (N + M) * (S * T) = ((1 - u) ^ N * S) * ((1 - u) ^ M * T) := by ring
      _ ≤ p * q := mul_le_mul h.2.1 h'.2.1 (mul_nonneg h2 h'.1) hp
  · calc (1 - u) ^ (N + M) * (p * q) = ((1 - u) ^ N * p) * ((1 - u) ^ M * q) := by ring
      _ ≤ S * T := mul_le_mul h.2.2 h'.2.2 (mul_nonneg h2 hq) h.1

theorem refl {T : ℝ} (h : 0 ≤ T) : CloseF u 0 T T := ⟨h, by simp, by simp⟩

theorem pos (hu : u < 1) (h : CloseF u N q T) (hT : 0 < T) : 0 < q :=
  lt_of_lt_of_le (mul_pos (pow_pos (by linarith) _) hT) h.2.1

theorem inv (hu : u < 1) (h : CloseF u N q T) (hT : 0 < T) : CloseF u N (1 / q) (1 / T) := by
  have hq := h.pos hu hT
  refine ⟨by positivity, ?_, ?_⟩
  · rw [mul_one_div, div_le_div_iff₀ hT hq]; linarith [h.2.2]
  · rw [mul_one_div, div_le_div_iff₀ hq hT]; linarith [h.2.1]

theorem sqrt (hu0 : 0 ≤ u) (hu : u ≤ 1) (h : CloseF u N q T) : CloseF u N (Real.sqrt q) (Real.sqrt T) := by
  have h1 : 0 ≤ (1 - u) ^ N := pow_nonneg (by linarith) _
  have h2 : (1 - u) ^ N ≤ 1 := pow_le_one₀ (by linarith) (by linarith)
  have h3 : ((1 - u) ^ N) ^ 2 ≤ (1 - u) ^ N := by nlinarith
  have hq := h.nonneg hu
  refine ⟨Real.sqrt_nonneg _, Real.le_sqrt_of_sq_le ?_, Real.le_sqrt_of_sq_le ?_⟩
  · rw [mul_pow, Real.sq_sqrt h.1]
    exact (mul_le_mul_of_nonneg_right h3 h.1).trans h.2.1
  · rw [mul_pow, Real.sq_sqrt hq]
    exact (mul_le_mul_of_nonneg_right h3 hq).trans h.2.2

theorem rnd (hA : Rounding A.rnd u tiny) (hu : u ≤ 1) (h0 : 0 ≤ q) (h : tiny ≤ q) : CloseF u 1 (A.rnd q) q := by
  have h1 := hA.rel q (by rwa [abs_of_nonneg h0])
  rw [abs_of_nonneg h0, abs_le] at h1
  have h2 : (1 - u) * A.rnd q ≤ (1 - u) * ((1 + u) * q) := mul_le_mul_of_nonneg_left (by linarith) (by linarith)
  have h3 : 0 ≤ u * u * q := mul_nonneg (mul_self_nonneg u) h0
  refine ⟨h0, ?_, ?_⟩
  · rw [pow_one]; linarith
  · rw [pow_one]; linarith

theorem ge (hu0 : 0 ≤ u) (hu : u ≤ 1 / 100) (hN : N ≤ 5) (h : CloseF u N q T) : 94 / 100 * T ≤ q := by
  refine le_trans (mul_le_mul_of_nonneg_right ?_ h.1) h.2.1
  calc (94 / 100 : ℝ) ≤ (1 - 1 / 100) ^ 5 := by norm_num
    _ ≤ (1 - u) ^ 5 := pow_le_pow_left₀ (by norm_num) (by linarith) _
    _ ≤ (1 - u) ^ N := pow_le_pow_of_le_one (by linarith) (by linarith) hN

end CloseF

theorem close_ten {v g : ℝ} (hu0 : 0 ≤ u) (hu : u ≤ 1 / 100) (h : CloseF u 10 v g) : |v - g| ≤ 12 * u * g := by
  have hb : 1 - 10 * u ≤ (1 - u) ^ 10 := by
    have := one_add_mul_le_pow (a := -u) (by linarith) 10
    push_cast at this
    rw [← sub_eq_add_neg] at this
    linarith
  have hg := h.1
  have hv := h.nonneg (by linarith)
  have h1 := mul_le_mul_of_nonneg_right hb hg
  have h2 := mul_le_mul_of_nonneg_right hb hv
  have h3 := h.2.1
  have h4 := h.2.2
  have h5 : (1 + 12 * u) * ((1 - 10 * u) * v) ≤ (1 + 12 * u) * g := mul_le_mul_of_nonneg_left (h2.trans h4) (by linarith)
  have h6 : v ≤ (1 + 12 * u) * ((1 - 10 * u) * v) := by
    have : 0 ≤ u * (2 - 120 * u) * v := mul_nonneg (mul_nonneg hu0 (by linarith)) hv
    linarith
  have h7 : 0 ≤ u * g := mul_nonneg hu0 hg
  rw [abs_le]
  constructor <;> linarith

/-- Normalising by two factors and by their product. -/
theorem norm_match (hA : Rounding A.rnd u tiny) (hu0 : 0 ≤ u) (hu : u ≤ 1 / 100) (ht0 : 0 ≤ tiny) {a b c D E p : ℝ} (ha : 1 ≤ a)
    (hb : 1 ≤ b) (hc : 0 ≤ c) (hD : CloseF u 2 D (1 / Real.sqrt a)) (hE : CloseF u 2 E (1 / Real.sqrt b))
    (hp : CloseF u 3 p (Real.sqrt a * Real.sqrt b)) (hg : 4 * tiny ≤ A.rnd (c / p)) :
    |A.rnd (A.rnd (D * c) * E) - A.rnd (c / p)| ≤ 12 * u * A.rnd (c / p) := by
  have hu1 : u ≤ 1 := by linarith
  have sa : 1 ≤ Real.sqrt a := Real.one_le_sqrt.2 ha
  have sb : 1 ≤ Real.sqrt b := Real.one_le_sqrt.2 hb
  have hs : 0 < Real.sqrt a * Real.sqrt b := by positivity
  have hp0 := hp.pos (by linarith) hs
  have hcp : 0 ≤ c / p := by positivity
  have h1 : tiny ≤ c / p := by
    by_contra hlt
    push Not at hlt
    have h2 := hA.mono hlt.le
    have h3 := hA.rel tiny (by rw [abs_of_nonneg ht0])
    rw [abs_of_nonneg ht0, abs_le] at h3
    have h4 : u * tiny ≤ 1 / 100 * tiny := mul_le_mul_of_nonneg_right hu ht0
    linarith
  set T := c / (Real.sqrt a * Real.sqrt b) with hT
  have c1 : CloseF u 3 (c / p) T := by
    have := (CloseF.refl (u := u) hc).mul hu1 (hp.inv (by linarith) hs)
    rwa [mul_one_div, mul_one_div, zero_add] at this
  have c2 : CloseF u 4 (A.rnd (c / p)) T := (CloseF.rnd hA hu1 hcp h1).trans hu1 c1
  have hTt : 3 * tiny ≤ T := by
    have := (c2.symm hu1).ge hu0 hu (by norm_num)
    linarith
  have c3 : CloseF u 2 (D * c) (c / Real.sqrt a) := by
    have := hD.mul hu1 (CloseF.refl (u := u) hc)
    rwa [one_div_mul_eq_div, add_zero] at this
  have hle : T ≤ c / Real.sqrt a := by
    rw [hT, ← div_div]
    exact div_le_self (by positivity) sb
  have h2 : tiny ≤ D * c := by
    have := c3.ge hu0 hu (by norm_num)
    linarith
  have c4 : CloseF u 3 (A.rnd (D * c)) (c / Real.sqrt a) := (CloseF.rnd hA hu1 (c3.nonneg hu1) h2).trans hu1 c3
  have c5 : CloseF u 5 (A.rnd (D * c) * E) T := by
    have := c4.mul hu1 hE
    rwa [mul_one_div, div_div] at this
  have h3 : tiny ≤ A.rnd (D * c) * E := by
    have := c5.ge hu0 hu (by norm_num)
    linarith
  have c6 : CloseF u 6 (A.rnd (A.rnd (D * c) * E)) T := (CloseF.rnd hA hu1 (c5.nonneg hu1) h3).trans hu1 c5
  exact close_ten hu0 hu (c6.trans hu1 (c2.symm hu1))

theorem invSqrt_close (hA : Rounding A.rnd u tiny) (hu0 : 0 ≤ u) (hu : u ≤ 1 / 100) (ht0 : 0 ≤ tiny) (ht : tiny ≤ 1 / 4) {a : ℝ}
    (ha : 1 ≤ a) (hta : tiny ≤ 1 / a) : CloseF u 2 (A.rnd (Real.sqrt (A.rnd (1 / a)))) (1 / Real.sqrt a) := by
  have hu1 : u ≤ 1 := by linarith
  have c1 : CloseF u 1 (A.rnd (1 / a)) (1 / a) := CloseF.rnd hA hu1 (by positivity) hta
  have c2 := c1.sqrt hu0 hu1
  rw [Real.sqrt_div zero_le_one, Real.sqrt_one] at c2
  refine (CloseF.rnd hA hu1 (Real.sqrt_nonneg _) ?_).trans hu1 c2
  apply Real.le_sqrt_of_sq_le
  have := c1.ge hu0 hu (by norm_num)
  nlinarith

/-- `1.0 / sqrt(a)` for a self-kernel `a`. -/
theorem sqrtInv_close (hA : Rounding A.rnd u tiny) (hu0 : 0 ≤ u) (hu : u ≤ 1 / 100) (ht0 : 0 ≤ tiny) (ht : tiny ≤ 1 / 4) {a : ℝ}
    (ha : 1 ≤ a) (hta : tiny ≤ 1 / a) : CloseF u 2 (A.rnd (1 / A.rnd (Real.sqrt a))) (1 / Real.sqrt a) := by
  have hu1 : u ≤ 1 := by linarith
  have sa : 1 ≤ Real.sqrt a := Real.one_le_sqrt.2 ha
  have c1 : CloseF u 1 (A.rnd (Real.sqrt a)) (Real.sqrt a) := CloseF.rnd hA hu1 (by linarith) (by linarith)
  have c2 := c1.inv (by linarith) (by linarith)
  refine (CloseF.rnd hA hu1 (c2.nonneg hu1) ?_).trans hu1 c2
  have h1 := c2.ge hu0 hu (by norm_num)
  have h2 : 3 / 2 * tiny ≤ 1 / Real.sqrt a := by
    have hs := Real.mul_self_sqrt (by linarith : 0 ≤ a)
    rw [le_div_iff₀ (by linarith)]
    rw [le_div_iff₀ (by linarith)] at hta
    by_cases h4 : Real.sqrt a ≤ 2
    · nlinarith
    · push Not at h4
      have : Real.sqrt a * 2 ≤ a := by nlinarith
      nlinarith
  linarith

theorem denom_close (hA : Rounding A.rnd u tiny) (hu : u ≤ 1 / 100) (ht : tiny ≤ 1 / 4) {a b : ℝ} (ha : 1 ≤ a) (hb : 1 ≤ b) :
    CloseF u 3 (A.rnd (A.rnd (Real.sqrt a) * A.rnd (Real.sqrt b))) (Real.sqrt a * Real.sqrt b) := by
  have hu1 : u ≤ 1 := by linarith
  have one : ∀ {a : ℝ}, 1 ≤ a → 1 ≤ A.rnd (Real.sqrt a) ∧ CloseF u 1 (A.rnd (Real.sqrt a)) (Real.sqrt a) := by
    intro a ha
    have sa : 1 ≤ Real.sqrt a := Real.one_le_sqrt.2 ha
    have := hA.mono sa
    rw [rnd_one hA] at this
    exact ⟨this, CloseF.rnd hA hu1 (by linarith) (by linarith)⟩
  obtain ⟨a1, ca⟩ := one ha
  obtain ⟨b1, cb⟩ := one hb
  have h1 : 1 ≤ A.rnd (Real.sqrt a) * A.rnd (Real.sqrt b) := one_le_mul_of_one_le_of_one_le a1 b1
  exact (CloseF.rnd hA hu1 (by linarith) (by linarith)).trans hu1 (ca.mul hu1 cb)

/-- Short series: the sums over alignments and the kernel as numbers. -/
theorem gakF_value (hA : Rounding A.rnd u tiny) (hE : ExpLike A.exp) (hL : LogLike A.log) (hbig : 2 < A.big) {σ w : ℝ}
    (hw : A.width σ = .num w) (hw0 : 0 < w) {x y : List (List ℝ)} (hx : x ≠ []) (hy : y ≠ []) {N : ℕ} (lx : x.length ≤ N)
    (ly : y.length ≤ N) (h1 : (4 : ℝ) ^ (N + N) / 16 < A.big) :
    ∃ a b c, A.unnorm x x σ = .num a ∧ A.unnorm y y σ = .num b ∧ A.unnorm x y σ = .num c ∧ 1 ≤ a ∧ a ≤ 4 ^ (N + N) / 16 ∧ 1 ≤ b ∧
      b ≤ 4 ^ (N + N) / 16 ∧ 0 ≤ c ∧ c ≤ 4 ^ (N + N) / 16 ∧
      A.gakGeneric x y σ = .num (A.rnd (c / A.rnd (A.rnd (Real.sqrt a) * A.rnd (Real.sqrt b)))) := by
  have up : ∀ {n : ℕ}, n ≤ N + N → (4 : ℝ) ^ n / 16 ≤ 4 ^ (N + N) / 16 := fun h =>
    div_le_div_of_nonneg_right (pow_le_pow_right₀ (by norm_num) h) (by norm_num)
  obtain ⟨a, ea, a0, a1⟩ := unnorm_within hA hE hL hbig hw hw0 (y := x) hx (lt_of_le_of_lt (up (by omega)) h1)
  obtain ⟨b, eb, b0, b1⟩ := unnorm_within hA hE hL hbig hw hw0 (y := y) hy (lt_of_le_of_lt (up (by omega)) h1)
  have h3 := lt_of_le_of_lt (up (n := x.length + y.length) (by omega)) h1
  obtain ⟨c, ec, c0, c1⟩ := unnorm_within hA hE hL hbig hw hw0 (y := y) hx h3
  have ga := unnorm_self_ge hA hE hL hbig hw hw0 x
  have gb := unnorm_self_ge hA hE hL hbig hw hw0 y
  rw [ea] at ga
  rw [eb] at gb
  refine ⟨a, b, c, ea, eb, ec, ga, a1.trans (up (by omega)), gb, b1.trans (up (by omega)), c0, c1.trans (up (by omega)), ?_⟩
  obtain ⟨p, ep, p1, rfl⟩ := denomF hA (List.length_pos_iff.2 hx) (List.length_pos_iff.2 hy) h3 ga gb a1 b1
  obtain ⟨v, ev, v0, v1⟩ := Within.fit hA h3 (rnd_pow4 hA _) (div_nonneg c0 (zero_le_one.trans p1)) ((div_le_self c0 p1).trans c1)
  unfold Arith.gakGeneric
  simp only [ea, eb, ec, ep, Arith.div, Arith.quot]
  rw [if_neg (by linarith)]
  have q0 := rnd_nonneg hA (div_nonneg c0 (zero_le_one.trans p1))
  have q1 := hA.mono ((div_le_self c0 p1).trans c1)
  rw [rnd_pow4 hA] at q1
  exact fit_num hA (by rw [abs_of_nonneg q0]; linarith)

/-- Scaling rows and columns by factors up to 1. -/
theorem scaled_entry (hA : Rounding A.rnd u tiny) (hbig : 1 < A.big) {sum : List Fl → Fl} (hsum : Adds A.fit sum) {n1 n2 : ℕ}
    {L R : ℕ → Fl} {U : Mat Fl} {B : ℝ} (hB : B < A.big) (rB : A.rnd B = B)
    (hL : ∀ i < n1, ∃ D, L i = .num D ∧ 0 ≤ D ∧ D ≤ 1) (hR : ∀ j < n2, ∃ E, R j = .num E ∧ 0 ≤ E ∧ E ≤ 1)
    (hU : ∀ i < n1, ∀ j < n2, ∃ c, U i j = .num c ∧ 0 ≤ c ∧ c ≤ B) {i j : ℕ} (hi : i < n1) (hj : j < n2) {D E c : ℝ}
    (eD : L i = .num D) (eE : R j = .num E) (ec : U i j = .num c) :
    A.matMul sum n2 (A.matMul sum n1 (Arith.diag L) U) (Arith.diag R) i j = .num (A.rnd (A.rnd (D * c) * E)) ∧
      0 ≤ A.rnd (A.rnd (D * c) * E) := by
  obtain ⟨D', eD', D0, D1⟩ := hL i hi
  obtain rfl : D = D' := by rw [eD] at eD'; exact Fl.num.inj eD'
  have inner : ∀ k < n2, ∃ m, A.matMul sum n1 (Arith.diag L) U i k = .num m ∧ 0 ≤ m ∧ m ≤ B ∧
      (∀ c, U i k = .num c → m = A.rnd (D * c)) := by
    intro k hk
    obtain ⟨c, ec, c0, c1⟩ := hU i hi k hk
    have e : A.matMul sum n1 (Arith.diag L) U i k = A.mul (L i) (U i k) := by
      unfold Arith.matMul
      have := sum_single (A := A) hsum hi (f := fun q => A.mul (Arith.diag L i q) (U q k)) (fit_fit hA _) (by
        intro q hq hne
        obtain ⟨v, hv, -⟩ := hU q hq k hk
        simp only [Arith.diag, if_neg (Ne.symm hne), hv]
        exact (diag_zero hA hbig v).1)
      rw [this]
      simp only [Arith.diag, if_true]
    have q1 : 0 ≤ D * c := mul_nonneg D0 c0
    have q2 : D * c ≤ B := (mul_le_of_le_one_left c0 D1).trans c1
    have q3 := rnd_nonneg hA q1
    have q4 := hA.mono q2
    rw [rB] at q4
    refine ⟨A.rnd (D * c), ?_, q3, q4, ?_⟩
    · rw [e, eD, ec]
      exact fit_num hA (by rw [abs_of_nonneg q3]; linarith)
    · intro c' hc'
      rw [ec] at hc'
      cases hc'
      rfl
  obtain ⟨E', eE', E0, E1⟩ := hR j hj
  obtain rfl : E = E' := by rw [eE] at eE'; exact Fl.num.inj eE'
  obtain ⟨m, em, m0, m1, hm⟩ := inner j hj
  obtain rfl := hm c ec
  have outer : A.matMul sum n2 (A.matMul sum n1 (Arith.diag L) U) (Arith.diag R) i j =
      A.mul (A.matMul sum n1 (Arith.diag L) U i j) (R j) := by
    have := sum_single (A := A) hsum hj (f := fun q => A.mul (A.matMul sum n1 (Arith.diag L) U i q) (Arith.diag R q j))
      (fit_fit hA _) (by
        intro q hq hne
        obtain ⟨v, hv, -⟩ := inner q hq
        rw [hv]
        simp only [Arith.diag, if_neg hne]
        exact (diag_zero hA hbig v).2)
    rw [show A.matMul sum n2 (A.matMul sum n1 (Arith.diag L) U) (Arith.diag R) i j =
      sum ((List.range n2).map fun q => A.mul (A.matMul sum n1 (Arith.diag L) U i q) (Arith.diag R q j)) from rfl, this]
    simp only [Arith.diag, if_true]
  have q1 : 0 ≤ A.rnd (D * c) * E := mul_nonneg m0 E0
  have q2 : A.rnd (D * c) * E ≤ B := (mul_le_of_le_one_right m0 E1).trans m1
  have q3 := rnd_nonneg hA q1
  have q4 := hA.mono q2
  rw [rB] at q4
  refine ⟨?_, q3⟩
  rw [outer, em, eE]
  exact fit_num hA (by rw [abs_of_nonneg q3]; linarith)

/-- Short series: every entry of `cdist_gak(X)` is a number, and equals `gak` of its two series up to twelve roundings unless
that is close to underflow. -/
theorem C107_cdist_entries (hA : Rounding A.rnd u tiny) (hu0 : 0 ≤ u) (hu : u ≤ 1 / 100) (ht0 : 0 ≤ tiny) (ht : tiny ≤ 1 / 4)
    (hE : ExpLike A.exp) (hL : LogLike A.log) (hbig : 2 < A.big) {sum : List Fl → Fl} (hsum : Adds A.fit sum) {σ w : ℝ}
    (hw : A.width σ = .num w) (hw0 : 0 < w) (l : List (Ts ℝ)) (d : ℕ) (hwf : ∀ t ∈ l, t.WF ∧ t.d = d) (N : ℕ)
    (hN : ∀ t ∈ l, t.trim.rows.length ≤ N) (h1 : (4 : ℝ) ^ (N + N) / 16 < A.big) (h2 : tiny ≤ 1 / (4 ^ (N + N) / 16)) (run)
    (hrun : Execution run) (M : Mat Fl) (h : A.cdistGak sum (.series l) none σ run = .ok M) (i j : ℕ) (t t' : Ts ℝ)
    (hi : l[i]? = some t) (hj : l[j]? = some t') :
    ∃ g v, A.gak (.twoD t.rows) (.twoD t'.rows) σ = .ok (.num g) ∧ M i j = .num v ∧ 0 ≤ v ∧
      (4 * tiny ≤ g → |v - g| ≤ 12 * u * g) := by
  unfold Arith.cdistGak at h
  simp only [bind, Except.bind, pure, Except.pure, throw, throwThe, MonadExceptOf.throw] at h
  split_ifs at h with hσ
  cases hX : toDataset (.series l) with
  | error e => simp [hX] at h
  | ok X =>
  cases hU : cdistOf (fun x y => .ok (A.unnorm x y σ)) (.num 0) true (.series l) none run with
  | error e => simp [hX, hU] at h
  | ok U =>
  simp only [hX, hU, Except.ok.injEq] at h
  subst h
  have hlen := slots_length hwf hX
  have entry : ∀ {i j : ℕ} {t t' : Ts ℝ}, l[i]? = some t → l[j]? = some t' → ∃ x y, denan t.trim.rows = some x ∧
      denan t'.trim.rows = some y ∧ gakArgs (.twoD t.rows) (.twoD t'.rows) σ = .ok (x, y) ∧ x ≠ [] ∧ y ≠ [] ∧ x.length ≤ N ∧
      y.length ≤ N ∧ U i j = A.unnorm x y σ := by
    intro i j t t' hi hj
    obtain ⟨x, y, hv, hx, hy, hfv⟩ := cdistOf_self_symm hwf hrun hU
      (fun x y _ _ => by rw [unnorm_comm hA (by linarith)]) (g := none) (code := 0) rfl hi hj
    obtain ⟨d1, d2, -⟩ := validatePair_ok hv
    exact ⟨x, y, d1, d2, gakArgs_of_validatePair hσ hv, hx, hy, by rw [denan_length d1]; exact hN _ (List.mem_of_getElem? hi),
      by rw [denan_length d2]; exact hN _ (List.mem_of_getElem? hj), (Except.ok.inj hfv).symm⟩
  have self : ∀ {i : ℕ} {t : Ts ℝ} {x : List (List ℝ)}, l[i]? = some t → denan t.trim.rows = some x → U i i = A.unnorm x x σ := by
    intro i t x hi hx
    obtain ⟨y, z, d1, d2, -, -, -, -, -, e⟩ := entry hi hi
    rw [hx] at d1 d2
    cases d1
    cases d2
    exact e
  have hD : ∀ i < X.slots.length, ∃ D, A.sqrt (A.div (.num 1) (U i i)) = .num D ∧ 0 ≤ D ∧ D ≤ 1 := by
    intro i hi
    rw [hlen] at hi
    obtain ⟨x, -, d1, -, -, hx, -, lx, -, -⟩ := entry (List.getElem?_eq_getElem hi) (List.getElem?_eq_getElem hi)
    obtain ⟨a, -, -, ea, -, -, a1, -⟩ := gakF_value hA hE hL hbig hw hw0 hx hx lx lx h1
    obtain ⟨p1, -, -, p2, p3⟩ := invSqrt hA hbig a1
    exact ⟨_, by rw [self (List.getElem?_eq_getElem hi) d1, ea]; exact p1, p2, p3⟩
  have hUn : ∀ i < X.slots.length, ∀ j < X.slots.length, ∃ c, U i j = .num c ∧ 0 ≤ c ∧ c ≤ 4 ^ (N + N) / 16 := by
    intro i hi j hj
    rw [hlen] at hi hj
    obtain ⟨x, y, -, -, -, hx, hy, lx, ly, e⟩ := entry (List.getElem?_eq_getElem hi) (List.getElem?_eq_getElem hj)
    obtain ⟨-, -, c, -, -, ec, -, -, -, -, c0, c1, -⟩ := gakF_value hA hE hL hbig hw hw0 hx hy lx ly h1
    exact ⟨c, by rw [e, ec], c0, c1⟩
  obtain ⟨x, y, dx, dy, hg, hx, hy, lx, ly, eU⟩ := entry hi hj
  obtain ⟨a, b, c, ea, eb, ec, a1, aB, b1, bB, c0, cB, eg⟩ := gakF_value hA hE hL hbig hw hw0 hx hy lx ly h1
  have hi' : i < X.slots.length := by rw [hlen]; exact (List.getElem?_eq_some_iff.1 hi).1
  have hj' : j < X.slots.length := by rw [hlen]; exact (List.getElem?_eq_some_iff.1 hj).1
  have ta : ∀ {a : ℝ}, 1 ≤ a → a ≤ 4 ^ (N + N) / 16 → tiny ≤ 1 / a := fun h h' => h2.trans (one_div_le_one_div_of_le (by linarith) h')
  obtain ⟨e1, e2⟩ := scaled_entry hA (by linarith) hsum h1 (rnd_pow4 hA _) hD hD hUn hi' hj'
    (by rw [self hi dx, ea]; exact (invSqrt hA hbig a1).1) (by rw [self hj dy, eb]; exact (invSqrt hA hbig b1).1) (eU.trans ec)
  refine ⟨_, _, by rw [gakF_ok hg, eg], e1, e2, ?_⟩
  exact norm_match hA hu0 hu ht0 a1 b1 c0 (invSqrt_close hA hu0 hu ht0 ht a1 (ta a1 aB)) (invSqrt_close hA hu0 hu ht0 ht b1 (ta b1 bB))
    (denom_close hA hu ht a1 b1)

theorem sqrtInv (hA : Rounding A.rnd u tiny) {N : ℕ} (hN : 0 < N) (h1 : (4 : ℝ) ^ (N + N) / 16 < A.big) (hbig : 2 < A.big) {a : ℝ}
    (ha : 1 ≤ a) (haB : a ≤ 4 ^ (N + N) / 16) :
    A.div (.num 1) (A.sqrt (.num a)) = .num (A.rnd (1 / A.rnd (Real.sqrt a))) ∧ 0 ≤ A.rnd (1 / A.rnd (Real.sqrt a)) ∧
      A.rnd (1 / A.rnd (Real.sqrt a)) ≤ 1 := by
  have hb : (4 : ℝ) ^ N / 4 ≤ 4 ^ (N + N) / 16 := by
    have h4 : (4 : ℝ) ≤ 4 ^ N := by
      calc (4 : ℝ) = 4 ^ 1 := by norm_num
        _ ≤ 4 ^ N := pow_le_pow_right₀ (by norm_num) hN
    rw [pow_add]
    have : 0 ≤ ((4 : ℝ) ^ N - 4) * 4 ^ N := mul_nonneg (by linarith) (by positivity)
    linarith
  obtain ⟨s, es, rfl, s1, -⟩ := sqrtF hA (b := 4 ^ N / 4) ha (by positivity) (by rw [div_pow, ← pow_mul, mul_comm N 2, two_mul]; norm_num; exact haB)
    (rnd_pow4' hA N) (lt_of_le_of_lt hb h1)
  have h0 : 0 ≤ 1 / A.rnd (Real.sqrt a) := by positivity
  have h3 : 1 / A.rnd (Real.sqrt a) ≤ 1 := by rw [div_le_one (by linarith)]; exact s1
  have q0 := rnd_nonneg hA h0
  have q1 := hA.mono h3
  rw [rnd_one hA] at q1
  refine ⟨?_, q0, q1⟩
  rw [es]
  simp only [Arith.div, Arith.quot]
  rw [if_neg (by linarith), fit_num hA (by rw [abs_of_nonneg q0]; linarith)]

/-- The same for `cdist_gak(X, Y)`. -/
theorem C107_cdist_query (hA : Rounding A.rnd u tiny) (hu0 : 0 ≤ u) (hu : u ≤ 1 / 100) (ht0 : 0 ≤ tiny) (ht : tiny ≤ 1 / 4)
    (hE : ExpLike A.exp) (hL : LogLike A.log) (hbig : 2 < A.big) {sum : List Fl → Fl} (hsum : Adds A.fit sum) {σ w : ℝ}
    (hw : A.width σ = .num w) (hw0 : 0 < w) (l l' : List (Ts ℝ)) (d : ℕ) (hwf : ∀ t ∈ l, t.WF ∧ t.d = d)
    (hwf' : ∀ t ∈ l', t.WF ∧ t.d = d) (N : ℕ)
    (hN : ∀ t ∈ l ++ l', t.trim.rows.length ≤ N) (h1 : (4 : ℝ) ^ (N + N) / 16 < A.big) (h2 : tiny ≤ 1 / (4 ^ (N + N) / 16)) (run)
    (hrun : Execution run) (M : Mat Fl) (h : A.cdistGak sum (.series l) (some (.series l')) σ run = .ok M) (i j : ℕ) (t t' : Ts ℝ)
    (hi : l[i]? = some t) (hj : l'[j]? = some t') :
    ∃ g v, A.gak (.twoD t.rows) (.twoD t'.rows) σ = .ok (.num g) ∧ M i j = .num v ∧ 0 ≤ v ∧
      (4 * tiny ≤ g → |v - g| ≤ 12 * u * g) := by
  unfold Arith.cdistGak at h
  simp only [bind, Except.bind, pure, Except.pure, throw, throwThe, MonadExceptOf.throw] at h
  split_ifs at h with hσ
  cases hX : toDataset (.series l) with
  | error e => simp [hX] at h
  | ok X =>
  cases hU : cdistOf (fun x y => .ok (A.unnorm x y σ)) (.num 0) true (.series l) (some (.series l')) run with
  | error e => simp [hX, hU] at h
  | ok U =>
  cases hY : toDataset (.series l') with
  | error e => simp [hX, hU, hY] at h
  | ok Y =>
  simp only [hX, hU, hY] at h
  cases hLs : run (X.slots.map (A.selfK σ)) with
  | error e => simp [hLs] at h
  | ok L =>
  cases hRs : run (Y.slots.map (A.selfK σ)) with
  | error e => simp [hLs, hRs] at h
  | ok R =>
  simp only [hLs, hRs, Except.ok.injEq] at h
  subst h
  have hlen := slots_length hwf hX
  have hlen' := slots_length hwf' hY
  have entry : ∀ {i j : ℕ} {t t' : Ts ℝ}, l[i]? = some t → l'[j]? = some t' → ∃ x y, denan t.trim.rows = some x ∧
      denan t'.trim.rows = some y ∧ gakArgs (.twoD t.rows) (.twoD t'.rows) σ = .ok (x, y) ∧ x ≠ [] ∧ y ≠ [] ∧ x.length ≤ N ∧
      y.length ≤ N ∧ U i j = A.unnorm x y σ := by
    intro i j t t' hi hj
    obtain ⟨x, y, hv, hx, hy, hfv⟩ := cdistOf_cross hwf hwf' hrun hU (g := none) (code := 0) rfl hi hj
    obtain ⟨d1, d2, -⟩ := validatePair_ok hv
    exact ⟨x, y, d1, d2, gakArgs_of_validatePair hσ hv, hx, hy,
      by rw [denan_length d1]; exact hN _ (List.mem_append_left _ (List.mem_of_getElem? hi)),
      by rw [denan_length d2]; exact hN _ (List.mem_append_right _ (List.mem_of_getElem? hj)), (Except.ok.inj hfv).symm⟩
  have self : ∀ {l : List (Ts ℝ)} {X : Arr3 ℝ} {L : List Fl}, (∀ t ∈ l, t.WF ∧ t.d = d) → toDataset (.series l) = .ok X →
      run (X.slots.map (A.selfK σ)) = .ok L → ∀ {i : ℕ} {t : Ts ℝ} {x : List (List ℝ)}, l[i]? = some t →
      denan t.trim.rows = some x → x ≠ [] → L.getD i (.num 0) = A.unnorm x x σ := by
    intro l X L hwf hX hLs i t x hi hx hx0
    obtain ⟨sl, hs, hst⟩ := slot_trim hwf hX hi
    obtain ⟨v, hv1, hr1⟩ := run_get hrun hLs (k := i) (by rw [List.getElem?_map, hs]; rfl)
    rw [Arith.selfK, onSlots_congr _ hst hst] at hr1
    simp only [onSlots, hx, hx0, or_self, if_false, Except.ok.injEq] at hr1
    rw [List.getD_eq_getElem?_getD, hv1, Option.getD_some, hr1]
  have hNp : 0 < N := by
    obtain ⟨x, -, -, -, -, hx, -, lx, -⟩ := entry hi hj
    exact lt_of_lt_of_le (List.length_pos_iff.2 hx) lx
  have hi0 := (List.getElem?_eq_some_iff.1 hi).1
  have hj0 := (List.getElem?_eq_some_iff.1 hj).1
  have hD : ∀ i < X.slots.length, ∃ D, A.div (.num 1) (A.sqrt (L.getD i (.num 0))) = .num D ∧ 0 ≤ D ∧ D ≤ 1 := by
    intro i hi
    rw [hlen] at hi
    obtain ⟨x, -, d1, -, -, hx, -, lx, -, -⟩ := entry (List.getElem?_eq_getElem hi) hj
    obtain ⟨a, -, -, ea, -, -, a1, aB, -⟩ := gakF_value hA hE hL hbig hw hw0 hx hx lx lx h1
    obtain ⟨p1, p2, p3⟩ := sqrtInv hA hNp h1 hbig a1 aB
    exact ⟨_, by rw [self hwf hX hLs (List.getElem?_eq_getElem hi) d1 hx, ea]; exact p1, p2, p3⟩
  have hR : ∀ j < Y.slots.length, ∃ D, A.div (.num 1) (A.sqrt (R.getD j (.num 0))) = .num D ∧ 0 ≤ D ∧ D ≤ 1 := by
    intro j hj
    rw [hlen'] at hj
    obtain ⟨-, x, -, d1, -, -, hx, -, lx, -⟩ := entry hi (List.getElem?_eq_getElem hj)
    obtain ⟨a, -, -, ea, -, -, a1, aB, -⟩ := gakF_value hA hE hL hbig hw hw0 hx hx lx lx h1
    obtain ⟨p1, p2, p3⟩ := sqrtInv hA hNp h1 hbig a1 aB
    exact ⟨_, by rw [self hwf' hY hRs (List.getElem?_eq_getElem hj) d1 hx, ea]; exact p1, p2, p3⟩
  have hUn : ∀ i < X.slots.length, ∀ j < Y.slots.length, ∃ c, U i j = .num c ∧ 0 ≤ c ∧ c ≤ 4 ^ (N + N) / 16 := by
    intro i hi j hj
    rw [hlen] at hi
    rw [hlen'] at hj
    obtain ⟨x, y, -, -, -, hx, hy, lx, ly, e⟩ := entry (List.getElem?_eq_getElem hi) (List.getElem?_eq_getElem hj)
    obtain ⟨-, -, c, -, -, ec, -, -, -, -, c0, c1, -⟩ := gakF_value hA hE hL hbig hw hw0 hx hy lx ly h1
    exact ⟨c, by rw [e, ec], c0, c1⟩
  obtain ⟨x, y, dx, dy, hg, hx, hy, lx, ly, eU⟩ := entry hi hj
  obtain ⟨a, b, c, ea, eb, ec, a1, aB, b1, bB, c0, cB, eg⟩ := gakF_value hA hE hL hbig hw hw0 hx hy lx ly h1
  have ta : ∀ {a : ℝ}, 1 ≤ a → a ≤ 4 ^ (N + N) / 16 → tiny ≤ 1 / a := fun h h' => h2.trans (one_div_le_one_div_of_le (by linarith) h')
  obtain ⟨e1, e2⟩ := scaled_entry hA (by linarith) hsum h1 (rnd_pow4 hA _) hD hR hUn (by rw [hlen]; exact hi0) (by rw [hlen']; exact hj0)
    (by rw [self hwf hX hLs hi dx hx, ea]; exact (sqrtInv hA hNp h1 hbig a1 aB).1)
    (by rw [self hwf' hY hRs hj dy hy, eb]; exact (sqrtInv hA hNp h1 hbig b1 bB).1) (eU.trans ec)
  refine ⟨_, _, by rw [gakF_ok hg, eg], e1, e2, ?_⟩
  exact norm_match hA hu0 hu ht0 a1 b1 c0 (sqrtInv_close hA hu0 hu ht0 ht a1 (ta a1 aB)) (sqrtInv_close hA hu0 hu ht0 ht b1 (ta b1 bB))
    (denom_close hA hu ht a1 b1)

/-! ### The hypotheses can be met -/

theorem expLike_exp : ExpLike Real.exp :=
  ⟨Real.exp_zero, Real.exp_monotone, fun x => (Real.exp_pos x).le, fun x _ _ => by simp⟩

theorem logLike_log : LogLike Real.log :=
  ⟨Real.log_one, fun _ h _ => Real.log_nonneg h, fun _ _ _ => by simp⟩

theorem doubles_big (exp log : ℝ → ℝ) : (2 : ℝ) < (doubles exp log).big := by
  show (2 : ℝ) < 2 ^ 1024
  calc (2 : ℝ) = 2 ^ 1 := by norm_num
    _ < 2 ^ 1024 := pow_lt_pow_right₀ (by norm_num) (by norm_num)

theorem width_one (exp log : ℝ → ℝ) : (doubles exp log).width 1 = .num 2 := by
  have h2 : (doubles exp log).fit (.num 2) = .num 2 :=
    fit_fix (A := doubles exp log) double_rounding (rnd_two (A := doubles exp log) double_rounding)
      (by rw [abs_of_pos (by norm_num)]; exact doubles_big exp log)
  simp only [Arith.width, Arith.mul, Fl.mul, Fl.scale, mul_one, h2]

/-- Adding one after the other, as `sum` does. -/
theorem adds_inOrder (hA : Rounding A.rnd u tiny) (hbig : 1 < A.big) : Adds A.fit fun l => l.foldl A.add (.num 0) := by
  have z : A.fit (.num 0) = .num 0 := fit_fix hA (rnd_zero hA) (by rw [abs_zero]; linarith)
  have absorb : ∀ l : List Fl, l.foldl A.add .nan = .nan := by
    intro l
    induction l with
    | nil => rfl
    | cons x l ih => rw [List.foldl_cons]; cases x <;> exact ih
  have zeros : ∀ (l : List Fl) (x : Fl), A.fit x = x → (∀ z ∈ l, z = .num 0) → l.foldl A.add x = x := by
    intro l
    induction l with
    | nil => exact fun _ _ _ => rfl
    | cons y l ih =>
      intro x hx hl
      rw [List.foldl_cons, hl y (by simp)]
      have : A.add x (.num 0) = x := by
        have h : Fl.add x (.num 0) = x := by cases x <;> simp [Fl.add]
        unfold Arith.add
        rw [h, hx]
      rw [this]
      exact ih x hx fun z hz => hl z (by simp [hz])
  constructor
  · intro l
    generalize (Fl.num 0) = x0
    induction l generalizing x0 with
    | nil => intro h; simp at h
    | cons x l ih =>
      intro h
      rw [List.foldl_cons]
      rcases List.mem_cons.1 h with h | h
      · subst h
        have : A.add x0 .nan = .nan := by cases x0 <;> rfl
        rw [this]; exact absorb l
      · exact ih _ h
  · intro a b x hx h0
    rw [List.foldl_append, zeros a _ z fun y hy => h0 y (by simp [hy]), List.foldl_cons]
    have : A.add (.num 0) x = x := by
      have h : Fl.add (.num 0) x = x := by cases x <;> simp [Fl.add]
      unfold Arith.add
      rw [h, hx]
    rw [this]
    exact zeros b x hx fun y hy => h0 y (by simp [hy])

/-- 1026 zeros in doubles, bandwidth 1. -/
example : (doubles Real.exp Real.log).gak (.twoD (List.replicate 1026 [some 0])) (.twoD (List.replicate 1026 [some 0])) 1 = .ok .nan :=
  C107_false_constant expLike_exp logLike_log one_ne_zero (width_one _ _) (by norm_num) [0] (by simp) 1026 le_rfl

/-- 256 samples of anything are fine. -/
example {x : List (List ℝ)} {y : List (List ℝ)} {s : TsInput (Option ℝ)} (hs : gakArgs s s 1 = .ok (x, y)) (hx : x.length = 256) :
    ∃ v, (doubles Real.exp Real.log).gak s s 1 = .ok (.num v) ∧ |v - 1| ≤ 5 * (2 ^ 53)⁻¹ := by
  refine C107_self (A := doubles Real.exp Real.log) double_rounding (by positivity) ?_ ?_ expLike_exp logLike_log
    (doubles_big _ _) (width_one _ _) (by norm_num) hs ?_
  · norm_num
  · calc (2 : ℝ) ^ (-1022 : ℤ) ≤ 2 ^ (-1 : ℤ) := zpow_le_zpow_right₀ (by norm_num) (by norm_num)
      _ = 1 / 2 := by norm_num
  · rw [hx]
    show (4 : ℝ) ^ 512 / 16 < 2 ^ 1024
    rw [show (4 : ℝ) ^ 512 = 2 ^ 1024 by rw [show (4 : ℝ) = 2 ^ 2 by norm_num, ← pow_mul]]
    exact div_lt_self (by positivity) (by norm_num)

/-- `256` samples of value 3 in one feature are such a series. -/
example : gakArgs (.twoD (List.replicate 256 [some 3])) (.twoD (List.replicate 256 [some 3])) 1 =
    .ok (List.replicate 256 [(3 : ℝ)], List.replicate 256 [3]) :=
  gakArgs_const 256 (by norm_num) [3] (by simp) one_ne_zero

/-- A constant series of 1026 samples is long and slow. -/
theorem longSlow_const (exp log : ℝ → ℝ) : LongSlow (doubles exp log) 2 (List.replicate 1026 [0]) := by
  constructor
  · intro i hi
    rw [List.length_replicate] at hi
    refine ⟨0, ?_, by norm_num⟩
    rw [List.getD_eq_getElem _ _ (by rw [List.length_replicate]; omega), List.getD_eq_getElem _ _ (by rw [List.length_replicate]; omega),
      List.getElem_replicate, List.getElem_replicate]
    exact sqDist_self (A := doubles exp log) double_rounding (by have := doubles_big exp log; linarith) [0]
  · rw [List.length_replicate]
    show (2 : ℝ) ^ 1024 ≤ 2 ^ 1025 / 2
    rw [pow_succ 2 1024]
    rw [mul_div_assoc, div_self (by norm_num), mul_one]

/-- `cdist_gak` answers for datasets of nonempty series without gaps. -/
theorem cdistGakF_total {sum : List Fl → Fl} {σ : ℝ} (hσ : σ ≠ 0) {t0 : Ts ℝ} {l : List (Ts ℝ)} {d : ℕ}
    (hwf : ∀ t ∈ t0 :: l, t.WF ∧ t.d = d)
    (hx : ∀ t ∈ t0 :: l, ∃ x, denan t.trim.rows = some x ∧ x ≠ []) (run) (hrun : Execution run) :
    ∃ M, A.cdistGak sum (.series (t0 :: l)) none σ run = .ok M := by
  obtain ⟨X, hX⟩ : ∃ X, toDataset (.series (t0 :: l)) = .ok X := ⟨_,
    toDatasetSeries_wf t0 l fun t ht => ⟨(hwf t ht).1, (hwf t ht).2.trans (hwf t0 (by simp)).2.symm⟩⟩
  have hU : ∃ U, cdistOf (fun x y => .ok (A.unnorm x y σ)) (.num 0) true (.series (t0 :: l)) none run = .ok U := by
    unfold cdistOf
    simp only [bind, Except.bind, hX]
    apply C09_total _ _ _ _ _ _ hrun
    intro x hx1 y hy1
    rw [Option.getD_none] at hy1
    have ok : ∀ t ∈ X.slots, ∃ x, denan t.trim.rows = some x ∧ x ≠ [] := by
      intro t ht
      obtain ⟨i, hi, rfl⟩ := List.getElem_of_mem ht
      have hi' : i < (t0 :: l).length := by rw [← slots_length hwf hX]; exact hi
      obtain ⟨s, hs, e⟩ := slot_trim hwf hX (List.getElem?_eq_getElem hi')
      rw [List.getElem?_eq_getElem hi] at hs
      cases hs
      rw [e]
      exact hx _ (List.getElem_mem hi')
    obtain ⟨p, hp, hp0⟩ := ok x hx1
    obtain ⟨q, hq, hq0⟩ := ok y hy1
    refine ⟨A.unnorm p q σ, ?_⟩
    unfold onSlots
    rw [hp, hq]
    simp only
    rw [if_neg (by simp [hp0, hq0])]
  obtain ⟨U, hU⟩ := hU
  unfold Arith.cdistGak
  simp only [bind, Except.bind, pure, Except.pure, hX, hU, hσ, if_false]
  exact ⟨_, rfl⟩

theorem trim_const (n : ℕ) (hn : 0 < n) : (⟨1, List.replicate n [some 0]⟩ : Ts ℝ).trim.rows = List.replicate n [some 0] := by
  have : tsSize (List.replicate n [some (0 : ℝ)]) = n := by
    obtain ⟨k, rfl⟩ : ∃ k, n = k + 1 := ⟨n - 1, by omega⟩
    unfold tsSize
    rw [List.length_replicate, tsSizeLoop, if_neg]
    rw [List.getD_eq_getElem _ _ (by simp), List.getElem_replicate]
    simp
  simp only [Ts.trim, this]
  exact List.take_of_length_le (by simp)

/-- One constant series of 1026 samples among others: the entry of the second series with itself is lost too. -/
example : ∃ M, (doubles Real.exp Real.log).cdistGak (fun l => l.foldl (doubles Real.exp Real.log).add (.num 0))
    (.series [⟨1, List.replicate 1026 [some 0]⟩, ⟨1, [[some 2]]⟩]) none 1 seqRun = .ok M ∧ M 1 1 = .nan := by
  have hb := doubles_big Real.exp Real.log
  have hwf : ∀ t ∈ [(⟨1, List.replicate 1026 [some 0]⟩ : Ts ℝ), ⟨1, [[some 2]]⟩], t.WF ∧ t.d = 1 := by
    intro t ht
    simp only [List.mem_cons, List.not_mem_nil, or_false] at ht
    rcases ht with rfl | rfl
    · exact ⟨fun r hr => by rw [List.eq_of_mem_replicate hr]; rfl, rfl⟩
    · exact ⟨fun r hr => by simp at hr; rw [hr]; rfl, rfl⟩
  have d1 : denan (⟨1, List.replicate 1026 [some 0]⟩ : Ts ℝ).trim.rows = some (List.replicate 1026 [0]) := by
    rw [trim_const 1026 (by norm_num)]; exact denan_const 1026 [0]
  obtain ⟨M, hM⟩ := cdistGakF_total (A := doubles Real.exp Real.log)
    (sum := fun l => l.foldl (doubles Real.exp Real.log).add (.num 0)) one_ne_zero hwf (by
      intro t ht
      simp only [List.mem_cons, List.not_mem_nil, or_false] at ht
      rcases ht with rfl | rfl
      · exact ⟨_, d1, List.ne_nil_of_length_pos (by rw [List.length_replicate]; norm_num)⟩
      · exact ⟨[[2]], rfl, by simp⟩) seqRun (.inl rfl)
  refine ⟨M, hM, ?_⟩
  exact C107_false_cdist (A := doubles Real.exp Real.log) double_rounding expLike_exp logLike_log hb
    (adds_inOrder (A := doubles Real.exp Real.log) double_rounding (by linarith)) (width_one _ _) (by norm_num) _ 1 hwf seqRun (.inl rfl) M hM 0 _ rfl _ d1
    (longSlow_const _ _) 1 1

/-- Two short series. -/
example : ∃ M, (doubles Real.exp Real.log).cdistGak (fun l => l.foldl (doubles Real.exp Real.log).add (.num 0))
    (.series [⟨1, [[some 0], [some 1]]⟩, ⟨1, [[some 2]]⟩]) none 1 seqRun = .ok M ∧ ∃ v, M 1 1 = .num v ∧ |v - 1| ≤ 6 * (2 ^ 53)⁻¹ := by
  have hb := doubles_big Real.exp Real.log
  have hwf : ∀ t ∈ [(⟨1, [[some 0], [some 1]]⟩ : Ts ℝ), ⟨1, [[some 2]]⟩], t.WF ∧ t.d = 1 := by
    intro t ht
    simp only [List.mem_cons, List.not_mem_nil, or_false] at ht
    rcases ht with rfl | rfl
    · exact ⟨fun r hr => by simp at hr; rcases hr with rfl | rfl <;> rfl, rfl⟩
    · exact ⟨fun r hr => by simp at hr; rw [hr]; rfl, rfl⟩
  obtain ⟨M, hM⟩ := cdistGakF_total (A := doubles Real.exp Real.log)
    (sum := fun l => l.foldl (doubles Real.exp Real.log).add (.num 0)) one_ne_zero hwf (by
      intro t ht
      simp only [List.mem_cons, List.not_mem_nil, or_false] at ht
      rcases ht with rfl | rfl
      · exact ⟨[[0], [1]], rfl, by simp⟩
      · exact ⟨[[2]], rfl, by simp⟩) seqRun (.inl rfl)
  have small : (2 : ℝ) ^ (-1022 : ℤ) ≤ 2 ^ (-4 : ℤ) := zpow_le_zpow_right₀ (by norm_num) (by norm_num)
  have large : (2 : ℝ) ^ 8 ≤ 2 ^ 1024 := pow_le_pow_right₀ (by norm_num) (by norm_num)
  obtain ⟨v, h1, -, h2⟩ := C107_cdist (A := doubles Real.exp Real.log) double_rounding (by positivity) (by norm_num)
    (by refine small.trans ?_; norm_num) expLike_exp logLike_log hb
    (adds_inOrder (A := doubles Real.exp Real.log) double_rounding (by linarith)) (width_one _ _) (by norm_num) _ 1 hwf 2 (by
      intro t ht
      simp only [List.mem_cons, List.not_mem_nil, or_false] at ht
      rcases ht with rfl | rfl
      · exact (List.length_take_le _ _).trans (le_of_eq rfl)
      · exact (List.length_take_le _ _).trans (by decide))
    (by show (4 : ℝ) ^ (2 + 2) / 16 < 2 ^ 1024
        refine lt_of_lt_of_le ?_ large
        norm_num)
    (by refine small.trans ?_; norm_num) seqRun (.inl rfl) M hM 1 1 (by simp) (by simp)
  exact ⟨M, hM, v, h1, h2 rfl⟩

/-- `cdist_gak(X, Y)` answers too. -/
theorem cdistGakF_query_total {sum : List Fl → Fl} {σ : ℝ} (hσ : σ ≠ 0) {t0 t1 : Ts ℝ} {l l' : List (Ts ℝ)} {d : ℕ}
    (hwf : ∀ t ∈ t0 :: l, t.WF ∧ t.d = d) (hwf' : ∀ t ∈ t1 :: l', t.WF ∧ t.d = d)
    (hx : ∀ t ∈ t0 :: l, ∃ x, denan t.trim.rows = some x ∧ x ≠ []) (hx' : ∀ t ∈ t1 :: l', ∃ x, denan t.trim.rows = some x ∧ x ≠ [])
    (run) (hrun : Execution run) :
    ∃ M, A.cdistGak sum (.series (t0 :: l)) (some (.series (t1 :: l'))) σ run = .ok M := by
  have ds : ∀ {t0 : Ts ℝ} {l : List (Ts ℝ)}, (∀ t ∈ t0 :: l, t.WF ∧ t.d = d) →
      (∀ t ∈ t0 :: l, ∃ x, denan t.trim.rows = some x ∧ x ≠ []) → ∃ X, toDataset (.series (t0 :: l)) = .ok X ∧
      ∀ t ∈ X.slots, ∃ x, denan t.trim.rows = some x ∧ x ≠ [] := by
    intro t0 l hwf hx
    have hX := toDatasetSeries_wf t0 l fun t ht => ⟨(hwf t ht).1, (hwf t ht).2.trans (hwf t0 (by simp)).2.symm⟩
    refine ⟨_, hX, ?_⟩
    intro t ht
    obtain ⟨i, hi, rfl⟩ := List.getElem_of_mem ht
    have hi' : i < (t0 :: l).length := by rw [← slots_length hwf hX]; exact hi
    obtain ⟨s, hs, e⟩ := slot_trim hwf hX (List.getElem?_eq_getElem hi')
    rw [List.getElem?_eq_getElem hi] at hs
    cases hs
    rw [e]
    exact hx _ (List.getElem_mem hi')
  obtain ⟨X, hX, okX⟩ := ds hwf hx
  obtain ⟨Y, hY, okY⟩ := ds hwf' hx'
  have pair : ∀ s t : Ts ℝ, (∃ x, denan s.trim.rows = some x ∧ x ≠ []) → (∃ x, denan t.trim.rows = some x ∧ x ≠ []) →
      ∃ v, onSlots (fun x y => .ok (A.unnorm x y σ)) s t = .ok v := by
    rintro s t ⟨p, hp, hp0⟩ ⟨q, hq, hq0⟩
    refine ⟨A.unnorm p q σ, ?_⟩
    unfold onSlots
    rw [hp, hq]
    simp only
    rw [if_neg (by simp [hp0, hq0])]
  have hU : ∃ U, cdistOf (fun x y => .ok (A.unnorm x y σ)) (.num 0) true (.series (t0 :: l)) (some (.series (t1 :: l'))) run = .ok U := by
    unfold cdistOf
    simp only [bind, Except.bind, hX, hY]
    apply C09_total _ _ _ _ _ _ hrun
    intro x hx1 y hy1
    exact pair x y (okX x hx1) (okY y hy1)
  have hruns : ∀ S : List (Ts ℝ), (∀ t ∈ S, ∃ x, denan t.trim.rows = some x ∧ x ≠ []) → ∃ L, run (S.map (A.selfK σ)) = .ok L := by
    intro S hS
    have : Nonempty Fl := ⟨.nan⟩
    choose! f hf using fun t ht => pair t t (hS t ht) (hS t ht)
    refine ⟨S.map f, (hrun.faithful _ _).2 ?_⟩
    rw [List.map_map]
    exact List.map_congr_left fun t ht => hf t ht
  obtain ⟨U, hU⟩ := hU
  obtain ⟨L, hL⟩ := hruns _ okX
  obtain ⟨R, hR⟩ := hruns _ okY
  unfold Arith.cdistGak
  simp only [bind, Except.bind, pure, Except.pure, hX, hY, hU, hL, hR, hσ, if_false]
  exact ⟨_, rfl⟩

/-- Two series against one. -/
example : ∃ M, (doubles Real.exp Real.log).cdistGak (fun l => l.foldl (doubles Real.exp Real.log).add (.num 0))
    (.series [⟨1, [[some 0], [some 1]]⟩, ⟨1, [[some 2]]⟩]) (some (.series [⟨1, [[some 3]]⟩])) 1 seqRun = .ok M ∧
    ∃ g v, (doubles Real.exp Real.log).gak (.twoD [[some 0], [some 1]]) (.twoD [[some 3]]) 1 = .ok (.num g) ∧ M 0 0 = .num v ∧ 0 ≤ v := by
  have hb := doubles_big Real.exp Real.log
  have hwf : ∀ t ∈ [(⟨1, [[some 0], [some 1]]⟩ : Ts ℝ), ⟨1, [[some 2]]⟩], t.WF ∧ t.d = 1 := by
    intro t ht
    simp only [List.mem_cons, List.not_mem_nil, or_false] at ht
    rcases ht with rfl | rfl
    · exact ⟨fun r hr => by simp at hr; rcases hr with rfl | rfl <;> rfl, rfl⟩
    · exact ⟨fun r hr => by simp at hr; rw [hr]; rfl, rfl⟩
  have hwf' : ∀ t ∈ [(⟨1, [[some 3]]⟩ : Ts ℝ)], t.WF ∧ t.d = 1 := by
    intro t ht
    simp only [List.mem_cons, List.not_mem_nil, or_false] at ht
    subst ht
    exact ⟨fun r hr => by simp at hr; rw [hr]; rfl, rfl⟩
  obtain ⟨M, hM⟩ := cdistGakF_query_total (A := doubles Real.exp Real.log)
    (sum := fun l => l.foldl (doubles Real.exp Real.log).add (.num 0)) one_ne_zero hwf hwf' (by
      intro t ht
      simp only [List.mem_cons, List.not_mem_nil, or_false] at ht
      rcases ht with rfl | rfl
      · exact ⟨[[0], [1]], rfl, by simp⟩
      · exact ⟨[[2]], rfl, by simp⟩) (by
      intro t ht
      simp only [List.mem_cons, List.not_mem_nil, or_false] at ht
      subst ht
      exact ⟨[[3]], rfl, by simp⟩) seqRun (.inl rfl)
  have small : (2 : ℝ) ^ (-1022 : ℤ) ≤ 2 ^ (-4 : ℤ) := zpow_le_zpow_right₀ (by norm_num) (by norm_num)
  have large : (2 : ℝ) ^ 8 ≤ 2 ^ 1024 := pow_le_pow_right₀ (by norm_num) (by norm_num)
  obtain ⟨g, v, h1, h2, h3, -⟩ := C107_cdist_query (A := doubles Real.exp Real.log) double_rounding (by positivity) (by norm_num)
    (by positivity) (by refine small.trans ?_; norm_num) expLike_exp logLike_log hb
    (adds_inOrder (A := doubles Real.exp Real.log) double_rounding (by linarith)) (width_one _ _) (by norm_num) _ _ 1 hwf hwf' 2 (by
      intro t ht
      simp only [List.cons_append, List.nil_append, List.mem_cons, List.not_mem_nil, or_false] at ht
      rcases ht with rfl | rfl | rfl
      · exact (List.length_take_le _ _).trans (le_of_eq rfl)
      · exact (List.length_take_le _ _).trans (by decide)
      · exact (List.length_take_le _ _).trans (by decide))
    (by show (4 : ℝ) ^ (2 + 2) / 16 < 2 ^ 1024
        refine lt_of_lt_of_le ?_ large
        norm_num)
    (by refine small.trans ?_; norm_num) seqRun (.inl rfl) M hM 0 0 _ _ rfl rfl
  exact ⟨M, hM, g, v, h1, h2, h3⟩

end
end Verif
