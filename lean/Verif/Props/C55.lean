import Verif.Proofs.OneD
import Verif.Proofs.MeanVar
import Verif.Props.C33
import Verif.Props.C34
import Mathlib.Tactic.NormNum
/-!
# C55 — piecewise representations survive reconstruction
-/
set_option linter.unusedSectionVars false
namespace Verif
open Spec

section
variable {K : Type} [Field K] [LinearOrder K] [IsStrictOrderedRing K]

theorem series_of_entries {X : Arr3 K} (hX : X.WF) {i : ℕ} (hi : i < X.data.length) {x : ℕ → ℕ → K}
    (h : ∀ t < X.sz, ∀ f < X.d, X.entry i t f = some (x t f)) : Series X i X.sz x :=
  ⟨hi, le_rfl, h, fun _ ht _ => entry_outside hX (fun hc => by omega)⟩

theorem paaRaw_wf (S : ℕ) (X : Arr3 K) : (paaRaw S X).WF := Arr3.build_wf _ _ _ _

theorem paaRaw_length (S : ℕ) (X : Arr3 K) : (paaRaw S X).data.length = X.data.length := Arr3.build_length _ _ _ _

theorem saxScale_length (m : Option (Scaling K)) (X : Arr3 K) : (saxScale m X).data.length = X.data.length := by
  cases m with
  | none => rfl
  | some m => exact Arr3.build_length _ _ _ _

theorem saxScale_entry {m : Scaling K} {X : Arr3 K} {i t f : ℕ} (hi : i < X.data.length) (ht : t < X.sz) (hf : f < X.d)
    {x mu sd : K} (hx : X.entry i t f = some x) (hm : m f = (some mu, some sd)) :
    (saxScale (some m) X).entry i t f = some ((x - mu) / sd) := by
  simp only [saxScale]
  rw [Arr3.build_entry hi ht hf, hx, hm]
  rfl

theorem saxUnscale_entry {m : Scaling K} {X : Arr3 K} {i t f : ℕ} (hi : i < X.data.length) (ht : t < X.sz) (hf : f < X.d)
    {x mu sd : K} (hx : X.entry i t f = some x) (hm : m f = (some mu, some sd)) :
    (saxUnscale (some m) X).entry i t f = some (x * sd + mu) := by
  simp only [saxUnscale]
  rw [Arr3.build_entry hi ht hf, hx, hm]
  rfl

theorem div_block {q s k : ℕ} (hk : k < q) : (s * q + k) / q = s := by
  rw [Nat.mul_comm, Nat.mul_add_div (by omega), Nat.div_eq_of_lt hk, Nat.add_zero]

/-- PAA: reconstructing and transforming again gives the representation back. -/
theorem C55_paa (P : Arr3 K) (hP : P.WF) (hne : P.data ≠ []) (hobs : ∀ i < P.data.length, ∀ s < P.sz, ∀ f < P.d,
    ∃ v, P.entry i s f = some v) (N : ℕ) (hN : 0 < N) (hS : P.sz ∣ N) (order : List ℕ)
    (ho : order.Perm (List.range P.sz)) : paaTransform P.d P.sz (invPaa order P N) = .ok P := by
  have hS0 := Nat.pos_of_dvd_of_pos hS hN
  obtain ⟨q, rfl⟩ := hS
  have hq : 0 < q := Nat.pos_of_mul_pos_left hN
  have hdiv : P.sz * q / P.sz = q := Nat.mul_div_cancel_left q hS0
  choose! v hv using hobs
  obtain ⟨hw, hsz, hd, hl, he⟩ := C34_paa_partial P (P.sz * q) order ho
  rw [hdiv] at he
  have hne' : (invPaa order P (P.sz * q)).data ≠ [] := by
    intro e
    rw [e] at hl
    exact hne (List.length_eq_zero_iff.1 hl.symm)
  have h1 : paaTransform P.d P.sz (invPaa order P (P.sz * q)) = .ok (paaRaw P.sz (invPaa order P (P.sz * q))) :=
    paaTransform_ok hne' hS0
  rw [h1]
  refine congrArg Except.ok ?_
  refine Arr3.ext_entry (paaRaw_wf P.sz (invPaa order P (P.sz * q))) hP rfl rfl ?_ ?_
  · rw [paaRaw_length, hl]
  · intro i hi s hs f hf
    have hi : i < P.data.length := by rw [paaRaw_length, hl] at hi; exact hi
    have hs : s < P.sz := hs
    have hf : f < P.d := hf
    have hser : Series (invPaa order P (P.sz * q)) i (P.sz * q) (fun t f => v i (t / q) f) := by
      apply series_of_entries hw (by rw [hl]; exact hi)
      intro t ht f hf
      have ht : t < P.sz * q := ht
      rw [he i hi t ht f hf, if_pos ht]
      exact hv i hi _ ((Nat.div_lt_iff_lt_mul hq).2 ht) f hf
    rw [paaRaw_const hw hser hq hs hf (v i s f), hv i hi s hs f hf]
    rw [Finset.sum_congr rfl (g := fun _ => v i s f) fun k hk => by rw [div_block (Finset.mem_range.1 hk)],
      Finset.sum_const, Finset.card_range, nsmul_eq_mul]

/-- Two constant segments, reconstructed over four timestamps and transformed again. -/
example : paaTransform 1 2 (invPaa [0, 1] (⟨2, 1, [[[some 3], [some (5 : ℚ)]]]⟩ : Arr3 ℚ) 4) =
    .ok ⟨2, 1, [[[some 3], [some 5]]]⟩ :=
  C55_paa ⟨2, 1, [[[some 3], [some 5]]]⟩ (by
      intro s hs
      simp only [List.mem_cons, List.not_mem_nil, or_false] at hs
      subst hs
      refine ⟨rfl, ?_⟩
      intro r hr
      simp only [List.mem_cons, List.not_mem_nil, or_false] at hr
      rcases hr with h | h <;> rw [h] <;> rfl)
    (by simp) (by
      intro i hi s hs f hf
      have hi : i < 1 := hi
      have hs : s < 2 := hs
      have hf : f < 1 := hf
      interval_cases i
      interval_cases f
      interval_cases s
      · exact ⟨3, rfl⟩
      · exact ⟨5, rfl⟩) 4 (by omega) ⟨2, rfl⟩ [0, 1] (by decide)

/-- Words over the alphabet. -/
def Over (W : List (List (List ℕ))) (S d A : ℕ) : Prop := Shaped W S d ∧ ∀ w ∈ W, ∀ r ∈ w, ∀ c ∈ r, c < A

theorem Over.at {W : List (List (List ℕ))} {S d A : ℕ} (h : Over W S d A) {i s f : ℕ} (hi : i < W.length) (hs : s < S)
    (hf : f < d) : wordAt (W.getD i []) s f < A := by
  have hw := h.1 _ (List.getElem_mem hi)
  have hs' : s < (W[i]).length := by rw [hw.1]; exact hs
  have hf' : f < (W[i][s]).length := by rw [hw.2 _ (List.getElem_mem hs')]; exact hf
  unfold wordAt
  rw [List.getD_eq_getElem _ _ hi, List.getD_eq_getElem _ _ hs', List.getD_eq_getElem _ _ hf']
  exact h.2 _ (List.getElem_mem hi) _ (List.getElem_mem hs') _ (List.getElem_mem hf')

theorem sax_roundtrip (ppf : K → K) (hp : StrictMonoOn ppf (Set.Ioo 0 1)) (A S q d : ℕ) (hq : 0 < q)
    (W : List (List (List ℕ))) (hW : Over W S d A) (Z : Arr3 K) (hZ : Z.WF) (hl : Z.data.length = W.length)
    (hsz : Z.sz = S * q) (hd : Z.d = d)
    (he : ∀ i < W.length, ∀ t < S * q, ∀ f < d, ∃ c, Z.entry i t f = some c ∧
      c = (binMedians ppf A 1).getD (wordAt (W.getD i []) (t / q) f) 0) :
    paaToSymbols (breakpoints ppf A 1) (paaRaw S Z) = W := by
  subst hd
  apply symbols_eq (paaRaw_wf _ _) hW.1 (by rw [paaRaw_length, hl])
  intro i hi s hs f hf
  have hs : s < S := hs
  have hf : f < Z.d := hf
  have hser : Series Z i (S * q) (fun t f => (binMedians ppf A 1).getD (wordAt (W.getD i []) (t / q) f) 0) := by
    rw [← hsz]
    apply series_of_entries hZ (by omega)
    intro t ht f hf
    obtain ⟨c, h1, rfl⟩ := he i hi t (by omega) f hf
    exact h1
  rw [paaRaw_const hZ hser hq hs hf ((binMedians ppf A 1).getD (wordAt (W.getD i []) s f) 0)]
  · exact symbol_median hp one_pos (hW.at hi hs hf)
  · rw [Finset.sum_congr rfl (g := fun _ => (binMedians ppf A 1).getD (wordAt (W.getD i []) s f) 0)
      fun k hk => by rw [div_block (Finset.mem_range.1 hk)], Finset.sum_const, Finset.card_range, nsmul_eq_mul]

theorem length_ne {X : Arr3 K} {W : List (List (List ℕ))} (h : X.data.length = W.length) (hne : W ≠ []) : X.data ≠ [] := by
  intro e
  rw [e] at h
  exact hne (List.length_eq_zero_iff.1 h.symm)

/-- SAX without scaling: the words are recovered. -/
theorem C55_sax (ppf : K → K) (hp : StrictMonoOn ppf (Set.Ioo 0 1)) (A S d N : ℕ) (hN : 0 < N) (hS : S ∣ N)
    (W : List (List (List ℕ))) (hne : W ≠ []) (hW : Over W S d A) :
    saxTransform d none (breakpoints ppf A 1) S (saxInverse none (binMedians ppf A 1) S d W N) = .ok W := by
  have hS0 := Nat.pos_of_dvd_of_pos hS hN
  obtain ⟨q, rfl⟩ := hS
  have hq : 0 < q := Nat.pos_of_mul_pos_left hN
  have hdiv : S * q / S = q := Nat.mul_div_cancel_left q hS0
  obtain ⟨hsz, hl, he⟩ := C34_sax_partial (binMedians ppf A 1) S d (S * q) W
  rw [hdiv] at he
  have h1 := saxTransform_ok (sc := none) (bps := breakpoints ppf A 1)
    (X := saxInverse none (binMedians ppf A 1) S d W (S * q)) (length_ne hl hne) hS0
  rw [show (saxInverse none (binMedians ppf A 1) S d W (S * q)).d = d from rfl] at h1
  rw [h1]
  refine congrArg Except.ok ?_
  apply sax_roundtrip ppf hp A S q d hq W hW _ (Arr3.build_wf _ _ _ _) hl hsz rfl
  intro i hi t ht f hf
  refine ⟨_, he i hi t ht f hf, ?_⟩
  rw [if_pos ht]

/-- SAX with scaling: the words are recovered whatever means and nonzero standard deviations were learnt. -/
theorem C55_sax_scaled (ppf : K → K) (hp : StrictMonoOn ppf (Set.Ioo 0 1)) (A S d N : ℕ) (hN : 0 < N) (hS : S ∣ N)
    (W : List (List (List ℕ))) (hne : W ≠ []) (hW : Over W S d A) (m : Scaling K) (mu sd : ℕ → K)
    (hm : ∀ f < d, m f = (some (mu f), some (sd f)) ∧ sd f ≠ 0) :
    saxTransform d (some m) (breakpoints ppf A 1) S (saxInverse (some m) (binMedians ppf A 1) S d W N) = .ok W := by
  have hS0 := Nat.pos_of_dvd_of_pos hS hN
  obtain ⟨q, rfl⟩ := hS
  have hq : 0 < q := Nat.pos_of_mul_pos_left hN
  have hdiv : S * q / S = q := Nat.mul_div_cancel_left q hS0
  obtain ⟨hsz, hl, he⟩ := C34_sax_scaled_partial (binMedians ppf A 1) S d (S * q) W m mu sd (fun f hf => (hm f hf).1)
  rw [hdiv] at he
  have h1 := saxTransform_ok (sc := some m) (bps := breakpoints ppf A 1)
    (X := saxInverse (some m) (binMedians ppf A 1) S d W (S * q)) (length_ne hl hne) hS0
  rw [show (saxInverse (some m) (binMedians ppf A 1) S d W (S * q)).d = d from rfl] at h1
  rw [h1]
  refine congrArg Except.ok ?_
  refine sax_roundtrip ppf hp A S q d hq W hW (saxScale (some m) (saxInverse (some m) (binMedians ppf A 1) S d W (S * q)))
    (Arr3.build_wf _ _ _ _) ?_ hsz rfl ?_
  · rw [saxScale_length, hl]
  · intro i hi t ht f hf
    obtain ⟨h2, h3⟩ := hm f hf
    refine ⟨_, ?_, rfl⟩
    have he := he i hi t ht f hf
    rw [if_pos ht] at he
    rw [saxScale_entry (by rw [hl]; exact hi) (by rw [hsz]; exact ht) hf he h2]
    rw [add_sub_cancel_right, mul_div_cancel_right₀ _ h3]

/-- A word of two segments over three letters, with and without scaling. -/
theorem exOver : Over [[[0], [2]]] 2 1 3 := by
  refine ⟨?_, ?_⟩
  · intro w hw
    simp only [List.mem_cons, List.not_mem_nil, or_false] at hw
    subst hw
    simp
  · intro w hw r hr c hc
    simp only [List.mem_cons, List.not_mem_nil, or_false] at hw
    subst hw
    simp only [List.mem_cons, List.not_mem_nil, or_false] at hr
    rcases hr with rfl | rfl <;> simp at hc <;> omega

example : saxTransform 1 none (breakpoints (id : ℚ → ℚ) 3 1) 2
    (saxInverse none (binMedians id 3 1) 2 1 [[[0], [2]]] 4) = .ok [[[0], [2]]] :=
  C55_sax id (strictMono_id.strictMonoOn _) 3 2 1 4 (by omega) ⟨2, rfl⟩ _ (by simp) exOver

example : saxTransform 1 (some fun _ => (some 7, some 2)) (breakpoints (id : ℚ → ℚ) 3 1) 2
    (saxInverse (some fun _ => (some 7, some 2)) (binMedians id 3 1) 2 1 [[[0], [2]]] 4) = .ok [[[0], [2]]] :=
  C55_sax_scaled id (strictMono_id.strictMonoOn _) 3 2 1 4 (by omega) ⟨2, rfl⟩ _ (by simp) exOver
    (fun _ => (some 7, some 2)) (fun _ => 7) (fun _ => 2) (fun _ _ => ⟨rfl, two_ne_zero⟩)

/-- The standard deviations learnt by `fit` are never zero, so that the previous theorem applies whenever every
feature has an observation. -/
theorem C55_fit (X : Arr3 ℝ) (f : ℕ) (hobs : X.group false true 0 f ≠ []) :
    ∃ mu sd, fitScaling X f = (some mu, some sd) ∧ 0 < sd := by
  unfold fitScaling nanStd nanMean
  simp only [hobs, if_false, Option.map_some]
  refine ⟨_, _, rfl, ?_⟩
  split_ifs with h
  · norm_num
  · exact lt_of_le_of_ne (Real.sqrt_nonneg _) (Ne.symm h)

example : ∃ mu sd, fitScaling (⟨2, 1, [[[some (3 : ℝ)], [none]]]⟩ : Arr3 ℝ) 0 = (some mu, some sd) ∧ 0 < sd :=
  C55_fit _ 0 (by simp [Arr3.group, Arr3.entry, List.range_succ])

theorem zip_words (n S d d' : ℕ) (g h : ℕ → ℕ → ℕ → ℕ) :
    List.zipWith (List.zipWith (· ++ ·)) ((List.range n).map fun i => (List.range S).map fun s => (List.range d).map (g i s))
      ((List.range n).map fun i => (List.range S).map fun s => (List.range d').map (h i s)) =
    (List.range n).map fun i => (List.range S).map fun s => (List.range d).map (g i s) ++ (List.range d').map (h i s) := by
  rw [List.zipWith_map, List.zipWith_self]
  apply List.map_congr_left
  intro i _
  rw [List.zipWith_map, List.zipWith_self]

theorem append_words (n S d : ℕ) (g : ℕ → ℕ → ℕ → ℕ) :
    ((List.range n).map fun i => (List.range S).map fun s => (List.range d).map (g i s) ++
      (List.range d).map fun f => g i s (f + d)) =
    (List.range n).map fun i => (List.range S).map fun s => (List.range (2 * d)).map (g i s) := by
  apply List.map_congr_left
  intro i _
  apply List.map_congr_left
  intro s _
  rw [two_mul, List.range_add, List.map_append, List.map_map]
  congr 1
  apply List.map_congr_left
  intro f _
  simp [Nat.add_comm]

/-- The entries of a 1d-SAX reconstruction. -/
theorem oned_series (junk : ℕ → ℕ → ℕ → Option K) (med medsl : List K) (S q d : ℕ) (hS : 0 < S)
    (W : List (List (List ℕ))) (i : ℕ) (hi : i < W.length) :
    Series (oneDInverse junk none med medsl S d W (S * q)) i (S * q) (fun t f =>
      med.getD (wordAt (W.getD i []) (t / q) f) 0 + medsl.getD (wordAt (W.getD i []) (t / q) (f + d)) 0 *
          ((t : K) - (((t / q * q : ℕ) : K) + 1 / 2 * ((q : K) - 1)))) := by
  obtain ⟨hsz, hl, he⟩ := C34_oned_partial junk med medsl S d (S * q) W
  have hdiv : S * q / S = q := Nat.mul_div_cancel_left q hS
  rw [hdiv] at he
  have := series_of_entries (X := oneDInverse junk none med medsl S d W (S * q)) (Arr3.build_wf _ _ _ _) (i := i)
    (by rw [hl]; exact hi) (x := fun t f =>
      med.getD (wordAt (W.getD i []) (t / q) f) 0 + medsl.getD (wordAt (W.getD i []) (t / q) (f + d)) 0 *
          ((t : K) - (((t / q * q : ℕ) : K) + 1 / 2 * ((q : K) - 1)))) (by
      intro t ht f hf
      have ht : t < S * q := ht
      rw [he i hi t ht f hf, if_pos ht])
  exact this

/-- 1d-SAX without scaling: the words are recovered when the segments have at least two samples. -/
theorem C55_oned_partial (ppf : K → K) (hp : StrictMonoOn ppf (Set.Ioo 0 1)) (A A' S d N : ℕ) (sigma : K) (hsig : 0 < sigma)
    (hS : S ∣ N) (hq : 2 ≤ N / S) (W : List (List (List ℕ))) (hne : W ≠ []) (hsh : Shaped W S (2 * d))
    (havg : ∀ i < W.length, ∀ s < S, ∀ f < d, wordAt (W.getD i []) s f < A)
    (hslope : ∀ i < W.length, ∀ s < S, ∀ f < d, wordAt (W.getD i []) s (f + d) < A')
    (junk : ℕ → ℕ → ℕ → Option K) :
    oneDTransform d none (breakpoints ppf A 1) (breakpoints ppf A' sigma) S
      (oneDInverse junk none (binMedians ppf A 1) (binMedians ppf A' sigma) S d W N) = .ok W := by
  have hS0 : 0 < S := by
    rcases Nat.eq_zero_or_pos S with e | e
    · rw [e] at hq; simp at hq
    · exact e
  obtain ⟨q, rfl⟩ := hS
  have hdiv : S * q / S = q := Nat.mul_div_cancel_left q hS0
  rw [hdiv] at hq
  set X := oneDInverse junk none (binMedians ppf A 1) (binMedians ppf A' sigma) S d W (S * q) with hX
  have hl : X.data.length = W.length := (C34_oned_partial junk _ _ S d (S * q) W).2.1
  have hne' : X.data ≠ [] := length_ne hl hne
  have hser : ∀ i < X.data.length, Series X i (S * q) (fun t f =>
      (binMedians ppf A 1).getD (wordAt (W.getD i []) (t / q) f) 0 +
        (binMedians ppf A' sigma).getD (wordAt (W.getD i []) (t / q) (f + d)) 0 *
          ((t : K) - (((t / q * q : ℕ) : K) + 1 / 2 * ((q : K) - 1)))) := fun i hi =>
    oned_series junk _ _ S q d hS0 W i (by omega)
  have hsl := getSlopes_ok _ hser rfl (by omega) hS0
  have hd : X.d = d := rfl
  have hXw : X.WF := Arr3.build_wf _ _ _ _
  have h1 : oneDTransform d none (breakpoints ppf A 1) (breakpoints ppf A' sigma) S X =
      oneDRaw none (breakpoints ppf A 1) (breakpoints ppf A' sigma) S X := by
    simp only [oneDTransform, hne', if_false, ne_eq, hd, not_true_eq_false, Nat.pos_iff_ne_zero.1 hS0, bind, Except.bind]
  rw [h1]
  unfold oneDRaw
  simp only [saxScale, hsl, bind, Except.bind, pure, Except.pure]
  refine congrArg Except.ok ?_
  have hval : ∀ i < W.length, ∀ s, ∀ f, ∀ k < q,
      (binMedians ppf A 1).getD (wordAt (W.getD i []) ((s * q + k) / q) f) 0 +
        (binMedians ppf A' sigma).getD (wordAt (W.getD i []) ((s * q + k) / q) (f + d)) 0 *
          (((s * q + k : ℕ) : K) - ((((s * q + k) / q * q : ℕ) : K) + 1 / 2 * ((q : K) - 1))) =
      (binMedians ppf A 1).getD (wordAt (W.getD i []) s f) 0 +
        (binMedians ppf A' sigma).getD (wordAt (W.getD i []) s (f + d)) 0 * ((k : K) - 1 / 2 * ((q : K) - 1)) := by
    intro i _ s f k hk
    rw [div_block hk]
    push_cast
    ring
  have havg' : saxRaw none (breakpoints ppf A 1) S X = (List.range W.length).map fun i => (List.range S).map fun s =>
      (List.range d).map fun f => wordAt (W.getD i []) s f := by
    unfold saxRaw
    simp only [saxScale]
    unfold paaRaw
    rw [symbols_build, hl]
    apply List.map_congr_left
    intro i hi
    apply List.map_congr_left
    intro s hs
    apply List.map_congr_left
    intro f hf
    rw [List.mem_range] at hi hs hf
    have hf : f < d := hf
    have := paaRaw_const hXw (hser i (by omega)) (by omega) hs hf ((binMedians ppf A 1).getD (wordAt (W.getD i []) s f) 0)
      (by
        rw [Finset.sum_congr rfl fun k hk => hval i hi s f k (Finset.mem_range.1 hk), Finset.sum_add_distrib,
          ← Finset.mul_sum, sum_centered, Finset.sum_const, Finset.card_range, nsmul_eq_mul]
        ring)
    unfold paaRaw at this
    rw [Arr3.build_entry (by omega) hs (show f < X.d from hf)] at this
    simp only [this]
    exact symbol_median hp one_pos (havg i hi s hs f hf)
  have hslope' : paaToSymbols (breakpoints ppf A' sigma) (Arr3.build X.data.length S X.d fun i s f =>
      some (lsSlope (s * q) ((List.range q).map fun k => (fun t f =>
      (binMedians ppf A 1).getD (wordAt (W.getD i []) (t / q) f) 0 +
        (binMedians ppf A' sigma).getD (wordAt (W.getD i []) (t / q) (f + d)) 0 *
          ((t : K) - (((t / q * q : ℕ) : K) + 1 / 2 * ((q : K) - 1)))) (s * q + k) f))) =
      (List.range W.length).map fun i => (List.range S).map fun s =>
      (List.range d).map fun f => wordAt (W.getD i []) s (f + d) := by
    rw [symbols_build, hl]
    apply List.map_congr_left
    intro i hi
    apply List.map_congr_left
    intro s hs
    apply List.map_congr_left
    intro f hf
    rw [List.mem_range] at hi hs hf
    have hf : f < d := hf
    rw [List.map_congr_left fun k hk => hval i hi s f k (List.mem_range.1 hk), lsSlope_affine _ _ _ _ hq]
    exact symbol_median hp hsig (hslope i hi s hs f hf)
  rw [havg', hslope']
  conv_rhs => rw [words_eq hsh]
  rw [← append_words]
  exact zip_words W.length S d d _ (fun i s f => wordAt (W.getD i []) s (f + d))

/-- Two segments of two samples: averages 1 and 0, slopes 0 and 1. -/
example (junk : ℕ → ℕ → ℕ → Option ℚ) : oneDTransform 1 none (breakpoints (id : ℚ → ℚ) 2 1) (breakpoints id 2 (1 / 2)) 2
    (oneDInverse junk none (binMedians id 2 1) (binMedians id 2 (1 / 2)) 2 1 [[[1, 0], [0, 1]]] 4) =
      .ok [[[1, 0], [0, 1]]] :=
  C55_oned_partial id (strictMono_id.strictMonoOn _) 2 2 2 1 4 (1 / 2) (by norm_num) ⟨2, rfl⟩ (by omega) _ (by simp)
    (by
      intro w hw
      simp only [List.mem_cons, List.not_mem_nil, or_false] at hw
      subst hw
      simp)
    (by
      intro i hi s hs f hf
      have hi : i < 1 := hi
      interval_cases i
      interval_cases f
      interval_cases s <;> decide)
    (by
      intro i hi s hs f hf
      have hi : i < 1 := hi
      interval_cases i
      interval_cases f
      interval_cases s <;> decide) junk

end

/-- `scale=True` breaks 1d-SAX: the averages are scaled twice. For every increasing quantile function there are
training data and a word for which the recovered average symbol differs. -/
theorem C55_oned_scaled_false (ppf : ℝ → ℝ) : ∃ (Xfit : Arr3 ℝ) (W : List (List (List ℕ))), Xfit.WF ∧ Over W 1 2 2 ∧
    ∀ (junk : ℕ → ℕ → ℕ → Option ℝ) (sigma : ℝ), ∃ W' : List (List (List ℕ)),
      oneDTransform 1 (some (fitScaling Xfit)) (breakpoints ppf 2 1) (breakpoints ppf 2 sigma) 1
        (oneDInverse junk (some (fitScaling Xfit)) (binMedians ppf 2 1) (binMedians ppf 2 sigma) 1 1 W 2) = .ok W' ∧
      W' ≠ W := by
  set bp := (breakpoints ppf 2 1).getD 0 0 with hbp
  set md := (binMedians ppf 2 1).getD 1 0 with hmd
  set mu := md - bp + 1 with hmu
  have hwf : (⟨2, 1, [[[some (mu - 1)], [some (mu + 1)]]]⟩ : Arr3 ℝ).WF := by
    intro s hs
    simp only [List.mem_cons, List.not_mem_nil, or_false] at hs
    subst hs
    refine ⟨rfl, ?_⟩
    intro r hr
    simp only [List.mem_cons, List.not_mem_nil, or_false] at hr
    rcases hr with h | h <;> rw [h] <;> rfl
  refine ⟨⟨2, 1, [[[some (mu - 1)], [some (mu + 1)]]]⟩, [[[1, 0]]], hwf, ⟨?_, ?_⟩, ?_⟩
  · intro w hw; simp at hw; subst hw; simp
  · intro w hw r hr c hc; simp at hw; subst hw; simp at hr; subst hr; simp at hc; omega
  intro junk sigma
  set m := fitScaling ⟨2, 1, [[[some (mu - 1)], [some (mu + 1)]]]⟩ with hm
  have hm0 : m 0 = (some mu, some 1) := by
    have hg : (⟨2, 1, [[[some (mu - 1)], [some (mu + 1)]]]⟩ : Arr3 ℝ).group false true 0 0 = [mu - 1, mu + 1] := by
      simp [Arr3.group, Arr3.entry, List.range_succ]
    rw [hm]
    unfold fitScaling nanStd nanMean
    simp only [hg]
    have h1 : [mu - 1, mu + 1].sum / (([mu - 1, mu + 1].length : ℕ) : ℝ) = mu := by simp
    have h2 : (List.map (fun x => (x - mu) ^ 2) [mu - 1, mu + 1]).sum / (([mu - 1, mu + 1].length : ℕ) : ℝ) = 1 := by
      simp
    simp only [reduceCtorEq, if_false, Option.map_some, h1, h2, Real.sqrt_one, one_ne_zero]
  have hmf : ∀ f < 1, m f = (some ((fun _ => mu) f), some ((fun _ => (1 : ℝ)) f)) := by
    intro f hf
    obtain rfl : f = 0 := by omega
    exact hm0
  -- the reconstructed series, before and after the two scalings
  have hs0 := oned_series junk (binMedians ppf 2 1) (binMedians ppf 2 sigma) 1 2 1 one_pos [[[1, 0]]] 0 (by simp)
  set sl := (binMedians ppf 2 sigma).getD 0 0 with hsl
  set X0 := oneDInverse junk none (binMedians ppf 2 1) (binMedians ppf 2 sigma) 1 1 [[[1, 0]]] (1 * 2) with hX0
  set X := oneDInverse junk (some m) (binMedians ppf 2 1) (binMedians ppf 2 sigma) 1 1 [[[1, 0]]] 2 with hX
  have hXw : X.WF := Arr3.build_wf _ _ _ _
  have hXl : X.data.length = 1 := by
    rw [hX]
    simp only [oneDInverse, saxUnscale]
    rw [Arr3.build_length]
    unfold inv1dRaw
    rw [Arr3.build_length]
    rfl
  have hXs : Series X 0 2 (fun t _ => (md + sl * ((t : ℝ) - 1 / 2)) * 1 + mu) := by
    apply series_of_entries hXw (by omega)
    intro t ht f hf
    have ht : t < 2 := ht
    have hf : f < 1 := hf
    obtain rfl : f = 0 := by omega
    have e0 := hs0.2.2.1 t (by omega) 0 (by simp [hX0, oneDInverse, saxUnscale, inv1dRaw, Arr3.build])
    have hval : X0.entry 0 t 0 = some (md + sl * ((t : ℝ) - 1 / 2)) := by
      rw [e0]
      simp only [show t / 2 = 0 by omega]
      simp only [wordAt, List.getD_cons_zero]
      norm_num [hmd, hsl]
    have : X = saxUnscale (some m) X0 := rfl
    rw [this]
    exact saxUnscale_entry hs0.1 (show t < X0.sz from ht) (show 0 < X0.d from one_pos) hval hm0
  have hne' : X.data ≠ [] := by intro e; rw [e] at hXl; simp at hXl
  have h1 : oneDTransform 1 (some m) (breakpoints ppf 2 1) (breakpoints ppf 2 sigma) 1 X =
      oneDRaw (some m) (breakpoints ppf 2 1) (breakpoints ppf 2 sigma) 1 X := by
    have : X.d = 1 := rfl
    simp only [oneDTransform, hne', if_false, ne_eq, this, not_true_eq_false, one_ne_zero, bind, Except.bind]
  rw [h1]
  unfold oneDRaw
  have hX1 := hXs.scale hmf
  have hX2 := hX1.scale (m := m) (mu := fun _ => mu) (sd := fun _ => 1) hmf
  set X1 := saxScale (some m) X with hX1'
  cases hsl : getSlopes 1 X1 with
  | error e =>
    have hX1l : X1.data.length = 1 := by rw [hX1', saxScale_length, hXl]
    have := getSlopes_ok (X := X1) (S := 1) (q := 2) (fun _ => _) (fun i hi => by
      obtain rfl : i = 0 := by omega
      exact hX1) rfl (by omega) one_pos
    rw [hsl] at this
    cases this
  | ok sl' =>
    simp only [bind, Except.bind, pure, Except.pure, hsl]
    refine ⟨_, rfl, ?_⟩
    intro h1
    have hX2w : (saxScale (some m) X1).WF := Arr3.build_wf _ _ _ _
    have hent := paaRaw_const (S := 1) (q := 2) hX2w hX2 (by omega) (s := 0) (by omega) (f := 0) one_pos (md - mu) (by
      simp only [Finset.sum_range_succ, Finset.sum_range_zero]
      push_cast
      ring)
    have hsym : wordAt ((saxRaw (some m) (breakpoints ppf 2 1) 1 X1).getD 0 []) 0 0 = 0 := by
      unfold saxRaw
      rw [wordAt_symbols (paaRaw_wf _ _) (by rw [paaRaw_length]; exact hX2.1) one_pos one_pos, hent]
      apply paaToSymbol_unique (by omega) (by intro j hj; omega)
      intro _
      rw [← hbp]
      linarith
    have hlen : (saxRaw (some m) (breakpoints ppf 2 1) 1 X1).length = 1 := by
      unfold saxRaw paaToSymbols paaRaw
      rw [List.length_map, Arr3.build_length, hX1']
      simp only [saxScale]
      rw [Arr3.build_length, Arr3.build_length, hXl]
    generalize hA : saxRaw (some m) (breakpoints ppf 2 1) 1 X1 = a at h1 hsym hlen
    match a, hlen with
    | [w], _ =>
      have hw : w = (saxRaw (some m) (breakpoints ppf 2 1) 1 X1).getD 0 [] := by rw [hA]; rfl
      have hwl : w.length = 1 ∧ ∀ r ∈ w, r.length = 1 := by
        have := (C33_range 1 (some m) ppf 2 1 1 X1 (saxRaw (some m) (breakpoints ppf 2 1) 1 X1) (by omega)
          (saxTransform_ok (X := X1) hX1.ne one_pos)).2 w (by rw [hA]; simp)
        exact ⟨this.1, fun r hr => (this.2 r hr).1⟩
      match w, hwl with
      | [r], hr =>
        have hr := hr.2 r (by simp)
        match r, hr with
        | [c], _ =>
          have hc : c = 0 := hsym
          subst hc
          generalize paaToSymbols (breakpoints ppf 2 sigma) sl' = z at h1
          cases z with
          | nil => simp at h1
          | cons z0 z =>
            cases z0 with
            | nil => simp at h1
            | cons z1 z0 => simp at h1

/-- Segments of a single sample have slope zero: for a centred quantile function the slope symbol 0 is lost. -/
theorem C55_oned_single_false (ppf : ℝ → ℝ) (h0 : ppf (1 / 2) = 0) (junk : ℕ → ℕ → ℕ → Option ℝ) (sigma : ℝ) :
    oneDTransform 1 none (breakpoints ppf 2 1) (breakpoints ppf 2 sigma) 1
      (oneDInverse junk none (binMedians ppf 2 1) (binMedians ppf 2 sigma) 1 1 [[[0, 0]]] 1) ≠ .ok [[[0, 0]]] := by
  intro h
  set X := oneDInverse junk none (binMedians ppf 2 1) (binMedians ppf 2 sigma) 1 1 [[[0, 0]]] 1 with hX
  have hXl : X.data.length = 1 := by
    rw [hX]
    simp only [oneDInverse, saxUnscale]
    unfold inv1dRaw
    rw [Arr3.build_length]
    rfl
  have hs0 := oned_series junk (binMedians ppf 2 1) (binMedians ppf 2 sigma) 1 1 1 one_pos [[[0, 0]]] 0 (by simp)
  have hne' : X.data ≠ [] := by intro e; rw [e] at hXl; simp at hXl
  have hsl := getSlopes_ok (X := X) (S := 1) (q := 1) (fun _ => _) (fun i hi => by
    obtain rfl : i = 0 := by omega
    exact hs0) rfl one_pos one_pos
  have h1 : oneDRaw none (breakpoints ppf 2 1) (breakpoints ppf 2 sigma) 1 X = .ok [[[0, 0]]] := by
    have : X.d = 1 := rfl
    simpa only [oneDTransform, hne', if_false, ne_eq, this, not_true_eq_false, one_ne_zero, bind, Except.bind,
      pure, Except.pure] using h
  unfold oneDRaw at h1
  simp only [saxScale, hsl, bind, Except.bind, pure, Except.pure, Except.ok.injEq] at h1
  rw [symbols_build, hXl, show X.d = 1 from rfl] at h1
  have hz : ∀ y : ℝ, paaToSymbol (breakpoints ppf 2 sigma) (some (lsSlope 0 [y])) = 1 := by
    intro y
    have : lsSlope 0 [y] = (0 : ℝ) := by simp [lsSlope]
    rw [this]
    apply paaToSymbol_unique (by rw [breakpoints_length])
    · intro j hj
      obtain rfl : j = 0 := by omega
      rw [breakpoints_getD _ _ _ (by omega)]
      norm_num [h0]
    · intro hl
      rw [breakpoints_length] at hl
      omega
  simp only [List.range_one, List.map_cons, List.map_nil, Nat.zero_mul] at h1
  rw [hz] at h1
  generalize saxRaw none (breakpoints ppf 2 1) 1 X = a at h1
  match a with
  | [] => simp at h1
  | [] :: l => simp at h1
  | ([] :: k) :: l => simp at h1
  | ([x] :: k) :: l => simp at h1
  | ((x :: y :: r) :: k) :: l =>
    simp at h1

example (junk : ℕ → ℕ → ℕ → Option ℝ) : oneDTransform 1 none (breakpoints (fun p : ℝ => p - 1 / 2) 2 1)
    (breakpoints (fun p : ℝ => p - 1 / 2) 2 1) 1 (oneDInverse junk none (binMedians (fun p : ℝ => p - 1 / 2) 2 1)
      (binMedians (fun p : ℝ => p - 1 / 2) 2 1) 1 1 [[[0, 0]]] 1) ≠ .ok [[[0, 0]]] :=
  C55_oned_single_false _ (by norm_num) junk 1

/-! ### What has no 1d-SAX representation -/

section
variable {K : Type} [Field K] [LinearOrder K] [IsStrictOrderedRing K]

theorem mapM_refused {β γ : Type} (g : β → Except PyErr γ) (e : PyErr) (hg : ∀ b e', g b = .error e' → e' = e) :
    ∀ l : List β, (∃ b ∈ l, g b = .error e) → l.mapM g = .error e := by
  intro l
  induction l with
  | nil => rintro ⟨b, hb, -⟩; simp at hb
  | cons a l ih =>
    rintro ⟨b, hb, he⟩
    rw [List.mapM_cons]
    cases ha : g a with
    | error e' => rw [hg a e' ha]; rfl
    | ok v =>
      rcases List.mem_cons.1 hb with rfl | hb
      · rw [ha] at he; simp at he
      · rw [ih ⟨b, hb, he⟩]; rfl

theorem mapM_errors {β γ : Type} (g : β → Except PyErr γ) (e : PyErr) (hg : ∀ b e', g b = .error e' → e' = e) :
    ∀ (l : List β) e', l.mapM g = .error e' → e' = e := by
  intro l
  induction l with
  | nil => intro e' h; simp [pure, Except.pure] at h
  | cons a l ih =>
    intro e' h
    rw [List.mapM_cons] at h
    cases ha : g a with
    | error e1 => simp only [ha, bind, Except.bind, Except.error.injEq] at h; rw [← h]; exact hg a e1 ha
    | ok v =>
      cases hl : l.mapM g with
      | error e1 => simp only [ha, hl, bind, Except.bind, Except.error.injEq] at h; rw [← h]; exact ih e1 hl
      | ok vs => simp [ha, hl, bind, Except.bind, pure, Except.pure] at h

theorem slopeCell_errors (t0 : ℕ) (l : List (Option K)) (e : PyErr) (h : slopeCell t0 l = .error e) : e = .valueError := by
  unfold slopeCell at h
  split at h
  · split at h
    · cases h; rfl
    · exact absurd h (by simp)
  · cases h; rfl

theorem mapM_id_none {l : List (Option K)} (h : none ∈ l) : l.mapM id = none := by
  induction l with
  | nil => simp at h
  | cons a l ih =>
    rw [List.mapM_cons]
    rcases List.mem_cons.1 h with rfl | h
    · rfl
    · rw [ih h]; cases a <;> rfl

theorem getSlopes_refused {X : Arr3 K} {S i s f : ℕ} (hi : i < X.data.length) (hs : s < S) (hf : f < X.d)
    (h : X.sz < S ∨ ∃ k < X.sz / S, X.entry i (s * (X.sz / S) + k) f = none) : getSlopes S X = .error .valueError := by
  have hcell : slopeCell (s * (X.sz / S)) ((List.range (X.sz / S)).map fun t => X.entry i (s * (X.sz / S) + t) f) =
      .error .valueError := by
    rcases h with h | ⟨k, hk, hn⟩
    · rw [Nat.div_eq_of_lt h]; rfl
    · unfold slopeCell
      rw [mapM_id_none (List.mem_map.2 ⟨k, List.mem_range.2 hk, hn⟩)]
  unfold getSlopes
  simp only [bind, Except.bind]
  rw [mapM_refused (e := .valueError)]
  · exact fun b e' he => mapM_errors _ _ (fun b e' he => mapM_errors _ _ (fun b e' he => slopeCell_errors _ _ _ he) _ _ he) _ _ he
  · refine ⟨i, List.mem_range.2 hi, ?_⟩
    apply mapM_refused _ _ (fun b e' he => mapM_errors _ _ (fun b e' he => slopeCell_errors _ _ _ he) _ _ he)
    refine ⟨s, List.mem_range.2 hs, ?_⟩
    apply mapM_refused _ _ (fun b e' he => slopeCell_errors _ _ _ he)
    exact ⟨f, List.mem_range.2 hf, hcell⟩

/-- 1d-SAX refuses, with a `ValueError`, a dataset with a missing sample in one of its segments — shorter series padded with
NaNs among them — and series of fewer samples than segments, where PAA and SAX give NaNs or symbols. -/
theorem C55_oned_refuses (sc : Option (Scaling K)) (bps bpsl : List K) {X : Arr3 K} {S i s f : ℕ} (hi : i < X.data.length)
    (hs : s < S) (hf : f < X.d) (h : X.sz < S ∨ ∃ k < X.sz / S, X.entry i (s * (X.sz / S) + k) f = none) :
    oneDTransform X.d sc bps bpsl S X = .error .valueError := by
  have hsl : getSlopes S (saxScale sc X) = .error .valueError := by
    have e1 : (saxScale sc X).sz = X.sz := by cases sc <;> rfl
    have e2 : (saxScale sc X).d = X.d := by cases sc <;> rfl
    refine getSlopes_refused (i := i) (s := s) (f := f) (by rw [saxScale_length]; exact hi) hs (by rw [e2]; exact hf) ?_
    rw [e1]
    refine h.imp id ?_
    rintro ⟨k, hk, hn⟩
    refine ⟨k, hk, ?_⟩
    cases sc with
    | none => exact hn
    | some m =>
      have ht : s * (X.sz / S) + k < X.sz := by
        have h1 : (s + 1) * (X.sz / S) ≤ S * (X.sz / S) := Nat.mul_le_mul_right _ hs
        have h2 := Nat.mul_div_le X.sz S
        have h3 : (s + 1) * (X.sz / S) = s * (X.sz / S) + X.sz / S := by ring
        omega
      simp only [saxScale]
      rw [Arr3.build_entry hi ht hf, hn]
      rfl
  have hne : X.data ≠ [] := by intro h0; rw [h0] at hi; simp at hi
  have hS : S ≠ 0 := by omega
  simp only [oneDTransform, oneDRaw, hne, hS, hsl, if_false, ne_eq, not_true_eq_false, bind, Except.bind]

/-- A series of four samples and one of two, in two segments. -/
example : oneDTransform 1 none [(0 : ℚ)] [0] 2 ⟨4, 1, [[[some 1], [some 2], [some 3], [some 4]], [[some 1], [some 2], [none], [none]]]⟩ =
    .error .valueError :=
  C55_oned_refuses (X := ⟨4, 1, [[[some 1], [some 2], [some 3], [some 4]], [[some 1], [some 2], [none], [none]]]⟩) (S := 2)
    none [0] [0] (i := 1) (s := 1) (f := 0) (by decide) (by decide) (by decide) (Or.inr ⟨0, by decide, rfl⟩)

/-- With no segments, all three transforms raise `ZeroDivisionError` on a non-empty dataset with the number of features seen in `fit`, and `ValueError` on an
empty one or with another number of features, whatever the number of segments. -/
theorem C55_refusals (fitD S : ℕ) (X : Arr3 K) (sc : Option (Scaling K)) (bps bpsl : List K) :
    (X.data ≠ [] → X.d = fitD → paaTransform fitD 0 X = .error .zeroDivision ∧ saxTransform fitD sc bps 0 X = .error .zeroDivision ∧
      oneDTransform fitD sc bps bpsl 0 X = .error .zeroDivision) ∧
    (X.data = [] ∨ X.d ≠ fitD → paaTransform fitD S X = .error .valueError ∧ saxTransform fitD sc bps S X = .error .valueError ∧
      oneDTransform fitD sc bps bpsl S X = .error .valueError) := by
  refine ⟨fun hne hd => ?_, fun h => ?_⟩
  · simp [paaTransform, saxTransform, oneDTransform, hne, hd, bind, Except.bind, throw, throwThe, MonadExceptOf.throw]
  · by_cases h0 : X.data = []
    · simp [paaTransform, saxTransform, oneDTransform, h0, bind, Except.bind, throw, throwThe, MonadExceptOf.throw]
    · have hd := h.resolve_left h0
      simp [paaTransform, saxTransform, oneDTransform, h0, hd, bind, Except.bind, throw, throwThe, MonadExceptOf.throw]

/-- One series of one sample, no segments; and the same series after a fit with two features. -/
example : oneDTransform 1 none [(0 : ℚ)] [0] 0 ⟨1, 1, [[[some 1]]]⟩ = .error .zeroDivision ∧
    oneDTransform 2 none [(0 : ℚ)] [0] 1 ⟨1, 1, [[[some 1]]]⟩ = .error .valueError :=
  ⟨((C55_refusals 1 0 ⟨1, 1, [[[some 1]]]⟩ none [0] [0]).1 (by decide) rfl).2.2,
    ((C55_refusals 2 1 ⟨1, 1, [[[some 1]]]⟩ none [0] [0]).2 (Or.inr (by decide))).2.2⟩

end
end Verif
