import Verif.Model.FloatKernelKMeans
import Verif.Spec.FloatKernelKMeans
import Verif.Proofs.KMeans
import Verif.Props.C107
/-!
# C109 — `KernelKMeans` when kernel values are not numbers
-/
set_option linter.unusedSectionVars false
namespace Verif
open Spec
noncomputable section
open Classical
variable {A : Arith} {sum : List Fl → Fl} {u tiny : ℝ}

/-! ## `argmin` -/

private theorem lt_trans_fl {x y z : Fl} (h : Fl.lt x y = true) (h' : Fl.lt y z = true) : Fl.lt x z = true := by
  cases x <;> cases y <;> cases z <;> simp_all [Fl.lt]
  exact h.trans h'

private theorem not_lt_trans {x y z : Fl} (hz : y ≠ .nan) (h : Fl.lt y x = false) (h' : Fl.lt z y = false) (hx : x ≠ .nan)
    (hzz : z ≠ .nan) : Fl.lt z x = false := by
  cases x <;> cases y <;> cases z <;> simp_all [Fl.lt]
  exact h.trans h'

private theorem lt_of_not {x y z : Fl} (hy : y ≠ .nan) (hz : z ≠ .nan) (h : Fl.lt x y = true) (h' : Fl.lt z y = false) :
    Fl.lt x z = true := by
  cases x <;> cases y <;> cases z <;> simp_all [Fl.lt]
  exact h.trans_le h'

private theorem argmin_fold (r : List Fl) (hr : Fl.nan ∉ r) : ∀ (t p : List Fl) (b : Fl × ℕ), r = p ++ t →
    r[b.2]? = some b.1 → (∀ j y, p[j]? = some y → Fl.lt y b.1 = false ∧ (j < b.2 → Fl.lt b.1 y = true)) →
    (b.2 < p.length ∨ (p = [] ∧ b.2 = 0)) →
    ∃ x, r[((t.zipIdx p.length).foldl (fun best p => if Fl.lt p.1 best.1 then p else best) b).2]? = some x ∧
      ∀ j y, r[j]? = some y → Fl.lt y x = false ∧
        (j < ((t.zipIdx p.length).foldl (fun best p => if Fl.lt p.1 best.1 then p else best) b).2 → Fl.lt x y = true)
  | [], p, b, h, hb, hp, _ => by
    simp only [List.append_nil] at h
    exact ⟨b.1, hb, h ▸ hp⟩
  | a :: t, p, b, h, hb, hp, hpos => by
    have ha : r[p.length]? = some a := by rw [h]; simp
    have ne : ∀ {i : ℕ} {y : Fl}, r[i]? = some y → y ≠ .nan := fun hy hn => hr (hn ▸ List.mem_of_getElem? hy)
    have key := argmin_fold r hr t (p ++ [a])
    simp only [List.zipIdx_cons, List.foldl_cons]
    have hl : (p ++ [a]).length = p.length + 1 := by simp
    rw [hl] at key
    have pr : ∀ {j y}, p[j]? = some y → r[j]? = some y := fun {j y} hy => by
      rw [h, List.getElem?_append_left (List.getElem?_eq_some_iff.1 hy).1]; exact hy
    by_cases hlt : Fl.lt a b.1 = true
    · simp only [hlt, if_true]
      refine key (a, p.length) (by rw [h]; simp) ha (fun j y hy => ?_) (.inl (by simp))
      rcases Nat.lt_or_ge j p.length with hj | hj
      · rw [List.getElem?_append_left hj] at hy
        have h1 := (hp j y hy).1
        have h2 := lt_of_not (ne hb) (ne (pr hy)) hlt h1
        refine ⟨?_, fun _ => h2⟩
        by_contra hc
        have := lt_trans_fl h2 (Bool.not_eq_false _ ▸ hc)
        cases a <;> simp [Fl.lt] at this
      · have : j = p.length := by
          have := (List.getElem?_eq_some_iff.1 hy).1
          simp at this; omega
        subst this
        simp only [List.getElem?_append_right (le_refl _), Nat.sub_self, List.getElem?_cons_zero, Option.some.injEq] at hy
        subst hy
        exact ⟨by cases a <;> simp [Fl.lt], fun hh => absurd hh (lt_irrefl _)⟩
    · simp only [hlt]
      refine key b (by rw [h]; simp) hb (fun j y hy => ?_) (.inl (by simp; omega))
      rcases Nat.lt_or_ge j p.length with hj | hj
      · rw [List.getElem?_append_left hj] at hy
        exact hp j y hy
      · have : j = p.length := by
          have := (List.getElem?_eq_some_iff.1 hy).1
          simp at this; omega
        subst this
        simp only [List.getElem?_append_right (le_refl _), Nat.sub_self, List.getElem?_cons_zero, Option.some.injEq] at hy
        subst hy
        exact ⟨by simpa using hlt, fun hh => by omega⟩

theorem argminF_picks {r : List Fl} (h : r ≠ []) : Picks r (argminF r) := by
  unfold argminF
  cases hf : r.findIdx? Fl.isNan with
  | some i =>
    obtain ⟨hi, h1, h2⟩ := List.findIdx?_eq_some_iff_getElem.1 hf
    have hn : r[i]? = some .nan := by
      rw [List.getElem?_eq_getElem hi]
      revert h1; cases r[i] <;> simp [Fl.isNan]
    refine ⟨⟨_, hn⟩, fun _ => ⟨hn, fun j hj hc => ?_⟩, fun hc => absurd (List.mem_of_getElem? hn) hc⟩
    have := h2 j hj
    rw [List.getElem?_eq_getElem (hj.trans hi), Option.some.injEq] at hc
    simp [hc, Fl.isNan] at this
  | none =>
    have hn : Fl.nan ∉ r := fun hc => by
      have := List.findIdx?_eq_none_iff.1 hf _ hc
      simp [Fl.isNan] at this
    obtain ⟨a, t, rfl⟩ := List.exists_cons_of_ne_nil h
    obtain ⟨x, hx, hle⟩ := argmin_fold (a :: t) hn (a :: t) [] (a, 0) rfl rfl (by simp) (.inr ⟨rfl, rfl⟩)
    refine ⟨⟨x, hx⟩, fun hc => absurd hc hn, fun _ x' hx' => ?_⟩
    simp only [List.headD_cons, List.length_nil] at hx hle hx' ⊢
    rw [hx, Option.some.injEq] at hx'
    exact hx' ▸ hle

/-! ## Distances -/

theorem picks_nanF {k i : ℕ} {r : List Fl} (h : Picks r i) (hr : r = List.replicate (k + 1) .nan) : i = 0 := by
  by_contra h0
  exact (h.2.1 (by rw [hr]; simp)).2 0 (by omega) (by rw [hr]; simp [List.replicate_succ])

theorem mask_neF {labels : List ℕ} {k j : ℕ} (h : AllUsed k labels) (hj : j < k) : kkMask labels j ≠ [] := by
  have hm : j ∈ labels := h j hj
  obtain ⟨i, hi, rfl⟩ := List.getElem_of_mem hm
  exact List.ne_nil_of_mem (a := i) (by simp [kkMask, hi])

theorem entry_nanF (hsum : Adds A.fit sum) {sw : ℕ → ℝ} {M : Mat Fl} {labels : List ℕ} {x j : ℕ} {i : ℕ}
    (hi : labels[i]? = some j) (hM : M x i = .nan) : A.kkEntry sum sw M labels x j = .nan := by
  have hm : i ∈ kkMask labels j := by
    obtain ⟨h1, h2⟩ := List.getElem?_eq_some_iff.1 hi
    simp [kkMask, h1, h2]
  have : sum ((kkMask labels j).map fun i => A.mul (.num (sw i)) (M x i)) = .nan :=
    hsum.nan _ (List.mem_map.2 ⟨i, hm, by rw [hM]; rfl⟩)
  simp only [Arith.kkEntry, this]
  rfl

theorem kkDist_okF {k m : ℕ} {sw : ℕ → ℝ} {M : Mat Fl} {L : List ℕ} (h : AllUsed k L) :
    A.kkDist sum k m sw M (some L) =
      .ok ((List.range m).map fun x => (List.range k).map fun j => A.kkEntry sum sw M L x j) := by
  have : ¬ hasEmpty L k = true := by rw [hasEmpty_iff]; exact not_not.2 h
  simp only [Arith.kkDist, Option.getD_some, this, if_false, Bool.false_eq_true]

theorem kkDist_errF {k m : ℕ} {sw : ℕ → ℝ} {M : Mat Fl} {L : Option (List ℕ)} (h : ¬ AllUsed k (L.getD [])) :
    A.kkDist sum k m sw M L = .error .emptyCluster := by
  simp only [Arith.kkDist, (hasEmpty_iff _ _).2 h, if_true]

/-- Rows of the distance matrix of given labels. -/
abbrev kkfRow (A : Arith) (sum : List Fl → Fl) (k : ℕ) (sw : ℕ → ℝ) (M : Mat Fl) (L : List ℕ) (x : ℕ) : List Fl :=
  (List.range k).map fun j => A.kkEntry sum sw M L x j

/-! ## One attempt -/

/-- Everything but `labels_`, `inertia_`, `n_iter_` and `_iter` is the same. -/
def KkfSame (o o' : KkfObj) : Prop :=
  o'.nClusters = o.nClusters ∧ o'.maxIter = o.maxIter ∧ o'.tol = o.tol ∧ o'.nInit = o.nInit ∧ o'.fitted = o.fitted ∧ o'.xfit = o.xfit

/-- Labels `L` chosen by a last round from labels `L0`, and their inertia. -/
def ChosenBy (A : Arith) (sum : List Fl → Fl) (k m : ℕ) (sw : ℕ → ℝ) (M : Mat Fl) (L : List ℕ) (v : Fl) : Prop :=
  AllUsed k L ∧ ∃ L0, AllUsed k L0 ∧ L = (List.range m).map (fun x => argminF (kkfRow A sum k sw M L0 x)) ∧
    v = sum ((List.range m).map fun x => minF (kkfRow A sum k sw M L0 x))

theorem kkLoop_specF (m : ℕ) (sw : ℕ → ℝ) (M : Mat Fl) : ∀ (n it : ℕ) (old : Fl) (o : KkfObj),
    KkfSame o (A.kkLoop sum m sw M n it old o).1 ∧
    (((A.kkLoop sum m sw M n it old o).2 = some .emptyCluster ∧ 0 < n) ∨
      ((A.kkLoop sum m sw M n it old o).2 = none ∧ (0 < n → ∃ L v, ChosenBy A sum o.nClusters m sw M L v ∧
        (A.kkLoop sum m sw M n it old o).1.labels = some L ∧ (A.kkLoop sum m sw M n it old o).1.inertia = some v) ∧
        (n = 0 → (A.kkLoop sum m sw M n it old o).1 = { o with iter := it })))
  | 0, it, old, o => by
    refine ⟨⟨rfl, rfl, rfl, rfl, rfl, rfl⟩, .inr ⟨rfl, fun h => absurd h (lt_irrefl _), fun _ => rfl⟩⟩
  | n + 1, it, old, o => by
    unfold Arith.kkLoop
    by_cases hu : AllUsed o.nClusters (o.labels.getD [])
    · have he : ¬ hasEmpty (o.labels.getD []) o.nClusters = true := by rw [hasEmpty_iff]; exact not_not.2 hu
      have hd : A.kkDist sum o.nClusters m sw M o.labels =
          .ok ((List.range m).map fun x => kkfRow A sum o.nClusters sw M (o.labels.getD []) x) := by
        simp only [Arith.kkDist, he, if_false, Bool.false_eq_true]
      simp only [hd]
      generalize hds : (List.range m).map (fun x => kkfRow A sum o.nClusters sw M (o.labels.getD []) x) = ds
      by_cases h2 : hasEmpty (ds.map argminF) o.nClusters = true
      · simp only [h2, if_true]
        exact ⟨⟨rfl, rfl, rfl, rfl, rfl, rfl⟩, .inl (by simp)⟩
      · have hch : ChosenBy A sum o.nClusters m sw M (ds.map argminF) (Arith.kkInertia sum ds) := by
          refine ⟨by rw [hasEmpty_iff, not_not] at h2; exact h2, o.labels.getD [], hu, by rw [← hds, List.map_map]; rfl, ?_⟩
          rw [Arith.kkInertia, ← hds, List.map_map]; rfl
        simp only [h2, Bool.false_eq_true, if_false]
        split_ifs with h3
        · exact ⟨⟨rfl, rfl, rfl, rfl, rfl, rfl⟩, .inr ⟨rfl, fun _ => ⟨_, _, hch, rfl, rfl⟩, by simp⟩⟩
        · obtain ⟨⟨a1, a2, a3, a4, a5, a6⟩, h4⟩ := kkLoop_specF m sw M n (it + 1) (Arith.kkInertia sum ds)
            { o with labels := some (ds.map argminF), inertia := some (Arith.kkInertia sum ds) }
          refine ⟨⟨a1, a2, a3, a4, a5, a6⟩, ?_⟩
          rcases h4 with ⟨h5, _⟩ | ⟨h5, h6, h7⟩
          · exact .inl ⟨h5, Nat.succ_pos _⟩
          · refine .inr ⟨h5, fun _ => ?_, by simp⟩
            rcases Nat.eq_zero_or_pos n with h0 | h0
            · exact ⟨_, _, hch, by rw [h7 h0], by rw [h7 h0]⟩
            · exact h6 h0
    · simp only [kkDist_errF hu]
      exact ⟨⟨rfl, rfl, rfl, rfl, rfl, rfl⟩, .inl (by simp)⟩

theorem kkFitOne_specF (m : ℕ) (sw : ℕ → ℝ) (M : Mat Fl) (init : List ℕ) (o : KkfObj) (hm : 0 < o.maxIter) :
    KkfSame o (A.kkFitOne sum m sw M init o).1 ∧
    ((A.kkFitOne sum m sw M init o).2 = some .emptyCluster ∨
      ((A.kkFitOne sum m sw M init o).2 = none ∧ ∃ L v, ChosenBy A sum o.nClusters m sw M L v ∧
        (A.kkFitOne sum m sw M init o).1.labels = some L ∧ (A.kkFitOne sum m sw M init o).1.inertia = some v)) := by
  have h0 : ¬ o.maxIter = 0 := by omega
  simp only [Arith.kkFitOne, h0, if_false]
  obtain ⟨⟨a1, a2, a3, a4, a5, a6⟩, h⟩ := kkLoop_specF (A := A) (sum := sum) m sw M o.maxIter 0 .inf { o with labels := some init }
  refine ⟨⟨a1, a2, a3, a4, a5, a6⟩, ?_⟩
  rcases h with ⟨h, _⟩ | ⟨h1, h2, _⟩
  · exact .inl h
  · exact .inr ⟨h1, h2 hm⟩

/-! ## All attempts -/

/-- Best labels and inertia so far. -/
def BestBy (A : Arith) (sum : List Fl → Fl) (k m : ℕ) (sw : ℕ → ℝ) (M : Mat Fl) (best : Option (List ℕ)) (least : Fl) : Prop :=
  (best = none ∧ least = .inf) ∨ ∃ L, best = some L ∧ ChosenBy A sum k m sw M L least ∧ Fl.lt least .inf = true

theorem kkFitLoop_specF (m : ℕ) (sw : ℕ → ℝ) (M : Mat Fl) (inits : ℕ → List ℕ) :
    ∀ (fuel a s : ℕ) (best : Option (List ℕ)) (least : Fl) (o : KkfObj), 0 < o.maxIter →
    BestBy A sum o.nClusters m sw M best least →
    ∃ s' best' least' o', A.kkFitLoop sum m sw M inits fuel a s best least o = ((s', best', least'), o', none) ∧
      KkfSame o o' ∧ BestBy A sum o.nClusters m sw M best' least'
  | 0, a, s, best, least, o, _, hb => ⟨s, best, least, o, rfl, ⟨rfl, rfl, rfl, rfl, rfl, rfl⟩, hb⟩
  | fuel + 1, a, s, best, least, o, hm, hb => by
    unfold Arith.kkFitLoop
    by_cases hs : s < o.nInit
    · rw [if_pos hs]
      obtain ⟨hsame, h⟩ := kkFitOne_specF (A := A) (sum := sum) m sw M (inits a) o hm
      generalize hr : A.kkFitOne sum m sw M (inits a) o = r at h hsame
      obtain ⟨o1, e⟩ := r
      obtain ⟨a1, a2, a3, a4, a5, a6⟩ := hsame
      have next : ∀ (n : ℕ) (s : ℕ) best least, BestBy A sum o.nClusters m sw M best least → ∀ o2 : KkfObj, KkfSame o o2 →
          ∃ s' best' least' o', A.kkFitLoop sum m sw M inits fuel (a + 1) s best least o2 = ((s', best', least'), o', none) ∧
            KkfSame o o' ∧ BestBy A sum o.nClusters m sw M best' least' := by
        intro _ s best least hb o2 ⟨b1, b2, b3, b4, b5, b6⟩
        obtain ⟨s', best', least', o', h1, ⟨c1, c2, c3, c4, c5, c6⟩, h3⟩ := kkFitLoop_specF m sw M inits fuel (a + 1) s best least o2
          (b2 ▸ hm) (b1.symm ▸ hb)
        exact ⟨s', best', least', o', h1, ⟨c1.trans b1, c2.trans b2, c3.trans b3, c4.trans b4, c5.trans b5, c6.trans b6⟩, b1 ▸ h3⟩
      rcases h with h | ⟨h, L, v, hc, hL, hv⟩
      · simp only at h
        subst h
        exact next 0 s best least hb o1 ⟨a1, a2, a3, a4, a5, a6⟩
      · simp only at h hL hv a1 a2 a3 a4 a5 a6
        subst h
        simp only [hL, hv, Option.getD_some]
        split_ifs with hlt
        · refine next 0 _ _ _ (.inr ⟨L, rfl, hc, ?_⟩) _ ⟨a1, a2, a3, a4, a5, a6⟩
          rcases hb with ⟨_, rfl⟩ | ⟨_, _, _, h'⟩
          · exact hlt
          · exact lt_trans_fl hlt h'
        · exact next 0 _ _ _ hb _ ⟨a1, a2, a3, a4, a5, a6⟩
    · rw [if_neg hs]
      exact ⟨s, best, least, o, rfl, ⟨rfl, rfl, rfl, rfl, rfl, rfl⟩, hb⟩

/-- What `fit` leaves behind, whatever the kernel matrix, the weights and the drawn labels: no fitted data; or no labels and an
infinite inertia; or labels of which every cluster has some, where each series has the label `argmin` gives for its row of computed
distances, and the inertia — below infinity — is the sum of the distances at those labels. -/
theorem C109_outcomes (m : ℕ) (sw : ℕ → ℝ) (M : Mat Fl) (inits : ℕ → List ℕ) (o : KkfObj) (hk : 0 < o.nClusters)
    (hm : 0 < o.maxIter) :
    ∃ o', A.kkFitMat sum m sw M inits o = (o', none) ∧ o'.nClusters = o.nClusters ∧ o'.fitted = true ∧
      (o'.xfit = false ∨ (o'.xfit = true ∧ o'.labels = none ∧ o'.inertia = some .inf) ∨
        ∃ L0 L v, o'.xfit = true ∧ o'.labels = some L ∧ o'.inertia = some v ∧ Fl.lt v .inf = true ∧ AllUsed o.nClusters L0 ∧
          AllUsed o.nClusters L ∧ L.length = m ∧
          (∀ x l, L[x]? = some l → l < o.nClusters ∧ Picks (kkfRow A sum o.nClusters sw M L0 x) l) ∧
          v = sum ((List.range m).map fun x => (kkfRow A sum o.nClusters sw M L0 x).getD (L.getD x 0) .nan)) := by
  unfold Arith.kkFitMat
  obtain ⟨s, best, least, o', h, ⟨a1, a2, a3, a4, a5, a6⟩, hb⟩ := kkFitLoop_specF (A := A) (sum := sum) m sw M inits (max o.nInit 10) 0 0
    none .inf { o with labels := none, inertia := none, fitted := true, xfit := false, nIter := 0 } hm (.inl ⟨rfl, rfl⟩)
  simp only [h]
  split_ifs with hs
  · refine ⟨_, rfl, a1, a5, .inr ?_⟩
    rcases hb with ⟨h1, h2⟩ | ⟨L, h1, ⟨hu, L0, hu0, hL, hv⟩, h3⟩
    · exact .inl ⟨rfl, h1, by rw [h2]⟩
    · refine .inr ⟨L0, L, least, rfl, h1, rfl, h3, hu0, hu, by rw [hL]; simp, fun x l hl => ?_, ?_⟩
      · rw [hL, List.getElem?_map, Option.map_eq_some_iff] at hl
        obtain ⟨x', hx', rfl⟩ := hl
        have : x' = x := by
          obtain ⟨h4, h5⟩ := List.getElem?_eq_some_iff.1 hx'
          rw [List.getElem_range] at h5; exact h5.symm
        subst this
        have hp := argminF_picks (r := kkfRow A sum o.nClusters sw M L0 x') (List.ne_nil_of_length_pos (by simpa using hk))
        obtain ⟨y, hy⟩ := hp.1
        have := (List.getElem?_eq_some_iff.1 hy).1
        exact ⟨by simpa using this, hp⟩
      · rw [hv]
        refine congrArg sum (List.map_congr_left fun x hx => ?_)
        have hx' : x < m := List.mem_range.1 hx
        have : L.getD x 0 = argminF (kkfRow A sum o.nClusters sw M L0 x) := by
          rw [hL, List.getD_eq_getElem _ _ (by simpa using hx')]; simp
        rw [this]; rfl
  · exact ⟨_, rfl, a1, a5, .inl a6⟩

/-- Without rounds (`max_iter = 0`) the first attempt fails. -/
theorem C109_no_rounds (m : ℕ) (sw : ℕ → ℝ) (M : Mat Fl) (inits : ℕ → List ℕ) (o : KkfObj) (hn : 0 < o.nInit) (hm : o.maxIter = 0) :
    (A.kkFitMat sum m sw M inits o).2 = some .unboundLocal := by
  have h : max o.nInit 10 = (max o.nInit 10 - 1) + 1 := by omega
  simp only [Arith.kkFitMat]
  rw [h]
  simp only [Arith.kkFitLoop, hn, if_true, Arith.kkFitOne, hm]

/-- What `predict` does in each of the three cases of `C109_outcomes`. -/
theorem C109_predict (m : ℕ) (sw : ℕ → ℝ) (M : Mat Fl) (o : KkfObj) (hk : 0 < o.nClusters) (hf : o.fitted = true) :
    (o.xfit = false → A.kkPredictMat sum m sw M o = .error .attributeError) ∧
    (o.xfit = true → o.labels = none → A.kkPredictMat sum m sw M o = .error .emptyCluster) ∧
    (∀ L, o.xfit = true → o.labels = some L → AllUsed o.nClusters L → ∃ P, A.kkPredictMat sum m sw M o = .ok P ∧ P.length = m ∧
      ∀ x l, P[x]? = some l → l < o.nClusters ∧ Picks (kkfRow A sum o.nClusters sw M L x) l) := by
  refine ⟨fun h => by simp [Arith.kkPredictMat, hf, h], fun h h' => ?_, fun L h h' hu => ?_⟩
  · simp only [Arith.kkPredictMat, hf, h, if_true]
    rw [h', kkDist_errF fun hu => by simpa using hu 0 hk]
  · simp only [Arith.kkPredictMat, hf, h, if_true, h', kkDist_okF hu]
    refine ⟨_, rfl, by simp, fun x l hl => ?_⟩
    simp only [List.map_map, List.getElem?_map, Option.map_eq_some_iff] at hl
    obtain ⟨x', hx', rfl⟩ := hl
    have : x' = x := by
      obtain ⟨h4, h5⟩ := List.getElem?_eq_some_iff.1 hx'
      rw [List.getElem_range] at h5; exact h5.symm
    subst this
    have hp := argminF_picks (r := kkfRow A sum o.nClusters sw M L x') (List.ne_nil_of_length_pos (by simpa using hk))
    obtain ⟨y, hy⟩ := hp.1
    have := (List.getElem?_eq_some_iff.1 hy).1
    exact ⟨by simpa using this, hp⟩

/-! ## A kernel matrix without numbers -/

theorem row_nanF (hsum : Adds A.fit sum) {k : ℕ} {sw : ℕ → ℝ} {M : Mat Fl} {L : List ℕ} (hM : ∀ x i, M x i = .nan)
    (hu : AllUsed k L) (x : ℕ) : kkfRow A sum k sw M L x = List.replicate k .nan := by
  refine List.ext_getElem (by simp) fun j h1 h2 => ?_
  have hj : j < k := by simpa using h1
  obtain ⟨i, hi⟩ := List.getElem?_of_mem (hu j hj)
  simp only [List.getElem_map, List.getElem_range, List.getElem_replicate]
  exact entry_nanF hsum hi (hM x i)

theorem argmin_nanF (k : ℕ) : argminF (List.replicate (k + 1) .nan) = 0 :=
  picks_nanF (argminF_picks (r := List.replicate (k + 1) .nan) (by simp)) rfl

theorem kkFitOne_nanF (hsum : Adds A.fit sum) {m : ℕ} {sw : ℕ → ℝ} {M : Mat Fl} (hM : ∀ x i, M x i = .nan) (init : List ℕ)
    (o : KkfObj) (hk : 2 ≤ o.nClusters) (hm : 0 < o.maxIter) :
    A.kkFitOne sum m sw M init o =
      ({ o with labels := some (if AllUsed o.nClusters init then List.replicate m 0 else init) }, some .emptyCluster) := by
  obtain ⟨n, hn⟩ : ∃ n, o.maxIter = n + 1 := ⟨o.maxIter - 1, by omega⟩
  simp only [Arith.kkFitOne, hn, Nat.succ_ne_zero, if_false, Arith.kkLoop]
  by_cases hu : AllUsed o.nClusters init
  · have hz : ((List.range m).map fun x => kkfRow A sum o.nClusters sw M init x).map argminF = List.replicate m 0 := by
      rw [List.map_map]
      refine List.ext_getElem (by simp) fun x h1 h2 => ?_
      simp only [List.getElem_map, Function.comp, List.getElem_replicate, row_nanF hsum hM hu]
      obtain ⟨k, hk'⟩ : ∃ k, o.nClusters = k + 1 := ⟨o.nClusters - 1, by omega⟩
      rw [hk']; exact argmin_nanF k
    have he : hasEmpty (List.replicate m 0) o.nClusters = true := by
      rw [hasEmpty_iff]
      intro h
      have := List.eq_of_mem_replicate (h 1 (by omega))
      omega
    rw [kkDist_okF hu]
    simp only [hz, he, if_true, hu]
  · rw [kkDist_errF (L := some init) hu]
    simp only [hu, if_false]

theorem kkFitLoop_nanF (hsum : Adds A.fit sum) {m : ℕ} {sw : ℕ → ℝ} {M : Mat Fl} (hM : ∀ x i, M x i = .nan) (inits : ℕ → List ℕ) :
    ∀ (fuel a : ℕ) (o : KkfObj), 2 ≤ o.nClusters → 0 < o.maxIter → 0 < o.nInit →
    A.kkFitLoop sum m sw M inits (fuel + 1) a 0 none .inf o = ((0, none, .inf),
      { o with labels := some (if AllUsed o.nClusters (inits (a + fuel)) then List.replicate m 0 else inits (a + fuel)) }, none)
  | 0, a, o, hk, hm, hn => by
    simp only [Arith.kkFitLoop, hn, if_true, kkFitOne_nanF hsum hM (inits a) o hk hm, Nat.add_zero]
  | fuel + 1, a, o, hk, hm, hn => by
    rw [Arith.kkFitLoop, if_pos hn, kkFitOne_nanF hsum hM (inits a) o hk hm]
    simp only
    have := kkFitLoop_nanF hsum hM (sw := sw) (m := m) inits fuel (a + 1)
      { o with labels := some (if AllUsed o.nClusters (inits a) then List.replicate m 0 else inits a) } hk hm hn
    rw [this]
    simp only [show a + 1 + fuel = a + (fuel + 1) by omega]

/-- With a kernel matrix of not-a-numbers and two clusters or more, `fit` reports nothing: every attempt fails, no inertia is
stored, `labels_` are all zero or the drawn labels of the last attempt, and `predict` fails with an `AttributeError`. -/
theorem C109_false_nan (hsum : Adds A.fit sum) {m : ℕ} {sw : ℕ → ℝ} {M : Mat Fl} (hM : ∀ x i, M x i = .nan)
    (inits : ℕ → List ℕ) (o : KkfObj) (hk : 2 ≤ o.nClusters) (hm : 0 < o.maxIter) (hn : 0 < o.nInit) :
    ∃ o', A.kkFitMat sum m sw M inits o = (o', none) ∧ o'.inertia = none ∧ o'.nIter = 0 ∧
      (o'.labels = some (List.replicate m 0) ∨
        (o'.labels = some (inits (max o.nInit 10 - 1)) ∧ ¬ AllUsed o.nClusters (inits (max o.nInit 10 - 1)))) ∧
      ∀ m' sw' M', A.kkPredictMat sum m' sw' M' o' = .error .attributeError := by
  have h : max o.nInit 10 = (max o.nInit 10 - 1) + 1 := by omega
  simp only [Arith.kkFitMat]
  have := kkFitLoop_nanF hsum hM (sw := sw) (m := m) inits (max o.nInit 10 - 1) 0
    { o with labels := none, inertia := none, fitted := true, xfit := false, nIter := 0 } hk hm hn
  rw [← h] at this
  rw [this]
  refine ⟨_, rfl, rfl, rfl, ?_, fun _ _ _ => rfl⟩
  simp only [Nat.zero_add]
  split_ifs with hu
  · exact .inl rfl
  · exact .inr ⟨rfl, hu⟩

theorem kkLoop_nanF (hsum : Adds A.fit sum) {m : ℕ} {sw : ℕ → ℝ} {M : Mat Fl} (hM : ∀ x i, M x i = .nan) (h0 : 0 < m) :
    ∀ (n it : ℕ) (old : Fl) (o : KkfObj) (L : List ℕ), o.nClusters = 1 → o.labels = some L → AllUsed 1 L →
    ∃ o', A.kkLoop sum m sw M n it old o = (o', none) ∧ KkfSame o o' ∧ o'.iter = it + n ∧ o'.nIter = o.nIter ∧
      (o.inertia = some .nan ∨ 0 < n → o'.inertia = some .nan)
  | 0, it, old, o, L, _, _, _ => ⟨_, rfl, ⟨rfl, rfl, rfl, rfl, rfl, rfl⟩, rfl, rfl, fun h => by simpa using h⟩
  | n + 1, it, old, o, L, hk, hl, hu => by
    have hrow := fun x => row_nanF (sw := sw) hsum hM hu x
    have hz : ((List.range m).map fun x => kkfRow A sum 1 sw M L x).map argminF = List.replicate m 0 := by
      rw [List.map_map]
      refine List.ext_getElem (by simp) fun x h1 h2 => ?_
      simp only [List.getElem_map, Function.comp, List.getElem_replicate, hrow]
      exact argmin_nanF 0
    have hu' : AllUsed 1 (List.replicate m 0) := fun c hc => by
      have : c = 0 := by omega
      subst this
      exact List.mem_replicate.2 ⟨by omega, rfl⟩
    have he : ¬ hasEmpty (List.replicate m 0) 1 = true := by rw [hasEmpty_iff]; exact not_not.2 hu'
    have hi : Arith.kkInertia sum ((List.range m).map fun x => kkfRow A sum 1 sw M L x) = .nan := by
      refine hsum.nan _ ?_
      rw [List.map_map, List.mem_map]
      refine ⟨0, by simpa using h0, ?_⟩
      simp only [Function.comp, hrow]
      rw [minF, argmin_nanF 0]; rfl
    have hs : (A.sub old .nan).abs = .nan := by cases old <;> rfl
    rw [Arith.kkLoop, hk, hl, kkDist_okF hu]
    simp only [hz, he, hi, hs, Fl.lt, if_false, Bool.false_eq_true]
    obtain ⟨o', h1, ⟨a1, a2, a3, a4, a5, a6⟩, h2, h3, h4⟩ := kkLoop_nanF hsum hM (sw := sw) h0 n (it + 1) .nan
      { o with labels := some (List.replicate m 0), inertia := some .nan } (List.replicate m 0) hk rfl hu'
    have e : ({ o with labels := some (List.replicate m 0), inertia := some .nan } : KkfObj) =
        ⟨1, o.maxIter, o.tol, o.nInit, some (List.replicate m 0), some .nan, o.fitted, o.xfit, o.nIter, o.iter⟩ := by rw [← hk]
    refine ⟨o', ?_, ⟨a1, a2, a3, a4, a5, a6⟩, by rw [h2]; omega, h3, fun _ => h4 (.inl rfl)⟩
    rw [← h1, e]

theorem kkFitLoop_nan1F (hsum : Adds A.fit sum) {m : ℕ} {sw : ℕ → ℝ} {M : Mat Fl} (hM : ∀ x i, M x i = .nan) (h0 : 0 < m)
    (inits : ℕ → List ℕ) (hi : ∀ a, AllUsed 1 (inits a)) : ∀ (fuel a s : ℕ) (o : KkfObj), o.nClusters = 1 → 0 < o.maxIter →
    ∃ s' o', A.kkFitLoop sum m sw M inits fuel a s none .inf o = ((s', none, .inf), o', none) ∧ KkfSame o o' ∧ o'.nIter = o.nIter ∧
      s ≤ s' ∧ (s < o.nInit → 0 < fuel → s < s')
  | 0, a, s, o, _, _ => ⟨s, o, rfl, ⟨rfl, rfl, rfl, rfl, rfl, rfl⟩, rfl, le_refl _, fun _ h => absurd h (lt_irrefl _)⟩
  | fuel + 1, a, s, o, hk, hm => by
    rw [Arith.kkFitLoop]
    by_cases hs : s < o.nInit
    · rw [if_pos hs]
      obtain ⟨o1, h1, ⟨a1, a2, a3, a4, a5, a6⟩, h2, h3, h4⟩ := kkLoop_nanF hsum hM (sw := sw) h0 o.maxIter 0 .inf { o with labels := some (inits a) }
        (inits a) hk rfl (hi a)
      have hone : A.kkFitOne sum m sw M (inits a) o = (o1, none) := by
        simp only [Arith.kkFitOne, show ¬ o.maxIter = 0 by omega, if_false]
        exact h1
      rw [hone]
      simp only [h4 (.inr hm), Option.getD_some, Fl.lt, if_false, Bool.false_eq_true]
      obtain ⟨s', o', g1, ⟨b1, b2, b3, b4, b5, b6⟩, g2, g3, _⟩ := kkFitLoop_nan1F hsum hM h0 inits hi fuel (a + 1) (s + 1) o1 (a1.trans hk)
        (a2.symm ▸ hm)
      exact ⟨s', o', g1, ⟨b1.trans a1, b2.trans a2, b3.trans a3, b4.trans a4, b5.trans a5, b6.trans a6⟩, g2.trans h3, by omega,
        fun _ _ => by omega⟩
    · rw [if_neg hs]
      exact ⟨s, o, rfl, ⟨rfl, rfl, rfl, rfl, rfl, rfl⟩, rfl, le_refl _, fun h => absurd h hs⟩

/-- With one cluster every attempt succeeds with an inertia that is not a number, which is never below infinity: `fit` ends with
`labels_ = None`, so `fit_predict` gives `None`, with an infinite inertia, and `predict` complains of an empty cluster. -/
theorem C109_false_one_cluster (hsum : Adds A.fit sum) {m : ℕ} {sw : ℕ → ℝ} {M : Mat Fl} (hM : ∀ x i, M x i = .nan) (h0 : 0 < m)
    (inits : ℕ → List ℕ) (hi : ∀ a, inits a = List.replicate m 0) (o : KkfObj) (hk : o.nClusters = 1) (hm : 0 < o.maxIter)
    (hn : 0 < o.nInit) :
    ∃ o', A.kkFitMat sum m sw M inits o = (o', none) ∧ o'.labels = none ∧ o'.inertia = some .inf ∧ o'.nIter = 0 ∧
      ∀ m' sw' M', A.kkPredictMat sum m' sw' M' o' = .error .emptyCluster := by
  have hu : ∀ a, AllUsed 1 (inits a) := fun a c hc => by
    have : c = 0 := by omega
    subst this
    rw [hi]; exact List.mem_replicate.2 ⟨by omega, rfl⟩
  obtain ⟨s, o', h, ⟨a1, a2, a3, a4, a5, a6⟩, h1, _, h2⟩ := kkFitLoop_nan1F hsum hM (sw := sw) h0 inits hu (max o.nInit 10) 0 0
    { o with labels := none, inertia := none, fitted := true, xfit := false, nIter := 0 } hk hm
  have hs : 0 < s := h2 hn (by omega)
  simp only [Arith.kkFitMat, h, hs, if_true]
  refine ⟨_, rfl, rfl, rfl, h1, fun m' sw' M' => ?_⟩
  refine (C109_predict m' sw' M' _ ?_ ?_).2.1 rfl rfl
  · show 0 < o'.nClusters; rw [a1]; show 0 < o.nClusters; omega
  · exact a5

/-- So it goes with the kernel "gak" as soon as one of the training series is long with close consecutive samples: whatever the
other series, the number of clusters and the drawn labels, a `fit` that raises nothing leaves an object that cannot predict. -/
theorem C109_false_gak (hA : Rounding A.rnd u tiny) (hE : ExpLike A.exp) (hL : LogLike A.log) (hbig : 2 < A.big)
    (hsum : Adds A.fit sum) {σ w : ℝ} (hw : A.width σ = .num w) (hw0 : 0 < w) (l : List (Ts ℝ)) (d : ℕ)
    (hwf : ∀ t ∈ l, t.WF ∧ t.d = d) (run) (hrun : Execution run) (k : ℕ) (t : Ts ℝ) (hk : l[k]? = some t) (x : List (List ℝ))
    (hx : denan t.trim.rows = some x) (hls : LongSlow A w x) (sw : ℕ → ℝ) (inits : ℕ → List ℕ) (o : KkfObj)
    (hi : ∀ a, (inits a).length = l.length ∧ ∀ c ∈ inits a, c < o.nClusters) (hc : 0 < o.nClusters)
    (hm : 0 < o.maxIter) (hn : 0 < o.nInit) (h : (A.kkFit sum σ sw inits run l o).2 = none) (m' : ℕ) (sw' : ℕ → ℝ) (M' : Mat Fl) :
    ∃ e, A.kkPredictMat sum m' sw' M' (A.kkFit sum σ sw inits run l o).1 = .error e := by
  unfold Arith.kkFit at h ⊢
  cases hM : A.cdistGak sum (.series l) none σ run with
  | error e => simp [hM] at h
  | ok M =>
    have hn' : ∀ i j, M i j = .nan := fun i j =>
      C107_false_cdist hA hE hL hbig hsum hw hw0 l d hwf run hrun M hM k t hk x hx hls i j
    have hlen : 0 < l.length := by have := (List.getElem?_eq_some_iff.1 hk).1; omega
    simp only
    rcases Nat.lt_or_ge 1 o.nClusters with h2 | h2
    · obtain ⟨o', h1, _, _, _, h5⟩ := C109_false_nan (m := l.length) (sw := sw) hsum hn' inits o h2 hm hn
      rw [h1]; exact ⟨_, h5 m' sw' M'⟩
    · have h1 : o.nClusters = 1 := by omega
      obtain ⟨o', h1, _, _, _, h5⟩ := C109_false_one_cluster (m := l.length) (sw := sw) hsum hn' hlen inits (fun a => by
        rw [List.eq_replicate_iff]
        exact ⟨(hi a).1, fun c hc => by have := (hi a).2 c hc; omega⟩) o h1 hm hn
      rw [h1]; exact ⟨_, h5 m' sw' M'⟩

/-! ## Concrete cases -/

/-- A fresh `KernelKMeans(n_clusters=2)`. -/
def kkf2 : KkfObj := ⟨2, 50, 1 / 1000000, 1, none, none, false, false, 0, 0⟩

/-- A constant series of 1026 samples and two short ones, in doubles with bandwidth 1: nothing is raised, and nothing can be
predicted, although each pair of the short series has a kernel value. -/
example : ∃ o', (doubles Real.exp Real.log).kkFit (fun l => l.foldl (doubles Real.exp Real.log).add (.num 0)) 1 (fun _ => 1)
    (fun _ => [0, 1]) seqRun [⟨1, List.replicate 1026 [some 0]⟩, ⟨1, [[some 2]]⟩] kkf2 = (o', none) ∧ o'.labels = some [0, 0] ∧
    ∀ m' sw' M', (doubles Real.exp Real.log).kkPredictMat (fun l => l.foldl (doubles Real.exp Real.log).add (.num 0)) m' sw' M' o' =
      .error .attributeError := by
  have hb := doubles_big Real.exp Real.log
  have hwf : ∀ t ∈ [(⟨1, List.replicate 1026 [some 0]⟩ : Ts ℝ), ⟨1, [[some 2]]⟩], t.WF ∧ t.d = 1 := by
    intro t ht
    simp only [List.mem_cons, List.not_mem_nil, or_false] at ht
    rcases ht with rfl | rfl
    · exact ⟨fun r hr => by rw [List.eq_of_mem_replicate hr]; rfl, rfl⟩
    · exact ⟨fun r hr => by simp at hr; rw [hr]; rfl, rfl⟩
  have d1 : denan (⟨1, List.replicate 1026 [some 0]⟩ : Ts ℝ).trim.rows = some (List.replicate 1026 [0]) := by
    rw [trim_const 1026 (by norm_num)]; exact denan_const 1026 [0]
  obtain ⟨M, hM⟩ := cdistGakF_total (A := doubles Real.exp Real.log)
    (sum := fun l => l.foldl (doubles Real.exp Real.log).add (.num 0)) one_ne_zero hwf (by
      intro t ht
      simp only [List.mem_cons, List.not_mem_nil, or_false] at ht
      rcases ht with rfl | rfl
      · exact ⟨_, d1, List.ne_nil_of_length_pos (by rw [List.length_replicate]; norm_num)⟩
      · exact ⟨[[2]], rfl, by simp⟩) seqRun (.inl rfl)
  have hsum := adds_inOrder (A := doubles Real.exp Real.log) double_rounding (by linarith)
  have hn : ∀ i j, M i j = .nan := C107_false_cdist (A := doubles Real.exp Real.log) double_rounding expLike_exp logLike_log hb
    hsum (width_one _ _) (by norm_num) _ 1 hwf seqRun (.inl rfl) M hM 0 _ rfl _ d1 (longSlow_const _ _)
  simp only [Arith.kkFit, hM]
  obtain ⟨o', h1, _, _, h4, h5⟩ := C109_false_nan (m := 2) (sw := fun _ => 1) hsum hn (fun _ => [0, 1]) kkf2 (le_refl _)
    (by simp [kkf2]) (by simp [kkf2])
  refine ⟨o', h1, ?_, h5⟩
  rcases h4 with h4 | ⟨_, h4⟩
  · exact h4
  · refine absurd (fun c hc => ?_) h4
    have : c < 2 := hc
    interval_cases c <;> simp

/-- Rows of the kinds `argmin` meets. -/
example : Picks [.num 2, .num 1, .inf, .num 1] 1 ∧ Picks [.num 2, .nan, .ninf, .nan] 1 := by
  have h1 : argminF [.num 2, .num 1, .inf, .num 1] = 1 := by
    norm_num [argminF, List.findIdx?, List.findIdx?.go, Fl.isNan, Fl.lt]
  have h2 : argminF [.num 2, .nan, .ninf, .nan] = 1 := by
    norm_num [argminF, List.findIdx?, List.findIdx?.go, Fl.isNan, Fl.lt]
  have g1 := argminF_picks (r := [.num 2, .num 1, .inf, .num 1]) (by simp)
  have g2 := argminF_picks (r := [.num 2, .nan, .ninf, .nan]) (by simp)
  rw [h1] at g1
  rw [h2] at g2
  exact ⟨g1, g2⟩

end
end Verif
