import Verif.Model.Dbscan
import Mathlib.Logic.Relation
import Mathlib.Tactic.Common
import Mathlib.Tactic.Ring
import Mathlib.Data.Finset.Card
import Mathlib.Data.Finset.Range
/-!
The search of DBSCAN.
-/
set_option linter.unusedSectionVars false
namespace Verif

/-- Two core series within each other's neighbourhood. -/
def CoreLink (nb : ℕ → List ℕ) (core : ℕ → Bool) (n i j : ℕ) : Prop := i < n ∧ j < n ∧ core i = true ∧ core j = true ∧ j ∈ nb i

/-- A chain of core series. -/
def CoreChain (nb : ℕ → List ℕ) (core : ℕ → Bool) (n : ℕ) : ℕ → ℕ → Prop := Relation.ReflTransGen (CoreLink nb core n)

section
variable {nb : ℕ → List ℕ} {core : ℕ → Bool} {n : ℕ}

/-- Reached from the core series `s`. -/
def Reached (nb : ℕ → List ℕ) (core : ℕ → Bool) (n s v : ℕ) : Prop := ∃ u, core u = true ∧ u < n ∧ CoreChain nb core n s u ∧ (v = u ∨ v ∈ nb u)

/-- Number of series without a label. -/
def unlabelled (n : ℕ) (L : ℕ → Option ℕ) : ℕ := ((Finset.range n).filter fun j => (L j).isNone).card

theorem unlabelled_update {L : ℕ → Option ℕ} {c l : ℕ} (hc : c < n) (h : (L c).isNone) :
    unlabelled n (fun j => if j = c then some l else L j) + 1 = unlabelled n L := by
  unfold unlabelled
  have : ((Finset.range n).filter fun j => (L j).isNone) = insert c ((Finset.range n).filter fun j => (if j = c then some l else L j).isNone) := by
    ext j
    simp only [Finset.mem_filter, Finset.mem_range, Finset.mem_insert]
    by_cases hj : j = c
    · subst hj; simp [hc, h]
    · simp [hj]
  rw [this, Finset.card_insert_of_notMem (by simp)]

/-- What the search from `s` keeps true. -/
structure SearchInv (nb : ℕ → List ℕ) (core : ℕ → Bool) (n lab s : ℕ) (L0 : ℕ → Option ℕ) (cur : ℕ) (stack : List ℕ) (L : ℕ → Option ℕ) : Prop where
  old : ∀ v, (L0 v).isSome → L v = L0 v
  new : ∀ v, (L0 v).isNone → (L v).isSome → L v = some lab ∧ Reached nb core n s v
  todo : ∀ v ∈ cur :: stack, Reached nb core n s v ∧ v < n
  next : ∀ u, core u = true → (L0 u).isNone → (L u).isSome → ∀ v ∈ nb u, (L v).isSome ∨ v ∈ cur :: stack
  start : (L s).isSome ∨ s ∈ cur :: stack

theorem dbSearch_spec (hn : ∀ i < n, ∀ j ∈ nb i, j < n) (hl : ∀ i, (nb i).length ≤ n) (lab s : ℕ) (L0 : ℕ → Option ℕ) :
    ∀ (fuel cur : ℕ) (stack : List ℕ) (L : ℕ → Option ℕ), SearchInv nb core n lab s L0 cur stack L →
      unlabelled n L * (n + 1) + stack.length < fuel →
      ∃ L', dbSearch nb core lab fuel cur stack L = some L' ∧ (∀ v, (L0 v).isSome → L' v = L0 v) ∧
        (∀ v, (L0 v).isNone → (L' v).isSome → L' v = some lab ∧ Reached nb core n s v) ∧
        (∀ u, core u = true → (L0 u).isNone → (L' u).isSome → ∀ v ∈ nb u, (L' v).isSome) ∧ (L' s).isSome := by
  intro fuel
  induction fuel with
  | zero => intro _ _ _ _ h; omega
  | succ fuel ih =>
    intro cur stack L hI hf
    have hcur := hI.todo cur (by simp)
    by_cases hnew : (L cur).isNone
    · -- `cur` gets the label
      generalize hL1 : (fun j => if j = cur then some lab else L j) = L1
      have hL1cur : L1 cur = some lab := by rw [← hL1]; simp
      have hL1ne : ∀ v, v ≠ cur → L1 v = L v := fun v hv => by rw [← hL1]; simp [hv]
      have hmono : ∀ v, (L v).isSome → (L1 v).isSome := by
        intro v hv
        by_cases hvc : v = cur
        · rw [hvc, hL1cur]; rfl
        · rw [hL1ne v hvc]; exact hv
      have hcur0 : (L0 cur).isNone := by
        by_contra hc
        have hc' : (L0 cur).isSome := by simpa [Option.isSome_iff_ne_none] using hc
        rw [hI.old cur hc'] at hnew
        exact hc hnew
      have hmu := unlabelled_update (n := n) (l := lab) hcur.2 hnew
      rw [hL1] at hmu
      generalize hst : (if core cur = true then ((nb cur).filter fun j => (L1 j).isNone).reverse ++ stack else stack) = st
      have hstep : dbSearch nb core lab (fuel + 1) cur stack L = match (generalizing := false) st with
          | [] => some L1
          | v :: st => dbSearch nb core lab fuel v st L1 := by
        conv_lhs => unfold dbSearch
        simp only [hnew, if_true, Bool.true_and, hL1, hst]
        rfl
      have hlen : st.length ≤ stack.length + n := by
        rw [← hst]
        split
        · rw [List.length_append, List.length_reverse]
          have := List.length_filter_le (fun j => (L1 j).isNone) (nb cur)
          have := hl cur
          omega
        · omega
      have hstmem : ∀ v, v ∈ stack → v ∈ st := by
        intro v hv
        rw [← hst]
        split
        · exact List.mem_append_right _ hv
        · exact hv
      -- the invariant for the labels `L1` and the things to do `st`
      have J1 : ∀ v, (L0 v).isSome → L1 v = L0 v := by
        intro v hv
        have : v ≠ cur := by rintro rfl; rw [Option.isNone_iff_eq_none] at hcur0; rw [hcur0] at hv; cases hv
        rw [hL1ne v this]; exact hI.old v hv
      have J2 : ∀ v, (L0 v).isNone → (L1 v).isSome → L1 v = some lab ∧ Reached nb core n s v := by
        intro v hv hv1
        by_cases hvc : v = cur
        · rw [hvc]; exact ⟨hL1cur, hcur.1⟩
        · rw [hL1ne v hvc] at hv1 ⊢; exact hI.new v hv hv1
      have J3 : ∀ v ∈ st, Reached nb core n s v ∧ v < n := by
        intro v hv
        rw [← hst] at hv
        split at hv
        · next hc =>
          rcases List.mem_append.mp hv with h | h
          · rw [List.mem_reverse, List.mem_filter] at h
            have hvn := hn cur hcur.2 v h.1
            refine ⟨?_, hvn⟩
            obtain ⟨u, hu, hun, hch, hor⟩ := hcur.1
            rcases hor with rfl | hor
            · exact ⟨cur, hc, hcur.2, hch, .inr h.1⟩
            · exact ⟨cur, hc, hcur.2, hch.tail ⟨hun, hcur.2, hu, hc, hor⟩, .inr h.1⟩
          · exact hI.todo v (by simp [h])
        · exact hI.todo v (by simp [hv])
      have J4 : ∀ u, core u = true → (L0 u).isNone → (L1 u).isSome → ∀ v ∈ nb u, (L1 v).isSome ∨ v ∈ st := by
        intro u hu hu0 hu1 v hv
        by_cases huc : u = cur
        · subst huc
          by_cases hv1 : (L1 v).isSome
          · exact .inl hv1
          · right
            rw [← hst, if_pos hu]
            refine List.mem_append_left _ (List.mem_reverse.mpr (List.mem_filter.mpr ⟨hv, ?_⟩))
            simpa using hv1
        · rw [hL1ne u huc] at hu1
          rcases hI.next u hu hu0 hu1 v hv with h | h
          · exact .inl (hmono v h)
          · rcases List.mem_cons.mp h with rfl | h
            · left; rw [hL1cur]; rfl
            · exact .inr (hstmem v h)
      have J5 : (L1 s).isSome ∨ s ∈ st := by
        rcases hI.start with h | h
        · exact .inl (hmono s h)
        · rcases List.mem_cons.mp h with rfl | h
          · left; rw [hL1cur]; rfl
          · exact .inr (hstmem s h)
      rw [hstep]
      cases st with
      | nil =>
        refine ⟨L1, rfl, J1, J2, fun u a b c v hv => ?_, ?_⟩
        · rcases J4 u a b c v hv with h | h
          · exact h
          · cases h
        · rcases J5 with h | h
          · exact h
          · cases h
      | cons v st =>
        refine ih v st L1 ⟨J1, J2, J3, J4, J5⟩ ?_
        have e : unlabelled n L * (n + 1) = unlabelled n L1 * (n + 1) + (n + 1) := by rw [← hmu]; ring
        simp only [List.length_cons] at hlen
        omega
    · -- `cur` has a label already
      have hstep : dbSearch nb core lab (fuel + 1) cur stack L = match (generalizing := false) stack with
          | [] => some L
          | v :: st => dbSearch nb core lab fuel v st L := by
        have : (L cur).isNone = false := by cases h : L cur <;> simp_all
        conv_lhs => unfold dbSearch
        simp only [this, Bool.false_and, Bool.false_eq_true, if_false]
        rfl
      have hcs : (L cur).isSome := by simpa [Option.isSome_iff_ne_none] using hnew
      have J4 : ∀ u, core u = true → (L0 u).isNone → (L u).isSome → ∀ v ∈ nb u, (L v).isSome ∨ v ∈ stack := by
        intro u a b c v hv
        rcases hI.next u a b c v hv with h | h
        · exact .inl h
        · rcases List.mem_cons.mp h with rfl | h
          · exact .inl hcs
          · exact .inr h
      have J5 : (L s).isSome ∨ s ∈ stack := by
        rcases hI.start with h | h
        · exact .inl h
        · rcases List.mem_cons.mp h with rfl | h
          · exact .inl hcs
          · exact .inr h
      rw [hstep]
      cases stack with
      | nil =>
        refine ⟨L, rfl, hI.old, hI.new, fun u a b c v hv => ?_, ?_⟩
        · rcases J4 u a b c v hv with h | h
          · exact h
          · cases h
        · rcases J5 with h | h
          · exact h
          · cases h
      | cons v st =>
        refine ih v st L ⟨hI.old, hI.new, fun w hw => hI.todo w (List.mem_cons_of_mem _ hw), J4, J5⟩ ?_
        simp only [List.length_cons] at hf
        omega

theorem coreLink_symm (hsym : ∀ i < n, ∀ j < n, j ∈ nb i → i ∈ nb j) : ∀ i j, CoreLink nb core n i j → CoreLink nb core n j i :=
  fun i j ⟨h1, h2, h3, h4, h5⟩ => ⟨h2, h1, h4, h3, hsym i h1 j h2 h5⟩

theorem coreChain_symm (hsym : ∀ i < n, ∀ j < n, j ∈ nb i → i ∈ nb j) {i j : ℕ} (h : CoreChain nb core n i j) : CoreChain nb core n j i := by
  induction h with
  | refl => exact .refl
  | tail _ hl ih => exact Relation.ReflTransGen.head (coreLink_symm hsym _ _ hl) ih

/-- What the outer loop keeps true: all core series before `i` are done. -/
structure OuterInv (nb : ℕ → List ℕ) (core : ℕ → Bool) (n i c : ℕ) (L : ℕ → Option ℕ) : Prop where
  below : ∀ v k, L v = some k → k < c ∧ v < n
  closed : ∀ u, core u = true → (L u).isSome → ∀ v ∈ nb u, (L v).isSome
  done : ∀ u < i, core u = true → (L u).isSome
  same : ∀ u v k l, core u = true → core v = true → L u = some k → L v = some l → (k = l ↔ CoreChain nb core n u v)
  border : ∀ v k, L v = some k → core v = false → (∃ u < n, core u = true ∧ v ∈ nb u ∧ L u = some k) ∧
    ∀ u < n, core u = true → v ∈ nb u → ∀ l, L u = some l → k ≤ l
  root : ∀ u k, core u = true → L u = some k → ∃ r < i, core r = true ∧ CoreChain nb core n u r
  order : ∀ u v k l, core u = true → core v = true → L u = some k → L v = some l → k < l →
    ∃ r, core r = true ∧ CoreChain nb core n u r ∧ ∀ x, core x = true → CoreChain nb core n v x → r < x
  used : ∀ k < c, ∃ u, core u = true ∧ L u = some k

theorem dbInner_spec (hn : ∀ i < n, ∀ j ∈ nb i, j < n) (hl : ∀ i, (nb i).length ≤ n) (hsym : ∀ i < n, ∀ j < n, j ∈ nb i → i ∈ nb j) (fuel : ℕ)
    (hf : n * (n + 1) < fuel) : ∀ (k c : ℕ) (L : ℕ → Option ℕ), k ≤ n → OuterInv nb core n (n - k) c L →
      ∃ L' c', dbInner nb core n fuel k c L = some L' ∧ OuterInv nb core n n c' L' := by
  intro k
  induction k with
  | zero => intro c L _ h; exact ⟨L, c, rfl, by simpa using h⟩
  | succ k ih =>
    intro c L hk hI
    have hi : n - (k + 1) < n := by omega
    have hi1 : n - k = n - (k + 1) + 1 := by omega
    generalize hidef : n - (k + 1) = i at *
    unfold dbInner
    simp only [hidef]
    by_cases hskip : ((L i).isSome || !core i) = true
    · rw [if_pos hskip]
      refine ih c L (by omega) ?_
      rw [hi1]
      refine ⟨hI.below, hI.closed, ?_, hI.same, hI.border, ?_, hI.order, hI.used⟩
      · intro u hu hc
        rcases Nat.lt_succ_iff_lt_or_eq.mp hu with h | rfl
        · exact hI.done u h hc
        · rw [hc] at hskip; simpa using hskip
      · intro u k' hu hL
        obtain ⟨r, h1, h2⟩ := hI.root u k' hu hL
        exact ⟨r, by omega, h2⟩
    · rw [if_neg hskip]
      have hiL : (L i).isNone := by
        by_contra hc
        apply hskip
        have : (L i).isSome := by simpa [Option.isSome_iff_ne_none] using hc
        simp [this]
      have hic : core i = true := by
        by_contra hc
        apply hskip
        rw [Bool.not_eq_true] at hc
        simp [hc]
      -- a chain of core series from `i` never meets an old label
      have hfresh : ∀ u, CoreChain nb core n i u → (L u).isNone := by
        intro u hu
        by_contra hc
        have hus : (L u).isSome := by simpa [Option.isSome_iff_ne_none] using hc
        have hback := coreChain_symm hsym hu
        have : (L i).isSome := by
          have key : ∀ w, CoreChain nb core n u w → (L w).isSome := by
            intro w hw
            induction hw with
            | refl => exact hus
            | tail _ hlink ihw => exact hI.closed _ hlink.2.2.1 ihw _ hlink.2.2.2.2
          exact key i hback
        rw [Option.isNone_iff_eq_none] at hiL
        rw [hiL] at this
        cases this
      have hstart : SearchInv nb core n c i L i [] L := by
        refine ⟨fun _ _ => rfl, fun v h1 h2 => ?_, fun v hv => ?_, fun u _ h1 h2 => ?_, .inr (by simp)⟩
        · rw [Option.isNone_iff_eq_none] at h1; rw [h1] at h2; cases h2
        · have : v = i := by simpa using hv
          subst this
          exact ⟨⟨v, hic, hi, .refl, .inl rfl⟩, hi⟩
        · rw [Option.isNone_iff_eq_none] at h1; rw [h1] at h2; cases h2
      have hunl : unlabelled n L ≤ n := by
        unfold unlabelled
        exact le_trans (Finset.card_filter_le _ _) (by simp)
      obtain ⟨L', h1, h2, h3, h4, h5⟩ := dbSearch_spec hn hl c i L fuel i [] L hstart (by
        have := Nat.mul_le_mul_right (n + 1) hunl
        simp only [List.length_nil]
        omega)
      rw [h1]
      simp only
      -- the new label goes to the chain of `i`
      have hchain : ∀ u, core u = true → CoreChain nb core n i u → L' u = some c := by
        intro u _ hu
        have : (L' u).isSome := by
          have key : ∀ w, CoreChain nb core n i w → (L' w).isSome := by
            intro w hw
            induction hw with
            | refl => exact h5
            | tail hpre hlink ihw => exact h4 _ hlink.2.2.1 (hfresh _ hpre) ihw _ hlink.2.2.2.2
          exact key u hu
        exact (h3 u (hfresh u hu) this).1
      have hnewcore : ∀ u, core u = true → (L u).isNone → (L' u).isSome → CoreChain nb core n i u := by
        intro u hu h6 h7
        obtain ⟨w, hw, hwn, hch, hor⟩ := (h3 u h6 h7).2
        rcases hor with rfl | hor
        · exact hch
        · exact hch.tail ⟨hwn, hn w hwn u hor, hw, hu, hor⟩
      have hsome : ∀ v, ¬(L v).isNone → (L v).isSome := fun v hv => by simpa [Option.isSome_iff_ne_none] using hv
      have hof : ∀ {v l} {L : ℕ → Option ℕ}, L v = some l → (L v).isSome := fun h => by rw [h]; rfl
      refine ih (c + 1) L' (by omega) ?_
      rw [hi1]
      refine ⟨?_, ?_, ?_, ?_, ?_, ?_, ?_, ?_⟩
      · intro v l hv
        by_cases h0 : (L v).isNone
        · have h6 := h3 v h0 (by rw [hv]; rfl)
          rw [hv] at h6
          have : l = c := by simpa using h6.1
          refine ⟨by omega, ?_⟩
          obtain ⟨w, _, hwn, _, hor⟩ := h6.2
          rcases hor with rfl | hor
          · exact hwn
          · exact hn w hwn v hor
        · have h6 := h2 v (hsome v h0)
          rw [h6] at hv
          have := hI.below v l hv
          exact ⟨by omega, this.2⟩
      · intro u hu h6 v hv
        by_cases h0 : (L u).isNone
        · exact h4 u hu h0 h6 v hv
        · have := hI.closed u hu (hsome u h0) v hv
          rw [h2 v this]
          exact this
      · intro u hu hc
        rcases Nat.lt_succ_iff_lt_or_eq.mp hu with h | rfl
        · have := hI.done u h hc
          rw [h2 u this]; exact this
        · exact h5
      · intro u v k' l hu hv hLu hLv
        by_cases hu0 : (L u).isNone
        · have cu := hnewcore u hu hu0 (hof hLu)
          have eu := hchain u hu cu
          rw [hLu] at eu
          by_cases hv0 : (L v).isNone
          · have cv := hnewcore v hv hv0 (hof hLv)
            have ev := hchain v hv cv
            rw [hLv] at ev
            refine ⟨fun _ => (coreChain_symm hsym cu).trans cv, fun _ => ?_⟩
            rw [Option.some_inj.mp eu, Option.some_inj.mp ev]
          · have h6 := h2 v (hsome v hv0)
            rw [hLv] at h6
            have h7 := (hI.below v l h6.symm).1
            have h8 := Option.some_inj.mp eu
            refine ⟨fun h => by omega, fun h => ?_⟩
            exact absurd (hfresh v (cu.trans h)) hv0
        · have h6 := h2 u (hsome u hu0)
          rw [hLu] at h6
          by_cases hv0 : (L v).isNone
          · have cv := hnewcore v hv hv0 (hof hLv)
            have ev := hchain v hv cv
            rw [hLv] at ev
            have h7 := (hI.below u k' h6.symm).1
            have h8 := Option.some_inj.mp ev
            refine ⟨fun h => by omega, fun h => ?_⟩
            exact absurd (hfresh u (cv.trans (coreChain_symm hsym h))) hu0
          · have h7 := h2 v (hsome v hv0)
            rw [hLv] at h7
            exact hI.same u v k' l hu hv h6.symm h7.symm
      · intro v k' hv hcv
        by_cases hv0 : (L v).isNone
        · have h6 := h3 v hv0 (hof hv)
          have hk' : k' = c := by rw [hv] at h6; exact Option.some_inj.mp h6.1
          constructor
          · obtain ⟨w, hw, hwn, hch, hor⟩ := h6.2
            rcases hor with rfl | hor
            · rw [hw] at hcv; cases hcv
            · exact ⟨w, hwn, hw, hor, by rw [hk']; exact hchain w hw hch⟩
          · intro u hun hu hvu l hLu
            by_cases hu0 : (L u).isNone
            · have := (h3 u hu0 (hof hLu)).1
              rw [hLu] at this
              have := Option.some_inj.mp this
              omega
            · exact absurd hv0 (by
                have := hI.closed u hu (hsome u hu0) v hvu
                rw [Option.isNone_iff_eq_none]
                intro h
                rw [h] at this
                cases this)
        · have h6 := h2 v (hsome v hv0)
          rw [hv] at h6
          obtain ⟨⟨u, hun, hu, hvu, hLu⟩, hmin⟩ := hI.border v k' h6.symm hcv
          refine ⟨⟨u, hun, hu, hvu, by rw [h2 u (hof hLu)]; exact hLu⟩, fun w hwn hw hvw l hLw => ?_⟩
          by_cases hw0 : (L w).isNone
          · have := (h3 w hw0 (hof hLw)).1
            rw [hLw] at this
            have h7 := Option.some_inj.mp this
            have h8 := (hI.below v k' h6.symm).1
            omega
          · have h7 := h2 w (hsome w hw0)
            rw [hLw] at h7
            exact hmin w hwn hw hvw l h7.symm
      · intro u k' hu hLu
        by_cases hu0 : (L u).isNone
        · exact ⟨i, by omega, hic, coreChain_symm hsym (hnewcore u hu hu0 (hof hLu))⟩
        · have h6 := h2 u (hsome u hu0)
          rw [hLu] at h6
          obtain ⟨r, hr, h7⟩ := hI.root u k' hu h6.symm
          exact ⟨r, by omega, h7⟩
      · intro u v k' l hu hv hLu hLv hkl
        by_cases hu0 : (L u).isNone
        · have eu := hchain u hu (hnewcore u hu hu0 (hof hLu))
          rw [hLu] at eu
          have := Option.some_inj.mp eu
          have hlc : l ≤ c := by
            by_cases hv0 : (L v).isNone
            · have := (h3 v hv0 (hof hLv)).1
              rw [hLv] at this
              have := Option.some_inj.mp this
              omega
            · have h6 := h2 v (hsome v hv0)
              rw [hLv] at h6
              have := (hI.below v l h6.symm).1
              omega
          omega
        · have h6 := h2 u (hsome u hu0)
          rw [hLu] at h6
          by_cases hv0 : (L v).isNone
          · obtain ⟨r, hr, hrc, hch⟩ := hI.root u k' hu h6.symm
            refine ⟨r, hrc, hch, fun x hx hvx => ?_⟩
            have hix := (hnewcore v hv hv0 (hof hLv)).trans hvx
            by_contra hlt
            have hxi : x < i := by omega
            have := hI.done x hxi hx
            have h8 := hfresh x hix
            rw [Option.isNone_iff_eq_none] at h8
            rw [h8] at this
            cases this
          · have h7 := h2 v (hsome v hv0)
            rw [hLv] at h7
            exact hI.order u v k' l hu hv h6.symm h7.symm hkl
      · intro k' hk'
        rcases Nat.lt_succ_iff_lt_or_eq.mp hk' with h | rfl
        · obtain ⟨u, hu, hLu⟩ := hI.used k' h
          exact ⟨u, hu, by rw [h2 u (hof hLu)]; exact hLu⟩
        · exact ⟨i, hic, hchain i hic .refl⟩

theorem outerInv_init : OuterInv nb core n 0 0 fun _ => none :=
  ⟨fun _ _ h => (by cases h), fun _ _ h => (by cases h), fun _ h => (by omega), fun _ _ _ _ _ _ h => (by cases h), fun _ _ h => (by cases h),
    fun _ _ _ h => (by cases h), fun _ _ _ _ _ _ h => (by cases h), fun _ h => (by omega)⟩

end
end Verif
