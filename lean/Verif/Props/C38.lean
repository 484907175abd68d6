import Verif.Model.KernelKMeans
import Mathlib.Algebra.Order.Ring.Rat
import Mathlib.Algebra.Field.Rat
/-!
C38: what a second `fit` of `KernelKMeans` depends on.
-/
set_option linter.unusedSectionVars false
namespace Verif
variable {K : Type} [Field K] [LinearOrder K]

/-- A new estimator with the hyper-parameters of `o`. -/
def KkObj.fresh (o : KkObj K) : KkObj K :=
  { o with sigma := none, labels := none, inertia := ⊤, fitted := false, xfit := false, nIter := 0, iter := 0 }

/-- The object but for the private counter `_iter`. -/
def KkObj.seen (o : KkObj K) : KkObj K := { o with iter := 0 }

/-- The value of `sigma` the user asks for. -/
def KkObj.wanted (o : KkObj K) : PySigma K := ((o.kernelParams.bind KkDict.sigma).getD (.num 1))

theorem kkLoop_iter (D : KkData K) (M : ℕ → ℕ → K) : ∀ (n it : ℕ) (old : WithTop K) (o : KkObj K) (i : ℕ),
    (kkLoop D M n it old { o with iter := i }).2 = (kkLoop D M n it old o).2 ∧
    (kkLoop D M n it old { o with iter := i }).1.seen = (kkLoop D M n it old o).1.seen ∧
    ((kkLoop D M n it old o).2 = none → (kkLoop D M n it old { o with iter := i }).1 = (kkLoop D M n it old o).1) := by
  intro n
  induction n with
  | zero => intro it old o i; exact ⟨rfl, rfl, fun _ => rfl⟩
  | succ n ih =>
    intro it old o i
    unfold kkLoop
    simp only
    cases kkDist o.nClusters D.n D.sw M (o.labels.getD []) with
    | error err => exact ⟨rfl, rfl, fun h => by cases h⟩
    | ok ds =>
      simp only
      by_cases he : hasEmpty (ds.map argminL) o.nClusters = true
      · simp only [if_pos he]; exact ⟨trivial, rfl, fun h => by cases h⟩
      · simp only [if_neg he]
        by_cases hc : kmClose o.tol old ((kkInertia ds : K) : WithTop K) = true
        · simp only [if_pos hc]; exact ⟨trivial, trivial, fun _ => trivial⟩
        · simp only [if_neg hc]
          exact ih (it + 1) _ { o with labels := some (ds.map argminL), inertia := ((kkInertia ds : K) : WithTop K) } i

theorem kkFitOne_iter (D : KkData K) (M : ℕ → ℕ → K) (init : List ℕ) (o : KkObj K) (i : ℕ) :
    (kkFitOne D M init { o with iter := i }).2 = (kkFitOne D M init o).2 ∧
    (kkFitOne D M init { o with iter := i }).1.seen = (kkFitOne D M init o).1.seen ∧
    ((kkFitOne D M init o).2 = none → (kkFitOne D M init { o with iter := i }).1 = (kkFitOne D M init o).1) := by
  unfold kkFitOne
  simp only
  by_cases h : o.maxIter = 0
  · simp only [if_pos h]; exact ⟨trivial, rfl, fun h => by cases h⟩
  · simp only [if_neg h]
    exact kkLoop_iter D M o.maxIter 0 ⊤ { o with labels := some init } i

theorem seen_iter {o o' : KkObj K} (h : o.seen = o'.seen) : o' = { o with iter := o'.iter } := by
  unfold KkObj.seen at h
  cases o; cases o'
  simp only [KkObj.mk.injEq] at h ⊢
  obtain ⟨h1, h2, h3, h4, h5, h6, h7, h8, h9, h10, h11, h12, -⟩ := h
  exact ⟨h1.symm, h2.symm, h3.symm, h4.symm, h5.symm, h6.symm, h7.symm, h8.symm, h9.symm, h10.symm, h11.symm, h12.symm, trivial⟩

theorem kkFitLoop_seen (D : KkData K) (M : ℕ → ℕ → K) : ∀ (fuel : ℕ) (b : KkBest K) (o o' : KkObj K), o.seen = o'.seen →
    (kkFitLoop D M fuel b o').1 = (kkFitLoop D M fuel b o).1 ∧ (kkFitLoop D M fuel b o').2.1.seen = (kkFitLoop D M fuel b o).2.1.seen ∧
    (kkFitLoop D M fuel b o').2.2 = (kkFitLoop D M fuel b o).2.2 := by
  intro fuel
  induction fuel with
  | zero => intro b o o' h; exact ⟨rfl, h.symm, rfl⟩
  | succ fuel ih =>
    intro b o o' h
    rw [seen_iter h]
    generalize o'.iter = i
    unfold kkFitLoop
    simp only
    by_cases hb : b.nSuccessful < o.nInit
    · simp only [if_pos hb]
      obtain ⟨h1, h2, h3⟩ := kkFitOne_iter D M (D.inits b.nAttempts) o i
      generalize kkFitOne D M (D.inits b.nAttempts) { o with iter := i } = r' at *
      generalize kkFitOne D M (D.inits b.nAttempts) o = r at *
      obtain ⟨s, err⟩ := r
      obtain ⟨s', err'⟩ := r'
      simp only at h1 h2 h3
      subst h1
      cases err' with
      | none =>
        obtain rfl := h3 rfl
        simp
      | some err =>
        cases err <;> first
          | exact ih _ _ _ h2.symm
          | exact ⟨rfl, h2, rfl⟩
    · simp only [if_neg hb]
      exact ⟨trivial, rfl, trivial⟩

/-- `fit` from the second `_get_kernel_params` on. -/
def kkFrom (D : KkData K) (r : KkDict K × KkObj K) : KkObj K × Option PyErr :=
  match (if r.2.gak then kkGakMatrix r.2 r.1 D.gakMat else D.pairMat r.1) with
  | .error err => (r.2, some err)
  | .ok M =>
    match kkFitLoop D M (max r.2.nInit 10) ⟨none, ⊤, 0, 0⟩ r.2 with
    | (_, o, some err) => (o, some err)
    | (b, o, none) =>
      if 0 < b.nSuccessful then ({ o with labels := b.best, inertia := b.minInertia, xfit := true }, none) else (o, none)

theorem kkFit_from (o : KkObj K) (D : KkData K) : kkFit o D = kkFrom D (kkGetParams
    { (kkSigma o D.autoSigma) with labels := none, inertia := ⊤, fitted := true, xfit := false, nIter := 0 }) := by
  unfold kkFit kkGetKernel kkFrom
  simp only
  generalize kkGetParams { (kkSigma o D.autoSigma) with labels := none, inertia := ⊤, fitted := true, xfit := false, nIter := 0 } = r
  obtain ⟨kp, q⟩ := r
  simp only
  cases (if q.gak = true then kkGakMatrix q kp D.gakMat else D.pairMat kp) <;> rfl

theorem kkFrom_seen (D : KkData K) (kp : KkDict K) (q : KkObj K) (i : ℕ) :
    (kkFrom D (kp, { q with iter := i })).1.seen = (kkFrom D (kp, q)).1.seen ∧ (kkFrom D (kp, { q with iter := i })).2 = (kkFrom D (kp, q)).2 := by
  unfold kkFrom
  have hg : kkGakMatrix { q with iter := i } kp D.gakMat = kkGakMatrix q kp D.gakMat := rfl
  simp only [hg]
  cases (if q.gak = true then kkGakMatrix q kp D.gakMat else D.pairMat kp) with
  | error err => exact ⟨rfl, rfl⟩
  | ok M =>
    simp only
    obtain ⟨a1, a2, a3⟩ := kkFitLoop_seen D M (max q.nInit 10) ⟨none, ⊤, 0, 0⟩ q { q with iter := i } rfl
    generalize kkFitLoop D M (max q.nInit 10) ⟨none, ⊤, 0, 0⟩ { q with iter := i } = r' at *
    generalize kkFitLoop D M (max q.nInit 10) ⟨none, ⊤, 0, 0⟩ q = r at *
    obtain ⟨b, o1, e1⟩ := r
    obtain ⟨b', o2, e2⟩ := r'
    simp only at a1 a2 a3
    subst a1 a3
    cases e2 with
    | some err => exact ⟨a2, rfl⟩
    | none =>
      simp only
      rw [seen_iter a2]
      split <;> exact ⟨rfl, rfl⟩

/-- The value `sigma_gak_` takes. -/
def kkChosen (o : KkObj K) (v : K) : PySigma K :=
  if o.gak then (match o.sigma.getD o.wanted with
    | .auto => .num v
    | s => s) else .none

/-- The state in which `fit` computes the kernel. -/
def kkReady (o : KkObj K) (v : K) : KkDict K × KkObj K :=
  let kps := o.kernelParams.map fun kp => if o.gak then { kp with sigma := some (kkChosen o v) } else kp
  (kps.getD ⟨if o.gak then some (kkChosen o v) else none, []⟩,
    { o with kernelParams := kps, sigma := some (kkChosen o v), labels := none, inertia := ⊤, fitted := true, xfit := false, nIter := 0 })

theorem kkFit_ready (o : KkObj K) (D : KkData K) : kkFit o D = kkFrom D (kkReady o D.autoSigma) := by
  rw [kkFit_from]
  congr 1
  obtain ⟨a, g, c, d, e, kp, sg, h, j, k, l, m, n⟩ := o
  cases g <;> cases kp <;> cases sg <;> rfl

theorem kkFit_congr (D : KkData K) {o o' : KkObj K} (h1 : (kkReady o D.autoSigma).1 = (kkReady o' D.autoSigma).1)
    (h2 : (kkReady o D.autoSigma).2.seen = (kkReady o' D.autoSigma).2.seen) :
    (kkFit o D).1.seen = (kkFit o' D).1.seen ∧ (kkFit o D).2 = (kkFit o' D).2 := by
  rw [kkFit_ready, kkFit_ready]
  generalize kkReady o D.autoSigma = r at *
  generalize kkReady o' D.autoSigma = r' at *
  obtain ⟨kp, q⟩ := r
  obtain ⟨kp', q'⟩ := r'
  simp only at h1 h2
  subst h1
  rw [seen_iter h2]
  obtain ⟨a, b⟩ := kkFrom_seen D kp q q'.iter
  exact ⟨a.symm, b.symm⟩

/-- What is seen of two objects after equal fits. -/
theorem seen_fields {o o' : KkObj K} (h : o.seen = o'.seen) : o.labels = o'.labels ∧ o.inertia = o'.inertia ∧ o.nIter = o'.nIter ∧
    o.xfit = o'.xfit ∧ o.sigma = o'.sigma ∧ o.kernelParams = o'.kernelParams := by
  rw [seen_iter h]
  exact ⟨rfl, rfl, rfl, rfl, rfl, rfl⟩

/-- Full claim: for every object `o`, whatever its history, `fit` gives what it gives for a new estimator with the same
hyper-parameters. Missing (and false, see below): kernel `gak` on an object whose `sigma_gak_` is left over from a fit with another
`sigma`, with `sigma="auto"`, or with another kernel. -/
theorem C38_partial (o : KkObj K) (D : KkData K) (h : o.gak = false ∨ o.sigma = none ∨ (o.sigma = some o.wanted ∧ o.wanted ≠ .auto)) :
    (kkFit o D).2 = (kkFit o.fresh D).2 ∧ (kkFit o D).1.labels = (kkFit o.fresh D).1.labels ∧
    (kkFit o D).1.inertia = (kkFit o.fresh D).1.inertia ∧ (kkFit o D).1.nIter = (kkFit o.fresh D).1.nIter ∧
    (kkFit o D).1.xfit = (kkFit o.fresh D).1.xfit ∧ (kkFit o D).1.sigma = (kkFit o.fresh D).1.sigma ∧
    (kkFit o D).1.kernelParams = (kkFit o.fresh D).1.kernelParams := by
  have hch : kkChosen o D.autoSigma = kkChosen o.fresh D.autoSigma := by
    unfold kkChosen
    rcases h with h | h | ⟨h, h'⟩
    · simp [KkObj.fresh, h]
    · simp only [h]; rfl
    · simp only [h]; rfl
  obtain ⟨a, b⟩ := kkFit_congr D (o := o) (o' := o.fresh) (by unfold kkReady; rw [hch]; rfl) (by unfold kkReady; rw [hch]; rfl)
  exact ⟨b, seen_fields a⟩

/-- A `sigma_gak_` left by an earlier fit wins over any `kernel_params` set since, and over `"auto"`: the second fit gives what a new
estimator with the *old* `sigma` would give. -/
theorem C38_stale (o : KkObj K) (D : KkData K) {s : K} {kp : KkDict K} (hg : o.gak = true) (hs : o.sigma = some (.num s))
    (hk : o.kernelParams = some kp) :
    (kkFit o D).2 = (kkFit { o.fresh with kernelParams := some { kp with sigma := some (.num s) } } D).2 ∧
    (kkFit o D).1.labels = (kkFit { o.fresh with kernelParams := some { kp with sigma := some (.num s) } } D).1.labels ∧
    (kkFit o D).1.inertia = (kkFit { o.fresh with kernelParams := some { kp with sigma := some (.num s) } } D).1.inertia := by
  have h1 : kkChosen o D.autoSigma = .num s := by simp [kkChosen, hg, hs]
  have h2 : kkChosen { o.fresh with kernelParams := some { kp with sigma := some (.num s) } } D.autoSigma = .num s := by
    simp [kkChosen, KkObj.fresh, hg, KkObj.wanted]
  obtain ⟨a, b⟩ := kkFit_congr D (o := o) (o' := { o.fresh with kernelParams := some { kp with sigma := some (.num s) } })
    (by unfold kkReady; rw [h1, h2, hk]; simp [KkObj.fresh, hg]) (by unfold kkReady; rw [h1, h2, hk]; simp [KkObj.fresh, hg, KkObj.seen])
  obtain ⟨c1, c2, -⟩ := seen_fields a
  exact ⟨b, c1, c2⟩

theorem kkFitLoop_params (D : KkData K) (M : ℕ → ℕ → K) : ∀ (fuel : ℕ) (b : KkBest K) (o : KkObj K),
    (kkFitLoop D M fuel b o).2.1.kernelParams = o.kernelParams ∧ (kkFitLoop D M fuel b o).2.1.sigma = o.sigma ∧
    (kkFitLoop D M fuel b o).2.1.gak = o.gak := by
  have hloop : ∀ (n it : ℕ) (old : WithTop K) (o : KkObj K), (kkLoop D M n it old o).1.kernelParams = o.kernelParams ∧
      (kkLoop D M n it old o).1.sigma = o.sigma ∧ (kkLoop D M n it old o).1.gak = o.gak := by
    intro n
    induction n with
    | zero => intro it old o; exact ⟨rfl, rfl, rfl⟩
    | succ n ih =>
      intro it old o
      unfold kkLoop
      cases kkDist o.nClusters D.n D.sw M (o.labels.getD []) with
      | error err => exact ⟨rfl, rfl, rfl⟩
      | ok ds =>
        simp only
        split
        · exact ⟨rfl, rfl, rfl⟩
        · split
          · exact ⟨rfl, rfl, rfl⟩
          · exact ih _ _ _
  intro fuel
  induction fuel with
  | zero => intro b o; exact ⟨rfl, rfl, rfl⟩
  | succ fuel ih =>
    intro b o
    unfold kkFitLoop
    simp only
    split
    · have h1 : (kkFitOne D M (D.inits b.nAttempts) o).1.kernelParams = o.kernelParams ∧
          (kkFitOne D M (D.inits b.nAttempts) o).1.sigma = o.sigma ∧ (kkFitOne D M (D.inits b.nAttempts) o).1.gak = o.gak := by
        unfold kkFitOne
        simp only
        split
        · exact ⟨rfl, rfl, rfl⟩
        · exact hloop _ _ _ _
      generalize kkFitOne D M (D.inits b.nAttempts) o = r at *
      obtain ⟨q, err⟩ := r
      simp only at h1
      rw [← h1.1, ← h1.2.1, ← h1.2.2]
      cases err with
      | none =>
        simp only
        split <;> exact ih _ _
      | some err => cases err <;> first | exact ih _ _ | exact ⟨rfl, rfl, rfl⟩
    · exact ⟨rfl, rfl, rfl⟩

theorem kkFrom_params (D : KkData K) (r : KkDict K × KkObj K) : (kkFrom D r).1.kernelParams = r.2.kernelParams ∧ (kkFrom D r).1.sigma = r.2.sigma ∧
    (kkFrom D r).1.gak = r.2.gak := by
  unfold kkFrom
  cases (if r.2.gak = true then kkGakMatrix r.2 r.1 D.gakMat else D.pairMat r.1) with
  | error err => exact ⟨rfl, rfl, rfl⟩
  | ok M =>
    simp only
    have h := kkFitLoop_params D M (max r.2.nInit 10) ⟨none, ⊤, 0, 0⟩ r.2
    generalize kkFitLoop D M (max r.2.nInit 10) ⟨none, ⊤, 0, 0⟩ r.2 = q at *
    obtain ⟨b, o, err⟩ := q
    cases err with
    | some err => exact h
    | none =>
      simp only
      split <;> exact h

/-- After any fit, failing or not, `sigma_gak_` is the value chosen, and with kernel `gak` the user's dict holds it too; with other
kernels the dict is untouched. -/
theorem C38_writes (o : KkObj K) (D : KkData K) :
    (kkFit o D).1.sigma = some (if o.gak then (match o.sigma.getD o.wanted with
      | .auto => .num D.autoSigma
      | s => s) else .none) ∧
    (o.gak = true → (kkFit o D).1.kernelParams = o.kernelParams.map fun kp => { kp with sigma := (kkFit o D).1.sigma }) ∧
    (o.gak = false → (kkFit o D).1.kernelParams = o.kernelParams) := by
  obtain ⟨h1, h2, -⟩ := kkFrom_params D (kkReady o D.autoSigma)
  rw [← kkFit_ready] at h1 h2
  refine ⟨h2, fun hg => ?_, fun hg => ?_⟩
  · rw [h1, h2]
    simp [kkReady, hg]
  · rw [h1]
    simp [kkReady, hg]

/-- False: hyper-parameters are not modified. `sigma="auto"` in the user's dict becomes the bandwidth of the first data set. -/
theorem C38_false_dict (o : KkObj K) (D : KkData K) {kp : KkDict K} (hg : o.gak = true) (hn : o.sigma = none)
    (hk : o.kernelParams = some kp) (ha : kp.sigma = some .auto) :
    (kkFit o D).1.kernelParams = some { kp with sigma := some (.num D.autoSigma) } ∧ (kkFit o D).1.kernelParams ≠ o.kernelParams := by
  obtain ⟨h1, h2, -⟩ := C38_writes o D
  have h3 := h2 hg
  rw [h1, hk] at h3
  have hw : o.sigma.getD o.wanted = .auto := by simp [hn, KkObj.wanted, hk, ha]
  simp only [hg, hw, if_true, Option.map_some] at h3
  refine ⟨h3, ?_⟩
  rw [h3, hk]
  intro h
  have := congrArg KkDict.sigma (Option.some.inj h)
  rw [ha] at this
  cases this

/-- False: `set_params` followed by `fit` uses the new `sigma`. Fit, set another `sigma`, fit again on any data: `sigma_gak_` is still
the first one. -/
theorem C38_false_set_params (o : KkObj K) (D1 D2 : KkData K) {s1 s2 : K} (hne : s1 ≠ s2) (hg : o.gak = true) (hn : o.sigma = none)
    (hk : o.kernelParams = some ⟨some (.num s1), []⟩) :
    let o1 := (kkFit o D1).1
    let o2 := (kkFit { o1 with kernelParams := some ⟨some (.num s2), []⟩ } D2).1
    o2.sigma = some (.num s1) ∧ (kkFit { o.fresh with kernelParams := some ⟨some (.num s2), []⟩ } D2).1.sigma = some (.num s2) ∧
      o2.sigma ≠ (kkFit { o.fresh with kernelParams := some ⟨some (.num s2), []⟩ } D2).1.sigma ∧
      o2.kernelParams = some ⟨some (.num s1), []⟩ := by
  have hw : o.sigma.getD o.wanted = .num s1 := by simp [hn, KkObj.wanted, hk]
  have h1 : (kkFit o D1).1.sigma = some (.num s1) := by
    rw [(C38_writes o D1).1]; simp only [hg, hw, if_true]
  have hg1 : ∀ (o : KkObj K) (D : KkData K), (kkFit o D).1.gak = o.gak := by
    intro o D
    rw [kkFit_ready]
    exact (kkFrom_params D _).2.2
  have h2 := C38_writes { (kkFit o D1).1 with kernelParams := some ⟨some (.num s2), []⟩ } D2
  have e : (kkFit { (kkFit o D1).1 with kernelParams := some ⟨some (.num s2), []⟩ } D2).1.sigma = some (.num s1) := by
    rw [h2.1]
    simp only [hg1, hg, h1, Option.getD_some, if_true]
  have f : (kkFit { o.fresh with kernelParams := some ⟨some (.num s2), []⟩ } D2).1.sigma = some (.num s2) := by
    rw [(C38_writes _ D2).1]
    simp [KkObj.fresh, hg, KkObj.wanted]
  refine ⟨e, f, ?_, ?_⟩
  · simp only
    rw [e, f]
    simpa using hne
  · rw [h2.2.1 ((hg1 o D1).trans hg), e]
    rfl

/-- False: the kernel can be changed. After a fit with any other kernel, `set_params(kernel="gak")` makes `fit` fail on every data
set: `sigma_gak_` is `None`. -/
theorem C38_false_switch (o : KkObj K) (D1 D2 : KkData K) (hg : o.gak = false) :
    (kkFit { (kkFit o D1).1 with gak := true } D2).2 = some .typeError := by
  have h1 : (kkFit o D1).1.sigma = some .none := by
    rw [(C38_writes o D1).1]; simp [hg]
  rw [kkFit_ready]
  have hc : kkChosen { (kkFit o D1).1 with gak := true } D2.autoSigma = .none := by simp [kkChosen, h1]
  unfold kkReady
  rw [hc]
  generalize (kkFit o D1).1 = q
  unfold kkFrom kkGakMatrix
  cases q.kernelParams with
  | none => simp
  | some kp =>
    by_cases hr : kp.rest = [] <;> simp [hr]

/-- Two series that are orthogonal under every kernel; the labels drawn are 0, 1. -/
def kkD2 : KkData ℚ :=
  { n := 2, gakMat := fun _ i j => if i = j then 1 else 0, pairMat := fun _ => .ok fun i j => if i = j then 1 else 0,
    autoSigma := 3, sw := fun _ => 1, inits := fun _ => [0, 1] }

/-- A new estimator with the given kernel parameters. -/
def kkO (gak : Bool) (kp : Option (KkDict ℚ)) : KkObj ℚ :=
  { nClusters := 2, gak := gak, maxIter := 3, tol := 1 / 1000, nInit := 1, kernelParams := kp, sigma := none, labels := none, inertia := ⊤,
    fitted := false, xfit := false, nIter := 0, iter := 0 }

example : (kkFit (kkO true (some ⟨some .auto, []⟩)) kkD2).1.labels = some [0, 1] ∧
    (kkFit (kkO true (some ⟨some .auto, []⟩)) kkD2).1.sigma = some (.num 3) := by decide +kernel

example : (kkFit { (kkO true (some ⟨some (.num 2), []⟩)) with sigma := some (.num 2), nIter := 7 } kkD2).1.labels =
    (kkFit (kkO true (some ⟨some (.num 2), []⟩)) kkD2).1.labels :=
  (C38_partial { (kkO true (some ⟨some (.num 2), []⟩)) with sigma := some (.num 2), nIter := 7 } kkD2
    (Or.inr (Or.inr ⟨rfl, by decide⟩))).2.1

example : (kkFit { (kkO true (some ⟨some (.num 5), []⟩)) with sigma := some (.num 2) } kkD2).1.labels =
    (kkFit (kkO true (some ⟨some (.num 2), []⟩)) kkD2).1.labels :=
  (C38_stale { (kkO true (some ⟨some (.num 5), []⟩)) with sigma := some (.num 2) } kkD2 rfl rfl rfl).2.1

example : (kkFit (kkO true (some ⟨some .auto, []⟩)) kkD2).1.kernelParams = some ⟨some (.num 3), []⟩ :=
  (C38_false_dict (kkO true (some ⟨some .auto, []⟩)) kkD2 rfl rfl rfl rfl).1

example : (kkFit { (kkFit (kkO true (some ⟨some (.num 1), []⟩)) kkD2).1 with kernelParams := some ⟨some (.num 5), []⟩ } kkD2).1.sigma =
    some (.num 1) :=
  (C38_false_set_params (kkO true (some ⟨some (.num 1), []⟩)) kkD2 kkD2 (s1 := 1) (s2 := 5) (by norm_num) rfl rfl rfl).1

example : (kkFit { (kkFit (kkO false none) kkD2).1 with gak := true } kkD2).2 = some .typeError :=
  C38_false_switch (kkO false none) kkD2 kkD2 rfl

end Verif
