import Verif.Model.Svm
import Verif.Props.C21
import Verif.Props.C74
import Verif.Proofs.Cast
/-!
C73: what support vector machines hand to scikit-learn, and what they keep.
-/
set_option linter.unusedSectionVars false
namespace Verif
open Spec
variable {M : Type}

/-- Documented parameters of `TimeSeriesSVC` that scikit-learn's `SVC` has too, tslearn/svm/svm.py:113-198, but for `kernel` and `gamma`. -/
def Spec.svcShared : List String :=
  ["C", "degree", "coef0", "shrinking", "probability", "tol", "cache_size", "class_weight", "verbose", "max_iter", "decision_function_shape", "random_state"]

/-- Documented parameters of `TimeSeriesSVR` that scikit-learn's `SVR` has too, tslearn/svm/svm.py:416-490, but for `kernel` and `gamma`. -/
def Spec.svrShared : List String := ["C", "degree", "coef0", "tol", "epsilon", "shrinking", "cache_size", "verbose", "max_iter"]

/-- The classifier hands over every parameter. -/
theorem C73_svc_params {V : Type} (p : String → V) (kernel gamma : V) (default : String → V) (name : String) (h : name ∈ svcShared) :
    argValue (svcKwargs p kernel gamma) default name = p name ∧ argValue (svcKwargs p kernel gamma) default "kernel" = kernel ∧
      argValue (svcKwargs p kernel gamma) default "gamma" = gamma := by
  refine ⟨?_, rfl, rfl⟩
  simp only [svcShared, List.mem_cons, List.not_mem_nil, or_false] at h
  rcases h with rfl | rfl | rfl | rfl | rfl | rfl | rfl | rfl | rfl | rfl | rfl | rfl <;> rfl

/-- The regressor hands over every parameter but `epsilon`. -/
theorem C73_svr_params_partial {V : Type} (p : String → V) (kernel gamma : V) (default : String → V) (name : String) (h : name ∈ svrShared)
    (he : name ≠ "epsilon") : argValue (svrKwargs p kernel gamma) default name = p name ∧
      argValue (svrKwargs p kernel gamma) default "kernel" = kernel ∧ argValue (svrKwargs p kernel gamma) default "gamma" = gamma := by
  refine ⟨?_, rfl, rfl⟩
  simp only [svrShared, List.mem_cons, List.not_mem_nil, or_false] at h
  rcases h with rfl | rfl | rfl | rfl | rfl | rfl | rfl | rfl | rfl
  all_goals first | rfl | exact absurd rfl he

/-- False for the regressor: `epsilon` is documented and ignored, scikit-learn's own default is used whatever it is. -/
theorem C73_false_epsilon {V : Type} (p : String → V) (kernel gamma : V) (default : String → V) :
    "epsilon" ∈ svrShared ∧ argValue (svrKwargs p kernel gamma) default "epsilon" = default "epsilon" := ⟨by decide, rfl⟩

variable (run : List (Except PyErr ℝ) → Except PyErr (List ℝ))

/-- A fit that succeeds on a fresh estimator does so, with the same outcome, after any calls before. -/
theorem C73_history (o : SvmObj M) (cs : List (SvmCall M)) (c : SvmCall M) :
    (svmFit run (svmRun run o cs) c).2 = (svmFit run o.fresh c).2 ∧
      ((svmFit run o.fresh c).2 = none → (svmFit run (svmRun run o cs) c).1 = (svmFit run o.fresh c).1) := by
  have hpar : ∀ (o : SvmObj M) c, (svmFit run o c).1.gak = o.gak ∧ (svmFit run o c).1.gamma = o.gamma := by
    intro o c
    unfold svmFit
    cases c.check with
    | some e => exact ⟨rfl, rfl⟩
    | none =>
      cases toDataset c.X with
      | error e => exact ⟨rfl, rfl⟩
      | ok X =>
        simp only
        cases svmGamma o.gamma X c.draw with
        | error e => exact ⟨rfl, rfl⟩
        | ok g =>
          simp only
          cases svmFitX run o.gak g X with
          | error e => exact ⟨rfl, rfl⟩
          | ok S =>
            simp only
            cases c.solve g S with
            | error e => exact ⟨rfl, rfl⟩
            | ok m => exact ⟨rfl, rfl⟩
  have hrun : ∀ (cs : List (SvmCall M)) (o : SvmObj M), (svmRun run o cs).gak = o.gak ∧ (svmRun run o cs).gamma = o.gamma := by
    intro cs
    induction cs with
    | nil => intro o; exact ⟨rfl, rfl⟩
    | cons c cs ih =>
      intro o
      obtain ⟨h1, h2⟩ := ih (svmFit run o c).1
      obtain ⟨h3, h4⟩ := hpar o c
      exact ⟨h1.trans h3, h2.trans h4⟩
  obtain ⟨h1, h2⟩ := hrun cs o
  generalize svmRun run o cs = o' at h1 h2
  have h1' : o'.gak = o.fresh.gak := h1
  have h2' : o'.gamma = o.fresh.gamma := h2
  generalize hf : o.fresh = f at h1' h2'
  unfold svmFit
  cases c.check with
  | some e => exact ⟨rfl, fun h => by cases h⟩
  | none =>
    cases toDataset c.X with
    | error e => exact ⟨rfl, fun h => by cases h⟩
    | ok X =>
      simp only [h1', h2']
      cases svmGamma f.gamma X c.draw with
      | error e => exact ⟨rfl, fun h => by cases h⟩
      | ok g =>
        simp only
        cases svmFitX run f.gak g X with
        | error e => exact ⟨rfl, fun h => by cases h⟩
        | ok S =>
          simp only
          cases c.solve g S with
          | error e => exact ⟨trivial, fun h => by cases h⟩
          | ok m => exact ⟨trivial, fun _ => trivial⟩

/-- What a successful fit leaves behind and what the solver saw. -/
theorem svmFit_ok {o : SvmObj M} {c : SvmCall M} (h : (svmFit run o c).2 = none) :
    ∃ X g S m, toDataset c.X = .ok X ∧ svmGamma o.gamma X c.draw = .ok g ∧ svmFitX run o.gak g X = .ok S ∧ c.solve g S = .ok m ∧
      (svmFit run o c).1 = { o with xFit := some X, gammaFit := some g, est := some (g, some m) } := by
  unfold svmFit at h ⊢
  cases h0 : c.check with
  | some e => rw [h0] at h; cases h
  | none =>
    rw [h0] at h
    simp only at h ⊢
    cases h1 : toDataset c.X with
    | error e => rw [h1] at h; cases h
    | ok X =>
      rw [h1] at h
      simp only at h ⊢
      cases h2 : svmGamma o.gamma X c.draw with
      | error e => rw [h2] at h; cases h
      | ok g =>
        rw [h2] at h
        simp only at h ⊢
        cases h3 : svmFitX run o.gak g X with
        | error e => rw [h3] at h; cases h
        | ok S =>
          rw [h3] at h
          simp only at h ⊢
          cases h4 : c.solve g S with
          | error e => rw [h4] at h; cases h
          | ok m => exact ⟨X, g, S, m, rfl, h2, h3, h4, rfl⟩

theorem slots_get {X : Arr3 ℝ} {i : ℕ} {s : List (List (Option ℝ))} (h : X.data[i]? = some s) : X.slots[i]? = some ⟨X.d, s⟩ := by
  unfold Arr3.slots
  rw [List.getElem?_map, h]
  rfl

theorem slots_wf {X : Arr3 ℝ} (h : X.WF) : ∀ t ∈ X.slots, t.WF ∧ t.d = X.d := by
  intro t ht
  obtain ⟨s, hs, rfl⟩ := List.mem_map.mp ht
  exact ⟨fun r hr => (h s hs).2 r hr, rfl⟩

/-- With the global alignment kernel the solver sees the kernel of every two training series, with the bandwidth `sqrt(gamma_ / 2)`, however the
jobs are scheduled. -/
theorem C73_fit_matrix (hrun : Execution run) (X : Arr3 ℝ) (hwf : X.WF) (g : ℝ) (S : SkX) (h : svmFitX run true g X = .ok S) :
    ∃ K, S = .gram X.data.length X.data.length K ∧ ∀ i j s t, X.data[i]? = some s → X.data[j]? = some t →
      gak (.twoD s) (.twoD t) (Real.sqrt (g / 2)) = .ok (K i j) ∧ K i j = K j i ∧ K i i = 1 := by
  unfold svmFitX at h
  rw [if_pos rfl] at h
  cases hK : cdistGak (.series X.slots) none (Real.sqrt (g / 2)) run with
  | error e => rw [hK] at h; cases h
  | ok K =>
    rw [hK] at h
    cases h
    exact ⟨K, rfl, fun i j s t hi hj => C21_cdist_self X.slots X.d (slots_wf hwf) _ run hrun K hK i j _ _ (slots_get hi) (slots_get hj)⟩

/-- Queries use the same kernel and bandwidth against the training series. -/
theorem C73_query_matrix (hrun : Execution run) (Xf Z : Arr3 ℝ) (hwf : Xf.WF) (hwz : Z.WF) (hd : Z.d = Xf.d) (g : ℝ) (S : SkX)
    (h : svmQueryX run true g Xf Z = .ok S) : ∃ K, S = .gram Z.data.length Xf.data.length K ∧ ∀ i j s t, Z.data[i]? = some s → Xf.data[j]? = some t →
      gak (.twoD s) (.twoD t) (Real.sqrt (g / 2)) = .ok (K i j) := by
  unfold svmQueryX at h
  rw [if_pos rfl] at h
  cases hK : cdistGak (.series Z.slots) (some (.series Xf.slots)) (Real.sqrt (g / 2)) run with
  | error e => rw [hK] at h; cases h
  | ok K =>
    rw [hK] at h
    cases h
    refine ⟨K, rfl, fun i j s t hi hj => ?_⟩
    exact C21_cdist_cross Z.slots Xf.slots Xf.d (fun t ht => ⟨(slots_wf hwz t ht).1, (slots_wf hwz t ht).2.trans hd⟩) (slots_wf hwf) _ run hrun K hK i j _ _
      (slots_get hi) (slots_get hj)

/-- Asked about its training data, the model gets the matrix it was fitted with, for every kernel and even if jobs run in another order. -/
theorem C73_training_query (run' : List (Except PyErr ℝ) → Except PyErr (List ℝ)) (hrun : Execution run) (hrun' : Execution run') (k : Bool)
    (X : Arr3 ℝ) (hwf : X.WF) (g : ℝ) (S T : SkX) (hS : svmFitX run k g X = .ok S) (hT : svmQueryX run' k g X X = .ok T) :
    match S, T with
    | .gram r c K, .gram r' c' L => r = r' ∧ c = c' ∧ ∀ i < r, ∀ j < c, K i j = L i j
    | .flat a, .flat b => a = b
    | _, _ => False := by
  cases k with
  | true =>
    obtain ⟨K, rfl, hK⟩ := C73_fit_matrix run hrun X hwf g S hS
    obtain ⟨L, rfl, hL⟩ := C73_query_matrix run' hrun' X X hwf hwf rfl g T hT
    refine ⟨rfl, rfl, fun i hi j hj => ?_⟩
    have h1 := (hK i j _ _ (List.getElem?_eq_getElem hi) (List.getElem?_eq_getElem hj)).1
    have h2 := hL i j _ _ (List.getElem?_eq_getElem hi) (List.getElem?_eq_getElem hj)
    rw [h1] at h2
    exact Except.ok.inj h2
  | false =>
    have : svmFitX run false g X = svmQueryX run' false g X X := rfl
    rw [this, hT] at hS
    cases hS
    unfold svmQueryX at hT
    rw [if_neg (by simp)] at hT
    cases hr : toSklearn (.series X.slots) with
    | error e => rw [hr] at hT; cases hT
    | ok r => rw [hr] at hT; cases hT; rfl

/-- With `gamma="auto"` the bandwidth of the kernel is the one `sigma_gak` proposes for the training data. -/
theorem C73_sigma (X : Arr3 ℝ) (draw : List ℕ) (g : ℝ) (h : svmGamma .auto X draw = .ok g) :
    sigmaGak .numpy (.series X.slots) draw = .ok (Real.sqrt (g / 2)) := (C74_gamma .numpy _ draw g h).2

/-- A bandwidth of zero with the global alignment kernel is a `RuntimeError`, whatever the solver. -/
theorem C73_zero (o : SvmObj M) (c : SvmCall M) (hk : o.gak = true) (hc : c.check = none) (X : Arr3 ℝ) (hX : toDataset c.X = .ok X)
    (hg : svmGamma o.gamma X c.draw = .ok 0) :
    svmFit run o c = ({ o with xFit := some X, gammaFit := some 0 }, some .runtimeError) := by
  have hz : cdistGak (.series X.slots) none (Real.sqrt ((0 : ℝ) / 2)) run = .error .zeroDivision := by
    rw [zero_div, Real.sqrt_zero]
    exact (C21_sigma_zero (.twoD []) (.twoD []) _ _ run).2.2
  unfold svmFit
  rw [hc, hX]
  simp only [hg, hk]
  unfold svmFitX
  rw [if_pos rfl, hz]
  rfl

/-- False: a fit that raises leaves the fitted model as it was. After a fit that ends in that `RuntimeError` every query, which worked before,
ends in a `ZeroDivisionError`. -/
theorem C73_false_failed_zero {R : Type} (predict : M → SkX → Except PyErr R) (o : SvmObj M) (e : ℝ × Option M) (he : o.est = some e) (c : SvmCall M)
    (hk : o.gak = true) (hc : c.check = none) (X : Arr3 ℝ) (hX : toDataset c.X = .ok X) (hg : svmGamma o.gamma X c.draw = .ok 0) (z : DsInput ℝ)
    (Z : Arr3 ℝ) (hZ : toDataset z = .ok Z) (hd : Z.d = X.d) :
    svmQuery run predict (svmFit run o c).1 none z = .error .zeroDivision := by
  rw [C73_zero run o c hk hc X hX hg]
  have hz : cdistGak (.series Z.slots) (some (.series X.slots)) (Real.sqrt ((0 : ℝ) / 2)) run = .error .zeroDivision := by
    rw [zero_div, Real.sqrt_zero]
    exact (C21_sigma_zero (.twoD []) (.twoD []) _ _ run).2.2
  have hdim : checkDims (some [Z.data.length, Z.sz, Z.d]) (some [X.data.length, X.sz, X.d]) true true = .ok [Z.data.length, Z.sz, Z.d] := by
    simp [checkDims, hd]
  unfold svmQuery
  simp only [hZ, he, bind, Except.bind, hk, hdim, svmQueryX, if_true, hz]

/-- False: the same for a solver that refuses the new targets (one class only): what was fitted is gone. -/
theorem C73_false_failed_solver {R : Type} (predict : M → SkX → Except PyErr R) (o : SvmObj M) (c : SvmCall M) (hc : c.check = none) (X : Arr3 ℝ)
    (hX : toDataset c.X = .ok X) (g : ℝ) (hg : svmGamma o.gamma X c.draw = .ok g) (S : SkX) (hS : svmFitX run o.gak g X = .ok S) (e : PyErr)
    (hs : c.solve g S = .error e) (z : DsInput ℝ) : (∀ r : R, svmQuery run predict (svmFit run o c).1 none z ≠ .ok r) ∧
      ∀ Z d T, toDataset z = .ok Z → checkDims (some [Z.data.length, Z.sz, Z.d]) (some [X.data.length, X.sz, X.d]) true o.gak = .ok d →
        svmQueryX run o.gak g X Z = .ok T → svmQuery run predict (svmFit run o c).1 none z = .error .notFitted := by
  have : svmFit run o c = ({ o with xFit := some X, gammaFit := some g, est := some (g, none) }, some e) := by
    unfold svmFit
    rw [hc, hX]
    simp only [hg, hS, hs]
  rw [this]
  unfold svmQuery
  simp only [bind, Except.bind]
  constructor
  · intro r h
    repeat' split at h
    all_goals cases h
  · intro Z d T hZ hd hT
    simp only [hZ, hd, hT]

/-- A `gamma` that is a number is used as it is: by the kernel, by the solver and in the attributes. -/
theorem C73_given_gamma (o : SvmObj M) (g : ℝ) (hg : o.gamma = .value g) (c : SvmCall M) (hc : c.check = none) (X : Arr3 ℝ)
    (hX : toDataset c.X = .ok X) (S : SkX) (hS : svmFitX run o.gak g X = .ok S) (m : M) (hm : c.solve g S = .ok m) :
    svmFit run o c = ({ o with xFit := some X, gammaFit := some g, est := some (g, some m) }, none) := by
  unfold svmFit
  rw [hc, hX]
  simp only [hg, svmGamma, hS, hm]

/-- A model that was never fitted refuses queries as such. -/
theorem C73_unfitted {R : Type} (predict : M → SkX → Except PyErr R) (o : SvmObj M) (z : DsInput ℝ) (Z : Arr3 ℝ) (hZ : toDataset z = .ok Z) :
    svmQuery run predict o.fresh none z = .error .notFitted := by
  unfold svmQuery SvmObj.fresh
  simp only [bind, Except.bind, hZ]

/-- False: with another kernel and `gamma="auto"`, `1 / n_features` is used. It is the value for soft-DTW, drawn at random from the data, here 0. -/
theorem C73_false_gamma : ∃ (X : Arr3 ℝ) (draw : List ℕ), IsDraw (validPoints X).length 7 draw ∧ svmGamma .auto X draw = .ok 0 ∧ (0 : ℝ) ≠ 1 / X.d := by
  refine ⟨sevenSamples, [0, 1, 2, 3, 4, 5, 6], ⟨rfl, by rw [sevenSamples_points]; decide, by decide⟩, ?_, by norm_num [sevenSamples]⟩
  unfold svmGamma gammaSoftDtw
  have : sigmaGak .numpy (.series sevenSamples.slots) [0, 1, 2, 3, 4, 5, 6] = .ok 0 := sevenSamples_sigma .numpy
  simp only [this, bind, Except.bind, pure, Except.pure]
  norm_num

theorem svcSlices_flatten {α : Type} (X : List α) (support : List ℕ) : ∀ (ns : List ℕ) (start : ℕ), start + ns.sum = support.length →
    (svcSlices X support start ns).flatten = (support.drop start).filterMap fun i => X[i]?
  | [], start, h => by
    rw [List.sum_nil, add_zero] at h
    rw [svcSlices, h, List.drop_length]
    rfl
  | n :: ns, start, h => by
    rw [List.sum_cons] at h
    rw [svcSlices, List.flatten_cons, svcSlices_flatten X support ns (start + n) (by omega), ← List.filterMap_append]
    congr 1
    have := List.take_append_drop (start + n) support
    conv_rhs => rw [← this, List.drop_append_of_le_length (by rw [List.length_take]; omega)]

/-- The support vectors, class after class, are the training series at the indices `support_`, each list as long as `n_support_` says. -/
theorem C73_support_vectors {α : Type} (X : List α) (support nSupport : List ℕ) (hn : nSupport.sum = support.length) (hs : ∀ i ∈ support, i < X.length) :
    (svcSupportVectors X support nSupport).flatten = svrSupportVectors X support ∧
      (svcSupportVectors X support nSupport).map List.length = nSupport ∧
      (∀ k (hk : k < support.length), (svrSupportVectors X support)[k]? = X[support[k]]?) ∧ (svrSupportVectors X support).length = support.length := by
  have hlen : ∀ l : List ℕ, (∀ i ∈ l, i < X.length) → (l.filterMap fun i => X[i]?).length = l.length := by
    intro l hl
    induction l with
    | nil => rfl
    | cons i l ih =>
      rw [List.filterMap_cons, List.getElem?_eq_getElem (hl i List.mem_cons_self)]
      simp only [List.length_cons]
      rw [ih fun j hj => hl j (List.mem_cons_of_mem _ hj)]
  refine ⟨by rw [svcSupportVectors, svcSlices_flatten X support nSupport 0 (by omega), List.drop_zero]; rfl, ?_, ?_, hlen support hs⟩
  · have : ∀ (ns : List ℕ) (start : ℕ), start + ns.sum = support.length → (svcSlices X support start ns).map List.length = ns := by
      intro ns
      induction ns with
      | nil => intro start _; rfl
      | cons n ns ih =>
        intro start h
        rw [List.sum_cons] at h
        rw [svcSlices, List.map_cons, ih (start + n) (by omega),
          hlen _ fun i hi => hs i (List.mem_of_mem_take (List.mem_of_mem_drop hi)), List.length_drop, List.length_take]
        congr 1
        omega
    exact this nSupport 0 (by omega)
  · have : ∀ l : List ℕ, (∀ i ∈ l, i < X.length) → ∀ k (hk : k < l.length), (l.filterMap fun i => X[i]?)[k]? = X[l[k]]? := by
      intro l hl
      induction l with
      | nil => intro k hk; simp at hk
      | cons i l ih =>
        intro k hk
        have hi := hl i List.mem_cons_self
        rw [List.filterMap_cons, List.getElem?_eq_getElem hi]
        cases k with
        | zero => simp only [List.getElem?_cons_zero, List.getElem_cons_zero]; rw [List.getElem?_eq_getElem hi]
        | succ k =>
          simp only [List.getElem?_cons_succ, List.getElem_cons_succ]
          exact ih (fun j hj => hl j (List.mem_cons_of_mem _ hj)) k (by simpa using hk)
    exact this support hs

example : svcSupportVectors ["a", "b", "c", "d"] [0, 3, 1] [2, 1] = [["a", "d"], ["b"]] := by decide
example : argValue (svrKwargs (fun n => if n = "epsilon" then 7 else if n = "C" then 5 else 1) 0 2) (fun _ => 100) "epsilon" = 100 := by decide
example : argValue (svcKwargs (fun n => if n = "tol" then 7 else if n = "C" then 5 else 1) 0 2) (fun _ => 100) "tol" = 7 := by decide

/-- Two series of one sample, with the kernel and without. -/
noncomputable def twoShort : Arr3 ℝ := ⟨1, 1, [[[some 2]], [[some 5]]]⟩

example : twoShort.WF ∧ (∃ S, svmFitX seqRun true 2 twoShort = .ok S) ∧ (∃ S, svmQueryX seqRun true 2 twoShort twoShort = .ok S) ∧
    svmFitX seqRun false 2 twoShort = .ok (.flat [[some 2], [some 5]]) := by
  have h1 : ¬Real.sqrt (2 / 2) = 0 := by norm_num
  refine ⟨?_, ?_, ?_, rfl⟩
  · intro s hs
    simp only [twoShort, List.mem_cons, List.not_mem_nil, or_false] at hs
    rcases hs with rfl | rfl <;> exact ⟨rfl, by simp [twoShort]⟩
  · unfold svmFitX cdistGak
    rw [if_pos rfl, if_neg h1]
    exact ⟨_, rfl⟩
  · unfold svmQueryX cdistGak
    rw [if_pos rfl, if_neg h1]
    exact ⟨_, rfl⟩

example : svmFit seqRun (M := ℕ) ⟨false, .value 2, none, none, none⟩ ⟨.series twoShort.slots, none, [], fun _ _ => .ok 3⟩ =
    (⟨false, .value 2, some twoShort, some 2, some (2, some 3)⟩, none) :=
  C73_given_gamma seqRun _ 2 rfl _ rfl twoShort rfl _ rfl 3 rfl

example : svmQuery seqRun (fun (m : ℕ) _ => .ok m) (SvmObj.fresh ⟨false, .value 2, none, none, none⟩) none (.series twoShort.slots) = .error .notFitted :=
  C73_unfitted seqRun _ _ _ twoShort rfl

/-- A fitted classifier, then data for which the bandwidth is zero: it can no longer be used. -/
example : (svmFit seqRun (M := ℕ) ⟨true, .auto, some twoShort, some 2, some (2, some 7)⟩ ⟨.series sevenSamples.slots, none, [0, 1, 2, 3, 4, 5, 6], fun _ _ => .ok 3⟩).2 =
      some .runtimeError ∧
    svmQuery seqRun (fun m _ => .ok m) (svmFit seqRun (M := ℕ) ⟨true, .auto, some twoShort, some 2, some (2, some 7)⟩
      ⟨.series sevenSamples.slots, none, [0, 1, 2, 3, 4, 5, 6], fun _ _ => .ok 3⟩).1 none (.series twoShort.slots) = .error .zeroDivision := by
  have hg : svmGamma .auto sevenSamples [0, 1, 2, 3, 4, 5, 6] = .ok 0 := by
    unfold svmGamma gammaSoftDtw
    simp only [sevenSamples_sigma, bind, Except.bind, pure, Except.pure]
    norm_num
  refine ⟨?_, ?_⟩
  · rw [C73_zero seqRun (M := ℕ) ⟨true, .auto, some twoShort, some 2, some (2, some 7)⟩ ⟨.series sevenSamples.slots, none, [0, 1, 2, 3, 4, 5, 6], fun _ _ => .ok 3⟩
      rfl rfl sevenSamples rfl hg]
  · exact C73_false_failed_zero seqRun (fun m _ => .ok m) ⟨true, .auto, some twoShort, some 2, some (2, some 7)⟩ _ rfl
      ⟨.series sevenSamples.slots, none, [0, 1, 2, 3, 4, 5, 6], fun _ _ => .ok 3⟩ rfl rfl sevenSamples rfl hg _ twoShort rfl rfl

end Verif
