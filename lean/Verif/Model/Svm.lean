import Verif.Model.Gak
import Verif.Model.Bandwidth
import Verif.Model.Cast
/-!
`TimeSeriesSVC` and `TimeSeriesSVR`: tslearn/svm/svm.py. The solver of scikit-learn (`fit` and `predict` of `SVC` and `SVR`) is a parameter.
Kernels are `"gak"` and those of scikit-learn; the other names of `VARIABLE_LENGTH_METRICS` end in an `AssertionError` and are left out.
-/
namespace Verif

/-- Keyword arguments of `SVC(...)`, tslearn/svm/svm.py:319-328. `p` gives the parameters of the constructor, `kernel` and `gamma` stand for
`estimator_kernel_` and `gamma_`. -/
def svcKwargs {V : Type} (p : String → V) (kernel gamma : V) : List (String × V) :=
  [("C", p "C"), ("kernel", kernel), ("degree", p "degree"), ("gamma", gamma), ("coef0", p "coef0"), ("shrinking", p "shrinking"),
    ("probability", p "probability"), ("tol", p "tol"), ("cache_size", p "cache_size"), ("class_weight", p "class_weight"), ("verbose", p "verbose"),
    ("max_iter", p "max_iter"), ("decision_function_shape", p "decision_function_shape"), ("random_state", p "random_state")]

/-- Keyword arguments of `SVR(...)`, tslearn/svm/svm.py:585-590. -/
def svrKwargs {V : Type} (p : String → V) (kernel gamma : V) : List (String × V) :=
  [("C", p "C"), ("kernel", kernel), ("degree", p "degree"), ("gamma", gamma), ("coef0", p "coef0"), ("shrinking", p "shrinking"), ("tol", p "tol"),
    ("cache_size", p "cache_size"), ("verbose", p "verbose"), ("max_iter", p "max_iter")]

/-- What a constructor sees of a parameter: the keyword argument or its own default. -/
def argValue {V : Type} (kw : List (String × V)) (default : String → V) (name : String) : V := (kw.lookup name).getD (default name)

noncomputable section

/-- `gamma`. -/
inductive SvmGamma
  | auto
  | value (g : ℝ)

/-- The matrix given to scikit-learn: a kernel matrix or flattened series. -/
inductive SkX
  | gram (rows cols : ℕ) (M : Mat ℝ)
  | flat (rows : List (List (Option ℝ)))

/-- Parameters `kernel == "gak"` and `gamma`, attributes `_X_fit`, `gamma_` and `svm_estimator_` (`some (k, none)`: created, not fitted;
`k` is the `gamma` it was created with). `M` is what the solver keeps. -/
structure SvmObj (M : Type) where
  gak : Bool
  gamma : SvmGamma
  xFit : Option (Arr3 ℝ)
  gammaFit : Option ℝ
  est : Option (ℝ × Option M)

/-- An unfitted estimator with the same parameters. -/
def SvmObj.fresh {M : Type} (o : SvmObj M) : SvmObj M := { o with xFit := none, gammaFit := none, est := none }

/-- One call of `fit`: data, what `check_X_y` raises, the draw of `gamma_soft_dtw`, and the solver with the targets. -/
structure SvmCall (M : Type) where
  X : DsInput ℝ
  check : Option PyErr
  draw : List ℕ
  solve : ℝ → SkX → Except PyErr M

variable {M : Type}

/-- `gamma_`, tslearn/svm/svm.py:56-59: not a function of the kernel. -/
def svmGamma (g : SvmGamma) (X : Arr3 ℝ) (draw : List ℕ) : Except PyErr ℝ :=
  match g with
  | .auto => gammaSoftDtw .numpy (.series X.slots) draw
  | .value g => .ok g

/-- The matrix of `fit`, tslearn/svm/svm.py:70-87: `sigma = sqrt(gamma_ / 2)`. `run` is the way joblib runs the jobs. -/
def svmFitX (run : List (Except PyErr ℝ) → Except PyErr (List ℝ)) (gak : Bool) (g : ℝ) (X : Arr3 ℝ) : Except PyErr SkX :=
  if gak then do
    let K ← cdistGak (.series X.slots) none (Real.sqrt (g / 2)) run
    return .gram X.data.length X.data.length K
  else do
    let r ← toSklearn (.series X.slots)
    return .flat r.1

/-- The matrix of a query, tslearn/svm/svm.py:70-87. -/
def svmQueryX (run : List (Except PyErr ℝ) → Except PyErr (List ℝ)) (gak : Bool) (g : ℝ) (Xf X : Arr3 ℝ) : Except PyErr SkX :=
  if gak then do
    let K ← cdistGak (.series X.slots) (some (.series Xf.slots)) (Real.sqrt (g / 2)) run
    return .gram X.data.length Xf.data.length K
  else do
    let r ← toSklearn (.series X.slots)
    return .flat r.1

/-- `fit`, tslearn/svm/svm.py:43-89 and 310-330, 576-592: the object afterwards and the exception, if any. -/
def svmFit (run : List (Except PyErr ℝ) → Except PyErr (List ℝ)) (o : SvmObj M) (c : SvmCall M) : SvmObj M × Option PyErr :=
  let catch_ (e : PyErr) : PyErr := if e = .zeroDivision then .runtimeError else e
  match c.check with
  | some e => (o, some (catch_ e))
  | none =>
    match toDataset c.X with
    | .error e => (o, some (catch_ e))
    | .ok X =>
      let o := { o with xFit := some X }
      match svmGamma o.gamma X c.draw with
      | .error e => (o, some (catch_ e))
      | .ok g =>
        let o := { o with gammaFit := some g }
        match svmFitX run o.gak g X with
        | .error e => (o, some (catch_ e))
        | .ok S =>
          match c.solve g S with
          | .error e => ({ o with est := some (g, none) }, some e)
          | .ok m => ({ o with est := some (g, some m) }, none)

/-- Queries (`predict`, `decision_function`, `predict_proba`, ...), tslearn/svm/svm.py:43-89 and 332-410, 595-610. `predict` is the method of
scikit-learn on what the solver kept. -/
def svmQuery {R : Type} (run : List (Except PyErr ℝ) → Except PyErr (List ℝ)) (predict : M → SkX → Except PyErr R) (o : SvmObj M) (check : Option PyErr)
    (Z : DsInput ℝ) : Except PyErr R :=
  match check with
  | some e => .error e
  | none => do
    let Z ← toDataset Z
    match o.est, o.xFit, o.gammaFit with
    | some e, some Xf, some g =>
      let _ ← checkDims (some [Z.data.length, Z.sz, Z.d]) (some [Xf.data.length, Xf.sz, Xf.d]) true o.gak
      let S ← svmQueryX run o.gak g Xf Z
      match e.2 with
      | none => .error .notFitted
      | some m => predict m S
    | _, _, _ => .error .notFitted

/-- The object after calls of `fit`, whether they raise or not. -/
def svmRun (run : List (Except PyErr ℝ) → Except PyErr (List ℝ)) (o : SvmObj M) (cs : List (SvmCall M)) : SvmObj M :=
  cs.foldl (fun o c => (svmFit run o c).1) o

end

/-- The loop of `TimeSeriesSVC.support_vectors_` from `idx_start` on, tslearn/svm/svm.py:285-294: `X` is `_X_fit`, reading it with an array of
indices. -/
def svcSlices {α : Type} (X : List α) (support : List ℕ) : ℕ → List ℕ → List (List α)
  | _, [] => []
  | start, n :: ns => (((support.take (start + n)).drop start).filterMap fun i => X[i]?) :: svcSlices X support (start + n) ns

/-- `TimeSeriesSVC.support_vectors_`, tslearn/svm/svm.py:284-294. -/
def svcSupportVectors {α : Type} (X : List α) (support nSupport : List ℕ) : List (List α) := svcSlices X support 0 nSupport

/-- `TimeSeriesSVR.support_vectors_`, tslearn/svm/svm.py:557-560. -/
def svrSupportVectors {α : Type} (X : List α) (support : List ℕ) : List α := support.filterMap fun i => X[i]?

end Verif
