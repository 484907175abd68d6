import Verif.Model.Dtw
import Verif.Model.Loop
/-!
Canonical time warping, tslearn/metrics/ctw.py. scikit-learn's `CCA` is a parameter.
-/
namespace Verif
section
variable {K : Type} [CommRing K] [LinearOrder K]

/-- `_get_warp_matrices(warp_path)`, tslearn/metrics/ctw.py:12-43: one-hot rows. -/
def warpMatrices (p : List (ℕ × ℕ)) : Mat K × Mat K :=
  forRange p.length (Mat.full 0, Mat.full 0) fun i W =>
    let c := p.getD i (0, 0)
    (W.1.set i c.1 1, W.2.set i c.2 1)

/-- `W @ s` for an `m × n` matrix `W` and a series `s` of `n` rows with `d` features,
tslearn/metrics/ctw.py:175. -/
def warpMul (m n d : ℕ) (W : Mat K) (s : List (List K)) : List (List K) :=
  (List.range m).map fun k => (List.range d).map fun f =>
    ((List.range n).map fun c => W k c * (s.getD c []).getD f 0).sum

/-- `s @ eye(d, n_components)`, tslearn/metrics/ctw.py:156-157: the first `n_components` features
(zeros if there are fewer). -/
def eyeMul (nc : ℕ) (s : List (List K)) : List (List K) :=
  s.map fun r => (List.range nc).map fun f => r.getD f 0

/-- What a fitted `CCA` does to a sample of the first and of the second series. -/
abbrev Proj (K : Type) := (List K → List K) × (List K → List K)

/-- One pass of the loop body up to the test, tslearn/metrics/ctw.py:173-186: fit the projection on the
aligned series, project both, align again. `fit` is `CCA.fit`. -/
def ctwAlign (fit : List (List K) → List (List K) → Except PyErr (Proj K)) (s1 s2 : List (List K))
    (code : ℕ) (radius : Option ℕ) (slope : Option ℚ) (am : WithTop K → WithTop K → WithTop K → ℕ)
    (p : List (ℕ × ℕ)) : Except PyErr (List (ℕ × ℕ) × WithTop K × Proj K) := do
  let W := warpMatrices (K := K) p
  let c := p.getLastD (0, 0)
  let T ← fit (warpMul p.length (c.1 + 1) (nFeatures s1) W.1 s1) (warpMul p.length (c.2 + 1) (nFeatures s2) W.2 s2)
  let (v, path) ← dtwPathGeneric (s1.map T.1) (s2.map T.2) code radius slope am
  match path with
  | some p' => return (p', v, T)
  | none => throw .notModelled

/-- The `for it in range(max_iter - 1)` loop, tslearn/metrics/ctw.py:172-195, with its test
`np.array_equal(current_path, current_path)`. -/
def ctwLoop (align : List (ℕ × ℕ) → Except PyErr (List (ℕ × ℕ) × WithTop K × Proj K)) :
    ℕ → List (ℕ × ℕ) → WithTop K → Option (Proj K) →
      Except PyErr (List (ℕ × ℕ) × Option (Proj K) × WithTop K)
  | 0, path, score, cca => .ok (path, cca, score)
  | k + 1, path, score, _ => do
    let (path', score', T) ← align path
    let currentPath := path'
    if currentPath = currentPath then return (currentPath, some T, score)
    else ctwLoop align k currentPath score' (some T)

/-- `ctw_path(s1, s2, max_iter, n_components, ...)`, tslearn/metrics/ctw.py:46-197, with the squared
score. -/
def ctwPathSq (fit : List (List K) → List (List K) → Except PyErr (Proj K))
    (s1 s2 : TsInput (Option K)) (maxIter : ℕ) (nComp : Option ℕ) (gc : Option String)
    (radius : Option ℕ) (slope : Option ℚ) (am : WithTop K → WithTop K → WithTop K → ℕ) :
    Except PyErr (List (ℕ × ℕ) × Option (Proj K) × WithTop K) := do
  let t1 := toTimeSeries s1 true
  let t2 := toTimeSeries s2 true
  match denan t1, denan t2 with
  | some x, some y =>
    if x = [] ∨ y = [] then throw .valueError
    let code ← gcCode gc
    let nc := nComp.getD (min (nFeatures x) (nFeatures y))
    let (v, path) ← dtwPathGeneric (eyeMul nc x) (eyeMul nc y) code radius slope am
    match path with
    | some p => ctwLoop (ctwAlign fit x y code radius slope am) (maxIter - 1) p v none
    | none => throw .notModelled
  | _, _ => throw .notModelled

end

/-- `ctw(s1, s2, ...)`, tslearn/metrics/ctw.py:200-299: the last component of `ctw_path`. -/
noncomputable def ctw (fit : List (List ℝ) → List (List ℝ) → Except PyErr (Proj ℝ))
    (s1 s2 : TsInput (Option ℝ)) (maxIter : ℕ) (nComp : Option ℕ) (gc : Option String)
    (radius : Option ℕ) (slope : Option ℚ) (am : WithTop ℝ → WithTop ℝ → WithTop ℝ → ℕ) :
    Except PyErr (WithTop ℝ) := do
  let r ← ctwPathSq fit s1 s2 maxIter nComp gc radius slope am
  return sqrtTop r.2.2

end Verif
