import Verif.Model.Frechet
/-!
The published building blocks of the elastic metrics: `compute_mask`, `dtw_accumulated_matrix` and `frechet_accumulated_matrix`,
tslearn/metrics/__init__.py:10-34.
-/
namespace Verif

/-- What `compute_mask` is given for a series: a Python `int`, a NumPy integer, or something with a length. -/
inductive MaskArg where
  | int (n : ℕ)
  | npInt (n : ℕ)
  | sized (len : ℕ)
  deriving DecidableEq

/-- `len(s)`. -/
def MaskArg.len : MaskArg → Except PyErr ℕ
  | .sized n => .ok n
  | .int _ => .error .typeError
  | .npInt _ => .error .typeError

/-- `if isinstance(s1, int) and isinstance(s2, int): ... else: len(s1), len(s2)`, tslearn/metrics/_masks.py:284-289. -/
def maskSizes (a b : MaskArg) : Except PyErr (ℕ × ℕ) :=
  match a, b with
  | .int n, .int m => .ok (n, m)
  | a, b => do
    let n ← a.len
    let m ← b.len
    return (n, m)

/-- `compute_mask(s1, s2, global_constraint, sakoe_chiba_radius, itakura_max_slope)` with an integer code, tslearn/metrics/_masks.py:199-307. -/
def publicMask (a b : MaskArg) (gc : ℕ) (radius : Option ℕ) (slope : Option ℚ) : Except PyErr (Mat Bool) := do
  let (n, m) ← maskSizes a b
  computeMask n m gc radius slope

section
variable {K : Type} [LinearOrder K] [Add K] [Zero K] [Sub K] [Mul K]

/-- `dist` of `_njit_accumulated_matrix`, tslearn/metrics/_dtw.py:334-337, with NaN (`none`). The loop runs over the features of `s1[i]`;
`s2[j]` must have at least as many (numba does not check bounds). -/
def nanSqDist (a b : List (Option K)) : Option K :=
  (List.zipWith (fun u v => u.bind fun u => v.map fun v => (u - v) * (u - v)) a b).foldl
    (fun acc t => acc.bind fun acc => t.map fun t => acc + t) (some 0)

/-- Cell of `_njit_accumulated_matrix`, tslearn/metrics/_dtw.py:338-343: a sum with NaN is NaN. How `min` orders NaN is left open. -/
def nanDtwCell (min3 : Option (WithTop K) → Option (WithTop K) → Option (WithTop K) → Option (WithTop K)) (x y : List (List (Option K)))
    (i j : ℕ) (up left diag : Option (WithTop K)) : Option (WithTop K) :=
  (nanSqDist (x.getD i []) (y.getD j [])).bind fun d => (min3 up left diag).map fun c => (d : WithTop K) + c

/-- `dtw_accumulated_matrix(s1, s2, mask)`, tslearn/metrics/_dtw.py:286-344. Padding is not removed. -/
def dtwAccumulated (min3 : Option (WithTop K) → Option (WithTop K) → Option (WithTop K) → Option (WithTop K))
    (s1 s2 : TsInput (Option K)) (mask : Mat Bool) : Mat (Option (WithTop K)) :=
  let x := toTimeSeries s1 false
  let y := toTimeSeries s2 false
  (dpLoop x.length y.length mask (nanDtwCell min3 x y) ((Mat.full (some ⊤)).set 0 0 (some 0))).tail

/-- `frechet_accumulated_matrix(s1, s2, mask)`, tslearn/metrics/_frechet.py:288-348, on series without NaN. -/
def frechetAccumulated (s1 s2 : TsInput (Option K)) (mask : Mat Bool) : Except PyErr (Mat (WithTop K)) :=
  match denan (toTimeSeries s1 false), denan (toTimeSeries s2 false) with
  | some x, some y => .ok (frechetAccumulatedMatrix x y mask)
  | _, _ => .error .notModelled
end

end Verif
