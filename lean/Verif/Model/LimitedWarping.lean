import Verif.Model.Dtw
/-!
DTW with a limited warping length, tslearn/metrics/dtw_variants.py.
-/
namespace Verif

/-- A Python dict from step counts to costs, in insertion order. -/
abbrev CostDict (C : Type) := List (ℕ × C)

/-- `dict.get(s, inf)`. -/
def CostDict.get {C : Type} [Top C] (d : CostDict C) (s : ℕ) : C := (List.lookup s d).getD ⊤

section
variable {K : Type} [LinearOrder K] [Add K] [Zero K]

/-- `_max_steps(i, j, max_length, length_1, length_2)`, tslearn/metrics/dtw_variants.py:70-98.
Truncated subtraction: a negative candidate gives 0, and the range it bounds starts at
`max(i, j) >= 1`, hence is empty either way. -/
def maxSteps (i j maxLength l1 l2 : ℕ) : ℕ :=
  min (i + j) (maxLength - max (l1 - i - 1) (l2 - j - 1))

/-- The `# Init` part of `_limited_warping_length_cost`, tslearn/metrics/dtw_variants.py:130-142.
`dict_costs[i - 1, 0][i - 1]` has always been set before it is read. -/
def lwlInit (l1 l2 : ℕ) (D : ℕ → ℕ → K) : Mat (CostDict (WithTop K)) :=
  let M : Mat (CostDict (WithTop K)) := Mat.full []
  let M := M.set 0 0 [(0, (D 0 0 : WithTop K))]
  let M := forRange (l1 - 1) M fun i M =>
    M.set (i + 1) 0 [(i + 1, CostDict.get (M i 0) i + (D (i + 1) 0 : WithTop K))]
  forRange (l2 - 1) M fun j M =>
    M.set 0 (j + 1) [(j + 1, CostDict.get (M 0 j) j + (D 0 (j + 1) : WithTop K))]

/-- Body of the main loop for the cell `(i + 1, j + 1)`, tslearn/metrics/dtw_variants.py:147-155.
The inner loop over `s` only reads the three neighbouring dicts, so it is a map over the range. -/
def lwlCell (maxLength l1 l2 : ℕ) (D : ℕ → ℕ → K) (i j : ℕ)
    (up left diag : CostDict (WithTop K)) : CostDict (WithTop K) :=
  let minS := max (i + 1) (j + 1)
  let maxS := maxSteps (i + 1) (j + 1) (maxLength - 1) l1 l2
  (List.range' minS (maxS + 1 - minS)).map fun s =>
    (s, (D (i + 1) (j + 1) : WithTop K) + min (min (left.get (s - 1)) (up.get (s - 1))) (diag.get (s - 1)))

/-- `_limited_warping_length_cost(s1, s2, max_length)`, tslearn/metrics/dtw_variants.py:101-156, on
the local cost matrix `D` of series of lengths `l1`, `l2`. -/
def lwlCost (maxLength l1 l2 : ℕ) (D : ℕ → ℕ → K) : Mat (CostDict (WithTop K)) :=
  dpLoop (l1 - 1) (l2 - 1) (fun _ _ => true) (lwlCell maxLength l1 l2 D) (lwlInit l1 l2 D)

/-- `min(dict.values())`; an empty dict is a `ValueError`. -/
def dictMin {C : Type} [LinearOrder C] (d : CostDict C) : Except PyErr C :=
  match d with
  | [] => .error .valueError
  | e :: es => .ok (es.foldl (fun m e => min m e.2) e.2)

/-- The `for k, v in ...items(): if v < optimal_cost` loop, tslearn/metrics/dtw_variants.py:390-395.
Returns `(optimal_length, optimal_cost)`; `-1` is `none`. -/
def dictArgmin {C : Type} [LinearOrder C] [OrderTop C] (d : CostDict C) : Option ℕ × C :=
  d.foldl (fun best e => if e.2 < best.2 then (some e.1, e.2) else best) (none, ⊤)

/-- `_return_path_limited_warping_length`, tslearn/metrics/dtw_variants.py:242-297. The list is kept
reversed. The code leaves `cur_length` unchanged on the two border branches; it is not read again
there, so decrementing it makes no difference: here it is left unchanged too. -/
def lwlPathLoop {C : Type} [Top C] (am : C → C → C → ℕ) (M : Mat (CostDict C)) :
    ℕ → ℕ × ℕ → ℕ → List (ℕ × ℕ) → Option (List (ℕ × ℕ))
  | 0, _, _, _ => none
  | fuel + 1, c, s, rest =>
    if c = (0, 0) then some (c :: rest)
    else if c.1 = 0 then lwlPathLoop am M fuel (0, c.2 - 1) s (c :: rest)
    else if c.2 = 0 then lwlPathLoop am M fuel (c.1 - 1, 0) s (c :: rest)
    else
      let a := am (CostDict.get (M (c.1 - 1) (c.2 - 1)) (s - 1))
        (CostDict.get (M (c.1 - 1) c.2) (s - 1)) (CostDict.get (M c.1 (c.2 - 1)) (s - 1))
      if a = 0 then lwlPathLoop am M fuel (c.1 - 1, c.2 - 1) (s - 1) (c :: rest)
      else if a = 1 then lwlPathLoop am M fuel (c.1 - 1, c.2) (s - 1) (c :: rest)
      else lwlPathLoop am M fuel (c.1, c.2 - 1) (s - 1) (c :: rest)
end

section
variable {K : Type} [LinearOrder K] [Add K] [Zero K] [Sub K] [Mul K]

/-- Conversion of the two arguments. Empty series make `s1[0]` fail; different widths leave the
model (`_local_squared_dist` then reads out of range or ignores features). -/
def lwlArgs (s1 s2 : TsInput (Option K)) : Except PyErr (List (List K) × List (List K)) :=
  let t1 := toTimeSeries s1 true
  let t2 := toTimeSeries s2 true
  match denan t1, denan t2 with
  | some x, some y => .ok (x, y)
  | _, _ => .error .notModelled

/-- Square of `dtw_limited_warping_length(s1, s2, max_length)`,
tslearn/metrics/dtw_variants.py:226-239, on series without NaN. -/
def dtwLimitedSq (x y : List (List K)) (maxLength : ℕ) : Except PyErr (WithTop K) :=
  if maxLength < max x.length y.length then .error .valueError
  else if x = [] ∨ y = [] then .error .indexError
  else if nFeatures x ≠ nFeatures y then .error .notModelled
  else dictMin (lwlCost maxLength x.length y.length (localCost x y) (x.length - 1) (y.length - 1))

/-- `dtw_path_limited_warping_length(s1, s2, max_length)` with the squared cost,
tslearn/metrics/dtw_variants.py:378-399. -/
def dtwPathLimitedSq (x y : List (List K)) (maxLength : ℕ)
    (am : WithTop K → WithTop K → WithTop K → ℕ) :
    Except PyErr (Option (List (ℕ × ℕ)) × WithTop K) :=
  if maxLength < max x.length y.length then .error .valueError
  else if x = [] ∨ y = [] then .error .indexError
  else if nFeatures x ≠ nFeatures y then .error .notModelled
  else
    let M := lwlCost maxLength x.length y.length (localCost x y)
    let best := dictArgmin (M (x.length - 1) (y.length - 1))
    .ok (lwlPathLoop am M (x.length + y.length) (x.length - 1, y.length - 1) (best.1.getD 0) [],
      best.2)

/-- `dtw_limited_warping_length` on array-like inputs (squared). -/
def dtwLimited (s1 s2 : TsInput (Option K)) (maxLength : ℕ) : Except PyErr (WithTop K) := do
  let (x, y) ← lwlArgs s1 s2
  dtwLimitedSq x y maxLength
end
end Verif
