import Verif.Model.Loop
/-!
Traceback of an accumulated cost matrix, tslearn/metrics/utils.py.
-/
namespace Verif

/-- `numpy.argmin([a, b, c])`: index of the first minimum. -/
def argmin3 {C : Type _} [LE C] [DecidableLE C] (a b c : C) : Nat :=
  if a ≤ b ∧ a ≤ c then 0 else if b ≤ c then 1 else 2

/-- One `path.append` of tslearn/metrics/utils.py:24-43 from the current last element `(i, j)`.
`am` is the backend's argmin (the tie-breaking of `torch.argmin` is not relied upon). -/
def pathNext {C : Type _} (am : C → C → C → Nat) (acc : Mat C) (i j : Nat) : Nat × Nat :=
  if i = 0 then (0, j - 1)
  else if j = 0 then (i - 1, 0)
  else
    let a := am (acc (i - 1) (j - 1)) (acc (i - 1) j) (acc i (j - 1))
    if a = 0 then (i - 1, j - 1)
    else if a = 1 then (i - 1, j)
    else (i, j - 1)

/-- The `while path[-1] != (0, 0)` loop of tslearn/metrics/utils.py:23-44. The Python list is kept
reversed (its last element first), so the final `path[::-1]` is the identity here.
`none`: the fuel ran out, i.e. the loop has not finished yet. -/
def computePathLoop {C : Type _} (am : C → C → C → Nat) (acc : Mat C) :
    Nat → Nat × Nat → List (Nat × Nat) → Option (List (Nat × Nat))
  | 0, _, _ => none
  | fuel + 1, c, rest =>
    if c = (0, 0) then some (c :: rest)
    else computePathLoop am acc fuel (pathNext am acc c.1 c.2) (c :: rest)

/-- `_compute_path_generic(acc_cost_mat)`, tslearn/metrics/utils.py:20-44, for a `sz1 × sz2` matrix. -/
def computePath {C : Type _} (am : C → C → C → Nat) (acc : Mat C) (sz1 sz2 fuel : Nat) :
    Option (List (Nat × Nat)) :=
  computePathLoop am acc fuel (sz1 - 1, sz2 - 1) []

end Verif
