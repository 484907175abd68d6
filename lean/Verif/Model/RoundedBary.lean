import Verif.Model.Dba
/-!
Barycenters in rounded arithmetic, tslearn/barycenters/euclidean.py and tslearn/barycenters/dba.py. `rnd` is the rounding of each arithmetic operation, in
the order of the source; the order in which NumPy adds is the parameter `sum`, that of its matrix products the parameter `dot` (a list of pairs to
multiply and add). Simplification: overflow and underflow are not modelled.
-/
namespace Verif

section
variable {K : Type} [Field K] [LinearOrder K]

/-- `numpy.average` of a column with weights, tslearn/barycenters/euclidean.py:44 and tslearn/barycenters/dba.py:87-88: the products with the weights are
added and divided by the sum of the weights. -/
def rAverage (rnd : K → K) (sum : List K → K) (col ws : List K) : K :=
  rnd (sum (List.zipWith (fun x w => rnd (x * w)) col ws) / sum ws)

/-- `euclidean_barycenter` in rounded arithmetic, tslearn/barycenters/euclidean.py:42-44. -/
def rEuclideanBarycenter (rnd : K → K) (sum : List K → K) (D : DsInput K) (weights : Option (List K)) : Except PyErr (List (List (Option K))) := do
  let X ← toDataset D
  let ws := setWeights weights X.data.length
  if sum ws = 0 then throw .zeroDivision
  return (List.range X.sz).map fun t => (List.range X.d).map fun f =>
    match ((List.range X.data.length).map fun i => X.entry i t f).mapM id with
    | some col => some (rAverage rnd sum col ws)
    | none => none

/-- `_petitjean_update_barycenter` in rounded arithmetic, tslearn/barycenters/dba.py:84-89. -/
def rPetitjeanUpdate (rnd : K → K) (sum : List K → K) (xs : List (List (List K))) (ws : List K) (size d : ℕ) (qs : List (List (ℕ × ℕ))) :
    Except PyErr (List (List K)) := do
  if ∃ t < size, sum ((petitjeanAssign qs t).map fun a => ws.getD a.1 0) = 0 then throw .zeroDivision
  return (List.range size).map fun t => (List.range d).map fun f =>
    rAverage rnd sum ((petitjeanAssign qs t).map fun a => ((xs.getD a.1 []).getD a.2 []).getD f 0) ((petitjeanAssign qs t).map fun a => ws.getD a.1 0)

/-- `w_k.sum(axis=1) * weights[k]` in rounded arithmetic, tslearn/barycenters/dba.py:352. -/
def rValence (rnd : K → K) (sum : List K → K) (p : List (ℕ × ℕ)) (w : K) (i : ℕ) : K :=
  rnd (sum ((List.range (pathSz p)).map fun j => warpMat p i j) * w)

/-- `diag_sum_v_k` in rounded arithmetic, tslearn/barycenters/dba.py:396-399. -/
def rDiagSumV (rnd : K → K) (sum : List K → K) (ps : List (List (ℕ × ℕ))) (ws : List K) (i : ℕ) : K :=
  (List.range ps.length).foldl (fun s k => rnd (s + rValence rnd sum (ps.getD k []) (ws.getD k 0) i)) 0

/-- `sum_w_x[i, f]` in rounded arithmetic, tslearn/barycenters/dba.py:351 and 431-433. -/
def rSumWX (rnd : K → K) (dot : List (K × K) → K) (xs : List (List (List K))) (ps : List (List (ℕ × ℕ))) (ws : List K) (i f : ℕ) : K :=
  (List.range ps.length).foldl (fun s k => rnd (s + dot ((List.range (pathSz (ps.getD k []))).map fun j =>
    (rnd (warpMat (ps.getD k []) i j * ws.getD k 0), ((xs.getD k []).getD j []).getD f 0)))) 0

/-- `_mm_update_barycenter` in rounded arithmetic, tslearn/barycenters/dba.py:402-436: the product with the diagonal matrix of the inverse valences. A
zero valence is a division by zero (NaN), not modelled. -/
def rMmUpdate (rnd : K → K) (sum : List K → K) (dot : List (K × K) → K) (xs : List (List (List K))) (ws : List K) (size d : ℕ)
    (ps : List (List (ℕ × ℕ))) : Except PyErr (List (List K)) := do
  if ∃ i < size, rDiagSumV rnd sum ps ws i = 0 then throw .notModelled
  return (List.range size).map fun i => (List.range d).map fun f =>
    dot ((List.range size).map fun i' => (if i' = i then rnd (1 / rDiagSumV rnd sum ps ws i) else 0, rSumWX rnd dot xs ps ws i' f))

end
end Verif
