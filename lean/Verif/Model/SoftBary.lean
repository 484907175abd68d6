import Verif.Model.SoftDtw
import Verif.Model.Dba
import Verif.Model.Interp
/-!
Soft-DTW barycenter: tslearn/barycenters/softdtw.py.
-/
namespace Verif
noncomputable section

/-- `_njit_jacobian_product_sq_euc(X, Y, E)`, tslearn/barycenters/softdtw.py:96-115. -/
def softJacProd (z x : List (List ℝ)) (E : Mat Fl) : Mat Fl := fun i k =>
  (List.range x.length).foldl (fun g j =>
    g.add (Fl.scale ((z.getD i []).getD k 0 - (x.getD j []).getD k 0) (Fl.scale 2 (E i j)))) (Fl.num 0)

/-- `_softdtw_func(Z, X, weight, gamma, ...)` with `_njit_softdtw_func_from_distance_matrix`,
tslearn/barycenters/softdtw.py:73-93: the same table and the same gradient as `soft_dtw_alignment`. -/
def softdtwFunc (γ : ℝ) (gc : ℕ) (radius : Option ℕ) (slope : Option ℚ) (junk : Mat Fl) (z x : List (List ℝ)) (w : ℝ) : Except PyErr (Fl × Mat Fl) := do
  let (E, v) ← softDtwAlignmentGeneric .numpy z x γ gc radius slope junk
  return (Fl.scale w v, fun i k => Fl.scale w (softJacProd z x E i k))

/-- `_acc_softdtw_func(Z, X, weights, gamma, ...)`, tslearn/barycenters/softdtw.py:24-70, on the pairs of a series and its weight
in the order in which their results arrive (any order when run in parallel). `reshape` and `ravel` are left out. -/
def accSoftdtwFunc (γ : ℝ) (gc : ℕ) (radius : Option ℕ) (slope : Option ℚ) (junk : Mat Fl) (z : List (List ℝ)) (d : ℕ) :
    List (List (List ℝ) × ℝ) → Fl → Mat Fl → Except PyErr (Fl × List (List Fl))
  | [], obj, G => .ok (obj, (List.range z.length).map fun i => (List.range d).map fun k => G i k)
  | (x, w) :: rest, obj, G => do
    let (o, g) ← softdtwFunc γ gc radius slope junk z x w
    accSoftdtwFunc γ gc radius slope junk z d rest (obj.add o) fun i k => (G i k).add (g i k)

/-- The function `f` handed to `scipy.optimize.minimize`, tslearn/barycenters/softdtw.py:202-208, including the translation of
the constraint name. -/
def softBaryObjective (γ : ℝ) (g : Option String) (radius : Option ℕ) (slope : Option ℚ) (junk : Mat Fl)
    (xws : List (List (List ℝ) × ℝ)) (d : ℕ) (z : List (List ℝ)) : Except PyErr (Fl × List (List Fl)) := do
  let code ← gcCode g
  accSoftdtwFunc γ code radius slope junk z d xws (Fl.num 0) (Mat.full (Fl.num 0))

/-- `numpy.average(X, axis=0, weights=weights)`, tslearn/barycenters/softdtw.py:195-198: NaN where some series has none. -/
def averageArr (X : Arr3 ℝ) (ws : List ℝ) : Except PyErr (List (List (Option ℝ))) := do
  if ws.sum = 0 then throw .zeroDivision
  return (List.range X.sz).map fun t => (List.range X.d).map fun f =>
    match ((List.range X.data.length).map fun i => X.entry i t f).mapM id with
    | some col => some ((List.zipWith (· * ·) col ws).sum / ws.sum)
    | none => none

/-- The default initial barycenter, tslearn/barycenters/softdtw.py:193-198; not modelled when it has NaN. The resampler gets the
unformatted dataset here, formatting it twice makes no difference. -/
def softBaryInit (D : DsInput ℝ) (ws : List ℝ) : Except PyErr (List (List ℝ)) := do
  let X ← toDataset D
  let R ← if checkEqualSizeArr X then pure X else resample (-1) D D
  let b ← averageArr R ws
  match denan b with
  | some b => return b
  | none => throw .notModelled

/-- The initial barycenter, tslearn/barycenters/softdtw.py:193-200. -/
def softBaryStart (D : DsInput ℝ) (ws : List ℝ) : Option (List (List ℝ)) → Except PyErr (List (List ℝ))
  | none => softBaryInit D ws
  | some b => .ok b

/-- `Z.reshape((-1, d))` of a vector of `n * d` numbers, tslearn/barycenters/softdtw.py:36 and 213. -/
def reshapeRows (n d : ℕ) (v : List ℝ) : List (List ℝ) :=
  (List.range n).map fun i => (List.range d).map fun k => v.getD (i * d + k) 0

/-- `softdtw_barycenter`, tslearn/barycenters/softdtw.py:189-215. `opt maxIter f z` is what `scipy.optimize.minimize` makes of the
function `f` from `z` on. A negative `max_iter` is 0 here; an initial barycenter of another number of features is not modelled. -/
def softdtwBarycenter (opt : ℕ → (List ℝ → Except PyErr (Fl × List Fl)) → List ℝ → Except PyErr (List ℝ)) (γ : ℝ) (D : DsInput ℝ)
    (weights : Option (List ℝ)) (maxIter : ℕ) (init : Option (List (List ℝ))) (g : Option String) (radius : Option ℕ)
    (slope : Option ℚ) (junk : Mat Fl) : Except PyErr (List (List ℝ)) := do
  let X ← toDataset D
  let ws := setWeights weights X.data.length
  let b ← softBaryStart D ws init
  let _ ← gcCode g
  if maxIter = 0 then return b
  let xs ← dbaSeries X
  if b.any fun r => r.length ≠ X.d then throw .notModelled
  let f : List ℝ → Except PyErr (Fl × List Fl) := fun v => do
    let (o, G) ← softBaryObjective γ g radius slope junk (xs.zip ws) X.d (reshapeRows b.length X.d v)
    return (o, G.flatten)
  let v ← opt maxIter f b.flatten
  return reshapeRows b.length X.d v

end
end Verif
