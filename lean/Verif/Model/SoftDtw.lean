import Verif.Model.Float
import Verif.Model.Dtw
import Verif.Model.Cdist
/-!
Soft-DTW, tslearn/metrics/_soft_dtw.py and soft_dtw_fast.py.
-/
namespace Verif
noncomputable section
open Classical

/-- The two numeric backends, tslearn/backend/backend.py:7-52. -/
inductive Backend
  | numpy | pytorch
  deriving DecidableEq

/-- `_njit_softmin3(a, b, c, gamma)`, tslearn/metrics/soft_dtw_fast.py:15-48. -/
def softmin3 (a b c : Fl) (γ : ℝ) : Fl :=
  let a := a.div (-γ)
  let b := b.div (-γ)
  let c := c.div (-γ)
  let maxVal := Fl.max (Fl.max a b) c
  let tmp := Fl.num 0
  let tmp := tmp.add (Fl.exp (a.sub maxVal))
  let tmp := tmp.add (Fl.exp (b.sub maxVal))
  let tmp := tmp.add (Fl.exp (c.sub maxVal))
  Fl.scale (-γ) ((Fl.log tmp).add maxVal)

/-- `-gamma * torch.logsumexp(-predecessors/gamma, dim=0)` of the PyTorch `acc_fun`,
tslearn/metrics/_soft_dtw.py:375-376 and 412-413. `torch.logsumexp` itself is library code: it
shifts by the maximum, replaced by 0 when the maximum is infinite. -/
def softminTorch (a b c : Fl) (γ : ℝ) : Fl :=
  let a := a.neg.div γ
  let b := b.neg.div γ
  let c := c.neg.div γ
  let m := Fl.max (Fl.max a b) c
  let shift := if m.isInf then Fl.num 0 else m
  let s := ((Fl.exp (a.sub shift)).add (Fl.exp (b.sub shift))).add (Fl.exp (c.sub shift))
  Fl.scale (-γ) ((Fl.log s).add shift)

/-- `_njit_accumulated_matrix(s1, s2, mask, gamma)`, tslearn/metrics/_soft_dtw.py:349-370, on the
matrix of local squared distances. -/
def softAcc (l1 l2 : ℕ) (mask : Mat Bool) (D : ℕ → ℕ → ℝ) (γ : ℝ) : Mat Fl :=
  (dpLoop l1 l2 mask (fun i j up left diag => (Fl.num (D i j)).add (softmin3 up left diag γ))
    ((Mat.full Fl.inf).set 0 0 (Fl.num 0))).tail

/-- `_njit_accumulated_matrix_from_distance_matrix(D, mask, gamma)`,
tslearn/metrics/_soft_dtw.py:386-407: no border row and column; the first cell is `D[0, 0]` and
missing neighbours are `inf`. The table is stored one row and one column further, whose unread
border is arbitrary. -/
def softAccFromDist (l1 l2 : ℕ) (mask : Mat Bool) (D : Mat Fl) (γ : ℝ) : Mat Fl :=
  (dpLoop l1 l2 mask (fun i j up left diag =>
      if i + j ≠ 0 then
        (D i j).add (softmin3 (if i ≠ 0 then up else Fl.inf) (if j ≠ 0 then left else Fl.inf)
          (if i * j ≠ 0 then diag else Fl.inf) γ)
      else D i j)
    (Mat.full Fl.inf)).tail

/-- PyTorch engine, tslearn/metrics/utils.py:200-230 with the `acc_fun` of
tslearn/metrics/_soft_dtw.py:375-376: `D[~mask] = inf`, then `D + softmin(predecessors)` along
anti-diagonals. -/
def torchSoftAcc (l1 l2 : ℕ) (mask : Mat Bool) (D : Mat Fl) (γ : ℝ) : Mat Fl :=
  (diagLoop l1 l2 (fun i j up left diag =>
      (if mask i j then D i j else Fl.inf).add (softminTorch up left diag γ))
    ((Mat.full Fl.inf).set 0 0 (Fl.num 0))).tail

/-- `_soft_dtw_generic(s1, s2, gamma, ...)`, tslearn/metrics/_soft_dtw.py:431-441. -/
def softDtwGeneric (be : Backend) (s1 s2 : List (List ℝ)) (γ : ℝ) (gc : ℕ) (radius : Option ℕ)
    (slope : Option ℚ) : Except PyErr Fl := do
  let mask ← computeMask s1.length s2.length gc radius slope
  let acc := match be with
    | .numpy => softAcc s1.length s2.length mask (localCost s1 s2) γ
    | .pytorch =>
      torchSoftAcc s1.length s2.length mask (fun i j => Fl.num (localCost s1 s2 i j)) γ
  return lastEntry acc s1.length s2.length

/-- A non-negative extended cost as a float. -/
def flOfTop : WithTop ℝ → Fl
  | ⊤ => Fl.inf
  | (x : ℝ) => Fl.num x

/-- `dtw_(...) ** 2` of the `gamma = 0` branches, tslearn/metrics/_soft_dtw.py:185-187, 330-332. -/
def dtwSquared (s1 s2 : List (List ℝ)) (gc : ℕ) (radius : Option ℕ) (slope : Option ℚ) :
    Except PyErr Fl := do
  let v ← dtwSqGeneric s1 s2 gc radius slope
  let d := flOfTop (sqrtTop v)
  return d.mul d

/-- `soft_dtw(s1, s2, gamma, ...)`, tslearn/metrics/_soft_dtw.py:40-198. `math.isclose(gamma, 0.0)`
holds exactly for `gamma = 0` (relative tolerance only). -/
def softDtw (be : Backend) (s1 s2 : TsInput (Option ℝ)) (γ : ℝ) (gc : Option String)
    (radius : Option ℕ) (slope : Option ℚ) : Except PyErr Fl := do
  let (x1, x2, code) ← validatePair s1 s2 gc
  if γ = 0 then dtwSquared x1 x2 code radius slope
  else softDtwGeneric be x1 x2 γ code radius slope

/-- `_soft_dtw_normalized_generic`, tslearn/metrics/_soft_dtw.py:462-493. -/
def softDtwNormalizedGeneric (be : Backend) (s1 s2 : List (List ℝ)) (γ : ℝ) (gc : ℕ)
    (radius : Option ℕ) (slope : Option ℚ) : Except PyErr Fl := do
  let a ← softDtwGeneric be s1 s2 γ gc radius slope
  let b ← softDtwGeneric be s1 s1 γ gc radius slope
  let c ← softDtwGeneric be s2 s2 γ gc radius slope
  return a.sub (Fl.scale (1/2) (b.add c))

/-- `soft_dtw_normalized(s1, s2, gamma, ...)`, tslearn/metrics/_soft_dtw.py:201-346. -/
def softDtwNormalized (be : Backend) (s1 s2 : TsInput (Option ℝ)) (γ : ℝ) (gc : Option String)
    (radius : Option ℕ) (slope : Option ℚ) : Except PyErr Fl := do
  let (x1, x2, code) ← validatePair s1 s2 gc
  if γ = 0 then dtwSquared x1 x2 code radius slope
  else softDtwNormalizedGeneric be x1 x2 γ code radius slope

/-- `_soft_dtw_grad_generic(D, R, gamma)`, tslearn/metrics/_soft_dtw.py:691-724: the loops run
`j` from `n` to 1 and `i` from `m` to 1; here `i = m - a`, `j = n - b`. The uninitialised array
`E = empty(...)` is the parameter `junk`. -/
def softGrad (m n : ℕ) (D R : Mat Fl) (γ : ℝ) (junk : Mat Fl) : Mat Fl :=
  forRange n (junk.set (m - 1) (n - 1) (Fl.num 1)) fun b E =>
    forRange m E fun a E =>
      let i := m - a
      let j := n - b
      if j = n ∧ i = m then E
      else
        let r_i_jm := if i ≠ m then R i (j - 1) else Fl.ninf
        let r_im_j := if j ≠ n then R (i - 1) j else Fl.ninf
        let r_i_j := if i ≠ m ∧ j ≠ n then R i j else Fl.ninf
        let d_i_jm := if i ≠ m then D i (j - 1) else Fl.num 0
        let d_im_j := if j ≠ n then D (i - 1) j else Fl.num 0
        let d_i_j := if i ≠ m ∧ j ≠ n then D i j else Fl.num 0
        let a := Fl.exp (((r_i_jm.sub (R (i - 1) (j - 1))).sub d_i_jm).div γ)
        let b := Fl.exp (((r_im_j.sub (R (i - 1) (j - 1))).sub d_im_j).div γ)
        let c := Fl.exp (((r_i_j.sub (R (i - 1) (j - 1))).sub d_i_j).div γ)
        let a := if a.isNan then Fl.num 0 else a
        let b := if b.isNan then Fl.num 0 else b
        let c := if c.isNan then Fl.num 0 else c
        let e_i_jm := if i ≠ m then E i (j - 1) else Fl.num 0
        let e_im_j := if j ≠ n then E (i - 1) j else Fl.num 0
        let e_i_j := if i ≠ m ∧ j ≠ n then E i j else Fl.num 0
        E.set (i - 1) (j - 1) (((e_i_jm.mul a).add (e_im_j.mul b)).add (e_i_j.mul c))

/-- `soft_dtw_alignment(s1, s2, gamma, ...)` for `gamma ≠ 0`, tslearn/metrics/_soft_dtw.py:671-687;
`be.cdist(s1, s2) ** 2` is the matrix of squared Euclidean distances. -/
def softDtwAlignmentGeneric (be : Backend) (s1 s2 : List (List ℝ)) (γ : ℝ) (gc : ℕ)
    (radius : Option ℕ) (slope : Option ℚ) (junk : Mat Fl) : Except PyErr (Mat Fl × Fl) := do
  let m := s1.length
  let n := s2.length
  let mask ← computeMask m n gc radius slope
  let D : Mat Fl := fun i j => if mask i j then Fl.num (localCost s1 s2 i j) else Fl.inf
  let R := match be with
    | .numpy => softAccFromDist m n mask D γ
    | .pytorch => torchSoftAcc m n mask D γ
  return (softGrad m n D R γ junk, lastEntry R m n)

/-- The 0/1 matrix of a path, tslearn/metrics/_soft_dtw.py:665-668. -/
def pathMatrix (path : List (ℕ × ℕ)) : Mat Fl :=
  path.foldl (fun a ij => a.set ij.1 ij.2 (Fl.num 1)) (Mat.full (Fl.num 0))

/-- `soft_dtw_alignment(s1, s2, gamma, ...)`, tslearn/metrics/_soft_dtw.py:508-687. -/
def softDtwAlignment (be : Backend) (s1 s2 : TsInput (Option ℝ)) (γ : ℝ) (gc : Option String)
    (radius : Option ℕ) (slope : Option ℚ) (am : WithTop ℝ → WithTop ℝ → WithTop ℝ → ℕ)
    (junk : Mat Fl) : Except PyErr (Mat Fl × Fl) := do
  let (x1, x2, code) ← validatePair s1 s2 gc
  if γ = 0 then
    let (v, path) ← dtwPathGeneric x1 x2 code radius slope am
    let d := flOfTop (sqrtTop v)
    match path with
    | some p => return (pathMatrix p, d.mul d)
    | none => throw .notModelled
  else softDtwAlignmentGeneric be x1 x2 γ code radius slope junk

/-- `cdist_soft_dtw(dataset1, dataset2, gamma, ...)`, tslearn/metrics/_soft_dtw.py:738-940: for
`gamma = 0` the result of `_cdist_dtw` (which takes the square root and skips the diagonal). -/
def cdistSoftDtw (be : Backend) (X : DsInput ℝ) (Y : Option (DsInput ℝ)) (γ : ℝ)
    (gc : Option String) (radius : Option ℕ) (slope : Option ℚ)
    (run : List (Except PyErr Fl) → Except PyErr (List Fl)) : Except PyErr (Mat Fl) := do
  let code ← gcCode gc
  if γ = 0 then
    cdistOf (fun x y => do
      let v ← dtwSqGeneric x y code radius slope
      return flOfTop (sqrtTop v)) (Fl.num 0) false X Y run
  else
    cdistOf (fun x y => softDtwGeneric be x y γ code radius slope) (Fl.num 0) true X Y run

/-- Self value of a slot, tslearn/metrics/_soft_dtw.py:1165-1173 and 1175-1182:
`soft_dtw_(ts_, ts_, ...)` with `ts_ = _to_time_series(ts, True)`. -/
def softSelf (be : Backend) (γ : ℝ) (code : ℕ) (radius : Option ℕ) (slope : Option ℚ) (t : Ts ℝ) :
    Except PyErr Fl :=
  onSlots (fun x y => softDtwGeneric be x y γ code radius slope) t t

/-- Self values of the two datasets, tslearn/metrics/_soft_dtw.py:1157-1189. `par` is
`n_jobs not in [None, 1]`; the parallel branch iterates over `vstack((dataset1, dataset2))`, which
NumPy and PyTorch refuse (ValueError) unless both have the same shape beyond the first axis. -/
def softSelfValues (be : Backend) (γ : ℝ) (code : ℕ) (radius : Option ℕ) (slope : Option ℚ)
    (X Y : Arr3 ℝ) (par : Bool) (run : List (Except PyErr Fl) → Except PyErr (List Fl)) :
    Except PyErr (List Fl × List Fl) := do
  if par then
    if X.sz ≠ Y.sz ∨ X.d ≠ Y.d then throw .valueError
    let vals ← run ((X.slots ++ Y.slots).map (softSelf be γ code radius slope))
    return (vals.take X.slots.length, vals.drop X.slots.length)
  else
    let v1 ← seqRun (X.slots.map (softSelf be γ code radius slope))
    let v2 ← seqRun (Y.slots.map (softSelf be γ code radius slope))
    return (v1, v2)

/-- `cdist_soft_dtw_normalized(dataset1, dataset2, gamma, ...)`,
tslearn/metrics/_soft_dtw.py:943-1193. -/
def cdistSoftDtwNormalized (be : Backend) (X : DsInput ℝ) (Y : Option (DsInput ℝ)) (γ : ℝ)
    (gc : Option String) (radius : Option ℕ) (slope : Option ℚ) (par : Bool)
    (run : List (Except PyErr Fl) → Except PyErr (List Fl)) : Except PyErr (Mat Fl) := do
  let cd ← cdistSoftDtw be X Y γ gc radius slope run
  if γ = 0 then return cd
  match Y with
  | none => return fun i j => (cd i j).add (Fl.scale (-(1/2)) ((cd i i).add (cd j j)))
  | some Y =>
    let X ← toDataset X
    let Y ← toDataset Y
    let code ← gcCode gc
    let (s1, s2) ← softSelfValues be γ code radius slope X Y par run
    return fun i j =>
      (cd i j).add (Fl.scale (-(1/2)) ((s1.getD i (Fl.num 0)).add (s2.getD j (Fl.num 0))))

end
end Verif
