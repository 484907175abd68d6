import Verif.Model.Frechet
import Verif.Model.Lcss
import Verif.Model.SoftDtw
import Verif.Model.Gak
/-!
The elastic metrics on series with NaN samples that `to_time_series(remove_nans=True)` does not remove, i.e. followed by an observed sample or beside one
(tslearn/utils/utils.py:511-518). Samples are numbers or NaN (`none`); infinite samples are left out. Finite values are exact. A cost is `Nv K`: NaN
(`none`), `inf` (`some ⊤`) or a number. Comparisons with NaN are false. Numba's `min` and `max` of several floats follow Python's (trusted), `torch.min`
and `torch.max` return NaN as soon as one operand is NaN (trusted).
-/
namespace Verif

section
variable {K : Type}

/-- A cost: NaN, `inf` or a number. -/
abbrev Nv (K : Type) := Option (WithTop K)

/-- `a < b` of floats, as used by `min` and `max` in tslearn/metrics/_dtw.py:339-343 and _frechet.py:341-346. -/
def nvLt [LinearOrder K] : Nv K → Nv K → Bool
  | some a, some b => decide (a < b)
  | _, _ => false

/-- Python's `min(a, b)`, tslearn/metrics/_dtw.py:339-343: `b` if `b < a`, else `a`; `min(a, b, c)` is `min(min(a, b), c)`. -/
def pyMin [LinearOrder K] (a b : Nv K) : Nv K := if nvLt b a then b else a

/-- Python's `max(a, b)`, tslearn/metrics/_frechet.py:341-346: `b` if `b > a`, else `a`. -/
def pyMax [LinearOrder K] (a b : Nv K) : Nv K := if nvLt a b then b else a

/-- `torch.min`, tslearn/metrics/_dtw.py:350 and _frechet.py:354. -/
def torchMin [LinearOrder K] : Nv K → Nv K → Nv K
  | some a, some b => some (min a b)
  | _, _ => none

/-- `torch.max(a, b)`, tslearn/metrics/_frechet.py:354. -/
def torchMax [LinearOrder K] : Nv K → Nv K → Nv K
  | some a, some b => some (max a b)
  | _, _ => none

/-- `a + b` of costs, tslearn/metrics/_dtw.py:338-343. -/
def nvAdd [Add K] : Nv K → Nv K → Nv K
  | some a, some b => some (a + b)
  | _, _ => none

/-- Local squared distance loop, tslearn/metrics/_dtw.py:334-337 (also `_njit_local_squared_dist`, dtw_variants.py:31-35, and its twin 60-67). -/
def gapSqDist [Zero K] [Add K] [Sub K] [Mul K] (a b : List (Option K)) : Option K :=
  (List.zipWith (fun u v => match u, v with
    | some u, some v => some ((u - v) * (u - v))
    | _, _ => none) a b).foldl (fun s t => match s, t with
    | some s, some t => some (s + t)
    | _, _ => none) (some 0)

/-- Local squared distances of two series, tslearn/metrics/_dtw.py:334-337; `torch.square(torch.cdist(s1, s2))` for PyTorch (utils.py:197). -/
def nanCost [Zero K] [Add K] [Sub K] [Mul K] (s1 s2 : List (List (Option K))) : Mat (Nv K) :=
  fun i j => (gapSqDist (s1.getD i []) (s2.getD j [])).map (↑)

/-- `_njit_accumulated_matrix`, tslearn/metrics/_dtw.py:325-344 (`step` is `+`) and _frechet.py:326-348 (`step` is `max`). -/
def nanTable [LinearOrder K] [Zero K] (step : Nv K → Nv K → Nv K) (l1 l2 : ℕ) (mask : Mat Bool) (D : Mat (Nv K)) : Mat (Nv K) :=
  (dpLoop l1 l2 mask (fun i j up left diag => step (D i j) (pyMin (pyMin up left) diag)) ((Mat.full (some ⊤)).set 0 0 (some 0))).tail

/-- `_torch_accumulated_matrix`, tslearn/metrics/utils.py:194-230, with the functions of _dtw.py:350 and _frechet.py:354. -/
def torchNanTable [LinearOrder K] [Zero K] (step : Nv K → Nv K → Nv K) (l1 l2 : ℕ) (mask : Mat Bool) (D : Mat (Nv K)) : Mat (Nv K) :=
  (diagLoop l1 l2 (fun i j up left diag => step (if mask i j then D i j else some ⊤) (torchMin (torchMin up left) diag))
    ((Mat.full (some ⊤)).set 0 0 (some 0))).tail

/-- Validation of `dtw` and `frechet`, tslearn/metrics/_dtw.py:145-157 and _frechet.py:148-160. -/
def validateNan (s1 s2 : TsInput (Option K)) (gc : Option String) : Except PyErr (List (List (Option K)) × List (List (Option K)) × ℕ) := do
  let t1 := toTimeSeries s1 true
  let t2 := toTimeSeries s2 true
  if t1.length = 0 ∨ t2.length = 0 then throw .valueError
  if nFeatures t1 ≠ nFeatures t2 then throw .valueError
  let code ← gcCode gc
  return (t1, t2, code)

variable [LinearOrder K] [Zero K] [Add K] [Sub K] [Mul K]

/-- Square of `dtw(s1, s2, ...)`, tslearn/metrics/_dtw.py:145-163 and 391-400. -/
def nanDtwSq (be : Backend) (s1 s2 : TsInput (Option K)) (gc : Option String) (radius : Option ℕ) (slope : Option ℚ) : Except PyErr (Nv K) := do
  let (x, y, code) ← validateNan s1 s2 gc
  let mask ← computeMask x.length y.length code radius slope
  return match be with
    | .numpy => lastEntry (nanTable nvAdd x.length y.length mask (nanCost x y)) x.length y.length
    | .pytorch => lastEntry (torchNanTable nvAdd x.length y.length mask (nanCost x y)) x.length y.length

/-- Square of `frechet(s1, s2, ...)`, tslearn/metrics/_frechet.py:148-168 and 398-407. -/
def nanFrechetSq (be : Backend) (s1 s2 : TsInput (Option K)) (gc : Option String) (radius : Option ℕ) (slope : Option ℚ) : Except PyErr (Nv K) := do
  let (x, y, code) ← validateNan s1 s2 gc
  let mask ← computeMask x.length y.length code radius slope
  return match be with
    | .numpy => lastEntry (nanTable pyMax x.length y.length mask (nanCost x y)) x.length y.length
    | .pytorch => lastEntry (torchNanTable torchMax x.length y.length mask (nanCost x y)) x.length y.length

/-- `dtw_path(s1, s2, ...)` with the squared value, tslearn/metrics/_dtw.py:258-283 and 425-435; `am` is the backend's `argmin`. -/
def nanDtwPath (s1 s2 : TsInput (Option K)) (gc : Option String) (radius : Option ℕ) (slope : Option ℚ) (am : Nv K → Nv K → Nv K → ℕ) :
    Except PyErr (Option (List (ℕ × ℕ)) × Nv K) := do
  let (x, y, code) ← validateNan s1 s2 gc
  let mask ← computeMask x.length y.length code radius slope
  let acc := nanTable nvAdd x.length y.length mask (nanCost x y)
  return (computePath am acc x.length y.length (x.length + y.length), lastEntry acc x.length y.length)
end

noncomputable section
open Classical

/-- `numpy.sqrt(dist) <= eps` of `lcss`, tslearn/metrics/dtw_variants.py:977-985: false for NaN. -/
def nanLcssHit (x y : List (List (Option ℝ))) (eps : ℝ) (i j : ℕ) : Bool :=
  match gapSqDist (x.getD i []) (y.getD j []) with
  | some d => decide (Real.sqrt d ≤ eps)
  | none => false

/-- `lcss(s1, s2, eps)` without a constraint, tslearn/metrics/dtw_variants.py:1056-1062, 1089-1095 and 1200-1214. Empty series and different numbers of
features leave the model. -/
def nanLcss (s1 s2 : TsInput (Option ℝ)) (eps : ℝ) : Except PyErr ℝ := do
  let x := toTimeSeries s1 true
  let y := toTimeSeries s2 true
  if x = [] ∨ y = [] ∨ nFeatures x ≠ nFeatures y then throw .notModelled
  return lcssScore (lcssAcc x.length y.length (Mat.full true) (nanLcssHit x y eps)) x.length y.length

/-- A sample distance as a float, tslearn/metrics/_soft_dtw.py:357-360. -/
def flOfNan : Option ℝ → Fl
  | some x => Fl.num x
  | none => Fl.nan

/-- `_njit_accumulated_matrix(s1, s2, mask, gamma)`, tslearn/metrics/_soft_dtw.py:349-370. -/
def nanSoftAcc (l1 l2 : ℕ) (mask : Mat Bool) (D : Mat Fl) (γ : ℝ) : Mat Fl :=
  (dpLoop l1 l2 mask (fun i j up left diag => (D i j).add (softmin3 up left diag γ)) ((Mat.full Fl.inf).set 0 0 (Fl.num 0))).tail

/-- `soft_dtw(s1, s2, gamma, ...)` for `gamma ≠ 0`, tslearn/metrics/_soft_dtw.py:160-198 and 431-441. -/
def nanSoftDtw (be : Backend) (s1 s2 : TsInput (Option ℝ)) (γ : ℝ) (gc : Option String) (radius : Option ℕ) (slope : Option ℚ) : Except PyErr Fl := do
  let (x, y, code) ← validateNan s1 s2 gc
  let mask ← computeMask x.length y.length code radius slope
  let D : Mat Fl := fun i j => flOfNan (gapSqDist (x.getD i []) (y.getD j []))
  return match be with
    | .numpy => lastEntry (nanSoftAcc x.length y.length mask D γ) x.length y.length
    | .pytorch => lastEntry (torchSoftAcc x.length y.length mask D γ) x.length y.length

/-- `a op b` with NaN, tslearn/metrics/_gak.py:257-274. -/
def nanOp (f : ℝ → ℝ → ℝ) : Option ℝ → Option ℝ → Option ℝ
  | some a, some b => some (f a b)
  | _, _ => none

/-- `_unnormalized_gak(s1, s2, sigma)`, tslearn/metrics/_gak.py:247-274. -/
def nanUnnormGak (x y : List (List (Option ℝ))) (σ : ℝ) : Option ℝ :=
  (dpLoop x.length y.length (Mat.full true) (fun i j up left diag => nanOp (· * ·) (nanOp (· + ·) (nanOp (· + ·) up left) diag)
    ((gapSqDist (x.getD i []) (y.getD j [])).map fun d =>
      let g := -d / (2 * σ * σ)
      let g := g - Real.log (2 - Real.exp g)
      Real.exp g)) ((Mat.full (some 0)).set 0 0 (some 1))) x.length y.length

/-- `gak(s1, s2, sigma)`, tslearn/metrics/_gak.py:155-169. Empty series leave the model. -/
def nanGak (s1 s2 : TsInput (Option ℝ)) (σ : ℝ) : Except PyErr (Option ℝ) := do
  if σ = 0 then throw .zeroDivision
  let x := toTimeSeries s1 true
  let y := toTimeSeries s2 true
  if x.length = 0 ∨ y.length = 0 then throw .notModelled
  if nFeatures x ≠ nFeatures y then throw .valueError
  return nanOp (· / ·) (nanUnnormGak x y σ) (nanOp (· * ·) ((nanUnnormGak x x σ).map Real.sqrt) ((nanUnnormGak y y σ).map Real.sqrt))

end
end Verif
