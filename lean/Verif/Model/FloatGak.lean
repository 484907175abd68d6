import Verif.Model.Float
import Verif.Model.Gak
/-!
The global alignment kernel, tslearn/metrics/_gak.py, in floating-point arithmetic with a limited range: results are rounded, and
results too large for the format become infinite. The sign of zeros is left out (no division by a zero whose sign
would matter takes place unless the bandwidth underflows).
-/
namespace Verif
noncomputable section
open Classical

/-- A floating-point arithmetic: rounding, the computed exponential and logarithm, and the first power of two that is too
large for the format (`2 ^ 1024` for doubles). -/
structure Arith where
  rnd : ℝ → ℝ
  exp : ℝ → ℝ
  log : ℝ → ℝ
  big : ℝ

namespace Arith
variable (A : Arith)

/-- The result of an operation, put into the format. -/
def fit : Fl → Fl
  | .num x => if A.big ≤ A.rnd x then .inf else if A.rnd x ≤ -A.big then .ninf else .num (A.rnd x)
  | x => x

/-- `x / y` before rounding. -/
def quot : Fl → Fl → Fl
  | .nan, _ => .nan
  | _, .nan => .nan
  | .num x, .num y => if y = 0 then (if x = 0 then .nan else if 0 < x then .inf else .ninf) else .num (x / y)
  | .num _, _ => .num 0
  | .inf, .num y => if y < 0 then .ninf else .inf
  | .ninf, .num y => if y < 0 then .inf else .ninf
  | _, _ => .nan

/-- `sqrt` before rounding. -/
def root : Fl → Fl
  | .num x => if x < 0 then .nan else .num (Real.sqrt x)
  | .inf => .inf
  | _ => .nan

/-- `x + y`. -/
def add (x y : Fl) : Fl := A.fit (Fl.add x y)
/-- `x - y`. -/
def sub (x y : Fl) : Fl := A.fit (Fl.sub x y)
/-- `x * y`. -/
def mul (x y : Fl) : Fl := A.fit (Fl.mul x y)
/-- `x / y`. -/
def div (x y : Fl) : Fl := A.fit (quot x y)
/-- `sqrt(x)`. -/
def sqrt (x : Fl) : Fl := A.fit (root x)

/-- `exp(x)`. -/
def expF : Fl → Fl
  | .num x => if A.big ≤ A.exp x then .inf else .num (A.exp x)
  | .inf => .inf
  | .ninf => .num 0
  | .nan => .nan

/-- `log(x)`. -/
def logF : Fl → Fl
  | .num x => if x = 0 then .ninf else if x < 0 then .nan else .num (A.log x)
  | .inf => .inf
  | _ => .nan

/-- `cdist(s1, s2, "sqeuclidean")` of SciPy, one entry, used at tslearn/metrics/_gak.py:248. -/
def sqDist (a b : List ℝ) : Fl :=
  (List.zipWith (fun p q => A.mul (A.sub (.num p) (.num q)) (A.sub (.num p) (.num q))) a b).foldl A.add (.num 0)

/-- `2 * sigma * sigma`, tslearn/metrics/_gak.py:248. -/
def width (σ : ℝ) : Fl := A.mul (A.mul (.num 2) (.num σ)) (.num σ)

/-- `gram` of `_unnormalized_gak`, tslearn/metrics/_gak.py:247-250. -/
def gram (x y : List (List ℝ)) (σ : ℝ) (i j : ℕ) : Fl :=
  let g := A.div (Fl.neg (A.sqDist (x.getD i []) (y.getD j []))) (A.width σ)
  let g := A.sub g (A.logF (A.sub (.num 2) (A.expF g)))
  A.expF g

/-- `_gak_from_gram_matrix_generic(gram)`, tslearn/metrics/_gak.py:259-274. -/
def fromGram (sz1 sz2 : ℕ) (gram : Mat Fl) : Fl :=
  (dpLoop sz1 sz2 (Mat.full true) (fun i j up left diag => A.mul (A.add (A.add up left) diag) (gram i j))
    ((Mat.full (Fl.num 0)).set 0 0 (.num 1))) sz1 sz2

/-- `_unnormalized_gak(s1, s2, sigma)`, tslearn/metrics/_gak.py:247-254. -/
def unnorm (x y : List (List ℝ)) (σ : ℝ) : Fl := A.fromGram x.length y.length (A.gram x y σ)

/-- `unnormalized_gak(s1, s2, sigma)`, tslearn/metrics/_gak.py:178-244. -/
def unnormalizedGak (s1 s2 : TsInput (Option ℝ)) (σ : ℝ) : Except PyErr Fl := do
  let (x, y) ← gakArgs s1 s2 σ
  return A.unnorm x y σ

/-- `gak` on formatted series, tslearn/metrics/_gak.py:169-175. -/
def gakGeneric (x y : List (List ℝ)) (σ : ℝ) : Fl :=
  let denom := A.mul (A.sqrt (A.unnorm x x σ)) (A.sqrt (A.unnorm y y σ))
  A.div (A.unnorm x y σ) denom

/-- `gak(s1, s2, sigma)`, tslearn/metrics/_gak.py:99-175. -/
def gak (s1 s2 : TsInput (Option ℝ)) (σ : ℝ) : Except PyErr Fl := do
  let (x, y) ← gakArgs s1 s2 σ
  return A.gakGeneric x y σ

/-- `diag(v)`: zeros off the diagonal. -/
def diag (v : ℕ → Fl) : Mat Fl := fun i j => if i = j then v i else .num 0

/-- `P @ Q` with inner dimension `n`; `sum` adds the products, in an order chosen by the linear algebra library, which
is assumed to evaluate all of them. -/
def matMul (sum : List Fl → Fl) (n : ℕ) (P Q : Mat Fl) : Mat Fl :=
  fun i j => sum ((List.range n).map fun k => A.mul (P i k) (Q k j))

/-- `_unnormalized_gak(ts, ts)` of a slot, tslearn/metrics/_gak.py:402-422. -/
def selfK (σ : ℝ) (t : Ts ℝ) : Except PyErr Fl := onSlots (fun x y => .ok (A.unnorm x y σ)) t t

/-- `cdist_gak(dataset1, dataset2, sigma, n_jobs)`, tslearn/metrics/_gak.py:289-427. -/
def cdistGak (sum : List Fl → Fl) (X : DsInput ℝ) (Y : Option (DsInput ℝ)) (σ : ℝ)
    (run : List (Except PyErr Fl) → Except PyErr (List Fl)) : Except PyErr (Mat Fl) := do
  if σ = 0 then throw .zeroDivision
  let X' ← toDataset X
  let n1 := X'.slots.length
  match Y with
  | none =>
    let M ← cdistOf (fun x y => .ok (A.unnorm x y σ)) (.num 0) true X none run
    let D := diag fun i => A.sqrt (A.div (.num 1) (M i i))
    return A.matMul sum n1 (A.matMul sum n1 D M) D
  | some Y =>
    let M ← cdistOf (fun x y => .ok (A.unnorm x y σ)) (.num 0) true X (some Y) run
    let Y' ← toDataset Y
    let n2 := Y'.slots.length
    let l ← run (X'.slots.map (A.selfK σ))
    let r ← run (Y'.slots.map (A.selfK σ))
    let L := diag fun i => A.div (.num 1) (A.sqrt (l.getD i (.num 0)))
    let R := diag fun j => A.div (.num 1) (A.sqrt (r.getD j (.num 0)))
    return A.matMul sum n2 (A.matMul sum n1 L M) R

end Arith
end
end Verif
