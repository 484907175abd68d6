import Verif.Model.SoftDtw
import Mathlib.Data.Int.Log
/-!
The PyTorch loss `SoftDTWLossPyTorch`: tslearn/metrics/soft_dtw_loss_pytorch.py. Rounding to 32-bit floats is a parameter `f32`;
all other arithmetic is exact (`Fl`).
-/
namespace Verif
noncomputable section
open Classical

/-- `torch.Tensor(array)` makes a tensor of 32-bit floats: rounding of one entry
(tslearn/metrics/soft_dtw_loss_pytorch.py:93, 94 and 108). -/
def Fl.round (f32 : ℝ → ℝ) : Fl → Fl
  | .num x => .num (f32 x)
  | x => x

/-- What `_SoftDTWLossPyTorch.forward` leaves behind for one element of the batch: the matrix `D` (changed in place), the saved
table `R`, and the loss; tslearn/metrics/soft_dtw_loss_pytorch.py:90-96. -/
structure SoftTape where
  D : Mat Fl
  R : Mat Fl
  loss : Fl

/-- `_SoftDTWLossPyTorch.forward(ctx, D, gamma, ...)`, tslearn/metrics/soft_dtw_loss_pytorch.py:37-96, with
`_njit_soft_dtw_batch`, 334-344: the mask is built first, `D[:, ~mask] = inf` writes into the tensor that it was given.
Series are not empty. -/
def softLossApply (f32 : ℝ → ℝ) (m n : ℕ) (Ds : List (Mat Fl)) (γ : ℝ) (code : ℕ) (radius : Option ℕ) (slope : Option ℚ) :
    Except PyErr (List SoftTape) := do
  let mask ← computeMask m n code radius slope
  return Ds.map fun D =>
    let D : Mat Fl := fun i j => if mask i j then D i j else Fl.inf
    let R : Mat Fl := fun i j => (softAccFromDist m n mask D γ i j).round f32
    { D := D, R := R, loss := lastEntry R m n }

/-- `_SoftDTWLossPyTorch.backward(ctx, grad_output)` for one element of the batch,
tslearn/metrics/soft_dtw_loss_pytorch.py:98-109, with `_njit_soft_dtw_grad_batch`, 347-353: `gamma` and the result are rounded. -/
def softLossBack (f32 : ℝ → ℝ) (m n : ℕ) (γ : ℝ) (t : SoftTape) (g : ℝ) : Mat Fl := fun i j =>
  Fl.scale g ((softGrad m n t.D t.R (f32 γ) (Mat.full (Fl.num 0)) i j).round f32)

/-- A tensor of shape `[batch_size, ts_length, dim]`, tslearn/metrics/soft_dtw_loss_pytorch.py:300-301. -/
structure TBatch where
  len : ℕ
  dim : ℕ
  items : List (List (List ℝ))

/-- Parameters of `SoftDTWLossPyTorch`, tslearn/metrics/soft_dtw_loss_pytorch.py:242-260; `dist` is the distance function, which
treats the elements of the batch one by one. -/
structure SoftLoss where
  gamma : ℝ
  normalize : Bool
  dist : List (List ℝ) → List (List ℝ) → Mat ℝ
  gc : Option String
  radius : Option ℕ
  slope : Option ℚ

/-- `_euclidean_squared_dist(x, y)`, tslearn/metrics/soft_dtw_loss_pytorch.py:262-283, for one element of the batch. -/
def softLossDist (x y : List (List ℝ)) : Mat ℝ := fun i j =>
  (List.zipWith (fun a b => (a - b) ^ 2) (x.getD i []) (y.getD j [])).sum

/-- `self.dist_func(x, y)` followed by `_SoftDTWLossPyTorch.apply(...)`, tslearn/metrics/soft_dtw_loss_pytorch.py:304-311. -/
def SoftLoss.pair (l : SoftLoss) (f32 : ℝ → ℝ) (x y : TBatch) : Except PyErr (List SoftTape) := do
  let code ← gcCode l.gc
  softLossApply f32 x.len y.len (List.zipWith (fun a b i j => Fl.num (l.dist a b i j)) x.items y.items) l.gamma code l.radius l.slope

/-- The three groups of recorded operations of one call, tslearn/metrics/soft_dtw_loss_pytorch.py:304-328. -/
structure SoftRun where
  xy : List SoftTape
  xx : List SoftTape
  yy : List SoftTape

/-- `SoftDTWLossPyTorch.forward(x, y)`, tslearn/metrics/soft_dtw_loss_pytorch.py:285-331: the recorded operations and the loss
values. -/
def SoftLoss.forward (l : SoftLoss) (f32 : ℝ → ℝ) (x y : TBatch) : Except PyErr (SoftRun × List Fl) := do
  if x.items.length ≠ y.items.length then throw .assertion
  if x.dim ≠ y.dim then throw .assertion
  let xy ← l.pair f32 x y
  if l.normalize then
    let xx ← l.pair f32 x x
    let yy ← l.pair f32 y y
    return (⟨xy, xx, yy⟩, List.zipWith (fun (a : SoftTape) (s : Fl) => a.loss.sub (Fl.scale (1 / 2) s)) xy
      (List.zipWith (fun (a b : SoftTape) => a.loss.add b.loss) xx yy))
  else
    return (⟨xy, [], []⟩, xy.map SoftTape.loss)

/-- Gradient with respect to the first argument of `torch.pow(x - y, 2).sum(3)` (library: autograd) when the gradient with respect
to the matrix is `G`; tslearn/metrics/soft_dtw_loss_pytorch.py:281-283. -/
def distBackX (x y : List (List ℝ)) (G : Mat Fl) : Mat Fl := fun i k =>
  (List.range y.length).foldl (fun s j => s.add (Fl.scale (2 * ((x.getD i []).getD k 0 - (y.getD j []).getD k 0)) (G i j))) (Fl.num 0)

/-- The same with respect to the second argument, tslearn/metrics/soft_dtw_loss_pytorch.py:281-283. -/
def distBackY (x y : List (List ℝ)) (G : Mat Fl) : Mat Fl := fun j k =>
  (List.range x.length).foldl (fun s i => s.add (Fl.scale (-(2 * ((x.getD i []).getD k 0 - (y.getD j []).getD k 0))) (G i j))) (Fl.num 0)

/-- `x.grad` after `(loss * g).sum().backward()` for the default distance (library: autograd adds the contributions of the
uses of `x`), tslearn/metrics/soft_dtw_loss_pytorch.py:98-109 and 304-331, for element `b` of the batch. -/
def SoftLoss.gradX (l : SoftLoss) (f32 : ℝ → ℝ) (x y : TBatch) (r : SoftRun) (b : ℕ) (g : ℝ) : Mat Fl :=
  let xb := x.items.getD b []
  let yb := y.items.getD b []
  let t : SoftTape := ⟨Mat.full .nan, Mat.full .nan, .nan⟩
  let G := distBackX xb yb (softLossBack f32 x.len y.len l.gamma (r.xy.getD b t) g)
  if l.normalize then
    let H := softLossBack f32 x.len x.len l.gamma (r.xx.getD b t) (-(1 / 2) * g)
    fun i k => (G i k).add ((distBackX xb xb H i k).add (distBackY xb xb H i k))
  else G

/-- `y.grad`, as `SoftLoss.gradX`; tslearn/metrics/soft_dtw_loss_pytorch.py:98-109 and 304-331. -/
def SoftLoss.gradY (l : SoftLoss) (f32 : ℝ → ℝ) (x y : TBatch) (r : SoftRun) (b : ℕ) (g : ℝ) : Mat Fl :=
  let xb := x.items.getD b []
  let yb := y.items.getD b []
  let t : SoftTape := ⟨Mat.full .nan, Mat.full .nan, .nan⟩
  let G := distBackY xb yb (softLossBack f32 x.len y.len l.gamma (r.xy.getD b t) g)
  if l.normalize then
    let H := softLossBack f32 y.len y.len l.gamma (r.yy.getD b t) (-(1 / 2) * g)
    fun j k => (G j k).add ((distBackX yb yb H j k).add (distBackY yb yb H j k))
  else G

/-- Rounding to 24 significant bits, ties to even: conversion of a 64-bit float to a 32-bit float (library, IEEE 754; underflow
and overflow left out). -/
def f32Round (x : ℝ) : ℝ :=
  let u : ℝ := 2 ^ (Int.log 2 |x| - 23)
  let q := x / u
  u * (if Int.fract q < 1 / 2 ∨ (Int.fract q = 1 / 2 ∧ Even ⌊q⌋) then ⌊q⌋ else ⌊q⌋ + 1 : ℤ)

end
end Verif
