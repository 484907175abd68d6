import Verif.Model.Argmin
import Mathlib.Algebra.Order.Field.Basic
import Mathlib.Algebra.BigOperators.Group.Finset.Basic
/-!
Layers of `LearningShapelets` for one length of shapelets: tslearn/shapelets/shapelets.py:65-232. Tensors are functions of their indices with
their sizes as parameters; `none` is NaN, infinities are left out. Keras is assumed to pass the mask that a layer computes to the next one.
-/
namespace Verif

/-- `reshape(inputs, (n_ts, sz * d))` for one series, tslearn/shapelets/shapelets.py:152. -/
def flatten2 {α : Type} (d : ℕ) (x : ℕ → ℕ → α) (i : ℕ) : α := x (i / d) (i % d)

/-- `extract_sequences(inputs, length, stride)` for one series, sequence `t`: tslearn/shapelets/shapelets.py:153. -/
def extractSeq {α : Type} (stride : ℕ) (v : ℕ → α) (t i : ℕ) : α := v (t * stride + i)

/-- A row-major reshape to rows of `d` entries. -/
def reshape2 {α : Type} (d : ℕ) (v : ℕ → α) (l f : ℕ) : α := v (l * d + f)

/-- `PatchingLayer.call`, tslearn/shapelets/shapelets.py:150-158. -/
def patching {α : Type} (d : ℕ) (x : ℕ → ℕ → α) (t : ℕ) : ℕ → ℕ → α := reshape2 d (extractSeq d (flatten2 d x) t)

/-- `LocalSquaredDistanceLayer.compute_mask`, tslearn/shapelets/shapelets.py:197-200: a sum is finite when no term is NaN. -/
def windowMask {K : Type} (L d : ℕ) (w : ℕ → ℕ → Option K) : Bool := (List.range L).all fun l => (List.range d).all fun f => (w l f).isSome

/-- `y_`, tslearn/shapelets/shapelets.py:218-221: `kernel`, of shape `(nb, L, d)`, transposed to `(L, nb, d)` and read in rows of `nb`. -/
def kernelRows {K : Type} (nb d : ℕ) (ker : ℕ → ℕ → ℕ → K) (i k : ℕ) : K :=
  let j := i * nb + k
  ker (j / d % nb) (j / d / nb) (j % d)

section
variable {K : Type} [Field K]

/-- `LocalSquaredDistanceLayer.call`, tslearn/shapelets/shapelets.py:202-223, for one window. -/
def localDist (L d nb : ℕ) (ker : ℕ → ℕ → ℕ → K) (w : ℕ → ℕ → Option K) (k : ℕ) : K :=
  let x := fun l f => (w l f).getD 0
  let xSq := ∑ l ∈ Finset.range L, ∑ f ∈ Finset.range d, x l f ^ 2
  let ySq := ∑ l ∈ Finset.range L, ∑ f ∈ Finset.range d, ker k l f ^ 2
  let xy := ∑ i ∈ Finset.range (L * d), flatten2 d x i * kernelRows nb d ker i k
  (xSq + ySq - 2 * xy) / L

variable [LinearOrder K]

/-- `ops.max` of all entries. -/
def tensorMax : List K → K
  | [] => 0
  | a :: l => l.foldl max a

/-- `ops.min` along an axis. -/
def tensorMin : List K → K
  | [] => 0
  | a :: l => l.foldl min a

/-- `where(mask, inputs, max_)`, tslearn/shapelets/shapelets.py:90-92 and 121-123: the maximum is over the whole batch. -/
def maskedDist (B n nb : ℕ) (dist : ℕ → ℕ → ℕ → K) (mask : ℕ → ℕ → Bool) (b t k : ℕ) : K :=
  if mask b t then dist b t k
  else tensorMax ((List.range B).flatMap fun b => (List.range n).flatMap fun t => (List.range nb).map fun k => dist b t k)

/-- `GlobalMinPooling1D.call`, tslearn/shapelets/shapelets.py:89-93. -/
def minPooling (B n nb : ℕ) (dist : ℕ → ℕ → ℕ → K) (mask : ℕ → ℕ → Bool) (b k : ℕ) : K :=
  tensorMin ((List.range n).map fun t => maskedDist B n nb dist mask b t k)

/-- `GlobalArgminPooling1D.call`, tslearn/shapelets/shapelets.py:120-124. -/
def argminPooling (B n nb : ℕ) (dist : ℕ → ℕ → ℕ → K) (mask : ℕ → ℕ → Bool) (b k : ℕ) : ℕ :=
  argminL ((List.range n).map fun t => maskedDist B n nb dist mask b t k)

/-- `transformer_model_`, tslearn/shapelets/shapelets.py:743-749, on a batch of `B` series of `sz` samples: entry of series `b`, shapelet
`k`. -/
def shapeletTransform (sz L d nb B : ℕ) (ker : ℕ → ℕ → ℕ → K) (X : ℕ → ℕ → ℕ → Option K) (b k : ℕ) : K :=
  minPooling B (sz - L + 1) nb (fun b t => localDist L d nb ker (patching d (X b) t)) (fun b t => windowMask L d (patching d (X b) t)) b k

/-- `locator_model_`, tslearn/shapelets/shapelets.py:751-767. -/
def shapeletLocate (sz L d nb B : ℕ) (ker : ℕ → ℕ → ℕ → K) (X : ℕ → ℕ → ℕ → Option K) (b k : ℕ) : ℕ :=
  argminPooling B (sz - L + 1) nb (fun b t => localDist L d nb ker (patching d (X b) t)) (fun b t => windowMask L d (patching d (X b) t)) b k

end
end Verif
