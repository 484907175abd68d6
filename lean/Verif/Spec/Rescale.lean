import Verif.Model.Cast
import Mathlib.Algebra.Ring.Defs
/-!
A dataset measured in other units from other origins.
-/
namespace Verif.Spec

/-- `X'` is `X` with `v` replaced by `a i f * v + b i f` in feature `f` of series `i`: same shape, same NaNs. -/
structure Rescaled {K : Type} [Ring K] (a b : ℕ → ℕ → K) (X X' : Arr3 K) : Prop where
  len : X'.data.length = X.data.length
  sz : X'.sz = X.sz
  d : X'.d = X.d
  entry : ∀ i < X.data.length, ∀ t < X.sz, ∀ f < X.d,
    X'.entry i t f = (X.entry i t f).map fun v => a i f * v + b i f

/-- A unit and an origin for every group of a scaler: they may differ between series only if the scaler works
per series, and between features only if it works per feature. -/
def Groupwise {β : Type} (perTs perFeat : Bool) (a : ℕ → ℕ → β) : Prop :=
  ∀ i i' f f', (perTs = true → i = i') → (perFeat = true → f = f') → a i f = a i' f'

end Verif.Spec
