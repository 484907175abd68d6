import Verif.Spec.Cost
import Mathlib.Analysis.Real.Sqrt
/-!
# Series that differ little
-/
namespace Verif.Spec

/-- Two series of `d` features and of one length, every sample of one within `ε` of the sample of the other at the same time. -/
def Wiggle (d : ℕ) (ε : ℝ) (x x' : List (List ℝ)) : Prop :=
  x.length = x'.length ∧ ∀ i < x.length, (x.getD i []).length = d ∧ (x'.getD i []).length = d ∧
    Real.sqrt (sqEuclid (x.getD i []) (x'.getD i [])) ≤ ε

/-- Two distances are both `+inf`, or both finite and at most `b` apart. -/
def WithinTop (b : ℝ) (v v' : WithTop ℝ) : Prop :=
  (v' = ⊤ ↔ v = ⊤) ∧ ∀ w w' : ℝ, v = (w : WithTop ℝ) → v' = (w' : WithTop ℝ) → |w' - w| ≤ b

end Verif.Spec
