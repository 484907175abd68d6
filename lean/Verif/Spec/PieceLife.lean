import Verif.Model.PieceLife
/-!
What a user sees of a history of calls on a PAA, SAX or 1d-SAX estimator.
-/
namespace Verif.Spec

/-- No call of the history made the estimator fitted: it holds changes of parameters, questions, and fits that
raised. -/
def NeverFitted (ppf : ℝ → ℝ) (junk : ℕ → ℕ → ℕ → Option ℝ) (e : PwEst) (h : List PwCmd) : Prop :=
  ∀ pre c post, h = pre ++ c :: post →
    match c with
    | .fit X => ∃ x, ((e.run ppf junk pre).1.fit ppf X).2 = .error x
    | .fitTransform _ => False
    | _ => True

/-- No later call switches `scale` on. -/
def KeepsScaleOff (l : List PwCmd) : Prop := ∀ p, PwCmd.setParams p ∈ l → p.scale = false

/-- The methods a class has: `distance_sax` came with SAX, `distance_1d_sax` with 1d-SAX. -/
def Offers : PwKind → PwQuery → Prop
  | .paa, .distSax .. => False
  | .paa, .dist1d .. => False
  | .sax, .dist1d .. => False
  | _, _ => True

/-- What the calls of a history answer. -/
noncomputable def answers (ppf : ℝ → ℝ) (junk : ℕ → ℕ → ℕ → Option ℝ) (e : PwEst) (l : List PwCmd) :
    List (Except PyErr (Option PwAns)) := (e.run ppf junk l).2

end Verif.Spec
