import Mathlib.Data.Nat.Notation
import Mathlib.Tactic.Common
/-!
A series with every run of equal consecutive samples reduced to one sample.
-/
namespace Verif.Spec

/-- Keep one sample of every run. -/
def squeeze {α : Type} [DecidableEq α] : List α → List α
  | [] => []
  | [a] => [a]
  | a :: b :: l => if a = b then squeeze (b :: l) else a :: squeeze (b :: l)

end Verif.Spec
