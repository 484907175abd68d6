import Verif.Model.Random
/-!
What it means for a function with an argument `random_state` to handle generators well.
-/
namespace Verif.Spec
variable {K α : Type} {R : Rng K}

/-- With an integer the result depends on nothing else, and no generator is touched. -/
def Seeded (f : RandomArg → World R → α × World R) : Prop :=
  ∀ s w w', (f (.int s) w).1 = (f (.int s) w').1 ∧ (f (.int s) w).2 = w

/-- With a `RandomState` object the result depends on the state of that object, which alone changes. -/
def OwnGenerator (f : RandomArg → World R → α × World R) : Prop :=
  ∀ i w w', w.inst i = w'.inst i → (f (.inst i) w).1 = (f (.inst i) w').1 ∧
    (f (.inst i) w).2.inst i = (f (.inst i) w').2.inst i ∧ (∀ j ≠ i, (f (.inst i) w).2.inst j = w.inst j) ∧
    (f (.inst i) w).2.glob = w.glob ∧ (f (.inst i) w).2.keras = w.keras

/-- With `None` the result depends on the state of NumPy's global generator, which alone changes. -/
def GlobalGenerator (f : RandomArg → World R → α × World R) : Prop :=
  ∀ w w', w.glob = w'.glob → (f .none w).1 = (f .none w').1 ∧ (f .none w).2.glob = (f .none w').2.glob ∧
    (f .none w).2.inst = w.inst ∧ (f .none w).2.keras = w.keras

/-- An integer, a new `RandomState` object with this seed and the global generator in that state give the same result. -/
def Interchangeable (f : RandomArg → World R → α × World R) : Prop :=
  ∀ s i w w', w.inst i = R.seed s → w'.glob = R.seed s →
    (f (.inst i) w).1 = (f (.int s) w).1 ∧ (f .none w').1 = (f (.int s) w).1

/-- All of this. -/
structure Tame (f : RandomArg → World R → α × World R) : Prop where
  seeded : Seeded f
  own : OwnGenerator f
  glob : GlobalGenerator f
  same : Interchangeable f

/-- The call neither draws nor depends on `random_state`. -/
def Ignores (f : RandomArg → World R → α × World R) : Prop :=
  ∀ r r' w w', (f r w).1 = (f r' w').1 ∧ (f r w).2 = w

end Verif.Spec
