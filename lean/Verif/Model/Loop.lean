/-!
Loop combinators shared by the model. Python `for i in range(n): s = f(i, s)`.
-/
namespace Verif

/-- `for i in range(n): s := f i s`, the state threaded from `i = 0` to `i = n - 1`.
Not a repo definition: the reading of every Python `for _ in range(_)` in the modelled files. -/
def forRange {σ : Type _} (n : Nat) (s : σ) (f : Nat → σ → σ) : σ :=
  match n with
  | 0 => s
  | n + 1 => f n (forRange n s f)

/-- A NumPy 2-D array whose in-range entries are given by a function. -/
abbrev Mat (α : Type _) := Nat → Nat → α

/-- `M[a, b] = v`. -/
def Mat.set {α : Type _} (M : Mat α) (a b : Nat) (v : α) : Mat α :=
  fun i j => if i = a ∧ j = b then v else M i j

/-- `numpy.full((n, m), v)`. -/
def Mat.full {α : Type _} (v : α) : Mat α := fun _ _ => v

/-- `M[1:, 1:]`. -/
def Mat.tail {α : Type _} (M : Mat α) : Mat α := fun i j => M (i + 1) (j + 1)

end Verif
