import Verif.Spec.Barycenter
/-! Words of C91: other origins and units of measurement. -/
namespace Verif.Spec
variable {K : Type*} [Field K]

/-- A sample measured in another unit (factor `a`) and from another origin (`t`, one number per feature). -/
def rescale (a : K) (t u : List K) : List K := List.zipWith (fun s x => a * x + s) t u

/-- A series measured in another unit and from another origin. -/
def rescaleSeries (a : K) (t : List K) (x : List (List K)) : List (List K) := x.map (rescale a t)

/-- A cost in another unit: costs are squares, infinite ones stay infinite. -/
def rescaleCost (a : K) (c : WithTop K) : WithTop K := c.map (a ^ 2 * ·)

end Verif.Spec
