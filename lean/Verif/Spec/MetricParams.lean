import Verif.Model.MetricParams
/-! Words of C92: what the parameters of a function are expected to be. -/
namespace Verif.Spec

/-- Every parameter of a function: what the estimator itself sets (`own`), otherwise the entry of `metric_params`, otherwise the default. -/
def expected (sig : Sig) (own mp : Kw) : Kw := sig.map fun p => (p.1, ((own.lookup p.1).or ((mp.lookup p.1).or p.2)).getD .none)

/-- The same, with the constraint in the form of its code. -/
def expectedCoded (sig : Sig) (own mp : Kw) (code : PyArg) : Kw :=
  (expected sig own mp).map fun p => if p.1 = "global_constraint" then (p.1, code) else p

/-- A dictionary: no key twice. -/
def IsDict (d : Kw) : Prop := (d.map Prod.fst).Nodup

/-- The constraint asked for in `metric_params` has a code: none, Itakura, Sakoe-Chiba. -/
def HasCode (mp : Kw) (code : PyArg) : Prop :=
  ((mp.lookup "global_constraint").getD .none, code) ∈
    [(PyArg.none, PyArg.int 0), (.str "", .int 0), (.str "itakura", .int 1), (.str "sakoe_chiba", .int 2)]

end Verif.Spec
