import Verif.Model.Py
import Mathlib.Order.Defs.LinearOrder
import Mathlib.Data.Nat.Notation
/-!
`TimeSeriesDBSCAN.fit` from the matrix of distances on: tslearn/clustering/dbscan.py:142-199, with `radius_neighbors` and `dbscan_inner` of
scikit-learn; and `_patch_attribute`, tslearn/bases/bases.py:55-63.
-/
namespace Verif

/-- `radius_neighbors(distance_matrix, radius=eps)` with the metric `"precomputed"`, brute force: tslearn/clustering/dbscan.py:160-165. -/
def dbNeighbours {K : Type} [LinearOrder K] (D : ℕ → ℕ → K) (eps : K) (n i : ℕ) : List ℕ := (List.range n).filter fun j => D i j ≤ eps

/-- `n_neighbors >= self.min_ts`, tslearn/clustering/dbscan.py:173 and 179. -/
def dbCore (nb : ℕ → List ℕ) (minTs i : ℕ) : Bool := minTs ≤ (nb i).length

/-- The depth-first search of `sklearn.cluster._dbscan_inner.dbscan_inner` from the series `cur`, with fuel: `labels` is -1 (`none`) for series
not reached, the top of the stack is the head of the list. `none`: out of fuel. -/
def dbSearch (nb : ℕ → List ℕ) (core : ℕ → Bool) (label : ℕ) : ℕ → ℕ → List ℕ → (ℕ → Option ℕ) → Option (ℕ → Option ℕ)
  | 0, _, _, _ => none
  | fuel + 1, cur, stack, labels =>
    let new := (labels cur).isNone
    let labels := if new then fun j => if j = cur then some label else labels j else labels
    let stack := if new && core cur then ((nb cur).filter fun j => (labels j).isNone).reverse ++ stack else stack
    match stack with
    | [] => some labels
    | v :: stack => dbSearch nb core label fuel v stack labels

/-- The loop of `dbscan_inner`: `k` series left of `n`, `label` is `label_num`. -/
def dbInner (nb : ℕ → List ℕ) (core : ℕ → Bool) (n fuel : ℕ) : ℕ → ℕ → (ℕ → Option ℕ) → Option (ℕ → Option ℕ)
  | 0, _, labels => some labels
  | k + 1, label, labels =>
    let i := n - (k + 1)
    if (labels i).isSome || !core i then dbInner nb core n fuel k label labels
    else
      match dbSearch nb core label fuel i [] labels with
      | none => none
      | some labels => dbInner nb core n fuel k (label + 1) labels

/-- `core_ts_indices_`, `labels_` and the shape of `components_`. -/
structure DbFit where
  coreIndices : List ℕ
  labels : ℕ → Option ℕ
  componentsShape : List ℕ

/-- `fit`, tslearn/clustering/dbscan.py:173-197, for a dataset of shape `(n, sz, d)`. -/
def dbFit {K : Type} [LinearOrder K] (D : ℕ → ℕ → K) (eps : K) (minTs n sz d : ℕ) : Option DbFit :=
  let nb := dbNeighbours D eps n
  let core := dbCore nb minTs
  let indices := (List.range n).filter core
  (dbInner nb core n (n * (n + 1) + 1) n 0 fun _ => none).map fun labels =>
    ⟨indices, labels, if indices.length ≠ 0 then [indices.length, sz, d] else [0, sz]⟩

/-- A `with self._patch_attribute(name, value):` statement, tslearn/bases/bases.py:55-63: attributes are a partial function of names, the body
gives attributes and a value or an exception. -/
def withPatch {N V R : Type} [DecidableEq N] (o : N → Option V) (name : N) (value : V) (body : (N → Option V) → (N → Option V) × Except PyErr R) :
    (N → Option V) × Except PyErr R :=
  match o name with
  | none => (o, .error .attributeError)
  | some orig =>
    let r := body fun a => if a = name then some value else o a
    (fun a => if a = name then some orig else r.1 a, r.2)

end Verif
