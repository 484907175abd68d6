import Verif.Model.Py
import Verif.Model.Shapelets
import Mathlib.Algebra.BigOperators.Group.List.Basic
import Mathlib.Analysis.SpecialFunctions.Exp
import Std.Data.String.ToNat
/-!
The network of `LearningShapelets`: its layers by name, its weights, what is read from them, and saved models: tslearn/shapelets/shapelets.py:441-480,
517-526, 769-984. The layers themselves are in `Shapelets`. Keras is trusted as follows: `get_layer` gives the layer of that name and raises
`ValueError` without one; `get_weights` of a model lists the weights of its layers in order; `set_weights` wants as many weights of the same shapes;
models built on the layers of another share its weights. Changes of weights by training keep layers and shapes.
-/
namespace Verif

/-- A weight: its shape and its entries in C order. -/
structure Ten (K : Type) where
  shape : List ℕ
  data : List K
  deriving DecidableEq

/-- As many entries as the shape says. -/
def Ten.WF {K : Type} (w : Ten K) : Prop := w.data.length = w.shape.prod

/-- `w[k]`. -/
def Ten.row {K : Type} (w : Ten K) (k : ℕ) : Ten K := ⟨w.shape.tail, (w.data.drop (k * w.shape.tail.prod)).take w.shape.tail.prod⟩

/-- `w[l, f]` of an array with rows of `d` entries. -/
def Ten.at2 {K : Type} [Zero K] (w : Ten K) (d l f : ℕ) : K := w.data.getD (l * d + f) 0

/-- A layer: its name and its weights. -/
structure NetLayer (K : Type) where
  name : String
  weights : List (Ten K)

/-- `"shapelets_%d" % i`. -/
def shpName (i : ℕ) : String := "shapelets_" ++ Nat.repr i

variable {K : Type}

/-- `model_.get_layer(name)`. -/
def getLayer (net : List (NetLayer K)) (name : String) : Except PyErr (NetLayer K) :=
  match net.find? fun l => l.name == name with
  | some l => .ok l
  | none => .error .valueError

/-- `_set_model_layers`, tslearn/shapelets/shapelets.py:769-826: for every length `L` (with `nb` shapelets, in the order of the dictionary) three
layers, then the classifier with `units` outputs. `init L nb` are the shapelets found by k-means, `dense` and `bias` what Keras draws for the classifier.
An empty dictionary makes `pool_layers[0]` fail. -/
def setModelLayers (sizes : List (ℕ × ℕ)) (init : ℕ → ℕ → Ten K) (dense bias : Ten K) : Except PyErr (List (NetLayer K)) :=
  let pools := sizes.zipIdx.flatMap fun p =>
    [⟨"patching_" ++ Nat.repr p.2, []⟩, ⟨shpName p.2, [init p.1.1 p.1.2]⟩, ⟨"min_pooling_" ++ Nat.repr p.2, []⟩]
  if sizes = [] then .error .indexError
  else .ok (⟨"input", []⟩ :: pools ++ (if 1 < sizes.length then [⟨"concatenate", []⟩] else []) ++ [⟨"classification", [dense, bias]⟩])

/-- The inner loop of `shapelets_`, tslearn/shapelets/shapelets.py:450-452: one more row stored. -/
def storeRow (w : Ten K) (st : List (Option (Ten K)) × ℕ) (k : ℕ) : Except PyErr (List (Option (Ten K)) × ℕ) :=
  if st.2 < st.1.length then .ok (st.1.set st.2 (some (w.row k)), st.2 + 1) else .error .indexError

/-- The outer loop, tslearn/shapelets/shapelets.py:448-452. -/
def storeLayer (net : List (NetLayer K)) (st : List (Option (Ten K)) × ℕ) (i : ℕ) : Except PyErr (List (Option (Ten K)) × ℕ) := do
  let layer ← getLayer net (shpName i)
  match layer.weights with
  | [] => .error .indexError
  | w :: _ => (List.range (w.shape.headD 0)).foldlM (storeRow w) st

/-- `shapelets_`, tslearn/shapelets/shapelets.py:441-453, of a fitted estimator: an array of objects, `None` where nothing was stored. -/
def shapeletsAttr (sizes : List (ℕ × ℕ)) (net : List (NetLayer K)) : Except PyErr (List (Option (Ten K))) := do
  let total := (sizes.map Prod.snd).sum
  let st ← (List.range sizes.length).foldlM (storeLayer net) (List.replicate total none, 0)
  return st.1

/-- One series of `shapelets_as_time_series_`, tslearn/shapelets/shapelets.py:477-479: `sz` samples of `d` features, those of the shapelet first.
Simplified: NumPy would also repeat a shapelet with a single feature. -/
def padShapelet [Zero K] (sz d : ℕ) : Option (Ten K) → Except PyErr (List (List (Option K)))
  | none => .error .attributeError
  | some w =>
    match w.shape with
    | [l, e] =>
      if l ≤ sz ∧ e = d then
        .ok ((List.range sz).map fun t => (List.range d).map fun f => if t < l then some (w.at2 d t f) else none)
      else .error .valueError
    | _ => .error .valueError

/-- `shapelets_as_time_series_`, tslearn/shapelets/shapelets.py:455-480, of a fitted estimator; NaN is `none`. -/
def shapeletsAsSeries [Zero K] (sizes : List (ℕ × ℕ)) (net : List (NetLayer K)) : Except PyErr (List (List (List (Option K)))) := do
  if sizes = [] then throw .valueError
  let shpSz := (sizes.map Prod.fst).foldl max 0
  let shp ← shapeletsAttr sizes net
  match shp with
  | [] => throw .indexError
  | none :: _ => throw .attributeError
  | some w :: _ =>
    match w.shape with
    | _ :: d :: _ => shp.mapM (padShapelet shpSz d)
    | _ => throw .indexError

/-- `get_weights(layer_name)`, tslearn/shapelets/shapelets.py:828-864. -/
def netGetWeights (net : List (NetLayer K)) : Option String → Except PyErr (List (Ten K))
  | none => .ok (net.flatMap NetLayer.weights)
  | some name => do
    let l ← getLayer net name
    return l.weights

/-- The check of `set_weights`: as many, and of the same shapes. -/
def sameShapes (vs ws : List (Ten K)) : Bool := vs.map Ten.shape == ws.map Ten.shape

/-- Weights given to the layers in order. -/
def giveWeights : List (NetLayer K) → List (Ten K) → List (NetLayer K)
  | [], _ => []
  | l :: net, ws => { l with weights := ws.take l.weights.length } :: giveWeights net (ws.drop l.weights.length)

/-- `set_weights(weights, layer_name)`, tslearn/shapelets/shapelets.py:866-903: the network afterwards. What is left after an error is not
modelled. -/
def netSetWeights (net : List (NetLayer K)) (ws : List (Ten K)) : Option String → Except PyErr (List (NetLayer K))
  | none => if sameShapes (net.flatMap NetLayer.weights) ws then .ok (giveWeights net ws) else .error .valueError
  | some name => do
    let l ← getLayer net name
    if sameShapes l.weights ws then return net.set (net.findIdx fun l => l.name == name) { l with weights := ws }
    else throw .valueError

section
variable [Field K] [LinearOrder K]

/-- Entry `(k, l, f)` of a kernel of shape `(nb, L, d)`. -/
def kernelAt (w : Ten K) (k l f : ℕ) : K := w.data.getD ((k * w.shape.getD 1 0 + l) * w.shape.getD 2 0 + f) 0

/-- The shapelets layer of length number `i`. -/
def shpKernel (net : List (NetLayer K)) (i : ℕ) : Ten K :=
  match getLayer net (shpName i) with
  | .ok l => l.weights.headD ⟨[], []⟩
  | .error _ => ⟨[], []⟩

/-- `transformer_model_` on series `b` of a batch of `B`, tslearn/shapelets/shapelets.py:769-804 and 743-749: the outputs of the pooling layers of
all lengths side by side (`concatenate`). -/
def netTransform (sizes : List (ℕ × ℕ)) (net : List (NetLayer K)) (sz d B : ℕ) (X : ℕ → ℕ → ℕ → Option K) (b : ℕ) : List K :=
  sizes.zipIdx.flatMap fun p => (List.range p.1.2).map fun k => shapeletTransform sz p.1.1 d p.1.2 B (kernelAt (shpKernel net p.2)) X b k

/-- `locator_model_` on series `b`, tslearn/shapelets/shapelets.py:751-767. -/
def netLocate (sizes : List (ℕ × ℕ)) (net : List (NetLayer K)) (sz d B : ℕ) (X : ℕ → ℕ → ℕ → Option K) (b : ℕ) : List ℕ :=
  sizes.zipIdx.flatMap fun p => (List.range p.1.2).map fun k => shapeletLocate sz p.1.1 d p.1.2 B (kernelAt (shpKernel net p.2)) X b k

/-- The sums of the classification layer, tslearn/shapelets/shapelets.py:818-821: features times weights plus bias. -/
def denseSums (units : ℕ) (dense bias : Ten K) (feat : List K) : List K :=
  (List.range units).map fun u =>
    ((List.range feat.length).map fun k => feat.getD k 0 * dense.at2 units k u).sum + bias.data.getD u 0

end

/-- The activation, tslearn/shapelets/shapelets.py:819: `softmax` with more than two classes, else `sigmoid`. -/
noncomputable def shpActivation (nClasses : ℕ) (v : List ℝ) : List ℝ :=
  if 2 < nClasses then v.map fun a => Real.exp a / (v.map Real.exp).sum else v.map fun a => 1 / (1 + Real.exp (-a))

/-- `units`, tslearn/shapelets/shapelets.py:818. -/
def shpUnits (nClasses : ℕ) : ℕ := if 2 < nClasses then nClasses else 1

/-- `predict_proba` of series `b`, tslearn/shapelets/shapelets.py:588-600 with the classification layer of 818-822. -/
noncomputable def netProba (sizes : List (ℕ × ℕ)) (net : List (NetLayer ℝ)) (nClasses sz d B : ℕ) (X : ℕ → ℕ → ℕ → Option ℝ) (b : ℕ) :
    Except PyErr (List ℝ) := do
  let l ← getLayer net "classification"
  match l.weights with
  | [dense, bias] =>
    match shpActivation nClasses (denseSums (shpUnits nClasses) dense bias (netTransform sizes net sz d B X b)) with
    | [p] => if nClasses = 2 then return [1 - p, p] else return [p]
    | ps => return ps
  | _ => throw .notModelled

/-- A fitted estimator, as far as it is saved: parameter `n_shapelets_per_size`, attributes `n_shapelets_per_size_`, `_X_fit_dims`, and the network. -/
structure ShpModel (K : Type) where
  param : Option (List (ℕ × ℕ))
  sizes : List (ℕ × ℕ)
  fitDims : List ℕ
  net : List (NetLayer K)

/-- What a JSON file holds of it: keys of dictionaries are strings, a network is its layers with the shapes of their weights. -/
structure ShpFile (K : Type) where
  param : Option (List (String × ℕ))
  sizes : List (String × ℕ)
  fitDims : List ℕ
  arch : List (String × List (List ℕ))
  weights : List (Ten K)

/-- `_get_model_params` and `_to_dict` as written by `to_json`, tslearn/shapelets/shapelets.py:909-924: integer keys become strings. -/
def shpSave (m : ShpModel K) : ShpFile K :=
  { param := m.param.map fun s => s.map fun p => (Nat.repr p.1, p.2)
    sizes := m.sizes.map fun p => (Nat.repr p.1, p.2)
    fitDims := m.fitDims
    arch := m.net.map fun l => (l.name, l.weights.map Ten.shape)
    weights := m.net.flatMap NetLayer.weights }

/-- `{int(sz): nb for sz, nb in d.items()}`, tslearn/shapelets/shapelets.py:953-956 and 977-979. -/
def intKeys (l : List (String × ℕ)) : Except PyErr (List (ℕ × ℕ)) :=
  l.mapM fun p => match p.1.toNat? with
    | some n => .ok (n, p.2)
    | none => .error .valueError

/-- The parameter `n_shapelets_per_size`, tslearn/shapelets/shapelets.py:951-956: `None` and an empty dictionary are left as they are. -/
def loadParam : Option (List (String × ℕ)) → Except PyErr (Option (List (ℕ × ℕ)))
  | none => .ok none
  | some [] => .ok (some [])
  | some s => (intKeys s).map some

/-- `_organize_model`, tslearn/shapelets/shapelets.py:926-984: `fresh shape` are the weights `model_from_json` starts with. -/
def shpLoad (fresh : List ℕ → Ten K) (f : ShpFile K) : Except PyErr (ShpModel K) := do
  let param ← loadParam f.param
  let net : List (NetLayer K) := f.arch.map fun l => ⟨l.1, l.2.map fresh⟩
  let net ← netSetWeights net f.weights none
  let sizes ← intKeys f.sizes
  return ⟨param, sizes, f.fitDims, net⟩

/-- Dictionaries in memory, by reference. -/
abbrev DictHeap := ℕ → List (ℕ × ℕ)

/-- `n_shapelets_per_size_` as set by `fit`, tslearn/shapelets/shapelets.py:517-526: a new dictionary (at `new`) from the heuristic, or the very
dictionary given as parameter. -/
def fitSizes (heap : DictHeap) (param : Option ℕ) (heuristic : List (ℕ × ℕ)) (new : ℕ) : DictHeap × ℕ :=
  match param with
  | none => (fun r => if r = new then heuristic else heap r, new)
  | some r => (heap, r)

end Verif
